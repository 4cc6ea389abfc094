import Verif.Lemmas.CoMExpr
/- Lemmas: the second derivative of the position of the centre of mass. -/
namespace Verif.Rigid
open Matrix
variable {L J F : Type} [DecidableEq L] [DecidableEq J] [DecidableEq F] {m : Model L J}

namespace Server
variable (s : Server m F)

theorem topRows_smooth : Smooth topRows := smooth_of_linear (fun a b => by ext1 <;> simp [topRows]) (fun k a => by ext1 <;> simp [topRows])
theorem smul_smooth (k : ℝ) : Smooth (fun x : Spatial => k • x) := smooth_of_linear (fun a b => smul_add k a b) (fun c a => smul_comm k c a)

/-- The term of a link and a joint. -/
noncomputable def comTerm (c l k : L) : VExp J F :=
  .app (.mul (.mul (.mul (.const (fun x => m.relativeMass l • x)) (.adj s.baseFrame (s.frames.ofLink k))) (.const (crossM (s.kin.subspace k))))
    (.adj (s.frames.ofLink k) (s.frames.ofLink c))) (s.comConstantPart c l)

theorem comTerm_linkTargets (c l k : L) : (s.comTerm c l k : VExp J F).LinkTargets s.frames :=
  ⟨⟨⟨⟨smul_smooth _, ⟨_, rfl⟩⟩, smooth_crossM _⟩, ⟨_, rfl⟩⟩, ⟨⟨smooth_crossM _, ⟨_, rfl⟩⟩, trivial⟩, ⟨⟨_, rfl⟩, topRows_smooth⟩, ⟨_, rfl⟩, trivial⟩

theorem comHessianLink_eq (column : J) (l : L) (D : HessianLoop J F) :
    s.comHessianLink column l D = if s.kin.child column ∈ s.kin.up l then
      { cols := (s.kin.up (s.kin.child column)).foldl (fun E visited =>
          Function.update E (s.kin.joint visited) (.add (E (s.kin.joint visited)) (s.comTerm (s.kin.child column) l (s.kin.child (s.kin.joint visited))))) D.cols
        others := D.others ++ ((s.kin.up l).takeWhile fun visited => s.kin.joint visited ≠ column).map s.kin.joint }
      else D := by
  unfold comHessianLink
  dsimp only
  rw [s.kin.dropWhile_up]
  by_cases h : s.kin.child column ∈ s.kin.up l
  · rw [if_pos h, if_pos h, if_neg]
    · rfl
    intro e
    have := s.kin.mem_up_self (s.kin.child_ne column)
    rw [e] at this
    simp at this
  · rw [if_neg h, if_neg h, if_pos rfl]

variable [Fintype J]

theorem veval_comTerm (st : KState J) (c l k : L) :
    s.veval st (s.comTerm c l k) = m.relativeMass l • s.kin.comSecond st.q l c k := by
  show m.relativeMass l • s.eval st.q (.adj s.baseFrame (s.frames.ofLink k)) (crossM (s.kin.subspace k) (s.eval st.q (.adj (s.frames.ofLink k) (s.frames.ofLink c))
    (crossM (s.kin.subspace c) (s.eval st.q (.adj (s.frames.ofLink c) (s.frames.ofLink l)) ((m.inertia l).com, 0)) +
      s.eval st.q (.adj (s.frames.ofLink c) (s.frames.ofLink l)) (topRows (s.eval st.q (.adj (s.frames.ofLink l) (s.frames.ofLink c)) (s.kin.subspace c)))))) = _
  simp only [s.eval_adj, transform_link, Traversal.comSecond]
  congr 1
  have e : pointVelocity (m.inertia l).com ((s.kin.rel 1 st.q l c).act (s.kin.subspace c)) =
      crossM ((s.kin.rel 1 st.q l c).act (s.kin.subspace c)) ((m.inertia l).com, 0) + topRows ((s.kin.rel 1 st.q l c).act (s.kin.subspace c)) := by
    ext1 <;> simp [pointVelocity, crossM, topRows]; abel
  rw [e]
  simp only [SE3.act_crossM, SE3.act_add, crossM_add, ← SE3.act_mul, Traversal.rel_mul, s.kin_root]

theorem comHessianLoop_fold (st : KState J) (column : J) (xs : List L) (D : HessianLoop J F) :
    let E := xs.foldl (fun D l => s.comHessianLink column l D) D
    (∀ j, s.veval st (E.cols j) = s.veval st (D.cols j) + (xs.map fun l => if s.kin.child column ∈ s.kin.up l then
      if s.kin.child j ∈ s.kin.up (s.kin.child column) then m.relativeMass l • s.kin.comSecond st.q l (s.kin.child column) (s.kin.child j) else 0 else 0).sum) ∧
    (∀ j, j ∈ E.others ↔ j ∈ D.others ∨ (∃ l ∈ xs, s.kin.child column ∈ s.kin.up l ∧ s.kin.child j ∈ s.kin.up l ∧
      s.kin.child j ∉ s.kin.up (s.kin.child column))) ∧
    ((∀ j, (D.cols j).LinkTargets s.frames) → ∀ j, (E.cols j).LinkTargets s.frames) := by
  induction xs generalizing D with
  | nil => simp
  | cons l xs ih =>
    dsimp only at ih ⊢
    rw [List.foldl_cons]
    obtain ⟨i2, i4, i5⟩ := ih (s.comHessianLink column l D)
    rw [comHessianLink_eq] at i2 i4 i5 ⊢
    by_cases h : s.kin.child column ∈ s.kin.up l
    · rw [if_pos h] at i2 i4 i5 ⊢
      refine ⟨fun j => ?_, fun j => ?_, fun hD => i5 fun j => ?_⟩
      · rw [i2, List.map_cons, List.sum_cons, if_pos h, ← add_assoc]
        congr 1
        dsimp only
        rw [s.kin.foldl_acc (s.veval st) (fun _ h => s.kin.ne_root_of_mem h) (s.kin.up_nodup _) (fun j e => .add e
            (s.comTerm (s.kin.child column) l (s.kin.child j))) (fun j => m.relativeMass l • s.kin.comSecond st.q l (s.kin.child column) (s.kin.child j)) ?_]
        intro j e _
        show s.veval st e + s.veval st (s.comTerm (s.kin.child column) l (s.kin.child j)) = _
        rw [veval_comTerm]
      · rw [i4]
        dsimp only
        rw [List.mem_append, s.mem_map_joint (fun x hx => s.kin.ne_root_of_mem (List.takeWhile_prefix _ |>.subset hx)), s.kin.mem_takeWhile_up l column h]
        simp only [List.mem_cons, exists_eq_or_imp, h, true_and]
        tauto
      · exact s.kin.foldl_keep (fun e : VExp J F => e.LinkTargets s.frames) (fun _ h => s.kin.ne_root_of_mem h)
          (fun j e => .add e (s.comTerm (s.kin.child column) l (s.kin.child j))) (fun j e _ he => ⟨he, s.comTerm_linkTargets _ _ _⟩) D.cols hD j
    · rw [if_neg h] at i2 i4 i5 ⊢
      refine ⟨fun j => ?_, fun j => ?_, i5⟩
      · rw [i2, List.map_cons, List.sum_cons, if_neg h, zero_add]
      · rw [i4]; simp [h]

theorem veval_comHessianLoop (st : KState J) (column j : J) :
    s.veval st ((s.comHessianLoop column).cols j) = (m.links.map fun l => if s.kin.child column ∈ s.kin.up l then
      if s.kin.child j ∈ s.kin.up (s.kin.child column) then m.relativeMass l • s.kin.comSecond st.q l (s.kin.child column) (s.kin.child j) else 0 else 0).sum := by
  obtain ⟨i2, -, -⟩ := s.comHessianLoop_fold st column m.links ⟨fun _ => .zero, []⟩
  rw [← comHessianLoop] at i2
  rw [i2]
  exact zero_add _

theorem mem_comOthers (column j : J) : j ∈ (s.comHessianLoop column).others ↔
    ∃ l, s.kin.child column ∈ s.kin.up l ∧ s.kin.child j ∈ s.kin.up l ∧ s.kin.child j ∉ s.kin.up (s.kin.child column) := by
  obtain ⟨-, i4, -⟩ := s.comHessianLoop_fold ⟨0, 0, fun _ => 0, fun _ => 0⟩ column m.links ⟨fun _ => .zero, []⟩
  rw [← comHessianLoop] at i4
  rw [i4]
  simp [m.complete]

theorem comHessianCols_linkTargets (fuel : ℕ) (column j : J) : (s.comHessianCols fuel column j).LinkTargets s.frames := by
  have h : ∀ column j, ((s.comHessianLoop column).cols j).LinkTargets s.frames := by
    intro column
    obtain ⟨-, -, i5⟩ := s.comHessianLoop_fold ⟨0, 0, fun _ => 0, fun _ => 0⟩ column m.links ⟨fun _ => .zero, []⟩
    rw [← comHessianLoop] at i5
    exact i5 fun _ => trivial
  induction fuel generalizing column j with
  | zero => exact h column j
  | succ n ih =>
    rw [comHessianCols]
    split_ifs
    · exact ih j column
    · exact h column j

/-- The second derivative. -/
noncomputable def comDoubleValue (q : J → ℝ) (column j : J) : Spatial :=
  (m.links.map fun l => if s.kin.child column ∈ s.kin.up l then m.relativeMass l •
    (if s.kin.child j ∈ s.kin.up (s.kin.child column) then s.kin.comSecond q l (s.kin.child column) (s.kin.child j)
    else if s.kin.child j ∈ s.kin.up l then s.kin.comSecond q l (s.kin.child j) (s.kin.child column) else 0) else 0).sum

theorem veval_comHessianCols (st : KState J) (fuel : ℕ) (column j : J) :
    s.veval st (s.comHessianCols (fuel + 1) column j) = s.comDoubleValue st.q column j := by
  rw [comHessianCols]
  by_cases h : j ∈ (s.comHessianLoop column).others
  · rw [if_pos h]
    rw [s.mem_comOthers] at h
    obtain ⟨l, h1, h2, h3⟩ := h
    have hc : s.kin.child column ∈ s.kin.up (s.kin.child j) := (s.kin.mem_up_total h1 h2).resolve_right h3
    have hd : s.comHessianCols fuel j column = (s.comHessianLoop j).cols column := by
      cases fuel with
      | zero => rfl
      | succ n =>
        rw [comHessianCols, if_neg]
        rw [s.mem_comOthers]
        rintro ⟨_, _, _, h⟩
        exact h hc
    rw [hd, s.veval_comHessianLoop, comDoubleValue]
    congr 1
    refine List.map_congr_left fun l _ => ?_
    simp only [if_pos hc, if_neg h3]
    by_cases hj : s.kin.child j ∈ s.kin.up l
    · simp only [if_pos hj, if_pos (s.kin.mem_up_trans hc hj)]
    · simp [hj]
  · rw [if_neg h, s.veval_comHessianLoop, comDoubleValue]
    congr 1
    refine List.map_congr_left fun l _ => ?_
    by_cases hl : s.kin.child column ∈ s.kin.up l
    · rw [if_pos hl, if_pos hl]
      by_cases hj : s.kin.child j ∈ s.kin.up (s.kin.child column)
      · rw [if_pos hj, if_pos hj]
      · rw [if_neg hj, if_neg hj, if_neg, smul_zero]
        intro hjl
        exact h ((s.mem_comOthers _ _).2 ⟨l, hl, hjl, hj⟩)
    · rw [if_neg hl, if_neg hl]

theorem hasDerivAt_comInBaseJacobian (hm : m.Regular) (H : SE3) (q : J → ℝ) (column j : J) :
    HasDerivAt (fun x => s.comInBaseJacobian H (Function.update q j x) column) (s.comDoubleValue q column j).1 (q j) := by
  simp only [comInBaseJacobian_eq]
  have h : HasDerivAt (fun x => (m.links.map fun l => if s.kin.child column ∈ s.kin.up l then m.relativeMass l • (s.kin.rel 1 (Function.update q j x) s.kin.root l).act
      (pointVelocity (m.inertia l).com (s.kin.linkDirection (Function.update q j x) l column)) else 0).sum) (s.comDoubleValue q column j) (q j) := by
    unfold comDoubleValue
    refine hasDerivAt_list_sum m.links (f := fun l x => if s.kin.child column ∈ s.kin.up l then m.relativeMass l • (s.kin.rel 1 (Function.update q j x) s.kin.root l).act
      (pointVelocity (m.inertia l).com (s.kin.linkDirection (Function.update q j x) l column)) else 0) fun l => ?_
    by_cases hl : s.kin.child column ∈ s.kin.up l
    · simp only [if_pos hl]
      exact (s.kin.hasDerivAt_comColumn hm q l column j hl).const_smul (m.relativeMass l)
    · simp only [if_neg hl]; exact hasDerivAt_const _ _
  exact h.fst

end Server
end Verif.Rigid
