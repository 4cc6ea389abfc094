import Verif.Lemmas.MomentumExpr3
/- Lemmas: the second derivative of the momentum with respect to the joints, and the form of the expressions. -/
namespace Verif.Rigid
open Matrix
variable {L J F : Type} [DecidableEq L] [DecidableEq J] [DecidableEq F] {m : Model L J}

namespace Server
variable (s : Server m F)

theorem doubleLink_eq (column : J) (l : L) (D : DoubleLoop J F) :
    s.doubleLink column l D = if s.kin.child column ∈ s.kin.up l then
      { thisColumn := .add (.add D.thisColumn (.app (.mul (.const (crossF (s.kin.subspace (s.kin.child column)))) (s.inertiaInC (s.kin.child column) l)) (.absVel (s.frames.ofLink l))))
          (.app (s.inertiaInC (s.kin.child column) l) (s.absoluteVelocityJointsDerivative (s.frames.ofLink l) column))
        cols := (s.kin.up (s.kin.child column)).foldl (fun E visited =>
          Function.update E (s.kin.joint visited) (.add (E (s.kin.joint visited))
            (.app (.sub (.mul (.const (crossF (s.kin.subspace (s.kin.child column)))) (s.inertiaInC (s.kin.child column) l))
              (.mul (s.inertiaInC (s.kin.child column) l) (s.motionSubspaceInC (s.kin.child column) l)))
              (s.absoluteVelocityJointsDerivative (s.frames.ofLink l) (s.kin.joint visited))))) D.cols
        nonZeros := D.nonZeros ++ (s.kin.up (s.kin.child column)).map s.kin.joint
        others := D.others ++ ((s.kin.up l).takeWhile fun visited => s.kin.joint visited ≠ column).map s.kin.joint }
      else D := by
  unfold doubleLink
  dsimp only
  rw [s.kin.dropWhile_up]
  by_cases h : s.kin.child column ∈ s.kin.up l
  · rw [if_pos h, if_pos h, if_neg]
    intro e
    have := s.kin.mem_up_self (s.kin.child_ne column)
    rw [e] at this
    simp at this
  · rw [if_neg h, if_neg h, if_pos rfl]

theorem mem_map_joint {xs : List L} (hr : ∀ l ∈ xs, l ≠ s.kin.root) (j : J) : j ∈ xs.map s.kin.joint ↔ s.kin.child j ∈ xs := by
  rw [List.mem_map]
  constructor
  · rintro ⟨l, hl, rfl⟩; rwa [s.kin.child_joint l (hr l hl)]
  · intro h; exact ⟨_, h, s.kin.joint_child j⟩

variable [Fintype J]

/-- The contribution of `l` to `thisColumnExpressedInC`. -/
noncomputable def pathPart (st : KState J) (l c : L) : Spatial :=
  crossF (s.kin.subspace c) ((s.kin.rel 1 st.q c l).actF ((m.inertia l).mul (s.kin.vel st.twist st.q st.dq l))) +
    (s.kin.rel 1 st.q c l).actF ((m.inertia l).mul ((s.kin.rel 1 st.q l c).act (crossM (s.kin.subspace c) (-s.kin.vel st.twist st.q st.dq c))))

/-- The contribution of `l` to the column of the joint above `k`, still in the frame of the column. -/
noncomputable def colPart (st : KState J) (l c k : L) : Spatial :=
  let u := (s.kin.rel 1 st.q l k).act (crossM (s.kin.subspace k) (-s.kin.vel st.twist st.q st.dq k))
  crossF (s.kin.subspace c) ((s.kin.rel 1 st.q c l).actF ((m.inertia l).mul u)) -
    (s.kin.rel 1 st.q c l).actF ((m.inertia l).mul ((s.kin.rel 1 st.q l c).act (crossM (s.kin.subspace c) ((s.kin.rel 1 st.q c l).act u))))

theorem second_parts (st : KState J) (l c k : L) : s.kin.second st.twist st.q st.dq l c k =
    (s.kin.rel 1 st.q s.base k).actF (crossF (s.kin.subspace k) ((s.kin.rel 1 st.q k c).actF (s.pathPart st l c))) +
      (s.kin.rel 1 st.q s.base c).actF (s.colPart st l c k) := by
  unfold Traversal.second pathPart colPart; rw [s.kin_root]

theorem veval_inertiaInC (q : J → ℝ) (c l : L) (x : Spatial) : s.eval q (s.inertiaInC c l) x = (s.kin.rel 1 q c l).actF ((m.inertia l).mul x) := by
  show s.eval q (.adjWrench (s.frames.ofLink c) (s.frames.ofLink l)) ((m.inertia l).mul x) = _
  rw [s.eval_adjWrench, transform_link]

theorem veval_motionSubspaceInC (q : J → ℝ) (c l : L) (x : Spatial) :
    s.eval q (s.motionSubspaceInC c l) x = (s.kin.rel 1 q l c).act (crossM (s.kin.subspace c) ((s.kin.rel 1 q c l).act x)) := by
  show s.eval q (.adj (s.frames.ofLink l) (s.frames.ofLink c)) (crossM (s.kin.subspace c) (s.eval q (.adj (s.frames.ofLink c) (s.frames.ofLink l)) x)) = _
  rw [s.eval_adj, s.eval_adj, transform_link, transform_link]

/-- What the loop on the links computes. -/
theorem doubleLoop_fold (hm : m.Regular) (st : KState J) (column : J) (xs : List L) (D : DoubleLoop J F) :
    let E := xs.foldl (fun D l => s.doubleLink column l D) D
    s.veval st E.thisColumn = s.veval st D.thisColumn + (xs.map fun l => if s.kin.child column ∈ s.kin.up l then s.pathPart st l (s.kin.child column) else 0).sum ∧
    (∀ j, s.veval st (E.cols j) = s.veval st (D.cols j) + (xs.map fun l => if s.kin.child column ∈ s.kin.up l then
      if s.kin.child j ∈ s.kin.up (s.kin.child column) then s.colPart st l (s.kin.child column) (s.kin.child j) else 0 else 0).sum) ∧
    (∀ j, j ∈ E.nonZeros ↔ j ∈ D.nonZeros ∨ (∃ l ∈ xs, s.kin.child column ∈ s.kin.up l ∧ s.kin.child j ∈ s.kin.up (s.kin.child column))) ∧
    (∀ j, j ∈ E.others ↔ j ∈ D.others ∨ (∃ l ∈ xs, s.kin.child column ∈ s.kin.up l ∧ s.kin.child j ∈ s.kin.up l ∧
      s.kin.child j ∉ s.kin.up (s.kin.child column))) := by
  induction xs generalizing D with
  | nil => simp
  | cons l xs ih =>
    dsimp only at ih ⊢
    rw [List.foldl_cons]
    obtain ⟨i1, i2, i3, i4⟩ := ih (s.doubleLink column l D)
    rw [doubleLink_eq] at i1 i2 i3 i4 ⊢
    by_cases h : s.kin.child column ∈ s.kin.up l
    · rw [if_pos h] at i1 i2 i3 i4 ⊢
      refine ⟨?_, fun j => ?_, fun j => ?_, fun j => ?_⟩
      · rw [i1, List.map_cons, List.sum_cons, if_pos h, ← add_assoc]
        congr 1
        show s.veval st D.thisColumn + crossF (s.kin.subspace (s.kin.child column)) (s.eval st.q (s.inertiaInC (s.kin.child column) l) (s.veval st (.absVel (s.frames.ofLink l)))) +
          s.eval st.q (s.inertiaInC (s.kin.child column) l) (s.veval st (s.absoluteVelocityJointsDerivative (s.frames.ofLink l) column)) = _
        rw [veval_inertiaInC, veval_inertiaInC, s.veval_absVel_link hm, s.veval_absVel_joints hm, if_pos h, pathPart, add_assoc]
      · rw [i2, List.map_cons, List.sum_cons, if_pos h, ← add_assoc]
        congr 1
        dsimp only
        rw [s.kin.foldl_acc (s.veval st) (fun _ h => s.kin.ne_root_of_mem h) (s.kin.up_nodup _) (fun j e => .add e
            (.app (.sub (.mul (.const (crossF (s.kin.subspace (s.kin.child column)))) (s.inertiaInC (s.kin.child column) l))
              (.mul (s.inertiaInC (s.kin.child column) l) (s.motionSubspaceInC (s.kin.child column) l)))
              (s.absoluteVelocityJointsDerivative (s.frames.ofLink l) j))) (fun j => s.colPart st l (s.kin.child column) (s.kin.child j)) ?_]
        intro j e hj
        show s.veval st e + (crossF (s.kin.subspace (s.kin.child column)) (s.eval st.q (s.inertiaInC (s.kin.child column) l)
          (s.veval st (s.absoluteVelocityJointsDerivative (s.frames.ofLink l) j))) - s.eval st.q (s.inertiaInC (s.kin.child column) l)
          (s.eval st.q (s.motionSubspaceInC (s.kin.child column) l) (s.veval st (s.absoluteVelocityJointsDerivative (s.frames.ofLink l) j)))) = _
        rw [veval_inertiaInC, veval_inertiaInC, veval_motionSubspaceInC, s.veval_absVel_joints hm, if_pos (s.kin.mem_up_trans hj h), colPart]
      · rw [i3]
        dsimp only
        rw [List.mem_append, s.mem_map_joint (fun _ h => s.kin.ne_root_of_mem h)]
        simp only [List.mem_cons, exists_eq_or_imp, h, true_and]
        tauto
      · rw [i4]
        dsimp only
        rw [List.mem_append, s.mem_map_joint (fun x hx => s.kin.ne_root_of_mem (List.takeWhile_prefix _ |>.subset hx)), s.kin.mem_takeWhile_up l column h]
        simp only [List.mem_cons, exists_eq_or_imp, h, true_and]
        tauto
    · rw [if_neg h] at i1 i2 i3 i4 ⊢
      refine ⟨?_, fun j => ?_, fun j => ?_, fun j => ?_⟩
      · rw [i1, List.map_cons, List.sum_cons, if_neg h, zero_add]
      · rw [i2, List.map_cons, List.sum_cons, if_neg h, zero_add]
      · rw [i3]; simp [h]
      · rw [i4]; simp [h]

theorem list_sum_map_actF (T : SE3) (f : L → Spatial) (xs : List L) : T.actF ((xs.map f).sum) = (xs.map fun c => T.actF (f c)).sum :=
  Traversal.sum_hom T.actF (SE3.actF_add T) (by simp) f xs

theorem veval_doubleDirect (hm : m.Regular) (st : KState J) (column j : J) :
    s.veval st (s.doubleDirect column j) = (m.links.map fun l => if s.kin.child column ∈ s.kin.up l then
      if s.kin.child j ∈ s.kin.up (s.kin.child column) then s.kin.second st.twist st.q st.dq l (s.kin.child column) (s.kin.child j) else 0 else 0).sum := by
  obtain ⟨i1, i2, i3, -⟩ := s.doubleLoop_fold hm st column m.links ⟨.zero, fun _ => .zero, [], []⟩
  rw [← doubleLoop] at i1 i2 i3
  unfold doubleDirect
  dsimp only at i1 i2 i3 ⊢
  have hn : j ∈ (s.doubleLoop column).nonZeros ↔ s.kin.child j ∈ s.kin.up (s.kin.child column) := by
    rw [i3]
    constructor
    · rintro (h | ⟨_, _, _, h⟩)
      · simp at h
      · exact h
    · intro h
      exact Or.inr ⟨s.kin.child column, m.complete _, s.kin.mem_up_self (s.kin.child_ne _), h⟩
  by_cases h : s.kin.child j ∈ s.kin.up (s.kin.child column)
  · rw [if_pos (hn.2 h)]
    show s.eval st.q (.adjWrench s.baseFrame (s.frames.ofLink (s.kin.child j))) (crossF (s.kin.subspace (s.kin.child j))
      (s.eval st.q (.adjWrench (s.frames.ofLink (s.kin.child j)) (s.frames.ofLink (s.kin.child column))) (s.veval st (s.doubleLoop column).thisColumn))) +
      s.eval st.q (.adjWrench s.baseFrame (s.frames.ofLink (s.kin.child column))) (s.veval st ((s.doubleLoop column).cols j)) = _
    rw [i1, i2, s.eval_adjWrench, s.eval_adjWrench, s.eval_adjWrench, transform_link, transform_link, transform_link]
    show (s.kin.rel 1 st.q s.base (s.kin.child j)).actF (crossF (s.kin.subspace (s.kin.child j))
      ((s.kin.rel 1 st.q (s.kin.child j) (s.kin.child column)).actF (0 + _))) + (s.kin.rel 1 st.q s.base (s.kin.child column)).actF (0 + _) = _
    simp only [if_pos h, zero_add]
    have hom : ∀ f : L → Spatial, (s.kin.rel 1 st.q s.base (s.kin.child j)).actF (crossF (s.kin.subspace (s.kin.child j))
        ((s.kin.rel 1 st.q (s.kin.child j) (s.kin.child column)).actF ((m.links.map f).sum))) =
        (m.links.map fun l => (s.kin.rel 1 st.q s.base (s.kin.child j)).actF (crossF (s.kin.subspace (s.kin.child j))
        ((s.kin.rel 1 st.q (s.kin.child j) (s.kin.child column)).actF (f l)))).sum := fun f =>
      Traversal.sum_hom (fun x => (s.kin.rel 1 st.q s.base (s.kin.child j)).actF (crossF (s.kin.subspace (s.kin.child j))
        ((s.kin.rel 1 st.q (s.kin.child j) (s.kin.child column)).actF x))) (by intro a b; simp [SE3.actF_add, crossF_add_right]) (by simp) f m.links
    rw [hom, list_sum_map_actF, ← List.sum_map_add]
    congr 1
    refine List.map_congr_left fun l _ => ?_
    by_cases hl : s.kin.child column ∈ s.kin.up l
    · simp only [if_pos hl]; rw [second_parts]
    · simp only [if_neg hl]; simp
  · rw [if_neg (fun e => h (hn.1 e)), i2]
    simp only [if_neg h, ite_self]
    show (0 : Spatial) + _ = _
    rw [zero_add]

/-- The second derivative. -/
noncomputable def doubleValue (st : KState J) (column j : J) : Spatial :=
  (m.links.map fun l => if s.kin.child column ∈ s.kin.up l then
    if s.kin.child j ∈ s.kin.up (s.kin.child column) then s.kin.second st.twist st.q st.dq l (s.kin.child column) (s.kin.child j)
    else if s.kin.child j ∈ s.kin.up l then s.kin.second st.twist st.q st.dq l (s.kin.child j) (s.kin.child column) else 0 else 0).sum

theorem mem_others (hm : m.Regular) (column j : J) : j ∈ (s.doubleLoop column).others ↔
    ∃ l, s.kin.child column ∈ s.kin.up l ∧ s.kin.child j ∈ s.kin.up l ∧ s.kin.child j ∉ s.kin.up (s.kin.child column) := by
  obtain ⟨-, -, -, i4⟩ := s.doubleLoop_fold hm ⟨0, 0, fun _ => 0, fun _ => 0⟩ column m.links ⟨.zero, fun _ => .zero, [], []⟩
  rw [← doubleLoop] at i4
  rw [i4]
  simp [m.complete]

theorem veval_momentumDoubleCols (hm : m.Regular) (st : KState J) (fuel : ℕ) (column j : J) :
    s.veval st (s.momentumDoubleCols (fuel + 1) column j) = s.doubleValue st column j := by
  rw [momentumDoubleCols]
  by_cases h : j ∈ (s.doubleLoop column).others
  · rw [if_pos h]
    rw [s.mem_others hm] at h
    obtain ⟨l, h1, h2, h3⟩ := h
    have hc : s.kin.child column ∈ s.kin.up (s.kin.child j) := (s.kin.mem_up_total h1 h2).resolve_right h3
    have hd : s.momentumDoubleCols fuel j column = s.doubleDirect j column := by
      cases fuel with
      | zero => rfl
      | succ n =>
        rw [momentumDoubleCols, if_neg]
        rw [s.mem_others hm]
        rintro ⟨_, _, _, h⟩
        exact h hc
    rw [hd, s.veval_doubleDirect hm, doubleValue]
    congr 1
    refine List.map_congr_left fun l _ => ?_
    simp only [if_pos hc, if_neg h3]
    by_cases hj : s.kin.child j ∈ s.kin.up l
    · rw [if_pos hj, if_pos (s.kin.mem_up_trans hc hj)]
    · simp [hj]
  · rw [if_neg h, s.veval_doubleDirect hm, doubleValue]
    congr 1
    refine List.map_congr_left fun l _ => ?_
    by_cases hl : s.kin.child column ∈ s.kin.up l
    · rw [if_pos hl, if_pos hl]
      by_cases hj : s.kin.child j ∈ s.kin.up (s.kin.child column)
      · rw [if_pos hj, if_pos hj]
      · rw [if_neg hj, if_neg hj, if_neg]
        intro hjl
        exact h ((s.mem_others hm _ _).2 ⟨l, hl, hjl, hj⟩)
    · rw [if_neg hl, if_neg hl]

theorem hasDerivAt_momentumJointsDerivative (hm : m.Regular) (st : KState J) (column j : J) :
    HasDerivAt (fun x => s.kin.momentumJointsDerivative 1 st.twist (Function.update st.q j x) st.dq column) (s.doubleValue st column j) (st.q j) := by
  simp only [Traversal.momentumJointsDerivative_eq]
  unfold doubleValue
  refine hasDerivAt_list_sum m.links
    (f := fun l x => if s.kin.child column ∈ s.kin.up l then s.kin.linkMomentumDerivative 1 st.twist (Function.update st.q j x) st.dq l column else 0) ?_
  intro l
  by_cases h : s.kin.child column ∈ s.kin.up l
  · simp only [if_pos h]
    exact s.kin.hasDerivAt_linkMomentumDerivative hm st.twist st.q st.dq l column j h
  · simp only [if_neg h]; exact hasDerivAt_const _ _

end Server
end Verif.Rigid
