import Verif.Lemmas.Costs2
/- Derivatives of the joint and yaw costs, sparsity of all costs. -/
set_option linter.unusedSectionVars false
set_option linter.unusedSimpArgs false
namespace Verif.NLP
open Verif.NLP.Spec Verif.Smooth
variable {n : Nat}

/-! ### Joints -/

theorem jointsPostural_value (joints : Nat) (w g d : Nat → ℝ) (x : SVec n) (u : CVec n) :
    (jointsPostural joints w g d).value x u = ∑ k ∈ Finset.range joints, 1 / 2 * 1 *
      ((w k * u (.jointVel, k) + w k * g k * (x (.joints, k) - d k)) * (w k * u (.jointVel, k) + w k * g k * (x (.joints, k) - d k))) := by
  simp only [jointsPostural, jointsBuffer, weightedGains]
  rw [← Finset.mul_sum, ← List.sum_toFinset _ List.nodup_range, List.toFinset_range]
  simp

/-- Coefficients of the joints along joint `k`. -/
noncomputable def jointGrad {B : Type} [DecidableEq B] (b : B) (c : Nat → ℝ) (k : Nat) : Idx B → ℝ := fun p => if p = (b, k) then c k else 0

theorem jointGrad_state (joints : Nat) (w g d : Nat → ℝ) (u : CVec n) (k : Nat) (x : SVec n) :
    GradAt (fun y : SVec n => w k * u (.jointVel, k) + w k * g k * (y (.joints, k) - d k)) (jointGrad .joints (fun k => w k * g k) k) x := by
  refine GradAt.congr (by grad) ?_
  intro j
  simp only [jointGrad]
  split_ifs <;> simp

theorem jointGrad_ctrl (joints : Nat) (w g d : Nat → ℝ) (x : SVec n) (k : Nat) (u : CVec n) :
    GradAt (fun v : CVec n => w k * v (.jointVel, k) + w k * g k * (x (.joints, k) - d k)) (jointGrad .jointVel w k) u := by
  refine GradAt.congr (by grad) ?_
  intro j
  simp only [jointGrad]
  split_ifs <;> simp

theorem sum_jointGrad {B : Type} [DecidableEq B] (b : B) (c f : Nat → ℝ) (N : Nat) (p : Idx B) :
    ∑ k ∈ Finset.range N, f k * jointGrad b c k p = if p.1 = b ∧ p.2 < N then f p.2 * c p.2 else 0 := by
  obtain ⟨b', l⟩ := p
  by_cases h : b' = b ∧ l < N
  · obtain ⟨rfl, h⟩ := h
    rw [if_pos ⟨rfl, h⟩, Finset.sum_eq_single_of_mem l (Finset.mem_range.2 h)]
    · simp [jointGrad]
    · intro k _ hk
      simp [jointGrad, hk.symm]
  · rw [if_neg h, Finset.sum_eq_zero]
    intro k hk
    rw [jointGrad, if_neg, mul_zero]
    rintro e
    rw [Prod.mk.injEq] at e
    exact h ⟨e.1, e.2 ▸ Finset.mem_range.1 hk⟩

theorem jointsPostural_grad (joints : Nat) (w g d : Nat → ℝ) : ExactGradients (jointsPostural (n := n) joints w g d) := by
  refine fun x u => ⟨?_, ?_⟩
  · simp only [jointsPostural_value]
    refine (quad_grad (Finset.range joints) (fun _ => (1 : ℝ)) (fun k (y : SVec n) => w k * u (.jointVel, k) + w k * g k * (y (.joints, k) - d k))
      (fun k => jointGrad .joints (fun k => w k * g k) k) x fun k => jointGrad_state joints w g d u k x).congr fun p => ?_
    rw [sum_jointGrad]
    simp only [jointsPostural, seg_apply, weightedGains, jointsBuffer]
    split_ifs <;> ring
  · simp only [jointsPostural_value]
    refine (quad_grad (Finset.range joints) (fun _ => (1 : ℝ)) (fun k (v : CVec n) => w k * v (.jointVel, k) + w k * g k * (x (.joints, k) - d k))
      (fun k => jointGrad .jointVel w k) u fun k => jointGrad_ctrl joints w g d x k u).congr fun p => ?_
    rw [sum_jointGrad]
    simp only [jointsPostural, seg_apply, weightedGains, jointsBuffer]
    split_ifs <;> ring

theorem putBlock0 {B C : Type} [DecidableEq B] [DecidableEq C] (M : Idx B → Idx C → ℝ) (b : B) (c : C) (r s : Nat) (A : Nat → Nat → ℝ) (p : Idx B) (q : Idx C) :
    putBlock M b 0 c 0 r s A p q = if p.1 = b ∧ q.1 = c ∧ p.2 < r ∧ q.2 < s then A p.2 q.2 else M p q := by
  simp only [putBlock, Nat.zero_le, true_and, Nat.zero_add, Nat.sub_zero]
  grind

theorem jointsPostural_hess (joints : Nat) (w g d : Nat → ℝ) : ExactCostHessians (jointsPostural (n := n) joints w g d) := by
  apply exactCostHessians_of _ (jointsPostural_grad joints w g d)
  · rintro x u ⟨b, k⟩
    simp only [jointsPostural, seg_apply]
    by_cases h : b = .joints ∧ k < joints
    · simp only [h, and_self, if_true, true_and]
      simp only [jointsBuffer, weightedGains]
      refine GradAt.congr (by grad) ?_
      rintro ⟨c, l⟩
      simp only [Prod.mk.injEq, putBlock0]
      grind
    · simp only [h, if_false]
      refine (GradAt.const _ _).congr ?_
      rintro ⟨c, l⟩
      simp only [putBlock0]
      grind
  · rintro x u ⟨b, k⟩
    simp only [jointsPostural, seg_apply]
    by_cases h : b = .jointVel ∧ k < joints
    · simp only [h, and_self, if_true, true_and]
      simp only [jointsBuffer, weightedGains]
      refine GradAt.congr (by grad) ?_
      rintro ⟨c, l⟩
      simp only [Prod.mk.injEq, putBlock0]
      grind
    · simp only [h, if_false]
      refine (GradAt.const _ _).congr ?_
      rintro ⟨c, l⟩
      simp only [putBlock0]
      grind
  · rintro x u ⟨b, k⟩
    simp only [jointsPostural, seg_apply]
    by_cases h : b = .joints ∧ k < joints
    · simp only [h, and_self, if_true, true_and]
      simp only [jointsBuffer, weightedGains]
      refine GradAt.congr (by grad) ?_
      rintro ⟨c, l⟩
      simp only [Prod.mk.injEq, putBlock0]
      grind
    · simp only [h, if_false]
      refine (GradAt.const _ _).congr ?_
      rintro ⟨c, l⟩
      simp only [putBlock0]
      grind

/-! ### Foot yaw -/

theorem footYaw_grad (s : Side) (br tr tl : Fin n) (i d : ℝ) (h1 : br ≠ tr) (h2 : tr ≠ tl) (h3 : br ≠ tl) : ExactGradients (footYaw s br tr tl i d) := by
  refine fun x u => ⟨?_, (GradAt.const _ _).congr fun _ => rfl⟩
  simp only [footYaw, vec3, V3.sub_x, V3.sub_y]
  refine GradAt.congr (by grad) ?_
  intro j
  generalize Real.sin (d - i) = sy
  generalize Real.cos (d - i) = cy
  simp only [putV_apply]
  obtain ⟨b, k⟩ := j
  rcases b with ⟨s', j⟩ | ⟨s', j⟩ | _ | _ | _ | _ | _ <;> simp
  by_cases e1 : j = tr
  · subst e1; simp [h1, h1.symm, h2, h2.symm]; grind
  by_cases e2 : j = br
  · subst e2; simp [h1, h1.symm, h3, h3.symm]; grind
  by_cases e3 : j = tl
  · subst e3; simp [h2, h2.symm, h3, h3.symm]; grind
  simp [e1, e2, e3]

theorem footYaw_hess (s : Side) (br tr tl : Fin n) (i d : ℝ) (h1 : br ≠ tr) (h2 : tr ≠ tl) (h3 : br ≠ tl) : ExactCostHessians (footYaw s br tr tl i d) := by
  apply exactCostHessians_of _ (footYaw_grad s br tr tl i d h1 h2 h3)
  · rintro x u ⟨b, k⟩
    simp only [footYaw, vec3, V3.sub_x, V3.sub_y, putV_apply]
    generalize Real.sin (d - i) = sy
    generalize Real.cos (d - i) = cy
    by_cases c : (b = .pos s tr ∨ b = .pos s br ∨ b = .pos s tl) ∧ k < 2
    · obtain ⟨c1 | c1 | c1, c⟩ := c <;> subst c1 <;> interval_cases k <;> simp [h1, h1.symm, h2, h2.symm, h3, h3.symm]
      all_goals
        refine GradAt.congr (by grad) ?_
        rintro ⟨c, l⟩
        simp only [putBlock0, Prod.mk.injEq]
        generalize hc1 : SBlk.pos s tr = B1 at *
        generalize hc2 : SBlk.pos s br = B2 at *
        generalize hc3 : SBlk.pos s tl = B3 at *
        have n1 : B1 ≠ B2 := by rw [← hc1, ← hc2]; simp [h1.symm]
        have n2 : B1 ≠ B3 := by rw [← hc1, ← hc3]; simp [h2]
        have n3 : B2 ≠ B3 := by rw [← hc2, ← hc3]; simp [h3]
        clear hc1 hc2 hc3
        grind
    · refine GradAt.congr (g := fun _ => 0) ?_ ?_
      · have n1 : (b, k) ≠ (.pos s tl, 1) := by grind
        have n2 : (b, k) ≠ (.pos s tl, 0) := by grind
        have n3 : (b, k) ≠ (.pos s br, 1) := by grind
        have n4 : (b, k) ≠ (.pos s br, 0) := by grind
        have n5 : (b, k) ≠ (.pos s tr, 1) := by grind
        have n6 : (b, k) ≠ (.pos s tr, 0) := by grind
        simp only [n1, n2, n3, n4, n5, n6, if_false]
        exact GradAt.const 0 x
      · rintro ⟨c', l⟩
        simp only [putBlock0]
        grind
  · rintro x u ⟨b, k⟩
    exact (GradAt.const _ _).congr fun _ => rfl
  · rintro x u ⟨b, k⟩
    exact (GradAt.const _ _).congr fun _ => rfl

/-! ### Sparsity -/

theorem swing_sparsity (s : Side) (i : Fin n) (h : ℝ) (w : V3 ℝ) : CostSparsityCovers (swing s i h w) := by
  refine ⟨?_, ?_, ?_⟩
  · rintro x u p q hne
    simp only [swing, put_apply] at hne ⊢
    split_ifs at hne with c
    · simp [c]
    · exact absurd rfl hne
  · rintro x u p q hne
    simp only [swing, put_apply] at hne ⊢
    split_ifs at hne with c c' c''
    · rw [c.1, c.2]; exact mem_diag0 (by omega)
    · rw [c'.1, c'.2]; exact mem_diag0 (by omega)
    · rw [c''.1, c''.2]; exact mem_diag0 (by omega)
    · exact absurd rfl hne
  · rintro x u p q hne
    simp only [swing, put_apply] at hne ⊢
    split_ifs at hne with c c' c''
    · simp [c.1, c.2, dense, seg, List.range_succ]
    · simp [c'.1, c'.2, dense, seg, List.range_succ]
    · simp [c''.1, c''.2, dense, seg, List.range_succ]
    · exact absurd rfl hne

theorem complementarityCost_sparsity (s : Side) (i : Fin n) : CostSparsityCovers (complementarityCost s i) := by
  refine ⟨?_, ?_, ?_⟩ <;>
  · rintro x u p q hne
    simp only [complementarityCost, put_apply] at hne ⊢
    split_ifs at hne with c
    · simp [c]
    · exact absurd rfl hne

theorem phantomForces_sparsity (s : Side) (i : Fin n) (act : Params) : CostSparsityCovers (phantomForces s i act) := by
  refine ⟨?_, fun _ _ _ _ h => absurd rfl h, fun _ _ _ _ h => absurd rfl h⟩
  rintro x u p q hne
  by_cases c1 : p = (.pos s i, 2) ∧ q = (.force s i, 2)
  · simp [phantomForces, c1.1, c1.2]
  by_cases c2 : p = (.force s i, 2) ∧ q = (.pos s i, 2)
  · simp [phantomForces, c2.1, c2.2]
  by_cases c3 : p = (.force s i, 2) ∧ q = (.force s i, 2)
  · simp [phantomForces, c3.1, c3.2]
  by_cases c4 : p = (.pos s i, 2) ∧ q = (.pos s i, 2)
  · simp [phantomForces, c4.1, c4.2]
  simp only [phantomForces, put_apply, c1, c2, c3, c4, if_false] at hne
  exact absurd rfl hne

theorem jointsPostural_sparsity (joints : Nat) (w g d : Nat → ℝ) : CostSparsityCovers (jointsPostural (n := n) joints w g d) := by
  refine ⟨?_, ?_, ?_⟩ <;>
  · rintro x u ⟨b, k⟩ ⟨c, l⟩ hne
    simp only [jointsPostural, putBlock0] at hne ⊢
    split_ifs at hne with h e
    · obtain ⟨rfl, rfl, hk, -⟩ := h
      subst e
      exact mem_diag0 hk
    · exact absurd rfl hne
    · exact absurd rfl hne

theorem footYaw_sparsity (s : Side) (br tr tl : Fin n) (i d : ℝ) : CostSparsityCovers (footYaw s br tr tl i d) := by
  refine ⟨?_, fun _ _ _ _ h => absurd rfl h, fun _ _ _ _ h => absurd rfl h⟩
  rintro x u ⟨b, k⟩ ⟨c, l⟩ hne
  simp only [footYaw, putBlock0] at hne ⊢
  simp only [List.mem_append]
  have m := fun (b c : SBlk n) (hk : k < 2) (hl : l < 2) => mem_dense0 (b := b) (c := c) hk hl
  generalize Real.sin (d - i) = sy at hne
  generalize Real.cos (d - i) = cy at hne
  by_cases hkl : k < 2 ∧ l < 2
  · obtain ⟨hk, hl⟩ := hkl
    by_cases c1 : b = .pos s tl ∧ c = .pos s tr
    · rw [c1.1, c1.2]; exact Or.inr (m _ _ hk hl)
    by_cases c2 : b = .pos s tr ∧ c = .pos s tl
    · rw [c2.1, c2.2]; exact Or.inl (Or.inr (m _ _ hk hl))
    by_cases c3 : b = .pos s tl ∧ c = .pos s tl
    · rw [c3.1, c3.2]; exact Or.inl (Or.inl (Or.inr (m _ _ hk hl)))
    by_cases c4 : b = .pos s br ∧ c = .pos s tr
    · rw [c4.1, c4.2]; exact Or.inl (Or.inl (Or.inl (Or.inr (m _ _ hk hl))))
    by_cases c5 : b = .pos s tr ∧ c = .pos s br
    · rw [c5.1, c5.2]; exact Or.inl (Or.inl (Or.inl (Or.inl (Or.inr (m _ _ hk hl)))))
    by_cases c6 : b = .pos s br ∧ c = .pos s br
    · rw [c6.1, c6.2]; exact Or.inl (Or.inl (Or.inl (Or.inl (Or.inl (Or.inr (m _ _ hk hl))))))
    by_cases c7 : b = .pos s tr ∧ c = .pos s tr
    · rw [c7.1, c7.2]; exact Or.inl (Or.inl (Or.inl (Or.inl (Or.inl (Or.inl (m _ _ hk hl))))))
    exfalso
    apply hne
    clear hne m
    grind
  · exfalso
    apply hne
    clear hne m
    grind

/-- The pairs of a symmetric double loop: both orders are declared. -/
theorem mem_upperPat {α ρ : Type} {l : List α} {a b : α} (ha : a ∈ l) (hb : b ∈ l) (D : α → α → List (ρ × ρ)) {e : ρ × ρ} (h : e ∈ D a b) :
    e ∈ (upper l).flatMap fun t => D t.1 t.2.1 ++ if t.2.2 then D t.2.1 t.1 else [] := by
  rw [List.mem_flatMap]
  rcases upper_covers ha hb with ⟨f, h'⟩ | h'
  · exact ⟨_, h', List.mem_append_left _ h⟩
  · exact ⟨_, h', List.mem_append_right _ (by simpa using h)⟩

theorem forceMean_sparsity (s : Side) (i : Fin n) : CostSparsityCovers (forceMean s i) := by
  refine ⟨?_, fun _ _ _ _ h => absurd rfl h, fun _ _ _ _ h => absurd rfl h⟩
  rintro x u ⟨b, k⟩ ⟨c, l⟩ hne
  rw [forceMean_stateHess] at hne
  obtain ⟨a, -, ha⟩ := Finset.exists_ne_zero_of_sum_ne_zero hne
  have h1 : devGrad s i (1 / n) a (b, k) ≠ 0 := fun e => ha (by rw [e]; ring)
  have h2 : devGrad s i (1 / n) a (c, l) ≠ 0 := fun e => ha (by rw [e]; ring)
  rcases b with ⟨s', j⟩ | ⟨s', j⟩ | _ | _ | _ | _ | _ <;> simp only [devGrad, ne_eq, not_true] at h1
  rcases c with ⟨s'', j'⟩ | ⟨s'', j'⟩ | _ | _ | _ | _ | _ <;> simp only [devGrad, ne_eq, not_true] at h2
  split_ifs at h1 with e1
  swap; · exact absurd rfl h1
  split_ifs at h2 with e2
  swap; · exact absurd rfl h2
  obtain ⟨rfl, rfl⟩ := e1
  obtain ⟨rfl, rfl⟩ := e2
  have hd : ∀ j j' : Fin n, ((SBlk.force s'' j, (a : Nat)), (SBlk.force s'' j', (a : Nat))) ∈ diag (seg (SBlk.force s'' j) 0 2) (seg (SBlk.force s'' j') 0 2) :=
    fun j j' => mem_diag0 a.2
  simp only [forceMean, List.mem_append]
  by_cases c1 : j = i
  · subst c1
    by_cases c2 : j' = j
    · subst c2; exact Or.inl (Or.inl (hd _ _))
    · refine Or.inl (Or.inr ?_)
      rw [List.mem_flatMap]
      exact ⟨j', mem_others.2 c2, List.mem_append_left _ (hd _ _)⟩
  · by_cases c2 : j' = i
    · subst c2
      refine Or.inl (Or.inr ?_)
      rw [List.mem_flatMap]
      exact ⟨j, mem_others.2 c1, List.mem_append_right _ (hd _ _)⟩
    · exact Or.inr (mem_upperPat (mem_others.2 c1) (mem_others.2 c2) (fun a b => diag (seg (SBlk.force s'' a) 0 2) (seg (SBlk.force s'' b) 0 2)) (hd j j'))

theorem forceRatio_sparsity (s : Side) (i : Fin n) (r : ℝ) : CostSparsityCovers (forceRatio s i r) := by
  refine ⟨?_, fun _ _ _ _ h => absurd rfl h, fun _ _ _ _ h => absurd rfl h⟩
  rintro x u ⟨b, k⟩ ⟨c, l⟩ hne
  rw [forceRatio_stateHess] at hne
  have h1 : devGrad s i r 2 (b, k) ≠ 0 := fun e => hne (by simp [e])
  have h2 : devGrad s i r 2 (c, l) ≠ 0 := fun e => hne (by simp [e])
  rcases b with ⟨s', j⟩ | ⟨s', j⟩ | _ | _ | _ | _ | _ <;> simp only [devGrad, ne_eq, not_true] at h1
  rcases c with ⟨s'', j'⟩ | ⟨s'', j'⟩ | _ | _ | _ | _ | _ <;> simp only [devGrad, ne_eq, not_true] at h2
  split_ifs at h1 with e1
  swap; · exact absurd rfl h1
  split_ifs at h2 with e2
  swap; · exact absurd rfl h2
  obtain ⟨rfl, rfl⟩ := e1
  obtain ⟨rfl, rfl⟩ := e2
  simp only [forceRatio, List.mem_append]
  by_cases c1 : j = i
  · subst c1
    by_cases c2 : j' = j
    · subst c2; exact Or.inl (Or.inl (by simp))
    · refine Or.inl (Or.inr ?_)
      rw [List.mem_flatMap]
      exact ⟨j', mem_others.2 c2, by simp⟩
  · by_cases c2 : j' = i
    · subst c2
      refine Or.inl (Or.inr ?_)
      rw [List.mem_flatMap]
      exact ⟨j, mem_others.2 c1, by simp⟩
    · refine Or.inr ?_
      have := mem_upperPat (mem_others.2 c1) (mem_others.2 c2) (fun a b => [((SBlk.force s'' a, 2), (SBlk.force s'' b, 2))]) (e := ((SBlk.force s'' j, 2), (SBlk.force s'' j', 2))) (by simp)
      simpa using this

theorem posPat (A : List (Idx (SBlk n) × Idx (SBlk n))) (c : Side → ℝ) (w : Nat → ℝ) (p q : Idx (SBlk n))
    (hne : ∑ a : Fin 3, w a * posGrad c a p * posGrad c a q ≠ 0) :
    (p, q) ∈ (upper (allPoints (n := n))).flatMap fun e => diag (seg (SBlk.pos e.1.1 e.1.2) 0 3) (seg (SBlk.pos e.2.1.1 e.2.1.2) 0 3) ++
      if e.2.2 then diag (seg (.pos e.2.1.1 e.2.1.2) 0 3) (seg (.pos e.1.1 e.1.2) 0 3) else [] := by
  obtain ⟨b, k⟩ := p
  obtain ⟨c', l⟩ := q
  obtain ⟨a, -, ha⟩ := Finset.exists_ne_zero_of_sum_ne_zero hne
  have h1 : posGrad c a (b, k) ≠ 0 := fun e => ha (by rw [e]; ring)
  have h2 : posGrad c a (c', l) ≠ 0 := fun e => ha (by rw [e]; ring)
  rcases b with ⟨s', j⟩ | ⟨s', j⟩ | _ | _ | _ | _ | _ <;> simp only [posGrad, ne_eq, not_true] at h1
  rcases c' with ⟨s'', j'⟩ | ⟨s'', j'⟩ | _ | _ | _ | _ | _ <;> simp only [posGrad, ne_eq, not_true] at h2
  split_ifs at h1 with e1
  swap; · exact absurd rfl h1
  split_ifs at h2 with e2
  swap; · exact absurd rfl h2
  subst e1 e2
  exact mem_upperPat (mem_allPoints (s', j)) (mem_allPoints (s'', j')) (fun a b => diag (seg (SBlk.pos a.1 a.2) 0 3) (seg (SBlk.pos b.1 b.2) 0 3)) (mem_diag0 a.2)

theorem meanPoint_sparsity (d w : V3 ℝ) : CostSparsityCovers (meanPointPosition (n := n) d w) := by
  refine ⟨?_, fun _ _ _ _ h => absurd rfl h, fun _ _ _ _ h => absurd rfl h⟩
  rintro x u p q hne
  rw [meanPoint_stateHess] at hne
  exact posPat [] _ (fun a => at3 w a) p q hne

theorem feetDistance_sparsity : CostSparsityCovers (feetDistance (n := n)) := by
  refine ⟨?_, fun _ _ _ _ h => absurd rfl h, fun _ _ _ _ h => absurd rfl h⟩
  rintro x u p q hne
  rw [feetDistance_stateHess] at hne
  exact posPat [] _ (fun _ => 1) p q hne

end Verif.NLP
