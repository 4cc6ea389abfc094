import Verif.Lemmas.Costs
/- Exact derivatives of the costs, continued. -/
set_option linter.unusedSectionVars false
set_option linter.unusedSimpArgs false
namespace Verif.NLP
open Verif.NLP.Spec Verif.Smooth
variable {n : Nat}

/-! ### Force ratio -/

theorem symPut_apply {ρ : Type} [DecidableEq ρ] (M : ρ → ρ → ℝ) (a b : ρ) (v : ℝ) (flag : Bool) (p q : ρ) :
    (let M' := put M a b v
     if flag then put M' b a (M' a b) else M') p q =
      if p = a ∧ q = b ∨ flag = true ∧ p = b ∧ q = a then v else M p q := by
  cases flag <;> simp only [put_apply, Bool.false_eq_true, if_false, if_true] <;> grind

theorem forceRatio_value (s : Side) (i : Fin n) (r : ℝ) (x : SVec n) (u : CVec n) :
    (forceRatio s i r).value x u = ∑ a : Fin 1, 1 / 2 * 1 *
      ((x (.force s i, 2) - r * ∑ j, x (.force s j, 2)) * (x (.force s i, 2) - r * ∑ j, x (.force s j, 2))) := by
  simp [forceRatio, sumOfNormalForces_eq, vec3]
  ring

theorem forceRatio_stateGrad (s : Side) (i : Fin n) (r : ℝ) (x : SVec n) (u : CVec n) (g : SVec n) (p : Idx (SBlk n)) :
    (forceRatio s i r).stateGrad x u g p = ∑ a : Fin 1, 1 * (x (.force s i, 2) - r * ∑ j, x (.force s j, 2)) * devGrad s i r 2 p := by
  simp only [Finset.univ_unique, Finset.sum_singleton]
  by_cases hb : ∃ j, p = (.force s j, 2)
  · obtain ⟨j, rfl⟩ := hb
    simp only [forceRatio, sumOfNormalForces_eq, devGrad, and_self, if_true, vec3]
    by_cases hij : j = i
    · subst hij
      refine ((writesV (others j) _ (fun _ => 0) (fun _ _ => False) _ (fun _ _ h => h.elim) ?_ _).2 (by simp)).trans ?_
      · intro e he _ M
        rw [putV_apply, if_neg]
        intro h
        exact mem_others.1 he (by simpa using h.symm)
      · simp [putV_apply, dev]; ring
    · refine ((writesV (others i) _ (fun _ => -r * (x (.force s i, 2) - r * ∑ j, x (.force s j, 2))) (fun e _ => e = j) _ ?_ ?_ _).1 ⟨j, mem_others.2 hij, rfl⟩).trans ?_
      · rintro e - rfl M
        simp [putV_apply]
      · intro e he hne M
        rw [putV_apply, if_neg]
        intro h
        exact hne (by simpa using h.symm)
      · simp [dev, hij]; ring
  · have e : devGrad s i r 2 p = 0 := by
      obtain ⟨b, k⟩ := p
      rcases b with ⟨s', j⟩ | ⟨s', j⟩ | _ | _ | _ | _ | _ <;> simp only [devGrad]
      rw [if_neg]
      rintro ⟨rfl, rfl⟩
      exact hb ⟨j, rfl⟩
    rw [e, mul_zero]
    simp only [forceRatio]
    refine ((writesV (others i) _ (fun _ => 0) (fun _ _ => False) _ (fun _ _ h => h.elim) ?_ _).2 (by simp)).trans ?_
    · intro e he _ M
      rw [putV_apply, if_neg]
      intro h
      exact hb ⟨e, h⟩
    · rw [putV_apply, if_neg]
      · rfl
      · intro h
        exact hb ⟨i, h⟩

theorem forceRatio_stateHess (s : Side) (i : Fin n) (r : ℝ) (x : SVec n) (u : CVec n) (p q : Idx (SBlk n)) :
    (forceRatio s i r).stateHess x u (fun _ _ => 0) p q = ∑ a : Fin 1, 1 * devGrad s i r 2 p * devGrad s i r 2 q := by
  simp only [Finset.univ_unique, Finset.sum_singleton, one_mul]
  have hv : ∀ j, devGrad s i r 2 (.force s j, 2) = dev i j r := fun j => by simp [devGrad]
  have hz : ∀ p, (¬ ∃ j, p = (.force s j, 2)) → devGrad s i r 2 p = 0 := by
    rintro ⟨b, k⟩ h
    rcases b with ⟨s', j⟩ | ⟨s', j⟩ | _ | _ | _ | _ | _ <;> simp only [devGrad]
    rw [if_neg]
    rintro ⟨rfl, rfl⟩
    exact h ⟨j, rfl⟩
  have di : ∀ j, j ≠ i → dev i j r = -r := fun j h => by simp [dev, h]
  have dii : dev i i r = 1 - r := by simp [dev]
  simp only [forceRatio]
  have last := writes (upper (others i)) (fun (M : Idx (SBlk n) → Idx (SBlk n) → ℝ) (e : Fin n × Fin n × Bool) =>
      let M' := put M (.force s e.1, 2) (.force s e.2.1, 2) (r * r)
      if e.2.2 then put M' (.force s e.2.1, 2) (.force s e.1, 2) (M' (.force s e.1, 2) (.force s e.2.1, 2)) else M')
    (fun p q => devGrad s i r 2 p * devGrad s i r 2 q)
    (fun e p q => p = (.force s e.1, 2) ∧ q = (.force s e.2.1, 2) ∨ e.2.2 = true ∧ p = (.force s e.2.1, 2) ∧ q = (.force s e.1, 2))
    p q (by
      intro e he hw M
      rw [symPut_apply, if_pos hw]
      obtain ⟨h1, h2⟩ := mem_upper he
      obtain (⟨a, b⟩ | ⟨-, a, b⟩) := hw <;> subst a <;> subst b <;> rw [hv, hv, di _ (mem_others.1 h1), di _ (mem_others.1 h2)] <;> ring)
    (by
      intro e he hw M
      rw [symPut_apply, if_neg hw])
  have mid := fun M => writes (others i) (fun (M : Idx (SBlk n) → Idx (SBlk n) → ℝ) (j : Fin n) =>
      put (put M (.force s i, 2) (.force s j, 2) (-r * (1 - r))) (.force s j, 2) (.force s i, 2)
        (put M (.force s i, 2) (.force s j, 2) (-r * (1 - r)) (.force s i, 2) (.force s j, 2)))
    (fun p q => devGrad s i r 2 p * devGrad s i r 2 q)
    (fun j p q => p = (.force s i, 2) ∧ q = (.force s j, 2) ∨ true = true ∧ p = (.force s j, 2) ∧ q = (.force s i, 2))
    p q (by
      intro e he hw M
      refine (symPut_apply M (.force s i, 2) (.force s e, 2) _ true p q).trans ?_
      rw [if_pos hw]
      obtain (⟨a, b⟩ | ⟨-, a, b⟩) := hw <;> subst a <;> subst b <;> rw [hv, hv, di _ (mem_others.1 he), dii] <;> ring)
    (by
      intro e he hw M
      refine (symPut_apply M (.force s i, 2) (.force s e, 2) _ true p q).trans ?_
      rw [if_neg hw]) M
  by_cases c : (∃ j, p = (.force s j, 2)) ∧ ∃ j', q = (.force s j', 2)
  · by_cases c1 : ∃ e ∈ upper (others i), p = (.force s e.1, 2) ∧ q = (.force s e.2.1, 2) ∨ e.2.2 = true ∧ p = (.force s e.2.1, 2) ∧ q = (.force s e.1, 2)
    · exact (last _).1 c1
    · refine ((last _).2 c1).trans ?_
      by_cases c2 : ∃ j ∈ others i, p = (.force s i, 2) ∧ q = (.force s j, 2) ∨ true = true ∧ p = (.force s j, 2) ∧ q = (.force s i, 2)
      · exact (mid _).1 c2
      · refine ((mid _).2 c2).trans ?_
        obtain ⟨⟨j, rfl⟩, j', rfl⟩ := c
        have hj : j = i := by
          by_contra hj
          by_cases hj' : j' = i
          · subst hj'; exact c2 ⟨j, mem_others.2 hj, Or.inr ⟨rfl, rfl, rfl⟩⟩
          · rcases upper_covers (mem_others.2 hj) (mem_others.2 hj') with ⟨f, h⟩ | h
            · exact c1 ⟨_, h, Or.inl ⟨rfl, rfl⟩⟩
            · exact c1 ⟨_, h, Or.inr ⟨rfl, rfl, rfl⟩⟩
        subst hj
        have hj' : j' = j := by
          by_contra hj'
          exact c2 ⟨j', mem_others.2 hj', Or.inl ⟨rfl, rfl⟩⟩
        subst hj'
        rw [put_apply, if_pos ⟨rfl, rfl⟩, hv, dii]
  · refine ((last _).2 ?_).trans (((mid _).2 ?_).trans ?_)
    · rintro ⟨e, -, (⟨a, b⟩ | ⟨-, a, b⟩)⟩
      · exact c ⟨⟨_, a⟩, _, b⟩
      · exact c ⟨⟨_, a⟩, _, b⟩
    · rintro ⟨e, -, (⟨a, b⟩ | ⟨-, a, b⟩)⟩
      · exact c ⟨⟨_, a⟩, _, b⟩
      · exact c ⟨⟨_, a⟩, _, b⟩
    · rw [put_apply, if_neg]
      · by_cases hp : ∃ j, p = (.force s j, 2)
        · rw [hz q fun h => c ⟨hp, h⟩, mul_zero]
        · rw [hz p hp, zero_mul]
      rintro ⟨a, b⟩
      exact c ⟨⟨_, a⟩, _, b⟩

theorem forceRatio_grad (s : Side) (i : Fin n) (r : ℝ) : ExactGradients (forceRatio s i r) := by
  refine fun x u => ⟨?_, (GradAt.const _ _).congr fun _ => rfl⟩
  have := quad_grad Finset.univ (fun _ => (1 : ℝ)) (fun (_ : Fin 1) (y : SVec n) => y (.force s i, 2) - r * ∑ j, y (.force s j, 2))
    (fun _ => devGrad s i r 2) x (fun a => devGrad_at s i _ _ x)
  simp only [forceRatio_value]
  exact this.congr fun p => (forceRatio_stateGrad s i r x u _ p).symm

theorem forceRatio_hess (s : Side) (i : Fin n) (r : ℝ) : ExactCostHessians (forceRatio s i r) := by
  refine fun x u => ⟨?_, ⟨fun _ _ => 0, fun v => GradAt.const _ _, fun k => GradAt.const _ _⟩, ?_⟩
  · have := quad_hess Finset.univ (fun _ => (1 : ℝ)) (fun (_ : Fin 1) (y : SVec n) => y (.force s i, 2) - r * ∑ j, y (.force s j, 2))
      (fun _ => devGrad s i r 2) x (fun a y => devGrad_at s i _ _ y)
    simp only [forceRatio_value]
    rwa [show (forceRatio s i r).stateHess x u (fun _ _ => 0) = fun p q => ∑ a : Fin 1, 1 * devGrad s i r 2 p * devGrad s i r 2 q from
      funext fun p => funext fun q => forceRatio_stateHess s i r x u p q]
  · exact mixed_zero _ x u (fun y => (forceRatio s i r).stateGrad y u fun _ => 0) fun y v => (forceRatio_grad s i r y v).1

/-! ### Positions of all the points -/

/-- Gradient of `cL Σ left + cR Σ right` along component `a`. -/
noncomputable def posGrad (c : Side → ℝ) (a : Nat) : Idx (SBlk n) → ℝ
  | (.pos s _, k) => if k = a then c s else 0
  | _ => 0

/-- The affine function. -/
noncomputable def posLin (c : Side → ℝ) (d : ℝ) (a : Nat) (x : SVec n) : ℝ :=
  c .left * ∑ i, x (.pos .left i, a) + c .right * ∑ i, x (.pos .right i, a) - d

theorem posGrad_at (c : Side → ℝ) (d : ℝ) (a : Nat) (x : SVec n) : GradAt (posLin c d a) (posGrad c a) x := by
  unfold posLin
  refine (GradAt.sub (GradAt.add (GradAt.const_mul (c .left) (GradAt.sum _ fun j _ => GradAt.coord _ _))
    (GradAt.const_mul (c .right) (GradAt.sum _ fun j _ => GradAt.coord _ _))) (GradAt.const d x)).congr ?_
  rintro ⟨b, k⟩
  rcases b with ⟨s', j⟩ | ⟨s', j⟩ | _ | _ | _ | _ | _ <;> simp only [posGrad, Prod.mk.injEq, SBlk.pos.injEq, reduceCtorEq, false_and, if_false, Finset.sum_const_zero, mul_zero, sub_zero, add_zero]
  cases s' <;> by_cases h : k = a <;> simp [h]

theorem mem_allPoints (p : Side × Fin n) : p ∈ allPoints := by
  obtain ⟨s, i⟩ := p
  cases s <;> simp [allPoints]

/-- Entries written by the loops over pairs of points. -/
theorem pairs (A : Side × Fin n → Side × Fin n → Nat → Nat → ℝ) (hA : ∀ P Q k l, A P Q k l = A Q P k l) (M : Idx (SBlk n) → Idx (SBlk n) → ℝ)
    (p q : Idx (SBlk n)) :
    (upper allPoints).foldl (fun (H : Idx (SBlk n) → Idx (SBlk n) → ℝ) e =>
      let H := putBlock H (.pos e.1.1 e.1.2) 0 (.pos e.2.1.1 e.2.1.2) 0 3 3 (A e.1 e.2.1)
      if e.2.2 then copyBlock H (.pos e.2.1.1 e.2.1.2) (.pos e.1.1 e.1.2) (.pos e.1.1 e.1.2) (.pos e.2.1.1 e.2.1.2) 3 else H) M p q =
    match p, q with
    | (.pos s i, k), (.pos s' i', l) => if k < 3 ∧ l < 3 then A (s, i) (s', i') k l else M p q
    | _, _ => M p q := by
  obtain ⟨b, k⟩ := p
  obtain ⟨c, l⟩ := q
  have key := writes (upper (allPoints (n := n))) (fun (H : Idx (SBlk n) → Idx (SBlk n) → ℝ) e =>
      let H := putBlock H (.pos e.1.1 e.1.2) 0 (.pos e.2.1.1 e.2.1.2) 0 3 3 (A e.1 e.2.1)
      if e.2.2 then copyBlock H (.pos e.2.1.1 e.2.1.2) (.pos e.1.1 e.1.2) (.pos e.1.1 e.1.2) (.pos e.2.1.1 e.2.1.2) 3 else H)
    (fun p q => match p, q with
      | (.pos s i, k), (.pos s' i', l) => A (s, i) (s', i') k l
      | _, _ => 0)
    (fun e p q => (p.1 = .pos e.1.1 e.1.2 ∧ q.1 = .pos e.2.1.1 e.2.1.2 ∨ e.2.2 = true ∧ p.1 = .pos e.2.1.1 e.2.1.2 ∧ q.1 = .pos e.1.1 e.1.2) ∧ p.2 < 3 ∧ q.2 < 3)
    (b, k) (c, l) (by
      intro e he hw M
      rw [sym_apply, if_pos hw]
      obtain ⟨(⟨a, b⟩ | ⟨-, a, b⟩), hk, hl⟩ := hw <;> dsimp only at a b hk hl <;> subst a <;> subst b
      · rfl
      · exact hA _ _ _ _)
    (by
      intro e he hw M
      rw [sym_apply, if_neg hw])
    M
  by_cases hc : ∃ P Q : Side × Fin n, b = .pos P.1 P.2 ∧ c = .pos Q.1 Q.2 ∧ k < 3 ∧ l < 3
  · obtain ⟨P, Q, rfl, rfl, hk, hl⟩ := hc
    refine (key.1 ?_).trans ?_
    · rcases upper_covers (mem_allPoints P) (mem_allPoints Q) with ⟨f, h⟩ | h
      · exact ⟨_, h, Or.inl ⟨rfl, rfl⟩, hk, hl⟩
      · exact ⟨_, h, Or.inr ⟨rfl, rfl, rfl⟩, hk, hl⟩
    · simp [hk, hl]
  · refine (key.2 ?_).trans ?_
    · rintro ⟨e, -, (⟨a, b⟩ | ⟨-, a, b⟩), hk, hl⟩
      · exact hc ⟨_, _, a, b, hk, hl⟩
      · exact hc ⟨_, _, a, b, hk, hl⟩
    · rcases b with ⟨s', j⟩ | ⟨s', j⟩ | _ | _ | _ | _ | _ <;> rcases c with ⟨s'', j'⟩ | ⟨s'', j'⟩ | _ | _ | _ | _ | _ <;> simp only
      rw [if_neg]
      rintro ⟨hk, hl⟩
      exact hc ⟨(s', j), (s'', j'), rfl, rfl, hk, hl⟩

theorem sumPositions_eq (x : SVec n) (l : List (Side × Fin n)) :
    sumPositions x l = ⟨(l.map fun p => x (.pos p.1 p.2, 0)).sum, (l.map fun p => x (.pos p.1 p.2, 1)).sum, (l.map fun p => x (.pos p.1 p.2, 2)).sum⟩ := by
  cases l with
  | nil => rfl
  | cons p l =>
    obtain ⟨h1, h2, h3⟩ := foldl_v3 l (fun q => vec3 x (.pos q.1 q.2)) (vec3 x (.pos p.1 p.2))
    rw [sumPositions]
    ext
    · rw [h1]; simp [vec3]
    · rw [h2]; simp [vec3]
    · rw [h3]; simp [vec3]

theorem length_allPoints : ((allPoints (n := n)).length : ℝ) = 2 * n := by simp [allPoints]; ring

theorem at3_cases (v : V3 ℝ) : at3 v 0 = v.x ∧ at3 v 1 = v.y ∧ at3 v 2 = v.z := ⟨rfl, rfl, rfl⟩

theorem distanceFromTarget_eq (d : V3 ℝ) (x : SVec n) (a : Nat) (ha : a < 3) :
    at3 (distanceFromTarget d x) a = posLin (fun _ => 1 / (2 * n)) (at3 d a) a x := by
  have e : ∀ k, ((allPoints (n := n)).map fun p => x (.pos p.1 p.2, k)).sum = ∑ i, x (.pos .left i, k) + ∑ i, x (.pos .right i, k) := by
    intro k
    rw [allPoints, List.map_append, List.sum_append, List.map_map, List.map_map, ← sum_finRange, ← sum_finRange]
    rfl
  simp only [distanceFromTarget, sumPositions_eq, length_allPoints, posLin]
  interval_cases a <;> simp [at3, e] <;> ring

theorem meanPoint_value (d w : V3 ℝ) (x : SVec n) (u : CVec n) :
    (meanPointPosition d w).value x u = ∑ a : Fin 3, 1 / 2 * at3 w a * (posLin (fun _ => 1 / (2 * n)) (at3 d a) a x * posLin (fun _ => 1 / (2 * n)) (at3 d a) a x) := by
  have h0 := distanceFromTarget_eq d x 0 (by omega)
  have h1 := distanceFromTarget_eq d x 1 (by omega)
  have h2 := distanceFromTarget_eq d x 2 (by omega)
  rw [Fin.sum_univ_three]
  change _ = 1 / 2 * at3 w 0 * (posLin (fun _ => 1 / (2 * n)) (at3 d 0) 0 x * posLin (fun _ => 1 / (2 * n)) (at3 d 0) 0 x)
    + 1 / 2 * at3 w 1 * (posLin (fun _ => 1 / (2 * n)) (at3 d 1) 1 x * posLin (fun _ => 1 / (2 * n)) (at3 d 1) 1 x)
    + 1 / 2 * at3 w 2 * (posLin (fun _ => 1 / (2 * n)) (at3 d 2) 2 x * posLin (fun _ => 1 / (2 * n)) (at3 d 2) 2 x)
  rw [← h0, ← h1, ← h2]
  simp only [meanPointPosition, at3_cases]
  ring

theorem meanPoint_stateGrad (d w : V3 ℝ) (x : SVec n) (u : CVec n) (g : SVec n) (p : Idx (SBlk n)) :
    (meanPointPosition d w).stateGrad x u g p = ∑ a : Fin 3, at3 w a * posLin (fun _ => 1 / (2 * n)) (at3 d a) a x * posGrad (fun _ => 1 / (2 * n)) a p := by
  obtain ⟨b, k⟩ := p
  simp only [meanPointPosition, length_allPoints]
  have key := writesV (allPoints (n := n)) (fun (g : SVec n) p => putSeg g (.pos p.1 p.2) 0 3 (fun k => at3 w k * (1 / (2 * n)) * at3 (distanceFromTarget d x) k))
    (fun p => at3 w p.2 * (1 / (2 * n)) * at3 (distanceFromTarget d x) p.2) (fun e p => p.1 = .pos e.1 e.2 ∧ p.2 < 3) (b, k)
    (by intro e he hw M; rw [seg_apply, if_pos hw]) (by intro e he hw M; rw [seg_apply, if_neg hw]) zeroVec
  by_cases hb : ∃ P : Side × Fin n, b = .pos P.1 P.2 ∧ k < 3
  · obtain ⟨P, rfl, hk⟩ := hb
    refine (key.1 ⟨P, mem_allPoints P, rfl, hk⟩).trans ?_
    rw [distanceFromTarget_eq d x k hk]
    rw [Fin.sum_univ_three]
    interval_cases k <;> simp [posGrad] <;> ring
  · refine (key.2 fun ⟨e, he, h⟩ => hb ⟨e, h⟩).trans ?_
    rw [Finset.sum_eq_zero]; · rfl
    intro a _
    have : posGrad (fun _ => 1 / (2 * n)) a (b, k) = 0 := by
      rcases b with ⟨s', j⟩ | ⟨s', j⟩ | _ | _ | _ | _ | _ <;> simp only [posGrad]
      rw [if_neg]
      rintro rfl
      exact hb ⟨(s', j), rfl, a.2⟩
    rw [this, mul_zero]

theorem meanPoint_stateHess (d w : V3 ℝ) (x : SVec n) (u : CVec n) (p q : Idx (SBlk n)) :
    (meanPointPosition d w).stateHess x u (fun _ _ => 0) p q = ∑ a : Fin 3, at3 w a * posGrad (fun _ => 1 / (2 * n)) a p * posGrad (fun _ => 1 / (2 * n)) a q := by
  simp only [meanPointPosition, length_allPoints]
  refine (pairs (fun _ _ k l => if k = l then at3 w k * (1 / (2 * n)) * (1 / (2 * n)) else 0) (fun _ _ _ _ => rfl) _ p q).trans ?_
  obtain ⟨b, k⟩ := p
  obtain ⟨c, l⟩ := q
  rcases b with ⟨s', j⟩ | ⟨s', j⟩ | _ | _ | _ | _ | _ <;> rcases c with ⟨s'', j'⟩ | ⟨s'', j'⟩ | _ | _ | _ | _ | _ <;> simp only [posGrad, mul_zero, zero_mul, Finset.sum_const_zero]
  by_cases h : k < 3 ∧ l < 3
  · obtain ⟨hk, hl⟩ := h
    rw [if_pos ⟨hk, hl⟩, Fin.sum_univ_three]
    interval_cases k <;> interval_cases l <;> simp
  · rw [if_neg h, Finset.sum_eq_zero]
    intro a _
    by_cases e1 : k = a
    · have e2 : l ≠ a := fun e => h ⟨e1 ▸ a.2, e ▸ a.2⟩
      simp [e2]
    · simp [e1]

theorem meanPoint_grad (d w : V3 ℝ) : ExactGradients (meanPointPosition (n := n) d w) := by
  refine fun x u => ⟨?_, (GradAt.const _ _).congr fun _ => rfl⟩
  have := quad_grad Finset.univ (fun a : Fin 3 => at3 w a) (fun (a : Fin 3) (y : SVec n) => posLin (fun _ => 1 / (2 * n)) (at3 d a) a y)
    (fun a => posGrad (fun _ => 1 / (2 * n)) a) x (fun a => posGrad_at _ _ _ x)
  simp only [meanPoint_value]
  exact this.congr fun p => (meanPoint_stateGrad d w x u _ p).symm

theorem meanPoint_hess (d w : V3 ℝ) : ExactCostHessians (meanPointPosition (n := n) d w) := by
  refine fun x u => ⟨?_, ⟨fun _ _ => 0, fun v => GradAt.const _ _, fun k => GradAt.const _ _⟩, ?_⟩
  · have := quad_hess Finset.univ (fun a : Fin 3 => at3 w a) (fun (a : Fin 3) (y : SVec n) => posLin (fun _ => 1 / (2 * n)) (at3 d a) a y)
      (fun a => posGrad (fun _ => 1 / (2 * n)) a) x (fun a y => posGrad_at _ _ _ y)
    simp only [meanPoint_value]
    rwa [show (meanPointPosition d w).stateHess x u (fun _ _ => 0) = fun p q => ∑ a : Fin 3, at3 w a * posGrad (fun _ => 1 / (2 * n)) a p * posGrad (fun _ => 1 / (2 * n)) a q from
      funext fun p => funext fun q => meanPoint_stateHess d w x u p q]
  · exact mixed_zero _ x u (fun y => (meanPointPosition d w).stateGrad y u fun _ => 0) fun y v => (meanPoint_grad d w y v).1

/-! ### Feet distance -/

/-- Coefficients of the two feet. -/
noncomputable def feetC (n : Nat) : Side → ℝ := fun s => match s with | .left => 1 / n | .right => -(1 / n)

theorem length_footPoints (s : Side) : ((footPoints (n := n) s).length : ℝ) = n := by simp [footPoints]

theorem feetDistanceVector_eq (x : SVec n) (a : Nat) (ha : a < 3) : at3 (feetDistanceVector x) a = posLin (feetC n) 0 a x := by
  have e : ∀ s k, ((footPoints (n := n) s).map fun p => x (.pos p.1 p.2, k)).sum = ∑ i, x (.pos s i, k) := by
    intro s k
    rw [footPoints, List.map_map, ← sum_finRange]
    rfl
  simp only [feetDistanceVector, sumPositions_eq, length_footPoints, posLin, feetC]
  interval_cases a <;> simp [at3, e] <;> ring

theorem feetDistance_value (x : SVec n) (u : CVec n) :
    feetDistance.value x u = ∑ a : Fin 3, 1 / 2 * 1 * (posLin (feetC n) 0 a x * posLin (feetC n) 0 a x) := by
  have h := fun a ha => feetDistanceVector_eq x a ha
  rw [Fin.sum_univ_three]
  simp only [feetDistance, Fin.val_zero, Fin.val_one, Fin.val_two, ← h 0 (by omega), ← h 1 (by omega), ← h 2 (by omega), at3_cases]
  ring

theorem mem_footPoints {s : Side} {p : Side × Fin n} : p ∈ footPoints s ↔ p.1 = s := by
  obtain ⟨s', i⟩ := p
  simp [footPoints, eq_comm]

theorem feetDistance_stateGrad (x : SVec n) (u : CVec n) (p : Idx (SBlk n)) :
    feetDistance.stateGrad x u (fun _ => 0) p = ∑ a : Fin 3, 1 * posLin (feetC n) 0 a x * posGrad (feetC n) a p := by
  obtain ⟨b, k⟩ := p
  simp only [feetDistance, length_footPoints]
  have key := fun (s : Side) (H : Nat → ℝ) g => writesV (footPoints (n := n) s) (fun (g : SVec n) p => putSeg g (.pos p.1 p.2) 0 3 (fun k => H k))
    (fun p => H p.2) (fun e p => p.1 = .pos e.1 e.2 ∧ p.2 < 3) (b, k)
    (by intro e he hw M; rw [seg_apply, if_pos hw]) (by intro e he hw M; rw [seg_apply, if_neg hw]) g
  by_cases hb : ∃ P : Side × Fin n, b = .pos P.1 P.2 ∧ k < 3
  · obtain ⟨⟨s, i⟩, rfl, hk⟩ := hb
    have hs : ∑ a : Fin 3, 1 * posLin (feetC n) 0 a x * posGrad (feetC n) a (.pos s i, k) = at3 (feetDistanceVector x) k * feetC n s := by
      rw [feetDistanceVector_eq x k hk, Fin.sum_univ_three]
      interval_cases k <;> simp [posGrad]
    rw [hs]
    cases s
    · refine ((key .right (fun k => -at3 (feetDistanceVector x) k / n) _).2 ?_).trans (((key .left (fun k => at3 (feetDistanceVector x) k / n) _).1 ⟨(.left, i), mem_footPoints.2 rfl, rfl, hk⟩).trans ?_)
      · rintro ⟨⟨s', i'⟩, he, h, -⟩
        rw [mem_footPoints] at he
        subst he
        simp at h
      · simp [feetC]; ring
    · refine ((key .right (fun k => -at3 (feetDistanceVector x) k / n) _).1 ⟨(.right, i), mem_footPoints.2 rfl, rfl, hk⟩).trans ?_
      simp [feetC]; ring
  · refine ((key .right (fun k => -at3 (feetDistanceVector x) k / n) _).2 fun ⟨e, he, h⟩ => hb ⟨e, h⟩).trans (((key .left (fun k => at3 (feetDistanceVector x) k / n) _).2 fun ⟨e, he, h⟩ => hb ⟨e, h⟩).trans ?_)
    rw [Finset.sum_eq_zero]
    intro a _
    have : posGrad (feetC n) a (b, k) = 0 := by
      rcases b with ⟨s', j⟩ | ⟨s', j⟩ | _ | _ | _ | _ | _ <;> simp only [posGrad]
      rw [if_neg]
      rintro rfl
      exact hb ⟨(s', j), rfl, a.2⟩
    rw [this, mul_zero]

theorem feetDistance_stateHess (x : SVec n) (u : CVec n) (H0 : Idx (SBlk n) → Idx (SBlk n) → ℝ) (p q : Idx (SBlk n)) :
    feetDistance.stateHess x u H0 p q = ∑ a : Fin 3, 1 * posGrad (feetC n) a p * posGrad (feetC n) a q := by
  simp only [feetDistance, length_footPoints, identity_eq]
  refine (pairs (fun P Q k l => eye k l * (1 / diagonalValue n n P.1 Q.1)) ?_ _ p q).trans ?_
  · rintro ⟨s, i⟩ ⟨s', i'⟩ k l
    cases s <;> cases s' <;> simp [diagonalValue]
  obtain ⟨b, k⟩ := p
  obtain ⟨c, l⟩ := q
  have hc : ∀ s s', 1 / diagonalValue (n : ℝ) n s s' = feetC n s * feetC n s' := by
    intro s s'
    cases s <;> cases s' <;> simp only [diagonalValue, feetC] <;> simp [mul_comm] 
  rcases b with ⟨s', j⟩ | ⟨s', j⟩ | _ | _ | _ | _ | _ <;> rcases c with ⟨s'', j'⟩ | ⟨s'', j'⟩ | _ | _ | _ | _ | _ <;> simp only [posGrad, mul_zero, zero_mul, Finset.sum_const_zero]
  by_cases h : k < 3 ∧ l < 3
  · obtain ⟨hk, hl⟩ := h
    rw [if_pos ⟨hk, hl⟩, Fin.sum_univ_three, hc]
    interval_cases k <;> interval_cases l <;> simp [eye]
  · rw [if_neg h, Finset.sum_eq_zero]
    intro a _
    by_cases e1 : k = a
    · have e2 : l ≠ a := fun e => h ⟨e1 ▸ a.2, e ▸ a.2⟩
      simp [e2]
    · simp [e1]

theorem feetDistance_grad : ExactGradients (feetDistance (n := n)) := by
  refine fun x u => ⟨?_, (GradAt.const _ _).congr fun _ => rfl⟩
  have := quad_grad Finset.univ (fun _ : Fin 3 => (1 : ℝ)) (fun (a : Fin 3) (y : SVec n) => posLin (feetC n) 0 a y)
    (fun a => posGrad (feetC n) a) x (fun a => posGrad_at _ _ _ x)
  simp only [feetDistance_value]
  exact this.congr fun p => (feetDistance_stateGrad x u p).symm

theorem feetDistance_hess : ExactCostHessians (feetDistance (n := n)) := by
  refine fun x u => ⟨?_, ⟨fun _ _ => 0, fun v => GradAt.const _ _, fun k => GradAt.const _ _⟩, ?_⟩
  · have := quad_hess Finset.univ (fun _ : Fin 3 => (1 : ℝ)) (fun (a : Fin 3) (y : SVec n) => posLin (feetC n) 0 a y)
      (fun a => posGrad (feetC n) a) x (fun a y => posGrad_at _ _ _ y)
    simp only [feetDistance_value]
    rwa [show feetDistance.stateHess x u (fun _ _ => 0) = fun p q => ∑ a : Fin 3, 1 * posGrad (feetC n) a p * posGrad (feetC n) a q from
      funext fun p => funext fun q => feetDistance_stateHess x u _ p q]
  · exact mixed_zero _ x u (fun y => feetDistance.stateGrad y u fun _ => 0) fun y v => (feetDistance_grad y v).1

end Verif.NLP
