import Verif.Lemmas.Costs3
import Verif.Spec.Costs
import Verif.Lemmas.Constraints
import Mathlib.Analysis.SpecialFunctions.Log.Basic
import Mathlib.Analysis.SpecialFunctions.Arcosh
/- C23, C24, C39, C43 (costs). -/
set_option linter.unusedSectionVars false
namespace Verif.NLP
open Verif.NLP.Spec Verif.Smooth
variable {n : Nat}

/-! ### C24 -/

theorem half_sq_sum_zero {a b : ℝ} : 1 / 2 * (a * a + b * b) = 0 ↔ a = 0 ∧ b = 0 := by
  constructor
  · intro h
    constructor <;> nlinarith [mul_self_nonneg a, mul_self_nonneg b, mul_self_eq_zero (a := a), mul_self_eq_zero (a := b)]
  · rintro ⟨rfl, rfl⟩; simp

theorem sum3_sq_zero {w1 w2 w3 a b c : ℝ} (h1 : 0 < w1) (h2 : 0 < w2) (h3 : 0 < w3) :
    1 / 2 * (w1 * (a * a) + w2 * (b * b) + w3 * (c * c)) = 0 ↔ a = 0 ∧ b = 0 ∧ c = 0 := by
  have ha := mul_nonneg h1.le (mul_self_nonneg a)
  have hb := mul_nonneg h2.le (mul_self_nonneg b)
  have hc := mul_nonneg h3.le (mul_self_nonneg c)
  constructor
  · intro h
    have e1 : w1 * (a * a) = 0 := by linarith
    have e2 : w2 * (b * b) = 0 := by linarith
    have e3 : w3 * (c * c) = 0 := by linarith
    exact ⟨by simpa [h1.ne'] using e1, by simpa [h2.ne'] using e2, by simpa [h3.ne'] using e3⟩
  · rintro ⟨rfl, rfl, rfl⟩; simp

/-- C24: the swing cost is never negative, vanishes exactly when the point is at the swing height or does not move, and its first
and second derivatives are exact. -/
theorem C24_swing (s : Side) (i : Fin n) (h : ℝ) (w : V3 ℝ) (w1 : 0 < w.x) (w2 : 0 < w.y) (w3 : 0 < w.z) :
    NonNegative (swing s i h w) ∧
    (∀ x u, (swing s i h w).value x u = 0 ↔ positionOf x s i 2 = h ∨ ∀ k < 3, u (.velCtl s i, k) = 0) ∧
    ExactGradients (swing s i h w) ∧ ExactCostHessians (swing s i h w) := by
  have e : ∀ x u, (swing s i h w).value x u = 1 / 2 * (w.x * (u (.velCtl s i, 0) * (x (.pos s i, 2) - h) * (u (.velCtl s i, 0) * (x (.pos s i, 2) - h))) +
      w.y * (u (.velCtl s i, 1) * (x (.pos s i, 2) - h) * (u (.velCtl s i, 1) * (x (.pos s i, 2) - h))) +
      w.z * (u (.velCtl s i, 2) * (x (.pos s i, 2) - h) * (u (.velCtl s i, 2) * (x (.pos s i, 2) - h)))) := by
    intro x u; simp only [swing, vec3]; ring
  refine ⟨fun x u => ?_, fun x u => ?_, swing_grad s i h w, swing_hess s i h w⟩
  · rw [e]
    have ha := mul_nonneg w1.le (mul_self_nonneg (u (.velCtl s i, 0) * (x (.pos s i, 2) - h)))
    have hb := mul_nonneg w2.le (mul_self_nonneg (u (.velCtl s i, 1) * (x (.pos s i, 2) - h)))
    have hc := mul_nonneg w3.le (mul_self_nonneg (u (.velCtl s i, 2) * (x (.pos s i, 2) - h)))
    linarith
  · rw [e, sum3_sq_zero w1 w2 w3]
    simp only [mul_eq_zero, sub_eq_zero, positionOf]
    constructor
    · rintro ⟨a, b, c⟩
      by_cases hh : x (.pos s i, 2) = h
      · exact Or.inl hh
      · refine Or.inr fun k hk => ?_
        interval_cases k
        · exact a.resolve_right hh
        · exact b.resolve_right hh
        · exact c.resolve_right hh
    · rintro (hh | hh)
      · exact ⟨Or.inr hh, Or.inr hh, Or.inr hh⟩
      · exact ⟨Or.inl (hh 0 (by omega)), Or.inl (hh 1 (by omega)), Or.inl (hh 2 (by omega))⟩

/-- C24: the force mean cost is never negative, vanishes exactly when the tangential force on the point is the mean of the
tangential forces on the points of the foot, and its derivatives are exact. -/
theorem C24_force_mean (s : Side) (i : Fin n) :
    NonNegative (forceMean s i) ∧
    (∀ x u, (forceMean s i).value x u = 0 ↔ ∀ k < 2, forceOf x s i k = (∑ j, forceOf x s j k) / n) ∧
    ExactGradients (forceMean s i) ∧ ExactCostHessians (forceMean s i) := by
  have e : ∀ x u, (forceMean s i).value x u = 1 / 2 *
      ((forceOf x s i 0 - (∑ j, forceOf x s j 0) / n) * (forceOf x s i 0 - (∑ j, forceOf x s j 0) / n) +
       (forceOf x s i 1 - (∑ j, forceOf x s j 1) / n) * (forceOf x s i 1 - (∑ j, forceOf x s j 1) / n)) := by
    intro x u
    rw [forceMean_value, Fin.sum_univ_two]
    simp only [forceOf, Fin.val_zero, Fin.val_one]
    ring
  refine ⟨fun x u => ?_, fun x u => ?_, forceMean_grad s i, forceMean_hess s i⟩
  · rw [e]; linarith [mul_self_nonneg (forceOf x s i 0 - (∑ j, forceOf x s j 0) / n), mul_self_nonneg (forceOf x s i 1 - (∑ j, forceOf x s j 1) / n)]
  · rw [e, half_sq_sum_zero, sub_eq_zero, sub_eq_zero]
    constructor
    · rintro ⟨a, b⟩ k hk
      interval_cases k
      · exact a
      · exact b
    · exact fun h => ⟨h 0 (by omega), h 1 (by omega)⟩

/-- C24: the force ratio cost is never negative, vanishes exactly when the normal force on the point is the desired share of the
total normal force on the foot, and its derivatives are exact. -/
theorem C24_force_ratio (s : Side) (i : Fin n) (r : ℝ) :
    NonNegative (forceRatio s i r) ∧
    (∀ x u, (forceRatio s i r).value x u = 0 ↔ forceOf x s i 2 = r * ∑ j, forceOf x s j 2) ∧
    ExactGradients (forceRatio s i r) ∧ ExactCostHessians (forceRatio s i r) := by
  have e : ∀ x u, (forceRatio s i r).value x u = 1 / 2 * ((forceOf x s i 2 - r * ∑ j, forceOf x s j 2) * (forceOf x s i 2 - r * ∑ j, forceOf x s j 2)) := by
    intro x u
    simp only [forceRatio, vec3, sumOfNormalForces_eq, forceOf]
    ring
  refine ⟨fun x u => ?_, fun x u => ?_, forceRatio_grad s i r, forceRatio_hess s i r⟩
  · rw [e]; linarith [mul_self_nonneg (forceOf x s i 2 - r * ∑ j, forceOf x s j 2)]
  · rw [e]
    simp [sub_eq_zero]

/-- C24: unless told otherwise, the desired share is the same for all the points of the foot. -/
theorem C24_default_ratio (i : Fin n) : defaultRatio i = 1 / n := by
  simp only [defaultRatio, length_others]

/-- C24: the mean point position cost is never negative (for non-negative weights), vanishes exactly when the mean of the points of
the two feet is the desired position (for positive weights), and its derivatives are exact. -/
theorem C24_mean_point (d w : V3 ℝ) (hn : 0 < n) (w1 : 0 < w.x) (w2 : 0 < w.y) (w3 : 0 < w.z) :
    NonNegative (meanPointPosition (n := n) d w) ∧
    (∀ (x : SVec n) u, (meanPointPosition d w).value x u = 0 ↔ feetCentre x 0 = d.x ∧ feetCentre x 1 = d.y ∧ feetCentre x 2 = d.z) ∧
    ExactGradients (meanPointPosition (n := n) d w) ∧ ExactCostHessians (meanPointPosition (n := n) d w) := by
  have hn' : (n : ℝ) ≠ 0 := by exact_mod_cast hn.ne'
  have hp : ∀ (x : SVec n) a c, posLin (fun _ => 1 / (2 * n)) c a x = feetCentre x a - c := by
    intro x a c
    simp only [posLin, feetCentre, footCentre, positionOf]
    field_simp
  have e : ∀ (x : SVec n) u, (meanPointPosition d w).value x u = 1 / 2 * (w.x * ((feetCentre x 0 - d.x) * (feetCentre x 0 - d.x)) +
      w.y * ((feetCentre x 1 - d.y) * (feetCentre x 1 - d.y)) + w.z * ((feetCentre x 2 - d.z) * (feetCentre x 2 - d.z))) := by
    intro x u
    rw [meanPoint_value, Fin.sum_univ_three]
    simp only [hp]
    simp [at3]
    ring
  refine ⟨fun x u => ?_, fun x u => ?_, meanPoint_grad d w, meanPoint_hess d w⟩
  · rw [e]
    have ha := mul_nonneg w1.le (mul_self_nonneg (feetCentre x 0 - d.x))
    have hb := mul_nonneg w2.le (mul_self_nonneg (feetCentre x 1 - d.y))
    have hc := mul_nonneg w3.le (mul_self_nonneg (feetCentre x 2 - d.z))
    linarith
  · rw [e, sum3_sq_zero w1 w2 w3]
    simp only [sub_eq_zero]

/-- C24: the feet distance cost is half the squared distance of the centres of the two feet; its derivatives are exact. -/
theorem C24_feet_distance (hn : 0 < n) :
    NonNegative (feetDistance (n := n)) ∧
    (∀ (x : SVec n) u, feetDistance.value x u = 0 ↔ ∀ k < 3, footCentre x .left k = footCentre x .right k) ∧
    ExactGradients (feetDistance (n := n)) ∧ ExactCostHessians (feetDistance (n := n)) := by
  have hn' : (n : ℝ) ≠ 0 := by exact_mod_cast hn.ne'
  have hp : ∀ (x : SVec n) a, posLin (feetC n) 0 a x = footCentre x .left a - footCentre x .right a := by
    intro x a
    simp only [posLin, feetC, footCentre, positionOf]
    field_simp
    ring
  have e : ∀ (x : SVec n) u, feetDistance.value x u = 1 / 2 * (1 * ((footCentre x .left 0 - footCentre x .right 0) * (footCentre x .left 0 - footCentre x .right 0)) +
      1 * ((footCentre x .left 1 - footCentre x .right 1) * (footCentre x .left 1 - footCentre x .right 1)) +
      1 * ((footCentre x .left 2 - footCentre x .right 2) * (footCentre x .left 2 - footCentre x .right 2))) := by
    intro x u
    rw [feetDistance_value, Fin.sum_univ_three]
    simp only [hp, Fin.val_zero, Fin.val_one, Fin.val_two]
    ring
  refine ⟨fun x u => ?_, fun x u => ?_, feetDistance_grad, feetDistance_hess⟩
  · rw [e]
    have ha := mul_self_nonneg (footCentre x .left 0 - footCentre x .right 0)
    have hb := mul_self_nonneg (footCentre x .left 1 - footCentre x .right 1)
    have hc := mul_self_nonneg (footCentre x .left 2 - footCentre x .right 2)
    linarith
  · rw [e, sum3_sq_zero one_pos one_pos one_pos]
    simp only [sub_eq_zero]
    constructor
    · rintro ⟨a, b, c⟩ k hk
      interval_cases k
      · exact a
      · exact b
      · exact c
    · exact fun h => ⟨h 0 (by omega), h 1 (by omega), h 2 (by omega)⟩

/-- C24: the complementarity cost is never negative, vanishes exactly when the normal force or the normal velocity is zero, and its
derivatives are exact. -/
theorem C24_complementarity (s : Side) (i : Fin n) :
    NonNegative (complementarityCost s i) ∧
    (∀ x u, (complementarityCost s i).value x u = 0 ↔ forceOf x s i 2 = 0 ∨ u (.velCtl s i, 2) = 0) ∧
    ExactGradients (complementarityCost s i) ∧ ExactCostHessians (complementarityCost s i) := by
  have e : ∀ x u, (complementarityCost s i).value x u = 1 / 2 * (u (.velCtl s i, 2) * forceOf x s i 2 * (u (.velCtl s i, 2) * forceOf x s i 2)) := by
    intro x u; simp only [complementarityCost, vec3, forceOf]; ring
  refine ⟨fun x u => ?_, fun x u => ?_, complementarityCost_grad s i, complementarityCost_hess s i⟩
  · rw [e]; linarith [mul_self_nonneg (u (.velCtl s i, 2) * forceOf x s i 2)]
  · rw [e]
    simp [or_comm]

/-- C24: the joint cost is never negative, vanishes (for non-zero weights) exactly when every joint velocity is the one of the
postural task, minus the gain times the distance from the desired position, and its derivatives are exact. -/
theorem C24_joints (joints : Nat) (w g d : Nat → ℝ) (hw : ∀ k < joints, w k ≠ 0) :
    NonNegative (jointsPostural (n := n) joints w g d) ∧
    (∀ (x : SVec n) u, (jointsPostural joints w g d).value x u = 0 ↔
      ∀ k < joints, u (.jointVel, k) = -(g k * (x (.joints, k) - d k))) ∧
    ExactGradients (jointsPostural (n := n) joints w g d) ∧ ExactCostHessians (jointsPostural (n := n) joints w g d) := by
  have hpos : ∀ (x : SVec n) (u : CVec n) k, 0 ≤ 1 / 2 * 1 * ((w k * u (.jointVel, k) + w k * g k * (x (.joints, k) - d k)) * (w k * u (.jointVel, k) + w k * g k * (x (.joints, k) - d k))) := by
    intro x u k
    linarith [mul_self_nonneg (w k * u (.jointVel, k) + w k * g k * (x (.joints, k) - d k))]
  refine ⟨fun x u => ?_, fun x u => ?_, jointsPostural_grad joints w g d, jointsPostural_hess joints w g d⟩
  · rw [jointsPostural_value]
    exact Finset.sum_nonneg fun k _ => hpos x u k
  · rw [jointsPostural_value, Finset.sum_eq_zero_iff_of_nonneg fun k _ => hpos x u k]
    constructor
    · intro h k hk
      have := h k (Finset.mem_range.2 hk)
      have h2 : w k * (u (.jointVel, k) + g k * (x (.joints, k) - d k)) = 0 := by
        have : (w k * u (.jointVel, k) + w k * g k * (x (.joints, k) - d k)) * (w k * u (.jointVel, k) + w k * g k * (x (.joints, k) - d k)) = 0 := by linarith
        have := mul_self_eq_zero.1 this
        linarith
      have := (mul_eq_zero.1 h2).resolve_left (hw k hk)
      linarith
    · intro h k hk
      rw [h k (Finset.mem_range.1 hk)]
      ring

/-- Two points per foot, one swinging at the right height, one not. -/
example : (swing (n := 2) .left 0 1 ⟨1, 1, 1⟩).value (fun p => if p = (.pos .left 0, 2) then 1 else 0) (fun _ => 3) = 0 ∧
    (swing (n := 2) .left 1 1 ⟨1, 1, 1⟩).value (fun p => if p = (.pos .left 0, 2) then 1 else 0) (fun _ => 3) ≠ 0 := by
  constructor <;> simp [swing, vec3] <;> norm_num

/-! ### C23 -/

/-- C23: the phantom force cost is never negative and vanishes exactly when the normal force is zero or the activation is one; its
gradients are exact. -/
theorem C23_value_and_gradients (s : Side) (i : Fin n) (act : Params) :
    NonNegative (phantomForces s i act) ∧
    (∀ x u, (phantomForces s i act).value x u = 0 ↔ forceOf x s i 2 = 0 ∨ (Fn.mk .secant act).eval (positionOf x s i 2) = 1) ∧
    ExactGradients (phantomForces s i act) := by
  have e : ∀ x u, (phantomForces s i act).value x u = 1 / 2 * ((1 - (Fn.mk .secant act).eval (positionOf x s i 2)) * forceOf x s i 2 * ((1 - (Fn.mk .secant act).eval (positionOf x s i 2)) * forceOf x s i 2)) := by
    intro x u; simp only [phantomForces, vec3, forceOf, positionOf]; ring
  refine ⟨fun x u => ?_, fun x u => ?_, phantomForces_grad s i act⟩
  · rw [e]; linarith [mul_self_nonneg ((1 - (Fn.mk .secant act).eval (positionOf x s i 2)) * forceOf x s i 2)]
  · rw [e]
    simp only [mul_eq_zero, sub_eq_zero, one_div, inv_eq_zero, OfNat.ofNat_ne_zero, false_or, or_self]
    rw [or_comm, eq_comm (a := (1 : ℝ))]

/-- C23: with an enabled activation of non-zero scaling, the cost vanishes exactly at zero force or on the ground. -/
theorem C23_vanishes (s : Side) (i : Fin n) (act : Params) (he : act.disabled = false) (hK : act.K ≠ 0) (x : SVec n) (u : CVec n) :
    (phantomForces s i act).value x u = 0 ↔ forceOf x s i 2 = 0 ∨ positionOf x s i 2 = 0 := by
  rw [(C23_value_and_gradients s i act).2.1]
  have : (Fn.mk .secant act).eval (positionOf x s i 2) = 1 ↔ positionOf x s i 2 = 0 := by
    simp only [Fn.eval, he, Bool.false_eq_true, if_false]
    rw [div_eq_one_iff_eq (Real.cosh_pos _).ne', eq_comm]
    constructor
    · intro h
      by_contra hne
      exact absurd h (Real.one_lt_cosh.2 (mul_ne_zero hK hne)).ne'
    · intro h; simp [h]
  rw [this]

/-- C23 (part).  Full statement: `ExactCostHessians (phantomForces s i act)`.  It is false: the height-height entry is wrong, see
`C23_negation`.  Proved here: writing the right value in that single entry makes the second derivatives exact, and the others
(control, mixed) are exact. -/
theorem C23_hessian_partial (s : Side) (i : Fin n) (act : Params) (x : SVec n) (u : CVec n) :
    (∃ v, HessAt (fun y => (phantomForces s i act).value y u)
      (put ((phantomForces s i act).stateHess x u fun _ _ => 0) (.pos s i, 2) (.pos s i, 2) v) x) ∧
    HessAt (fun v => (phantomForces s i act).value x v) ((phantomForces s i act).ctrlHess x u fun _ _ => 0) u ∧
    MixedAt (phantomForces s i act).value ((phantomForces s i act).mixedHess x u fun _ _ => 0) x u :=
  ⟨⟨_, phantomForces_true_hess s i act x u⟩, ⟨fun _ _ => 0, fun _ => GradAt.const _ _, fun _ => GradAt.const _ _⟩,
    mixed_zero _ x u (fun y => (phantomForces s i act).stateGrad y u fun _ => 0) fun y v => (phantomForces_grad s i act y v).1⟩

/-- C23 (finding): the second derivatives returned are the true ones exactly when this product is zero: the code forgets a factor
`fz` in the term with the second derivative of the activation. -/
theorem C23_when_exact (s : Side) (i : Fin n) (act : Params) (x : SVec n) (u : CVec n) :
    HessAt (fun y => (phantomForces s i act).value y u) ((phantomForces s i act).stateHess x u fun _ _ => 0) x ↔
      (1 - (Fn.mk .secant act).eval (positionOf x s i 2)) * forceOf x s i 2 * (Fn.mk .secant act).evalDoubleDerivative (positionOf x s i 2) *
        (forceOf x s i 2 - 1) = 0 := by
  have ht := phantomForces_true_hess s i act x u
  have key : (phantomForces s i act).stateHess x u (fun _ _ => 0) = phantomTrue s i act x u ↔
      (1 - (Fn.mk .secant act).eval (positionOf x s i 2)) * forceOf x s i 2 * (Fn.mk .secant act).evalDoubleDerivative (positionOf x s i 2) *
        (forceOf x s i 2 - 1) = 0 := by
    constructor
    · intro h
      have := congrFun (congrFun h (.pos s i, 2)) (.pos s i, 2)
      simp [phantomTrue, phantomForces, put_apply, vec3] at this
      simp only [forceOf, positionOf]
      linear_combination -this
    · intro h
      funext p q
      simp only [forceOf, positionOf] at h
      by_cases c : p = (.pos s i, 2) ∧ q = (.pos s i, 2)
      · obtain ⟨rfl, rfl⟩ := c
        simp [phantomTrue, phantomForces, put_apply, vec3]
        linear_combination -h
      · simp [phantomTrue, put_apply, c]
  constructor
  · intro h; exact key.1 (h.unique ht)
  · intro h; rw [key.2 h]; exact ht

/-- C23 (negation): there are a height and a force where the second derivative returned is wrong. -/
theorem C23_negation (s : Side) (i : Fin n) : ¬ ExactCostHessians (phantomForces s i {}) := by
  intro h
  have := (C23_when_exact s i {} (fun p => if p = (.pos s i, 2) then Real.log 3 else 2) (fun _ => 0)).1 (h _ _).1
  simp only [forceOf, positionOf, Fn.eval, Fn.evalDoubleDerivative, Fn.evalDerivative] at this
  simp [Real.tanh_eq_sinh_div_cosh, Real.cosh_log, Real.sinh_log] at this
  norm_num at this

/-! ### C43 for the costs -/

/-- C43: every second derivative of the costs that can be non-zero is declared. -/
theorem C43_costs (s : Side) (i br tr tl : Fin n) (act : Params) (h r a b : ℝ) (w d : V3 ℝ) (joints : Nat) (wj gj dj : Nat → ℝ) :
    CostSparsityCovers (swing s i h w) ∧ CostSparsityCovers (phantomForces s i act) ∧ CostSparsityCovers (complementarityCost s i) ∧
    CostSparsityCovers (forceMean s i) ∧ CostSparsityCovers (forceRatio s i r) ∧ CostSparsityCovers (meanPointPosition (n := n) d w) ∧
    CostSparsityCovers (feetDistance (n := n)) ∧ CostSparsityCovers (jointsPostural (n := n) joints wj gj dj) ∧
    CostSparsityCovers (footYaw s br tr tl a b) :=
  ⟨swing_sparsity _ _ _ _, phantomForces_sparsity _ _ _, complementarityCost_sparsity _ _, forceMean_sparsity _ _, forceRatio_sparsity _ _ _,
    meanPoint_sparsity _ _, feetDistance_sparsity, jointsPostural_sparsity _ _ _ _, footYaw_sparsity _ _ _ _ _ _⟩

/-! ### C39 -/

/-- C39: the cost is zero exactly when the edge from the bottom right to the top right corner is parallel to the direction the cost
aims at, and the edge from the top right to the top left corner is orthogonal to it. -/
theorem C39_alignment (s : Side) (br tr tl : Fin n) (initial desired : ℝ) :
    NonNegative (footYaw s br tr tl initial desired) ∧
    ∀ x u, (footYaw s br tr tl initial desired).value x u = 0 ↔
      ParallelTo (desired - initial) (positionOf x s tr 0 - positionOf x s br 0) (positionOf x s tr 1 - positionOf x s br 1) ∧
      OrthogonalTo (desired - initial) (positionOf x s tl 0 - positionOf x s tr 0) (positionOf x s tl 1 - positionOf x s tr 1) := by
  refine ⟨fun x u => ?_, fun x u => ?_⟩
  · simp only [footYaw]
    nlinarith [mul_self_nonneg ((vec3 x (.pos s tr) - vec3 x (.pos s br)).y * Real.cos (desired - initial) - (vec3 x (.pos s tr) - vec3 x (.pos s br)).x * Real.sin (desired - initial)),
      mul_self_nonneg ((vec3 x (.pos s tl) - vec3 x (.pos s tr)).x * Real.cos (desired - initial) + (vec3 x (.pos s tl) - vec3 x (.pos s tr)).y * Real.sin (desired - initial))]
  · rw [ParallelTo, OrthogonalTo, ← sub_eq_zero (b := (positionOf x s tr 1 - positionOf x s br 1) * Real.cos (desired - initial)),
      ← neg_eq_zero (a := (positionOf x s tr 0 - positionOf x s br 0) * Real.sin (desired - initial) - _), ← half_sq_sum_zero]
    simp only [footYaw, vec3, positionOf, V3.sub_x, V3.sub_y]
    constructor <;> intro h <;> linear_combination h

theorem arg_edge (a b : V3 ℝ) :
    (a - b).x = ‖(⟨(a - b).x, (a - b).y⟩ : ℂ)‖ * Real.cos (initialYaw a b) ∧ (a - b).y = ‖(⟨(a - b).x, (a - b).y⟩ : ℂ)‖ * Real.sin (initialYaw a b) := by
  simp only [initialYaw]
  exact ⟨(Complex.norm_mul_cos_arg ⟨(a - b).x, (a - b).y⟩).symm, (Complex.norm_mul_sin_arg ⟨(a - b).x, (a - b).y⟩).symm⟩

/-- C39 (what the cost measures): for a rigid flat foot with yaw `θ` whose two edges are orthogonal, the cost is the squared sine
of `θ - desired + 2 initialYaw`, where the initial yaw is the angle of the right edge in the foot frame. -/
theorem C39_measured (P : Fin n → V3 ℝ) (s : Side) (br tr tl : Fin n) (tx ty θ desired : ℝ) (x : SVec n) (u : CVec n)
    (hx : PlacedAt P s tx ty θ x)
    (ho : ((P tr).x - (P br).x) * ((P tl).x - (P tr).x) + ((P tr).y - (P br).y) * ((P tl).y - (P tr).y) = 0)
    (he : (P tr).x ≠ (P br).x ∨ (P tr).y ≠ (P br).y) :
    (footYaw s br tr tl (initialYaw (P tr) (P br)) desired).value x u =
      1 / 2 * (((P tr).x - (P br).x) ^ 2 + ((P tr).y - (P br).y) ^ 2 + (((P tl).x - (P tr).x) ^ 2 + ((P tl).y - (P tr).y) ^ 2)) *
        Real.sin (θ - desired + 2 * initialYaw (P tr) (P br)) ^ 2 := by
  obtain ⟨h1, h2⟩ := arg_edge (P tr) (P br)
  set ψ := initialYaw (P tr) (P br) with hψ
  set L := ‖(⟨(P tr - P br).x, (P tr - P br).y⟩ : ℂ)‖ with hL
  rw [V3.sub_x] at h1
  rw [V3.sub_y] at h2
  have hL0 : L ≠ 0 := by
    intro h0
    rw [h0, zero_mul] at h1 h2
    rcases he with h | h
    · exact h (sub_eq_zero.1 h1)
    · exact h (sub_eq_zero.1 h2)
  -- the second edge is a multiple of the first rotated by a right angle
  obtain ⟨c, hc1, hc2⟩ : ∃ c, (P tl).x - (P tr).x = -c * Real.sin ψ ∧ (P tl).y - (P tr).y = c * Real.cos ψ := by
    rw [h1, h2] at ho
    have ho' : Real.cos ψ * ((P tl).x - (P tr).x) + Real.sin ψ * ((P tl).y - (P tr).y) = 0 := by
      have : L * (Real.cos ψ * ((P tl).x - (P tr).x) + Real.sin ψ * ((P tl).y - (P tr).y)) = 0 := by linear_combination ho
      exact (mul_eq_zero.1 this).resolve_left hL0
    refine ⟨Real.cos ψ * ((P tl).y - (P tr).y) - Real.sin ψ * ((P tl).x - (P tr).x), ?_, ?_⟩
    · have := Real.sin_sq_add_cos_sq ψ
      linear_combination Real.cos ψ * ho' - ((P tl).x - (P tr).x) * this
    · have := Real.sin_sq_add_cos_sq ψ
      linear_combination Real.sin ψ * ho' - ((P tl).y - (P tr).y) * this
  have e0 := fun i => (hx i).1
  have e1 := fun i => (hx i).2
  simp only [positionOf] at e0 e1
  simp only [footYaw, vec3, V3.sub_x, V3.sub_y, e0, e1]
  have a1 : (P tr).x = (P br).x + L * Real.cos ψ := by linarith
  have a2 : (P tr).y = (P br).y + L * Real.sin ψ := by linarith
  have a3 : (P tl).x = (P tr).x - c * Real.sin ψ := by linarith
  have a4 : (P tl).y = (P tr).y + c * Real.cos ψ := by linarith
  have s1 : Real.sin (θ - desired + 2 * ψ) = Real.sin (θ + ψ) * Real.cos (desired - ψ) - Real.cos (θ + ψ) * Real.sin (desired - ψ) := by
    rw [← Real.sin_sub]; congr 1; ring
  have t1 : ((ty + (Real.sin θ * (P tr).x + Real.cos θ * (P tr).y)) - (ty + (Real.sin θ * (P br).x + Real.cos θ * (P br).y))) * Real.cos (desired - ψ) -
      ((tx + (Real.cos θ * (P tr).x - Real.sin θ * (P tr).y)) - (tx + (Real.cos θ * (P br).x - Real.sin θ * (P br).y))) * Real.sin (desired - ψ) =
      L * Real.sin (θ - desired + 2 * ψ) := by
    rw [s1, Real.sin_add, Real.cos_add, a1, a2]; ring
  have t2 : ((tx + (Real.cos θ * (P tl).x - Real.sin θ * (P tl).y)) - (tx + (Real.cos θ * (P tr).x - Real.sin θ * (P tr).y))) * Real.cos (desired - ψ) +
      ((ty + (Real.sin θ * (P tl).x + Real.cos θ * (P tl).y)) - (ty + (Real.sin θ * (P tr).x + Real.cos θ * (P tr).y))) * Real.sin (desired - ψ) =
      -c * Real.sin (θ - desired + 2 * ψ) := by
    rw [s1, Real.sin_add, Real.cos_add, a3, a4]; ring
  rw [t1, t2, h1, h2, hc1, hc2]
  have := Real.sin_sq_add_cos_sq ψ
  linear_combination (-(1 / 2) * (L ^ 2 + c ^ 2) * Real.sin (θ - desired + 2 * ψ) ^ 2) * this

/-- C39 (part).  Full statement: for every foot the cost vanishes exactly when the yaw is the desired one (up to half a turn).  It
is false (see `C39_negation`); proved here for feet whose right edge is along the `x` axis of the foot frame. -/
theorem C39_yaw_partial (P : Fin n → V3 ℝ) (s : Side) (br tr tl : Fin n) (tx ty θ desired : ℝ) (x : SVec n) (u : CVec n)
    (hx : PlacedAt P s tx ty θ x) (h1 : (P tr).y = (P br).y) (h2 : (P br).x < (P tr).x) (h3 : (P tl).x = (P tr).x) :
    (footYaw s br tr tl (initialYaw (P tr) (P br)) desired).value x u = 0 ↔ ∃ k : ℤ, θ = desired + k * Real.pi := by
  have h0 : initialYaw (P tr) (P br) = 0 := by
    simp only [initialYaw, V3.sub_x, V3.sub_y, h1, sub_self]
    exact Complex.arg_ofReal_of_nonneg (x := (P tr).x - (P br).x) (by linarith)
  rw [C39_measured P s br tr tl tx ty θ desired x u hx (by rw [h1, h3]; ring) (Or.inl h2.ne'), h0]
  rw [show θ - desired + 2 * 0 = θ - desired by ring]
  have hp : 0 < ((P tr).x - (P br).x) ^ 2 + ((P tr).y - (P br).y) ^ 2 + (((P tl).x - (P tr).x) ^ 2 + ((P tl).y - (P tr).y) ^ 2) := by
    have : 0 < ((P tr).x - (P br).x) ^ 2 := by have := sub_pos.2 h2; positivity
    positivity
  rw [mul_eq_zero, or_iff_right (by positivity), pow_eq_zero_iff (by norm_num), Real.sin_eq_zero_iff]
  constructor
  · rintro ⟨k, hk⟩; exact ⟨k, by linarith⟩
  · rintro ⟨k, hk⟩; exact ⟨k, by linarith⟩

/-! The corners -/

open Classical in
/-- Bookkeeping of one corner. -/
noncomputable def best (Q : V3 ℝ → Prop) (f : V3 ℝ → ℝ) (acc : Option Nat × ℝ) (e : V3 ℝ × Nat) : Option Nat × ℝ :=
  if Q e.1 ∧ (acc.1 = none ∨ f e.1 > acc.2) then (some e.2, f e.1) else acc

theorem best_spec (Q : V3 ℝ → Prop) (f : V3 ℝ → ℝ) (l : List (V3 ℝ × Nat)) :
    let r := l.foldl (best Q f) (none, 0)
    (r.1 = none → ∀ e ∈ l, ¬ Q e.1) ∧
    ∀ k, r.1 = some k → ∃ p, (p, k) ∈ l ∧ Q p ∧ f p = r.2 ∧ ∀ e ∈ l, Q e.1 → f e.1 ≤ r.2 := by
  induction l using List.reverseRecOn with
  | nil => simp
  | append_singleton l e ih =>
    rw [List.foldl_append, List.foldl_cons, List.foldl_nil]
    set r := l.foldl (best Q f) (none, 0) with hr
    clear_value r
    obtain ⟨r1, r2⟩ := r
    dsimp only at ih ⊢
    obtain ⟨ih1, ih2⟩ := ih
    unfold best
    by_cases hq : Q e.1 ∧ (r1 = none ∨ f e.1 > r2)
    · rw [if_pos hq]
      refine ⟨fun h => by simp at h, ?_⟩
      intro k hk
      simp only [Option.some.injEq] at hk
      subst hk
      refine ⟨e.1, by simp, hq.1, rfl, ?_⟩
      intro e' he' hq'
      rcases List.mem_append.1 he' with h | h
      · rcases hq.2 with h0 | h0
        · exact absurd hq' (ih1 h0 e' h)
        · cases r1 with
          | none => exact absurd hq' (ih1 rfl e' h)
          | some k' =>
            obtain ⟨p, -, -, -, hh⟩ := ih2 k' rfl
            exact (hh e' h hq').trans h0.le
      · rw [List.mem_singleton.1 h]
    · rw [if_neg hq]
      refine ⟨?_, ?_⟩
      · intro h e' he'
        rcases List.mem_append.1 he' with h' | h'
        · exact ih1 h e' h'
        · rw [List.mem_singleton.1 h']
          exact fun hQ => hq ⟨hQ, Or.inl h⟩
      · intro k hk
        obtain ⟨p, h1, h2, h3, h4⟩ := ih2 k hk
        refine ⟨p, List.mem_append_left _ h1, h2, h3, ?_⟩
        intro e' he' hq'
        rcases List.mem_append.1 he' with h' | h'
        · exact h4 e' h' hq'
        · rw [List.mem_singleton.1 h'] at hq' ⊢
          by_contra hlt
          exact hq ⟨hq', Or.inr (not_le.1 hlt)⟩

open Classical in
theorem corners_best (c : V3 ℝ) (l : List (V3 ℝ × Nat)) :
    let r := l.foldl (cornersStep c) {}
    (r.bottomRight, r.bottomRightValue) = l.foldl (best (fun p => (p - c).y < 0 ∧ (p - c).x < 0) fun p => (p - c).x * (p - c).y) (none, 0) ∧
    (r.topRight, r.topRightValue) = l.foldl (best (fun p => (p - c).y < 0 ∧ (p - c).x > 0) fun p => -(p - c).x * (p - c).y) (none, 0) ∧
    (r.topLeft, r.topLeftValue) = l.foldl (best (fun p => ¬ (p - c).y < 0 ∧ (p - c).x > 0) fun p => (p - c).x * (p - c).y) (none, 0) := by
  induction l using List.reverseRecOn with
  | nil => exact ⟨rfl, rfl, rfl⟩
  | append_singleton l e ih =>
    simp only [List.foldl_append, List.foldl_cons, List.foldl_nil]
    dsimp only at ih
    rw [← ih.1, ← ih.2.1, ← ih.2.2]
    generalize l.foldl (cornersStep c) {} = r
    unfold cornersStep best
    dsimp only
    refine ⟨?_, ?_, ?_⟩ <;> (split_ifs <;> grind)

theorem largest_of_best (points : List (V3 ℝ)) (Q : V3 ℝ → Prop) (f : V3 ℝ → ℝ) :
    let r := points.zipIdx.foldl (best Q f) (none, 0)
    (r.1 = none → ∀ p ∈ points, ¬ Q p) ∧ ∀ k, r.1 = some k → IsLargest points Q f k := by
  obtain ⟨h1, h2⟩ := best_spec Q f points.zipIdx
  refine ⟨fun h p hp => ?_, fun k hk => ?_⟩
  · obtain ⟨i, hi, rfl⟩ := List.getElem_of_mem hp
    exact h1 h (points[i], i) (by simp [List.mk_mem_zipIdx_iff_getElem?, hi])
  · obtain ⟨p, hp, hq, hv, hm⟩ := h2 k hk
    rw [List.mk_mem_zipIdx_iff_getElem?] at hp
    refine ⟨p, hp, hq, fun q hq1 hq2 => ?_⟩
    obtain ⟨i, hi, rfl⟩ := List.getElem_of_mem hq1
    have := hm (points[i], i) (by simp [List.mk_mem_zipIdx_iff_getElem?, hi]) hq2
    rw [hv]
    exact this

/-- C39: a corner is chosen whenever there is a point in its quadrant (relative to the centroid), and it is the point of the
quadrant with the largest product of the absolute values of the coordinates. -/
theorem C39_corners (points : List (V3 ℝ)) :
    let c := centroid points
    let r := corners points
    ((r.bottomRight = none → ∀ p ∈ points, ¬ (p.y < c.y ∧ p.x < c.x)) ∧
      ∀ k, r.bottomRight = some k → IsLargest points (fun p => p.y < c.y ∧ p.x < c.x) (fun p => |p.x - c.x| * |p.y - c.y|) k) ∧
    ((r.topRight = none → ∀ p ∈ points, ¬ (p.y < c.y ∧ c.x < p.x)) ∧
      ∀ k, r.topRight = some k → IsLargest points (fun p => p.y < c.y ∧ c.x < p.x) (fun p => |p.x - c.x| * |p.y - c.y|) k) ∧
    ((r.topLeft = none → ∀ p ∈ points, ¬ (c.y ≤ p.y ∧ c.x < p.x)) ∧
      ∀ k, r.topLeft = some k → IsLargest points (fun p => c.y ≤ p.y ∧ c.x < p.x) (fun p => |p.x - c.x| * |p.y - c.y|) k) := by
  classical
  intro c r
  obtain ⟨h1, h2, h3⟩ := corners_best c points.zipIdx
  have conv : ∀ (Q Q' : V3 ℝ → Prop) (f f' : V3 ℝ → ℝ) k, (∀ p, Q p ↔ Q' p) → (∀ p, Q p → f p = f' p) → IsLargest points Q f k → IsLargest points Q' f' k := by
    rintro Q Q' f f' k hQ hf ⟨p, hp, hq, hm⟩
    refine ⟨p, hp, (hQ p).1 hq, fun q hq1 hq2 => ?_⟩
    rw [← hf p hq, ← hf q ((hQ q).2 hq2)]
    exact hm q hq1 ((hQ q).2 hq2)
  refine ⟨?_, ?_, ?_⟩
  · have hl := largest_of_best points (fun p => (p - c).y < 0 ∧ (p - c).x < 0) (fun p => (p - c).x * (p - c).y)
    rw [← h1] at hl
    have hQ : ∀ p, ((p - c).y < 0 ∧ (p - c).x < 0) ↔ (p.y < c.y ∧ p.x < c.x) := fun p => by simp
    refine ⟨fun h p hp hq => hl.1 h p hp ((hQ p).2 hq), fun k hk => conv _ _ _ _ k hQ ?_ (hl.2 k hk)⟩
    rintro p ⟨a, b⟩
    rw [V3.sub_x] at *
    rw [V3.sub_y] at *
    rw [abs_of_neg b, abs_of_neg a]; ring
  · have hl := largest_of_best points (fun p => (p - c).y < 0 ∧ (p - c).x > 0) (fun p => -(p - c).x * (p - c).y)
    rw [← h2] at hl
    have hQ : ∀ p, ((p - c).y < 0 ∧ (p - c).x > 0) ↔ (p.y < c.y ∧ c.x < p.x) := fun p => by simp
    refine ⟨fun h p hp hq => hl.1 h p hp ((hQ p).2 hq), fun k hk => conv _ _ _ _ k hQ ?_ (hl.2 k hk)⟩
    rintro p ⟨a, b⟩
    rw [V3.sub_x] at *
    rw [V3.sub_y] at *
    rw [abs_of_pos b, abs_of_neg a]; ring
  · have hl := largest_of_best points (fun p => ¬ (p - c).y < 0 ∧ (p - c).x > 0) (fun p => (p - c).x * (p - c).y)
    rw [← h3] at hl
    have hQ : ∀ p, (¬ (p - c).y < 0 ∧ (p - c).x > 0) ↔ (c.y ≤ p.y ∧ c.x < p.x) := fun p => by simp
    refine ⟨fun h p hp hq => hl.1 h p hp ((hQ p).2 hq), fun k hk => conv _ _ _ _ k hQ ?_ (hl.2 k hk)⟩
    rintro p ⟨a, b⟩
    rw [V3.sub_x] at *
    rw [V3.sub_y] at *
    rw [abs_of_pos b, abs_of_nonneg (not_lt.1 a)]

/-- C39: the corners chosen are distinct, so the gradient and the second derivatives are exact for every foot. -/
theorem C39_derivatives (points : List (V3 ℝ)) (s : Side) (br tr tl : Fin n) (initial desired : ℝ)
    (h1 : (corners points).bottomRight = some br) (h2 : (corners points).topRight = some tr) (h3 : (corners points).topLeft = some tl) :
    br ≠ tr ∧ tr ≠ tl ∧ br ≠ tl ∧ ExactGradients (footYaw s br tr tl initial desired) ∧ ExactCostHessians (footYaw s br tr tl initial desired) := by
  obtain ⟨⟨-, a⟩, ⟨-, b⟩, ⟨-, c⟩⟩ := C39_corners points
  obtain ⟨p, hp, hq, -⟩ := a _ h1
  obtain ⟨p', hp', hq', -⟩ := b _ h2
  obtain ⟨p'', hp'', hq'', -⟩ := c _ h3
  have n1 : br ≠ tr := by
    rintro rfl
    rw [hp] at hp'
    cases hp'
    exact lt_asymm hq.2 hq'.2
  have n2 : tr ≠ tl := by
    rintro rfl
    rw [hp'] at hp''
    cases hp''
    exact not_lt.2 hq''.1 hq'.1
  have n3 : br ≠ tl := by
    rintro rfl
    rw [hp] at hp''
    cases hp''
    exact lt_asymm hq.2 hq''.2
  exact ⟨n1, n2, n3, footYaw_grad s br tr tl initial desired n1 n2 n3, footYaw_hess s br tr tl initial desired n1 n2 n3⟩

/-- A rectangular foot turned with respect to the foot frame. -/
noncomputable def turned : List (V3 ℝ) := [⟨-2, -2, 0⟩, ⟨1, -1, 0⟩, ⟨1 / 2, 1 / 2, 0⟩, ⟨-5 / 2, -1 / 2, 0⟩]

/-- A rectangular foot along the axes of the foot frame. -/
noncomputable def straight : List (V3 ℝ) := [⟨-2, -1, 0⟩, ⟨2, -1, 0⟩, ⟨2, 1, 0⟩, ⟨-2, 1, 0⟩]

theorem turned_corners : (corners turned).bottomRight = some 0 ∧ (corners turned).topRight = some 1 ∧ (corners turned).topLeft = some 2 := by
  simp [corners, turned, centroid, cornersStep, List.zipIdx, V3.smul]
  norm_num

theorem straight_corners : (corners straight).bottomRight = some 0 ∧ (corners straight).topRight = some 1 ∧ (corners straight).topLeft = some 2 := by
  simp [corners, straight, centroid, cornersStep, List.zipIdx, V3.smul]
  norm_num

/-- The points of a foot as a function. -/
noncomputable def pointsOf (l : List (V3 ℝ)) : Fin 4 → V3 ℝ := fun i => l.getD i 0

/-- The state with the points of the left foot where they are in the foot frame (yaw zero). -/
noncomputable def atRest (l : List (V3 ℝ)) : SVec 4 := fun p =>
  match p with
  | (.pos .left i, k) => if k = 0 then (pointsOf l i).x else (pointsOf l i).y
  | _ => 0

theorem atRest_placed (l : List (V3 ℝ)) : PlacedAt (pointsOf l) .left 0 0 0 (atRest l) := by
  intro i
  simp [positionOf, atRest]

/-- C39 (negation): for a rectangular foot turned with respect to its frame, with the corners chosen by the constructor, the cost
is not zero although the yaw (zero) is the desired one. -/
theorem C39_negation :
    (corners turned).bottomRight = some 0 ∧ (corners turned).topRight = some 1 ∧ (corners turned).topLeft = some 2 ∧
    PlacedAt (pointsOf turned) .left 0 0 0 (atRest turned) ∧
    (footYaw .left 0 1 2 (initialYaw (pointsOf turned 1) (pointsOf turned 0)) 0).value (atRest turned) (fun _ => 0) ≠ 0 := by
  refine ⟨turned_corners.1, turned_corners.2.1, turned_corners.2.2, atRest_placed _, ?_⟩
  rw [C39_measured (pointsOf turned) .left 0 1 2 0 0 0 0 _ _ (atRest_placed _) (by norm_num [pointsOf, turned]) (Or.inl (by norm_num [pointsOf, turned]))]
  obtain ⟨h1, h2⟩ := arg_edge (pointsOf turned 1) (pointsOf turned 0)
  set ψ := initialYaw (pointsOf turned 1) (pointsOf turned 0)
  set L := ‖(⟨(pointsOf turned 1 - pointsOf turned 0).x, (pointsOf turned 1 - pointsOf turned 0).y⟩ : ℂ)‖
  have e1 : (3 : ℝ) = L * Real.cos ψ := by rw [← h1]; norm_num [pointsOf, turned]
  have e2 : (1 : ℝ) = L * Real.sin ψ := by rw [← h2]; norm_num [pointsOf, turned]
  have hs : Real.sin (0 - 0 + 2 * ψ) ≠ 0 := by
    rw [show (0 : ℝ) - 0 + 2 * ψ = 2 * ψ by ring, Real.sin_two_mul]
    intro h0
    have : (3 : ℝ) * 1 = 0 := by
      rw [e1]
      nth_rewrite 1 [show (1 : ℝ) = L * Real.sin ψ from e2]
      linear_combination (L * L / 2) * h0
    norm_num at this
  have hp : (1 : ℝ) / 2 * (((pointsOf turned 1).x - (pointsOf turned 0).x) ^ 2 + ((pointsOf turned 1).y - (pointsOf turned 0).y) ^ 2 +
      (((pointsOf turned 2).x - (pointsOf turned 1).x) ^ 2 + ((pointsOf turned 2).y - (pointsOf turned 1).y) ^ 2)) ≠ 0 := by
    norm_num [pointsOf, turned]
  exact mul_ne_zero hp (pow_ne_zero 2 hs)

/-- The hypotheses of `C39_yaw_partial` and `C39_derivatives` are met by a foot along the axes. -/
example : (corners straight).bottomRight = some (0 : Fin 4) ∧ (corners straight).topRight = some (1 : Fin 4) ∧ (corners straight).topLeft = some (2 : Fin 4) ∧
    PlacedAt (pointsOf straight) .left 0 0 0 (atRest straight) ∧ (pointsOf straight 1).y = (pointsOf straight 0).y ∧
    (pointsOf straight 0).x < (pointsOf straight 1).x ∧ (pointsOf straight 2).x = (pointsOf straight 1).x :=
  ⟨straight_corners.1, straight_corners.2.1, straight_corners.2.2, atRest_placed _, by norm_num [pointsOf, straight], by norm_num [pointsOf, straight], by norm_num [pointsOf, straight]⟩

/-! ### C50: reference of the centre of mass velocity cost -/

/-- C50: the momentum reference is the mass times the velocity reference, and is valid exactly when the velocity reference is valid
and has three components; otherwise it is zero and flagged. -/
theorem C50_momentum_reference (m : ℝ) (v : List ℝ) (valid : Bool) :
    ((linearMomentumReference m (v, valid)).2 = true ↔ valid = true ∧ v.length = 3) ∧
    (linearMomentumReference m (v, valid)).1.length = 3 ∧
    (valid = true → ∀ a b c, v = [a, b, c] → linearMomentumReference m (v, valid) = ([m * a, m * b, m * c], true)) ∧
    ((linearMomentumReference m (v, valid)).2 = false → (linearMomentumReference m (v, valid)).1 = [0, 0, 0]) := by
  by_cases h1 : valid = false
  · subst h1
    simp [linearMomentumReference]
  · have h1 : valid = true := by simpa using h1
    subst h1
    by_cases h2 : v.length = 3
    · have e : linearMomentumReference m (v, true) = (v.map (m * ·), true) := by simp [linearMomentumReference, h2]
      rw [e]
      simp [h2]
      rintro a b c rfl
      simp
    · have e : linearMomentumReference m (v, true) = ([0, 0, 0], false) := by simp [linearMomentumReference, h2]
      rw [e]
      simp [h2]
      rintro a b c rfl
      simp at h2

end Verif.NLP
