import Verif.Lemmas.Constraints
import Mathlib.Analysis.Calculus.Deriv.MeanValue
import Mathlib.Analysis.SpecialFunctions.ExpDeriv
/- C19 (single point), C20, C21, C22, C32, C40, C43, C44, C45: smoothing functions and constraints. -/
set_option linter.unusedSectionVars false
set_option linter.unusedSimpArgs false

namespace Verif.Smooth

/-- C32.  The derivative functions return the true first and second derivatives of the value, for every object. -/
theorem C32_derivatives (f : Fn) (x : ℝ) :
    HasDerivAt f.eval (f.evalDerivative x) x ∧ HasDerivAt f.evalDerivative (f.evalDoubleDerivative x) x :=
  ⟨hasDerivAt_eval f x, hasDerivAt_evalDerivative f x⟩

/-- C32.  While enabled the hyperbolic tangent stays strictly within (-1,1), is zero at zero and strictly increasing for a
positive gain; the hyperbolic secant stays in (0,1] and is one at zero. -/
theorem C32_bounds (p : Params) (h : p.disabled = false) (x : ℝ) :
    (-1 < (Fn.mk .tangent p).eval x ∧ (Fn.mk .tangent p).eval x < 1) ∧ (Fn.mk .tangent p).eval 0 = 0 ∧
    (0 < p.K → StrictMono (Fn.mk .tangent p).eval) ∧
    (0 < (Fn.mk .secant p).eval x ∧ (Fn.mk .secant p).eval x ≤ 1) ∧ (Fn.mk .secant p).eval 0 = 1 := by
  refine ⟨⟨?_, ?_⟩, ?_, ?_, ⟨?_, ?_⟩, ?_⟩
  · simpa [Fn.eval, h] using Real.neg_one_lt_tanh _
  · simpa [Fn.eval, h] using Real.tanh_lt_one _
  · simp [Fn.eval, h]
  · intro hK
    apply strictMono_of_hasDerivAt_pos (hasDerivAt_eval ⟨.tangent, p⟩)
    intro y
    have := Real.cosh_pos (p.K * y)
    simp only [Fn.evalDerivative, h, Bool.false_eq_true, if_false]
    positivity
  · simpa [Fn.eval, h] using Real.cosh_pos (p.K * x)
  · simp only [Fn.eval, h, Bool.false_eq_true, if_false]
    rw [div_le_one (Real.cosh_pos _)]
    exact Real.one_le_cosh _
  · simp [Fn.eval, h]

/-- Configuration calls on a smoothing function. -/
inductive Op | scale (k : ℝ) | disable (v : ℝ)

/-- One configuration call. -/
def Params.step (p : Params) : Op → Params
  | .scale k => p.setScaling k
  | .disable v => p.disable v

/-- C32.  After any history of configuration calls: if `disable` was called, the function is the constant of the last
`disable` call, with zero derivatives; otherwise it is the hyperbolic function with the last gain set (initially one). -/
theorem C32_history (k : Kind) (ops : List Op) :
    let p := ops.foldl Params.step {}
    (∀ pre v post, ops = pre ++ .disable v :: post → (∀ w, Op.disable w ∉ post) →
      ∀ x, (Fn.mk k p).eval x = v ∧ (Fn.mk k p).evalDerivative x = 0 ∧ (Fn.mk k p).evalDoubleDerivative x = 0) ∧
    ((∀ w, Op.disable w ∉ ops) → p.disabled = false ∧
      (∀ pre g, ops = pre ++ [.scale g] → p.K = g) ∧ (ops = [] → p.K = 1)) := by
  intro p
  constructor
  · intro pre v post e hp x
    have key : ∀ (post : List Op) (q : Params), (∀ w, Op.disable w ∉ post) → q.disabled = true → q.disabledValue = v →
        (post.foldl Params.step q).disabled = true ∧ (post.foldl Params.step q).disabledValue = v := by
      intro post
      induction post with
      | nil => intro q _ h1 h2; exact ⟨h1, h2⟩
      | cons o post ih =>
        intro q hq h1 h2
        cases o with
        | scale g => exact ih _ (fun w hw => hq w (List.mem_cons_of_mem _ hw)) h1 h2
        | disable w => exact absurd List.mem_cons_self (hq w)
    have hk : p.disabled = true ∧ p.disabledValue = v := by
      have : p = post.foldl Params.step ((pre.foldl Params.step {}).disable v) := by
        show ops.foldl Params.step {} = _
        rw [e, List.foldl_append, List.foldl_cons]; rfl
      rw [this]
      exact key post _ hp rfl rfl
    simp [Fn.eval, Fn.evalDerivative, Fn.evalDoubleDerivative, hk.1, hk.2]
  · intro hn
    refine ⟨?_, ?_, ?_⟩
    · have key : ∀ (l : List Op) (q : Params), (∀ w, Op.disable w ∉ l) → q.disabled = false →
          (l.foldl Params.step q).disabled = false := by
        intro l
        induction l with
        | nil => intro q _ h; exact h
        | cons o l ih =>
          intro q hq h
          cases o with
          | scale g => exact ih _ (fun w hw => hq w (List.mem_cons_of_mem _ hw)) h
          | disable w => exact absurd List.mem_cons_self (hq w)
      exact key ops {} hn rfl
    · intro pre g e
      show (ops.foldl Params.step {}).K = g
      rw [e, List.foldl_append]; rfl
    · intro e
      show (ops.foldl Params.step {}).K = 1
      rw [e]; rfl

example : ([Op.scale 3, .disable 2, .scale 5].foldl Params.step {}) = ⟨5, true, 2⟩ := rfl

/-- Second derivative of the enabled hyperbolic tangent is not zero away from zero. -/
theorem tangent_double_ne (p : Params) (h : p.disabled = false) (hK : 0 < p.K) (x : ℝ) (hx : x ≠ 0) :
    (Fn.mk .tangent p).evalDoubleDerivative x ≠ 0 := by
  have hc := Real.cosh_pos (p.K * x)
  have ht : (Fn.mk .tangent p).eval x ≠ 0 := by
    intro h0
    apply hx
    have := (C32_bounds p h x).2.2.1 hK
    apply this.injective
    rw [h0, (C32_bounds p h x).2.1]
  simp only [Fn.evalDoubleDerivative, h]
  simp only [Bool.false_eq_true, if_false]
  have : (1 / Real.cosh (p.K * x)) ≠ 0 := by positivity
  exact mul_ne_zero (mul_ne_zero (mul_ne_zero (mul_ne_zero (mul_ne_zero (by norm_num) hK.ne') hK.ne') ht) this) this

end Verif.Smooth

namespace Verif.NLP
open Verif.NLP.Spec Verif.Smooth
variable {n : Nat}

/-- C20.  For a positive coefficient, the friction constraint is satisfied exactly when the tangential force is within the
cone. -/
theorem C20_cone (s : Side) (i : Fin n) (mu : ℝ) (hmu : 0 < mu) (x : SVec n) (u : CVec n) :
    (contactFriction s i mu).Holds x u ↔
      Real.sqrt (x (.force s i, 0) ^ 2 + x (.force s i, 1) ^ 2) ≤ mu * |x (.force s i, 2)| := by
  have h0 : 0 ≤ mu * |x (.force s i, 2)| := by positivity
  rw [Real.sqrt_le_left h0, mul_pow, sq_abs]
  constructor
  · intro h
    have := h.2 _ rfl 0
    simp only [contactFriction, vec3] at this
    nlinarith
  · intro h
    refine ⟨fun l hl => by simp [contactFriction] at hl, fun l hl k => ?_⟩
    cases hl
    simp only [contactFriction, vec3]
    nlinarith

/-- C20.  The derivatives of the friction constraint are exact. -/
theorem C20_derivatives (s : Side) (i : Fin n) (mu : ℝ) :
    ExactJacobians (contactFriction s i mu) ∧ ExactHessians (contactFriction s i mu) :=
  ⟨friction_jac s i mu, friction_hess s i mu⟩

/-- C20.  Starting from the constructor's coefficient, after any history of attempts to set it the coefficient is positive, and
it is the last positive value attempted; non-positive attempts are refused. -/
theorem C20_setter (l : List ℝ) :
    let mu := l.foldl (fun old new => (setFrictionCoefficient old new).1) (3 / 10 : ℝ)
    0 < mu ∧ (∀ a, ((setFrictionCoefficient mu a).2 = true ↔ 0 < a) ∧ (a ≤ 0 → (setFrictionCoefficient mu a).1 = mu)) ∧
    (∀ pre a post, l = pre ++ a :: post → 0 < a → (∀ b ∈ post, b ≤ 0) → mu = a) := by
  intro mu
  have hpos : ∀ (l : List ℝ) (m : ℝ), 0 < m → 0 < l.foldl (fun old new => (setFrictionCoefficient old new).1) m := by
    intro l
    induction l with
    | nil => intro m h; exact h
    | cons a l ih =>
      intro m h
      apply ih
      simp only [setFrictionCoefficient]
      split_ifs with ha
      · exact h
      · exact not_le.1 ha
  refine ⟨hpos l _ (by norm_num), ?_, ?_⟩
  · intro a
    unfold setFrictionCoefficient
    split_ifs with ha
    · simp [not_lt.2 ha]
    · simp [not_le.1 ha, ha]
  · intro pre a post e ha hb
    have hkeep : ∀ (l : List ℝ) (m : ℝ), (∀ b ∈ l, b ≤ 0) →
        l.foldl (fun old new => (setFrictionCoefficient old new).1) m = m := by
      intro l
      induction l with
      | nil => intro m _; rfl
      | cons c l ih =>
        intro m h
        rw [List.foldl_cons, ih _ (fun b hb => h b (List.mem_cons_of_mem _ hb))]
        simp [setFrictionCoefficient, h c List.mem_cons_self]
    show l.foldl _ _ = a
    rw [e, List.foldl_append, List.foldl_cons, hkeep _ _ hb]
    simp [setFrictionCoefficient, not_le.2 ha]

/-- Non-vacuity: a force on the boundary of the cone. -/
example : (contactFriction (n := 1) .left 0 (1 / 2)).Holds (fun j => if j = (.force .left 0, 2) then 2 else
    if j = (.force .left 0, 0) then 1 else 0) (fun _ => 0) := by
  refine ⟨fun l hl => by simp [contactFriction] at hl, fun l hl k => ?_⟩
  cases hl
  simp [contactFriction, vec3]

/-- C21.  Exact derivatives of the classical complementarity constraint. -/
theorem C21_classical (s : Side) (i : Fin n) (tol : ℝ) :
    ExactJacobians (classicalComplementarity s i tol) ∧ ExactHessians (classicalComplementarity s i tol) :=
  ⟨classical_jac s i tol, classical_hess s i tol⟩

/-- C21.  Exact derivatives of the classical planar complementarity constraint. -/
theorem C21_planar (s : Side) (i : Fin n) (tol : ℝ) :
    ExactJacobians (classicalPlanarComplementarity s i tol) ∧ ExactHessians (classicalPlanarComplementarity s i tol) :=
  ⟨planar_jac s i tol, planar_hess s i tol⟩

/-- C21.  Exact derivatives of the dynamical complementarity constraint. -/
theorem C21_dynamical (s : Side) (i : Fin n) (g ub : ℝ) :
    ExactJacobians (dynamicalComplementarity s i g ub) ∧ ExactHessians (dynamicalComplementarity s i g ub) :=
  ⟨dynamical_jac s i g ub, dynamical_hess s i g ub⟩

/-- C21.  Exact derivatives of the normal velocity control constraint. -/
theorem C21_normal_velocity (s : Side) (i : Fin n) (act : Params) (M : ℝ) :
    ExactJacobians (normalVelocityControl s i act M) ∧ ExactHessians (normalVelocityControl s i act M) :=
  ⟨normalVelocity_jac s i act M, normalVelocity_hess s i act M⟩

/-- C21.  Exact derivatives of the contact force control constraint. -/
theorem C21_force_control (s : Side) (i : Fin n) (act : Params) (M D : ℝ) :
    ExactJacobians (contactForceControl s i act M D) ∧ ExactHessians (contactForceControl s i act M D) :=
  ⟨forceControl_jac s i act M D, forceControl_hess s i act M D⟩

/-- C21.  Exact derivatives of the quaternion norm constraint. -/
theorem C21_quaternion (tol : ℝ) :
    ExactJacobians (quaternionNorm (n := n) tol) ∧ ExactHessians (quaternionNorm (n := n) tol) :=
  ⟨quaternion_jac tol, quaternion_hess tol⟩

/-- C21.  Exact derivatives of the feet relative height constraint. -/
theorem C21_feet_height (h : ℝ) :
    ExactJacobians (feetRelativeHeight (n := n) h) ∧ ExactHessians (feetRelativeHeight (n := n) h) :=
  ⟨feetRelativeHeight_jac h, feetRelativeHeight_hess h⟩

/-- C21.  What the constraints bound: product of height and normal force; products of planar velocities and normal force;
deviation of the squared quaternion norm from one; difference of the mean heights of the feet. -/
theorem C21_meaning (s : Side) (i : Fin n) (tol : ℝ) (x : SVec n) (u : CVec n) :
    ((classicalComplementarity s i tol).Holds x u ↔ x (.pos s i, 2) * x (.force s i, 2) ≤ tol) ∧
    ((classicalPlanarComplementarity s i tol).Holds x u ↔
      |x (.force s i, 2) * u (.velCtl s i, 0)| ≤ tol ∧ |x (.force s i, 2) * u (.velCtl s i, 1)| ≤ tol) ∧
    ((quaternionNorm tol).Holds x u ↔ |∑ k ∈ Finset.range 4, x (.baseQuat, k) ^ 2 - 1| ≤ tol / 2) ∧
    ((feetRelativeHeight tol).Holds x u ↔
      |(∑ k, x (.pos .left k, 2)) / n - (∑ k, x (.pos .right k, 2)) / n| ≤ tol) := by
  have hq : x (.baseQuat, 0) * x (.baseQuat, 0) + x (.baseQuat, 1) * x (.baseQuat, 1) + x (.baseQuat, 2) * x (.baseQuat, 2)
      + x (.baseQuat, 3) * x (.baseQuat, 3) - 1 = ∑ k ∈ Finset.range 4, x (.baseQuat, k) ^ 2 - 1 := by
    simp [Finset.sum_range_succ]; ring
  refine ⟨?_, ?_, ?_, ?_⟩
  · simp [Constraint.Holds, classicalComplementarity, vec3]
  · simp only [Constraint.Holds, classicalPlanarComplementarity, vec3, Option.some.injEq, forall_eq', Fin.forall_fin_two,
      Matrix.cons_val_zero, Matrix.cons_val_one, abs_le, mul_comm (x (SBlk.force s i, 2))]
    constructor
    · rintro ⟨⟨a, b⟩, c, d⟩; exact ⟨⟨a, c⟩, b, d⟩
    · rintro ⟨⟨a, c⟩, b, d⟩; exact ⟨⟨a, b⟩, c, d⟩
  · simp only [Constraint.Holds, quaternionNorm, Option.some.injEq, forall_eq', Fin.forall_fin_one, hq, abs_le, neg_div]
  · simp only [Constraint.Holds, feetRelativeHeight, Option.some.injEq, forall_eq', Fin.forall_fin_one, sumHeights_eq, abs_le]

/-- Non-vacuity of the derivative claims: an entry that is not trivially zero. -/
example : (dynamicalComplementarity (n := 1) .left 0 2 1).stateJac (fun _ => 1) (fun _ => 1) (fun _ _ => 0) 0
    (.pos .left 0, 2) = 3 := by
  simp [dynamicalComplementarity, put_apply, vec3]
  norm_num

/-- C22.  The Jacobians of the planar velocity constraints are exact, whatever was evaluated before. -/
theorem C22_jacobians (s : Side) (i : Fin n) (act : Params) (Mx My : ℝ) (stored : V3 ℝ) :
    ExactJacobians (planarVelocityControl s i act Mx My stored) := planarVelocity_jac s i act Mx My stored

/-- C22 (part).  Full statement: `ExactHessians` for every history and every multiplier.  It is false (see the two theorems
below); it holds at `x` if the constraint or its state Jacobian was last evaluated at the same point and the two limits
coincide or the second and third multipliers do.  The control and mixed second derivatives are always exact. -/
theorem C22_hessian_partial (s : Side) (i : Fin n) (act : Params) (Mx My : ℝ) (x : SVec n) (u : CVec n) (lam : Fin 4 → ℝ)
    (h : Mx = My ∨ lam 1 = lam 2) :
    let c := planarVelocityControl s i act Mx My (planarVelocityStored s i x)
    HessAt (fun y => weighted c lam y u) (c.stateHess x u lam fun _ _ => 0) x ∧
    HessAt (fun v => weighted c lam x v) (c.ctrlHess x u lam fun _ _ => 0) u ∧
    MixedAt (weighted c lam) (c.mixedHess x u lam fun _ _ => 0) x u := by
  intro c
  have hJ := planarVelocity_jac s i act Mx My (planarVelocityStored s i x)
  have es : ∀ y v, GradAt (fun y' => weighted c lam y' v) (fun i => ∑ a, lam a * c.stateJac y v (fun _ _ => 0) a i) y := by
    intro y v
    simp only [weighted_eq]
    exact GradAt.sum Finset.univ (fun a _ => GradAt.const_mul _ ((hJ y v a).1))
  have ec : ∀ y v, GradAt (fun v' => weighted c lam y v') (fun i => ∑ a, lam a * c.ctrlJac y v (fun _ _ => 0) a i) v := by
    intro y v
    simp only [weighted_eq]
    exact GradAt.sum Finset.univ (fun a _ => GradAt.const_mul _ ((hJ y v a).2))
  refine ⟨?_, ⟨_, fun v => ec x v, fun k => ?_⟩, ⟨_, fun y v => es y v, fun k => ?_⟩⟩
  · have := planarVelocity_true_hess s i act Mx My (planarVelocityStored s i x) x u lam
    have e : ((lam 0 + lam 2) * Mx + (lam 1 + lam 3) * My) = ((lam 0 + lam 1) * Mx + (lam 2 + lam 3) * My) := by
      rcases h with h | h
      · rw [h]; ring
      · rw [h]
    rw [e] at this
    exact this
  · exact (GradAt.const (∑ a, lam a * c.ctrlJac x u (fun _ _ => 0) a k) u).congr fun _ => rfl
  · exact (GradAt.const (∑ a, lam a * c.stateJac x u (fun _ _ => 0) a k) u).congr fun _ => rfl

/-- C22 is violated: even right after evaluating the constraint at the same point, the second derivative pairs the multipliers
with the wrong limits. -/
theorem C22_negation_axis (s : Side) (i : Fin n) :
    ∃ (act : Params) (Mx My : ℝ) (x : SVec n) (u : CVec n) (lam : Fin 4 → ℝ),
      let c := planarVelocityControl s i act Mx My (planarVelocityStored s i x)
      ¬ HessAt (fun y => weighted c lam y u) (c.stateHess x u lam fun _ _ => 0) x := by
  refine ⟨{}, 1, 2, fun _ => 1, fun _ => 0, ![0, 1, 0, 0], ?_⟩
  intro c h
  have h' := planarVelocity_true_hess s i {} 1 2 (planarVelocityStored s i fun _ => 1) (fun _ => 1) (fun _ => 0) ![0, 1, 0, 0]
  have e := congrFun (congrFun (h.unique h') (.pos s i, 2)) (.pos s i, 2)
  have hne := tangent_double_ne {} rfl (by norm_num) 1 one_ne_zero
  simp [c, planarVelocityControl, put_apply, planarVelocityStored, vec3] at e
  exact hne (by linarith)

/-- C22 is violated: asking for the second derivative at a new point without evaluating the constraint there first uses the old
point, so the result differs from the true second derivative (here the multipliers are equal, so the pairing is harmless). -/
theorem C22_negation_stale (s : Side) (i : Fin n) :
    ∃ (act : Params) (x0 x : SVec n) (u : CVec n) (lam : Fin 4 → ℝ),
      let c := planarVelocityControl s i act 1 1 (planarVelocityStored s i x0)
      ¬ HessAt (fun y => weighted c lam y u) (c.stateHess x u lam fun _ _ => 0) x := by
  refine ⟨{}, fun _ => 0, fun _ => 1, fun _ => 0, ![1, 1, 1, 1], ?_⟩
  intro c h
  have h' := planarVelocity_true_hess s i {} 1 1 (planarVelocityStored s i fun _ => 0) (fun _ => 1) (fun _ => 0) ![1, 1, 1, 1]
  have e := congrFun (congrFun (h.unique h') (.pos s i, 2)) (.pos s i, 2)
  have hne := tangent_double_ne {} rfl (by norm_num) 1 one_ne_zero
  have h0 : (Fn.mk .tangent {}).evalDoubleDerivative 0 = 0 := by
    simp [Fn.evalDoubleDerivative, Fn.eval]
  simp [c, planarVelocityControl, put_apply, planarVelocityStored, vec3, h0] at e
  exact hne (by linarith)

/-- C43 (constraints).  Every Jacobian or second derivative entry that can be non-zero is declared, for every constraint class
with fixed variables. -/
theorem C43_constraints (s : Side) (i : Fin n) (act : Params) (a b : ℝ) (p : V3 ℝ) :
    SparsityCovers (contactFriction s i a) ∧ SparsityCovers (contactForceControl s i act a b) ∧
    SparsityCovers (classicalComplementarity s i a) ∧ SparsityCovers (classicalPlanarComplementarity s i a) ∧
    SparsityCovers (dynamicalComplementarity s i a b) ∧ SparsityCovers (normalVelocityControl s i act a) ∧
    SparsityCovers (quaternionNorm (n := n) a) ∧ SparsityCovers (planarVelocityControl s i act a b p) ∧
    SparsityCovers (feetRelativeHeight (n := n) a) :=
  ⟨friction_sparsity s i a, forceControl_sparsity s i act a b, classical_sparsity s i a, planar_sparsity s i a,
    dynamical_sparsity s i a b, normalVelocity_sparsity s i act a, quaternion_sparsity a,
    planarVelocity_sparsity s i act a b p, feetRelativeHeight_sparsity a⟩

/-- C40.  With zero tolerances, and non-negative height and normal force, a contact point either carries no normal force, or is
on the ground and has no planar velocity. -/
theorem C40_no_slip (s : Side) (i : Fin n) (x : SVec n) (u : CVec n) (hp : 0 ≤ x (.pos s i, 2)) (hf : 0 ≤ x (.force s i, 2))
    (h1 : (classicalComplementarity s i 0).Holds x u) (h2 : (classicalPlanarComplementarity s i 0).Holds x u) :
    x (.force s i, 2) = 0 ∨ (x (.pos s i, 2) = 0 ∧ u (.velCtl s i, 0) = 0 ∧ u (.velCtl s i, 1) = 0) := by
  obtain ⟨e1, e2, _, _⟩ := C21_meaning s i 0 x u
  have a1 := e1.1 h1
  have a2 := e2.1 h2
  by_cases hz : x (.force s i, 2) = 0
  · exact Or.inl hz
  · refine Or.inr ⟨?_, ?_, ?_⟩
    · have : x (.pos s i, 2) * x (.force s i, 2) = 0 := le_antisymm a1 (mul_nonneg hp hf)
      exact (mul_eq_zero.1 this).resolve_right hz
    · exact (mul_eq_zero.1 (abs_nonpos_iff.1 a2.1)).resolve_left hz
    · exact (mul_eq_zero.1 (abs_nonpos_iff.1 a2.2)).resolve_left hz

/-- Non-vacuity: a loaded point at rest on the ground. -/
example : (classicalComplementarity (n := 1) .left 0 0).Holds (fun j => if j = (.force .left 0, 2) then 1 else 0) (fun _ => 0) ∧
    (classicalPlanarComplementarity (n := 1) .left 0 0).Holds (fun j => if j = (.force .left 0, 2) then 1 else 0)
      (fun _ => 0) := by
  rw [(C21_meaning _ _ _ _ _).1, (C21_meaning _ _ _ _ _).2.1]
  simp

/-- C44.  With enabled activations, the velocity control constraints say exactly: the planar velocity components are bounded by
the limits scaled by tanh of the height; the normal velocity is at most the limit and at least minus the limit scaled by tanh
of the height. -/
theorem C44_velocity_bounds (s : Side) (i : Fin n) (act : Params) (he : act.disabled = false) (Mx My M : ℝ) (stored : V3 ℝ)
    (x : SVec n) (u : CVec n) :
    ((planarVelocityControl s i act Mx My stored).Holds x u ↔
      |u (.velCtl s i, 0)| ≤ Real.tanh (act.K * x (.pos s i, 2)) * Mx ∧
      |u (.velCtl s i, 1)| ≤ Real.tanh (act.K * x (.pos s i, 2)) * My) ∧
    ((normalVelocityControl s i act M).Holds x u ↔
      u (.velCtl s i, 2) ≤ M ∧ -(Real.tanh (act.K * x (.pos s i, 2)) * M) ≤ u (.velCtl s i, 2)) := by
  constructor
  · simp only [Constraint.Holds, planarVelocityControl, vec3, Fn.eval, he, Option.some.injEq, forall_eq', abs_le,
      Fin.forall_fin_succ, Fin.isValue]
    simp
    constructor
    · rintro ⟨a, b, c, d⟩; exact ⟨⟨by linarith, by linarith⟩, by linarith, by linarith⟩
    · rintro ⟨⟨a, b⟩, c, d⟩; exact ⟨by linarith, by linarith, by linarith, by linarith⟩
  · simp only [Constraint.Holds, normalVelocityControl, vec3, Fn.eval, he, Option.some.injEq, forall_eq',
      Fin.forall_fin_two, Matrix.cons_val_zero, Matrix.cons_val_one]
    simp
    intro _
    constructor <;> intro h <;> linarith

/-- C44.  A point on the ground cannot slide or go down. -/
theorem C44_grounded (s : Side) (i : Fin n) (act act' : Params) (he : act.disabled = false) (he' : act'.disabled = false)
    (Mx My M : ℝ) (stored : V3 ℝ) (x : SVec n) (u : CVec n) (hz : x (.pos s i, 2) = 0)
    (h1 : (planarVelocityControl s i act Mx My stored).Holds x u) (h2 : (normalVelocityControl s i act' M).Holds x u) :
    u (.velCtl s i, 0) = 0 ∧ u (.velCtl s i, 1) = 0 ∧ 0 ≤ u (.velCtl s i, 2) := by
  have a := (C44_velocity_bounds s i act he Mx My M stored x u).1.1 h1
  have b := (C44_velocity_bounds s i act' he' Mx My M stored x u).2.1 h2
  rw [hz] at a b
  simp at a b
  exact ⟨a.1, a.2, b.2⟩

/-- A differentiable function that never decreases while negative stays non-negative. -/
theorem stays_nonneg (z v : ℝ → ℝ) (T : ℝ) (hd : ∀ t ∈ Set.Icc 0 T, HasDerivAt z (v t) t)
    (h0 : 0 ≤ z 0) (hv : ∀ t ∈ Set.Icc 0 T, z t < 0 → 0 ≤ v t) : ∀ t ∈ Set.Icc 0 T, 0 ≤ z t := by
  intro t1 ht1
  by_contra hneg
  have hneg := not_le.1 hneg
  let S := {t | t ∈ Set.Icc 0 t1 ∧ 0 ≤ z t}
  have hS0 : (0 : ℝ) ∈ S := ⟨⟨le_refl _, ht1.1⟩, h0⟩
  have hbdd : BddAbove S := ⟨t1, fun t ht => ht.1.2⟩
  have hcont : ContinuousOn z (Set.Icc 0 t1) := fun t ht =>
    (hd t ⟨ht.1, ht.2.trans ht1.2⟩).continuousAt.continuousWithinAt
  have hclosed : IsClosed S := by
    have : S = Set.Icc 0 t1 ∩ z ⁻¹' Set.Ici 0 := by ext t; simp [S]
    rw [this]
    exact hcont.preimage_isClosed_of_isClosed isClosed_Icc isClosed_Ici
  have hmem := hclosed.csSup_mem ⟨0, hS0⟩ hbdd
  set t0 := sSup S with ht0
  have hlt : t0 < t1 := by
    rcases lt_or_eq_of_le hmem.1.2 with h | h
    · exact h
    · exact absurd hmem.2 (by rw [h]; exact not_le.2 hneg)
  have hmono : MonotoneOn z (Set.Icc t0 t1) := by
    apply monotoneOn_of_deriv_nonneg (convex_Icc t0 t1)
    · exact hcont.mono (Set.Icc_subset_Icc_left hmem.1.1)
    · intro t ht
      rw [interior_Icc] at ht
      exact (hd t ⟨hmem.1.1.trans ht.1.le, ht.2.le.trans ht1.2⟩).differentiableAt.differentiableWithinAt
    · intro t ht
      rw [interior_Icc] at ht
      have hT : t ∈ Set.Icc 0 T := ⟨hmem.1.1.trans ht.1.le, ht.2.le.trans ht1.2⟩
      rw [(hd t hT).deriv]
      apply hv t hT
      by_contra hc
      have : t ∈ S := ⟨⟨hT.1, ht.2.le⟩, not_lt.1 hc⟩
      exact absurd (le_csSup hbdd this) (not_le.2 ht.1)
  have := hmono ⟨le_refl _, hlt.le⟩ ⟨hlt.le, le_refl _⟩ hlt.le
  linarith [hmem.2]

/-- C45.  Along any trajectory on which the height of a point changes with the commanded normal velocity and the normal velocity
constraint holds, a point that starts above (or on) the ground never goes below it. -/
theorem C45_no_penetration (s : Side) (i : Fin n) (act : Params) (he : act.disabled = false) (hK : 0 ≤ act.K) (M : ℝ)
    (hM : 0 ≤ M) (T : ℝ) (x : ℝ → SVec n) (u : ℝ → CVec n)
    (hd : ∀ t ∈ Set.Icc 0 T, HasDerivAt (fun t => x t (.pos s i, 2)) (u t (.velCtl s i, 2)) t)
    (hc : ∀ t ∈ Set.Icc 0 T, (normalVelocityControl s i act M).Holds (x t) (u t)) (h0 : 0 ≤ x 0 (.pos s i, 2)) :
    ∀ t ∈ Set.Icc 0 T, 0 ≤ x t (.pos s i, 2) := by
  refine stays_nonneg _ _ T hd h0 ?_
  intro t ht hz
  have b := ((C44_velocity_bounds s i act he 0 0 M 0 (x t) (u t)).2.1 (hc t ht)).2
  have hle : Real.tanh (act.K * x t (.pos s i, 2)) ≤ 0 := by
    have : act.K * x t (.pos s i, 2) ≤ 0 := mul_nonpos_of_nonneg_of_nonpos hK hz.le
    rw [Real.tanh_eq_sinh_div_cosh]
    exact div_nonpos_of_nonpos_of_nonneg (Real.sinh_nonpos_iff.2 this) (Real.cosh_pos _).le
  have := mul_nonpos_of_nonpos_of_nonneg hle hM
  linarith

/-- Non-vacuity: a point resting on the ground meets the hypotheses. -/
example : ∀ t ∈ Set.Icc (0 : ℝ) 1, (normalVelocityControl (n := 1) .left 0 {} 1).Holds (fun _ => 0) (fun _ => 0) := by
  intro t _
  rw [(C44_velocity_bounds .left 0 {} rfl 0 0 1 0 _ _).2]
  simp

/-- C19.  Along any trajectory on which height and normal force change with the commanded rates and the dynamical complementarity
constraint holds, the product of height and normal force is bounded by an exponential decay, with the dissipation gain as rate,
from its initial value to `bound / gain`. -/
theorem C19_decay (s : Side) (i : Fin n) (g ub : ℝ) (hg : 0 < g) (T : ℝ) (x : ℝ → SVec n) (u : ℝ → CVec n)
    (hp : ∀ t ∈ Set.Icc 0 T, HasDerivAt (fun t => x t (.pos s i, 2)) (u t (.velCtl s i, 2)) t)
    (hf : ∀ t ∈ Set.Icc 0 T, HasDerivAt (fun t => x t (.force s i, 2)) (u t (.forceCtl s i, 2)) t)
    (hc : ∀ t ∈ Set.Icc 0 T, (dynamicalComplementarity s i g ub).Holds (x t) (u t)) :
    ∀ t ∈ Set.Icc 0 T, x t (.pos s i, 2) * x t (.force s i, 2) ≤
      ub / g + (x 0 (.pos s i, 2) * x 0 (.force s i, 2) - ub / g) * Real.exp (-g * t) := by
  set w : ℝ → ℝ := fun t => (x t (.pos s i, 2) * x t (.force s i, 2) - ub / g) * Real.exp (g * t) with hw
  have hwd : ∀ t ∈ Set.Icc 0 T, HasDerivAt w
      ((u t (.velCtl s i, 2) * x t (.force s i, 2) + x t (.pos s i, 2) * u t (.forceCtl s i, 2)) * Real.exp (g * t)
        + (x t (.pos s i, 2) * x t (.force s i, 2) - ub / g) * (Real.exp (g * t) * g)) t := by
    intro t ht
    have he : HasDerivAt (fun t => Real.exp (g * t)) (Real.exp (g * t) * g) t := (hasDerivAt_scale g t).exp
    exact (((hp t ht).mul (hf t ht)).sub_const (ub / g)).mul he
  have hanti : AntitoneOn w (Set.Icc 0 T) := by
    apply antitoneOn_of_deriv_nonpos (convex_Icc 0 T)
    · exact fun t ht => (hwd t ht).continuousAt.continuousWithinAt
    · intro t ht
      rw [interior_Icc] at ht
      exact (hwd t ⟨ht.1.le, ht.2.le⟩).differentiableAt.differentiableWithinAt
    · intro t ht
      rw [interior_Icc] at ht
      have hT : t ∈ Set.Icc 0 T := ⟨ht.1.le, ht.2.le⟩
      rw [(hwd t hT).deriv]
      have h := (hc t hT).2 _ rfl 0
      simp only [dynamicalComplementarity, vec3] at h
      have e : (u t (.velCtl s i, 2) * x t (.force s i, 2) + x t (.pos s i, 2) * u t (.forceCtl s i, 2)) * Real.exp (g * t)
        + (x t (.pos s i, 2) * x t (.force s i, 2) - ub / g) * (Real.exp (g * t) * g) =
        (u t (.forceCtl s i, 2) * x t (.pos s i, 2) + x t (.force s i, 2) * u t (.velCtl s i, 2)
          + g * x t (.pos s i, 2) * x t (.force s i, 2) - ub) * Real.exp (g * t) := by
        field_simp
        ring
      rw [e]
      exact mul_nonpos_of_nonpos_of_nonneg (by linarith) (Real.exp_pos _).le
  intro t ht
  have h := hanti ⟨le_refl _, ht.1.trans ht.2⟩ ht ht.1
  simp only [hw, mul_zero, Real.exp_zero, mul_one] at h
  have hpos := Real.exp_pos (-g * t)
  have hee : Real.exp (g * t) * Real.exp (-g * t) = 1 := by rw [← Real.exp_add]; simp
  have := mul_le_mul_of_nonneg_right h hpos.le
  rw [mul_assoc, hee, mul_one] at this
  linarith

/-- Non-vacuity: a grounded point with constant force. -/
example : (dynamicalComplementarity (n := 1) .left 0 2 1).Holds (fun j => if j = (.force .left 0, 2) then 1 else 0)
    (fun _ => 0) := by
  refine ⟨fun l hl => by simp [dynamicalComplementarity] at hl, fun l hl k => ?_⟩
  cases hl
  simp [dynamicalComplementarity, vec3]

end Verif.NLP
