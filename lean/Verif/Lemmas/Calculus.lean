import Verif.Spec.Calculus
import Verif.Model.Smoothing
import Verif.Tac
import Mathlib.Analysis.Calculus.Deriv.Mul
import Mathlib.Analysis.Calculus.Deriv.Add
import Mathlib.Analysis.Calculus.Deriv.Inv
import Mathlib.Analysis.Calculus.Deriv.Comp
import Mathlib.Analysis.SpecialFunctions.Trigonometric.DerivHyp
/- Calculus helper lemmas. -/
namespace Verif.NLP
open Function Verif.NLP.Spec
variable {ι : Type} [DecidableEq ι]

theorem Spec.GradAt.congr {f : (ι → ℝ) → ℝ} {g g' : ι → ℝ} {x : ι → ℝ} (h : GradAt f g x) (e : ∀ j, g j = g' j) :
    GradAt f g' x := fun j => e j ▸ h j

theorem Spec.GradAt.const (c : ℝ) (x : ι → ℝ) : GradAt (fun _ => c) (fun _ => 0) x := fun _ => hasDerivAt_const _ _

theorem Spec.GradAt.coord (a : ι) (x : ι → ℝ) : GradAt (fun y => y a) (fun j => if j = a then 1 else 0) x := by
  intro j
  by_cases h : j = a
  · subst h
    simp only [update_self, if_true]
    exact hasDerivAt_id (x j)
  · simpa [h, Function.update_of_ne (Ne.symm h)] using hasDerivAt_const (x j) (x a)

theorem Spec.GradAt.add {f g : (ι → ℝ) → ℝ} {f' g' : ι → ℝ} {x : ι → ℝ} (hf : GradAt f f' x) (hg : GradAt g g' x) :
    GradAt (fun y => f y + g y) (fun j => f' j + g' j) x := fun j => (hf j).add (hg j)

theorem Spec.GradAt.sub {f g : (ι → ℝ) → ℝ} {f' g' : ι → ℝ} {x : ι → ℝ} (hf : GradAt f f' x) (hg : GradAt g g' x) :
    GradAt (fun y => f y - g y) (fun j => f' j - g' j) x := fun j => (hf j).sub (hg j)

theorem Spec.GradAt.neg {f : (ι → ℝ) → ℝ} {f' : ι → ℝ} {x : ι → ℝ} (hf : GradAt f f' x) :
    GradAt (fun y => -f y) (fun j => -f' j) x := fun j => (hf j).neg

theorem Spec.GradAt.mul {f g : (ι → ℝ) → ℝ} {f' g' : ι → ℝ} {x : ι → ℝ} (hf : GradAt f f' x) (hg : GradAt g g' x) :
    GradAt (fun y => f y * g y) (fun j => f' j * g x + f x * g' j) x := by
  intro j
  have h := (hf j).mul (hg j)
  simp only [Function.update_eq_self] at h
  exact h

theorem Spec.GradAt.const_mul {f : (ι → ℝ) → ℝ} {f' : ι → ℝ} {x : ι → ℝ} (c : ℝ) (hf : GradAt f f' x) :
    GradAt (fun y => c * f y) (fun j => c * f' j) x := fun j => (hf j).const_mul c

theorem Spec.GradAt.div_const {f : (ι → ℝ) → ℝ} {f' : ι → ℝ} {x : ι → ℝ} (hf : GradAt f f' x) (c : ℝ) :
    GradAt (fun y => f y / c) (fun j => f' j / c) x := fun j => (hf j).div_const c

theorem Spec.GradAt.comp {φ : ℝ → ℝ} {f : (ι → ℝ) → ℝ} {f' : ι → ℝ} {x : ι → ℝ} {d : ℝ} (hφ : HasDerivAt φ d (f x))
    (hf : GradAt f f' x) : GradAt (fun y => φ (f y)) (fun j => d * f' j) x := by
  intro j
  have h1 : HasDerivAt φ d (f (update x j (x j))) := by rw [Function.update_eq_self]; exact hφ
  exact HasDerivAt.comp (h₂ := φ) (x j) h1 (hf j)

theorem Spec.GradAt.sum {α : Type} (s : Finset α) {f : α → (ι → ℝ) → ℝ} {f' : α → ι → ℝ} {x : ι → ℝ}
    (h : ∀ a ∈ s, GradAt (f a) (f' a) x) : GradAt (fun y => ∑ a ∈ s, f a y) (fun j => ∑ a ∈ s, f' a j) x := by
  intro j
  have := HasDerivAt.fun_sum (u := s) (A := fun a t => f a (update x j t)) (A' := fun a => f' a j) (x := x j)
    (fun a ha => h a ha j)
  exact this

/-- Partial derivatives are unique. -/
theorem Spec.GradAt.unique {f : (ι → ℝ) → ℝ} {g g' : ι → ℝ} {x : ι → ℝ} (h : GradAt f g x) (h' : GradAt f g' x) : g = g' :=
  funext fun j => (h j).unique (h' j)

theorem Spec.HessAt.mk' {f : (ι → ℝ) → ℝ} {H : ι → ι → ℝ} {x : ι → ℝ} (g : (ι → ℝ) → ι → ℝ) (h : ∀ y, GradAt f (g y) y)
    (h' : ∀ i, GradAt (fun y => g y i) (H i) x) : HessAt f H x := ⟨g, h, h'⟩

/-- The second partial derivatives are unique. -/
theorem Spec.HessAt.unique {f : (ι → ℝ) → ℝ} {H H' : ι → ι → ℝ} {x : ι → ℝ} (h : HessAt f H x) (h' : HessAt f H' x) :
    H = H' := by
  obtain ⟨g, a, b⟩ := h
  obtain ⟨g', a', b'⟩ := h'
  have : g = g' := funext fun y => (a y).unique (a' y)
  subst this
  exact funext fun i => (b i).unique (b' i)

/-- Unfold a polynomial expression into partial derivatives. -/
macro "grad" : tactic => `(tactic| repeat' first
  | exact GradAt.const _ _ | exact GradAt.coord _ _ | apply GradAt.const_mul | apply GradAt.add | apply GradAt.sub
  | apply GradAt.neg | apply GradAt.mul | apply GradAt.div_const)

/- Writes. -/
theorem put_apply {ρ κ : Type} [DecidableEq ρ] [DecidableEq κ] (M : ρ → κ → ℝ) (i : ρ) (j : κ) (v : ℝ) (a : ρ) (b : κ) :
    put M i j v a b = if a = i ∧ b = j then v else M a b := rfl

theorem foldl_untouched {α M : Type} (l : List α) (body : M → α → M) (get : M → ℝ) (J : M)
    (h : ∀ a ∈ l, ∀ J, get (body J a) = get J) : get (l.foldl body J) = get J := by
  induction l generalizing J with
  | nil => rfl
  | cons a l ih =>
    rw [List.foldl_cons, ih _ (fun b hb => h b (List.mem_cons_of_mem _ hb)), h a List.mem_cons_self]

theorem foldl_hit {α M : Type} (l : List α) (body : M → α → M) (get : M → ℝ) (J : M) (a0 : α) (v : ℝ) (hm : a0 ∈ l)
    (h0 : ∀ J, get (body J a0) = v) (h : ∀ a ∈ l, a ≠ a0 → ∀ J, get (body J a) = get J) : get (l.foldl body J) = v := by
  induction l generalizing J with
  | nil => cases hm
  | cons a l ih =>
    rw [List.foldl_cons]
    by_cases hm' : a0 ∈ l
    · exact ih _ hm' (fun b hb => h b (List.mem_cons_of_mem _ hb))
    · have ha : a0 = a := by
        rcases List.mem_cons.1 hm with h | h
        · exact h
        · exact absurd h hm'
      rw [foldl_untouched l body get _ (fun b hb J => h b (List.mem_cons_of_mem _ hb) (by rintro rfl; exact hm' hb) J), ← ha,
        h0]

theorem foldl_accum {α M : Type} (l : List α) (body : M → α → M) (get : M → ℝ) (J : M) (v : α → ℝ)
    (h : ∀ a ∈ l, ∀ J, get (body J a) = get J + v a) : get (l.foldl body J) = get J + (l.map v).sum := by
  induction l generalizing J with
  | nil => simp
  | cons a l ih =>
    rw [List.foldl_cons, ih _ (fun b hb => h b (List.mem_cons_of_mem _ hb)), h a List.mem_cons_self, List.map_cons,
      List.sum_cons]
    ring

section
variable {α ρ κ : Type} (l : List α) (body : (ρ → κ → ℝ) → α → ρ → κ → ℝ) (J : ρ → κ → ℝ) (p : ρ) (q : κ)

theorem mat_untouched (h : ∀ a ∈ l, ∀ J, body J a p q = J p q) : l.foldl body J p q = J p q :=
  foldl_untouched l body (fun J => J p q) J h

theorem mat_hit (a0 : α) (v : ℝ) (hm : a0 ∈ l) (h0 : ∀ J, body J a0 p q = v)
    (h : ∀ a ∈ l, a ≠ a0 → ∀ J, body J a p q = J p q) : l.foldl body J p q = v :=
  foldl_hit l body (fun J => J p q) J a0 v hm h0 h

theorem mat_accum (v : α → ℝ) (h : ∀ a ∈ l, ∀ J, body J a p q = J p q + v a) :
    l.foldl body J p q = J p q + (l.map v).sum :=
  foldl_accum l body (fun J => J p q) J v h
end

theorem sum_finRange {n : Nat} (f : Fin n → ℝ) : ((List.finRange n).map f).sum = ∑ i, f i := by
  rw [← List.ofFn_eq_map, List.sum_ofFn]

end Verif.NLP

namespace Verif.Smooth

theorem hasDerivAt_tanh (x : ℝ) : HasDerivAt Real.tanh (1 / Real.cosh x * (1 / Real.cosh x)) x := by
  have hc : Real.cosh x ≠ 0 := (Real.cosh_pos x).ne'
  have h := (Real.hasDerivAt_sinh x).div (Real.hasDerivAt_cosh x) hc
  have e : Real.tanh = fun y => Real.sinh y / Real.cosh y := funext fun y => Real.tanh_eq_sinh_div_cosh y
  rw [e]
  refine h.congr_deriv ?_
  have := Real.cosh_sq x
  field_simp
  nlinarith

theorem hasDerivAt_sech (x : ℝ) : HasDerivAt (fun y => 1 / Real.cosh y) (-(1 / Real.cosh x) * Real.tanh x) x := by
  have hc : Real.cosh x ≠ 0 := (Real.cosh_pos x).ne'
  have h := (hasDerivAt_const x (1 : ℝ)).div (Real.hasDerivAt_cosh x) hc
  refine h.congr_deriv ?_
  rw [Real.tanh_eq_sinh_div_cosh]
  field_simp
  ring

theorem hasDerivAt_scale (K x : ℝ) : HasDerivAt (fun y => K * y) K x := by
  simpa using (hasDerivAt_id x).const_mul K

theorem hasDerivAt_eval (f : Fn) (x : ℝ) : HasDerivAt f.eval (f.evalDerivative x) x := by
  obtain ⟨k, p⟩ := f
  by_cases hd : p.disabled = true
  · have : Fn.eval ⟨k, p⟩ = fun _ => p.disabledValue := funext fun y => by simp [Fn.eval, hd]
    rw [this]
    simpa [Fn.evalDerivative, hd] using hasDerivAt_const x p.disabledValue
  · cases k
    · have e : Fn.eval ⟨.secant, p⟩ = fun y => 1 / Real.cosh (p.K * y) := funext fun y => by simp [Fn.eval, hd]
      rw [e]
      refine (HasDerivAt.comp (h₂ := fun y => 1 / Real.cosh y) x (hasDerivAt_sech (p.K * x)) (hasDerivAt_scale p.K x)).congr_deriv ?_
      simp [Fn.evalDerivative, hd, Fn.eval]
    · have e : Fn.eval ⟨.tangent, p⟩ = fun y => Real.tanh (p.K * y) := funext fun y => by simp [Fn.eval, hd]
      rw [e]
      refine (HasDerivAt.comp (h₂ := Real.tanh) x (hasDerivAt_tanh (p.K * x)) (hasDerivAt_scale p.K x)).congr_deriv ?_
      simp [Fn.evalDerivative, hd]
      ring

theorem hasDerivAt_evalDerivative (f : Fn) (x : ℝ) : HasDerivAt f.evalDerivative (f.evalDoubleDerivative x) x := by
  obtain ⟨k, p⟩ := f
  by_cases hd : p.disabled = true
  · have : Fn.evalDerivative ⟨k, p⟩ = fun _ => 0 := funext fun y => by simp [Fn.evalDerivative, hd]
    rw [this]
    simpa [Fn.evalDoubleDerivative, hd] using hasDerivAt_const x (0 : ℝ)
  · have ht := HasDerivAt.comp (h₂ := Real.tanh) x (hasDerivAt_tanh (p.K * x)) (hasDerivAt_scale p.K x)
    have hs := HasDerivAt.comp (h₂ := fun y => 1 / Real.cosh y) x (hasDerivAt_sech (p.K * x)) (hasDerivAt_scale p.K x)
    have hsq : 1 - Real.tanh (p.K * x) * Real.tanh (p.K * x) = 1 / Real.cosh (p.K * x) * (1 / Real.cosh (p.K * x)) := by
      have hc : Real.cosh (p.K * x) ≠ 0 := (Real.cosh_pos _).ne'
      have := Real.cosh_sq (p.K * x)
      rw [Real.tanh_eq_sinh_div_cosh]
      field_simp
      nlinarith
    cases k
    · have e : Fn.evalDerivative ⟨.secant, p⟩ = fun y => -(1 / Real.cosh (p.K * y)) * Real.tanh (p.K * y) * p.K :=
        funext fun y => by simp [Fn.evalDerivative, Fn.eval, hd]
      rw [e]
      refine ((hs.neg.mul ht).mul_const p.K).congr_deriv ?_
      have e1 : Fn.evalDoubleDerivative ⟨.secant, p⟩ x =
          -(-(1 / Real.cosh (p.K * x)) * Real.tanh (p.K * x) * p.K) * Real.tanh (p.K * x) * p.K -
            1 / Real.cosh (p.K * x) * (1 - Real.tanh (p.K * x) * Real.tanh (p.K * x)) * p.K * p.K := by
        simp [Fn.evalDoubleDerivative, Fn.evalDerivative, Fn.eval, hd]
      rw [e1, hsq]
      simp only [Function.comp_apply, Pi.neg_apply]
      ring
    · have e : Fn.evalDerivative ⟨.tangent, p⟩ = fun y => p.K * (1 / Real.cosh (p.K * y)) * (1 / Real.cosh (p.K * y)) :=
        funext fun y => by simp [Fn.evalDerivative, hd]
      rw [e]
      refine ((hs.const_mul p.K).mul hs).congr_deriv ?_
      have e1 : Fn.evalDoubleDerivative ⟨.tangent, p⟩ x =
          -2 * p.K * p.K * Real.tanh (p.K * x) * (1 / Real.cosh (p.K * x)) * (1 / Real.cosh (p.K * x)) := by
        simp [Fn.evalDoubleDerivative, Fn.eval, hd]
      rw [e1]
      simp only [Function.comp_apply]
      ring

end Verif.Smooth

namespace Verif.NLP
open Verif.NLP.Spec Verif.Smooth
variable {ι : Type} [DecidableEq ι]

theorem Spec.GradAt.smooth (δ : Fn) {f : (ι → ℝ) → ℝ} {f' : ι → ℝ} {x : ι → ℝ} (hf : GradAt f f' x) :
    GradAt (fun y => δ.eval (f y)) (fun j => δ.evalDerivative (f x) * f' j) x :=
  GradAt.comp (hasDerivAt_eval δ (f x)) hf

theorem Spec.GradAt.smooth' (δ : Fn) {f : (ι → ℝ) → ℝ} {f' : ι → ℝ} {x : ι → ℝ} (hf : GradAt f f' x) :
    GradAt (fun y => δ.evalDerivative (f y)) (fun j => δ.evalDoubleDerivative (f x) * f' j) x :=
  GradAt.comp (hasDerivAt_evalDerivative δ (f x)) hf

/-- Unfold a smooth expression into partial derivatives. -/
macro "sgrad" : tactic => `(tactic| repeat' first
  | exact GradAt.const _ _ | exact GradAt.coord _ _ | apply GradAt.const_mul | apply GradAt.add | apply GradAt.sub
  | apply GradAt.neg | apply GradAt.mul | apply GradAt.div_const | apply GradAt.smooth | apply GradAt.smooth')

variable {σ κ : Type} [DecidableEq σ] [DecidableEq κ]

theorem weighted_eq {r : Nat} (c : Constraint σ κ r) (lam : Fin r → ℝ) (x : σ → ℝ) (u : κ → ℝ) :
    weighted c lam x u = ∑ i, lam i * c.value x u i := by
  rw [weighted, List.sum_ofFn]

/-- With exact Jacobians, second derivatives need only be compared with the derivatives of the weighted Jacobians. -/
theorem exactHessians_of {r : Nat} (c : Constraint σ κ r) (hJ : ExactJacobians c)
    (hs : ∀ x u lam i, GradAt (fun y => ∑ a, lam a * c.stateJac y u (fun _ _ => 0) a i)
      (c.stateHess x u lam (fun _ _ => 0) i) x)
    (hc : ∀ x u lam i, GradAt (fun v => ∑ a, lam a * c.ctrlJac x v (fun _ _ => 0) a i)
      (c.ctrlHess x u lam (fun _ _ => 0) i) u)
    (hm : ∀ x u lam i, GradAt (fun v => ∑ a, lam a * c.stateJac x v (fun _ _ => 0) a i)
      (c.mixedHess x u lam (fun _ _ => 0) i) u) : ExactHessians c := by
  intro x u lam
  have es : ∀ y v, GradAt (fun y' => weighted c lam y' v) (fun i => ∑ a, lam a * c.stateJac y v (fun _ _ => 0) a i) y := by
    intro y v
    simp only [weighted_eq]
    exact GradAt.sum Finset.univ (fun a _ => GradAt.const_mul _ ((hJ y v a).1))
  have ec : ∀ y v, GradAt (fun v' => weighted c lam y v') (fun i => ∑ a, lam a * c.ctrlJac y v (fun _ _ => 0) a i) v := by
    intro y v
    simp only [weighted_eq]
    exact GradAt.sum Finset.univ (fun a _ => GradAt.const_mul _ ((hJ y v a).2))
  exact ⟨⟨_, fun y => es y u, fun i => hs x u lam i⟩, ⟨_, fun v => ec x v, fun i => hc x u lam i⟩,
    ⟨_, fun y v => es y v, fun i => hm x u lam i⟩⟩

end Verif.NLP
