import Verif.Lemmas.LeviTotal
import Verif.Lemmas.LeviBuild
import Verif.Lemmas.LeviDeriv
import Verif.Lemmas.QuaternionExpressions
/- Properties of the symbolic expressions (C25, C46). -/
namespace Verif.Levi
open Ex Spec
variable {K : Type} [Field K] [LinearOrder K]

theorem PowOk.transfer {ρ : Env ℝ} (a a' : Ex ℝ) (α : ℝ) (h : ∀ pw ρ, a'.ev pw ρ = a.ev pw ρ) (hp : PowOk ρ a α) :
    PowOk ρ a' α := by
  unfold PowOk at hp ⊢; rw [h]; exact hp

/-- **C46.** What the operators and accessors build (with all their rewriting: products reordered by cost, signs collected,
addends with a common factor merged, null and identity factors dropped, accessors pushed to the operands) has the size and,
for every value of the variables, the value of what was written; over any ordered field, whatever function `pw` stands for
`std::pow`, and whatever is answered about nodes being shared. -/
theorem C46_rewriting_preserves_the_value {cfg : Cfg K} (hs : Sound cfg) {e : Ex K} (h : Written (fun _ _ => True) e) :
    (build cfg e).size = e.size ∧ ∀ (pw : K → K → K) (ρ : Env K), (build cfg e).ev pw ρ = e.ev pw ρ :=
  have v := build_val hs (P := fun _ _ => True) (fun _ _ _ _ _ => trivial) h
  ⟨size_of_ev v.1 h v.2, v.2⟩

theorem obtained_kept {cfg : Cfg ℝ} (hs : Sound cfg) {e x : Ex ℝ} {ρ : Env ℝ} (h : Written (PowOk ρ) e)
    (hx : Obtained cfg e x) : Kept (PowOk ρ) x := by
  induction hx with
  | built => exact (build_val hs (fun a a' α => PowOk.transfer a a' α) h).1
  | derived hx hc hv hD ih => exact (D_good hs hv _ _ _ _ ih hc hD).1

/-- **C25.** Let `S` be a set of values of the variables at which the written expression is well formed.  Every expression
obtained from it (itself, its derivatives, their derivatives, ...) has a column derivative for every column and variable,
and that derivative is the Jacobian of the column at every point of `S`. -/
theorem C25_column_derivatives_exist_and_are_true {cfg : Cfg ℝ} (hs : Sound cfg) (e : Ex ℝ) (S : Set (Env ℝ))
    (h : ∀ ρ ∈ S, Written (PowOk ρ) e) (hS : S.Nonempty) {x : Ex ℝ} (hx : Obtained cfg e x) (c : Nat) (hc : c < x.cols) (v : Var)
    (hv : 0 < v.dim) :
    (∃ N, ∀ n, N ≤ n → ∃ d, D cfg n x c v = some d) ∧
    ∀ n d, D cfg n x c v = some d → ∀ ρ ∈ S, IsColumnDerivative ρ x c v d := by
  refine ⟨?_, fun n d hd ρ hρ => (D_good hs hv n x c d (obtained_kept hs (h ρ hρ) hx) hc hd).2⟩
  obtain ⟨ρ, hρ⟩ := hS
  exact ends hs v (rank (fun _ => 1) x) x le_rfl (obtained_kept hs (h ρ hρ) hx) c hc

/-- **C25**, for the expression as it was written: the derivative levi answers is the Jacobian of the written column. -/
theorem C25_derivative_of_what_was_written {cfg : Cfg ℝ} (hs : Sound cfg) (e : Ex ℝ) (ρ : Env ℝ)
    (h : Written (PowOk ρ) e) (c : Nat) (hc : c < e.cols) (v : Var) (hv : 0 < v.dim) :
    ∃ N, ∀ n, N ≤ n → ∃ d, D cfg n (build cfg e) c v = some d ∧ IsColumnDerivative ρ e c v d := by
  have vb := build_val hs (fun a a' α => PowOk.transfer a a' α) h
  have sz := size_of_ev vb.1 h vb.2
  obtain ⟨⟨N, hN⟩, hD⟩ := C25_column_derivatives_exist_and_are_true hs e {ρ}
    (by intro σ hσ; rw [Set.mem_singleton_iff.1 hσ]; exact h) ⟨ρ, rfl⟩ Obtained.built c (by rw [cols, sz]; exact hc) v hv
  refine ⟨N, fun n hn => ?_⟩
  obtain ⟨d, hd⟩ := hN n hn
  have hcd := hD n d hd ρ rfl
  refine ⟨d, hd, by rw [hcd.size, rows, sz], fun i j hi hj => ?_⟩
  have := hcd.deriv i j (by rw [rows, sz]; exact hi) hj
  simpa only [vb.2] using this

/-- **C25**, second derivatives of what was written: the derivative of column `c'` of the first derivative holds the second
partial derivatives `∂/∂v'_k ∂/∂v_c' e_(i,c)`, on every open (or arbitrary) set `S` of points. -/
theorem C25_second_derivative_of_what_was_written {cfg : Cfg ℝ} (hs : Sound cfg) (e : Ex ℝ) (S : Set (Env ℝ))
    (h : ∀ ρ ∈ S, Written (PowOk ρ) e) {n m : Nat} {c c' : Nat} {v v' : Var} {d d' : Ex ℝ} (hc : c < e.cols) (hv : 0 < v.dim)
    (hv' : 0 < v'.dim) (hc' : c' < v.dim) (hd : D cfg n (build cfg e) c v = some d) (hd' : D cfg m d c' v' = some d')
    (ρ : Env ℝ) (hρ : ρ ∈ S) (i k : Nat) (hi : i < e.rows) (hk : k < v'.dim) :
    HasDerivAt (fun t => (d.ev rpow (set ρ v' k t)).f i c') ((d'.ev rpow ρ).f i k) (ρ v' k) ∧
    ∀ σ ∈ S, HasDerivAt (fun t => (e.ev rpow (set σ v c' t)).f i c) ((d.ev rpow σ).f i c') (σ v c') := by
  have vb := fun ρ hρ => build_val hs (fun a a' α => PowOk.transfer a a' α) (h ρ hρ)
  have sz := size_of_ev (vb ρ hρ).1 (h ρ hρ) (vb ρ hρ).2
  have hcb : c < (build cfg e).cols := by rw [cols, sz]; exact hc
  have first := fun σ hσ => (C25_column_derivatives_exist_and_are_true hs e S h ⟨ρ, hρ⟩ Obtained.built c hcb v hv).2 n d hd σ hσ
  have hx : Obtained cfg e d := Obtained.derived Obtained.built hcb hv hd
  have second := (C25_column_derivatives_exist_and_are_true hs e S h ⟨ρ, hρ⟩ hx c'
    (by rw [cols, (first ρ hρ).size]; exact hc') v' hv').2 m d' hd' ρ hρ
  refine ⟨second.deriv i k ?_ hk, fun σ hσ => ?_⟩
  · rw [rows, (first ρ hρ).size, rows, sz]; exact hi
  · have := (first σ hσ).deriv i c' (by rw [rows, sz]; exact hi) hc'
    simpa only [(vb σ hσ).2] using this

/-- **C25**, `isDependentFrom`: when it answers no, changing the variable does not change the value. -/
theorem C25_not_dependent_means_constant {cfg : Cfg K} (hs : Sound cfg) {e : Ex K} (h : Written (fun _ _ => True) e) {v : Var}
    (hd : (build cfg e).dep v = false) (pw : K → K → K) (ρ : Env K) (j : Nat) (x : K) :
    e.ev pw (set ρ v j x) = e.ev pw ρ := by
  have vb := build_val hs (P := fun _ _ => True) (fun _ _ _ _ _ => trivial) h
  have e1 := vb.2 pw (Spec.set ρ v j x)
  have e2 := vb.2 pw ρ
  dsimp only at e1 e2
  rw [← e1, ← e2]; exact nodep vb.1 hd pw ρ j x

/-- Finding (the reason for `a.cols = 1` in the well-formedness of divisions): the quotient of a matrix by a scalar has as
many columns as the matrix, but reports one. -/
theorem C25_finding_division_reports_one_column (cfg : Cfg K) (b : Ex K) (hb : (build cfg b).size = (1, 1)) (r c : Nat) (pw : K → K → K)
    (ρ : Env K) :
    (build cfg (div (null r c) b)).cols = 1 ∧ ((build cfg (div (null r c) b)).ev pw ρ).c = c := by
  constructor
  · show (build cfg b).size.2 = 1
    rw [hb]
  · rfl

/-! Concrete cases meeting the hypotheses: the rotation of the base as a function of the (not normalised) quaternion, and a
sum that levi rewrites. -/

/-- Nodes are shared exactly when they are the same variable. -/
def cfgVars : Cfg K where
  same a b := match a, b with | .var v, .var w => decide (v = w) | _, _ => false
  depth := 100

theorem cfgVars_sound : Sound (cfgVars : Cfg K) := by
  intro a b h
  unfold cfgVars at h
  cases a <;> cases b <;> simp_all

example (ρ : Env ℝ) (h : 0 < ρ Quat.q 0 ^ 2 + ρ Quat.q 1 ^ 2 + ρ Quat.q 2 ^ 2 + ρ Quat.q 3 ^ 2) :
    ∃ N, ∀ n, N ≤ n → ∃ d, D cfgVars n (build cfgVars (Quat.rotation (Quat.normalized (.var Quat.q)))) 2 Quat.q = some d ∧
      IsColumnDerivative ρ (Quat.rotation (Quat.normalized (.var Quat.q))) 2 Quat.q d :=
  C25_derivative_of_what_was_written cfgVars_sound _ ρ (Quat.written_rotation (Quat.written_normalized h) rfl) 2 (by decide)
    Quat.q (by decide)

/-- `x + x` is rewritten to `2 * x`. -/
example : ∃ M : Nat → Nat → ℚ, build cfgVars (add (.var ⟨"x", 3⟩) (.var ⟨"x", 3⟩)) = mul (const 1 1 M) (.var ⟨"x", 3⟩) ∧
    Written (fun _ _ => True) (add (.var ⟨"x", 3⟩) (.var ⟨"x", 3⟩) : Ex ℚ) := by
  refine ⟨fun _ _ => 2, ?_, ?_⟩
  · rfl
  · exact ⟨Nat.succ_pos 2, Nat.succ_pos 2, rfl⟩

end Verif.Levi
