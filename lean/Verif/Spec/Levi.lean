import Verif.Model.Levi
import Mathlib.Analysis.SpecialFunctions.Pow.Real
import Mathlib.Analysis.Calculus.Deriv.Basic
/- Specification of the symbolic expressions: which trees are well formed, and what a derivative is. -/
namespace Verif.Levi.Spec
variable {K : Type}
open Ex

/-- The answer "these two are the same node" is never given for different expressions. -/
def Sound (cfg : Cfg K) : Prop := ∀ a b, cfg.same a b = true → a = b

/-- Sizes of the factors of a product: matching, or one of them 1×1. -/
def Fits (a b : Ex K) : Prop := a.cols = b.rows ∨ a.isScalar = true ∨ b.isScalar = true

/-- Well formed expressions.  `M a b` says which factors may be multiplied and `P a α` when `a` may be raised to `α`
(`P b (-1)` when one may divide by `b`).  All sizes are positive, operands have the sizes their operation needs, accessed
entries exist. -/
def Formed (M : Ex K → Ex K → Prop) (P : Ex K → K → Prop) [One K] [Neg K] : Ex K → Prop
  | const r c _ | null r c => 0 < r ∧ 0 < c
  | ident n => 0 < n
  | sparse r c l => 0 < r ∧ 0 < c ∧ ∀ t ∈ l, t.1 < r ∧ t.2.1 < c
  | var v => 0 < v.dim
  | add a b | sub a b => Formed M P a ∧ Formed M P b ∧ b.size = a.size
  | neg a | transpose a => Formed M P a
  | mul a b => Formed M P a ∧ Formed M P b ∧ M a b
  | pow a e => Formed M P a ∧ a.size = (1, 1) ∧ P a e
  | div a b => Formed M P a ∧ Formed M P b ∧ a.cols = 1 ∧ b.size = (1, 1) ∧ P b (-1)
  | skew a => Formed M P a ∧ a.size = (3, 1)
  | vee a => Formed M P a ∧ a.size = (3, 3)
  | row a i => Formed M P a ∧ i < a.rows
  | col a j => Formed M P a ∧ j < a.cols
  | elem a i j => Formed M P a ∧ i < a.rows ∧ j < a.cols
  | block a i j r c => Formed M P a ∧ 0 < r ∧ 0 < c ∧ i + r ≤ a.rows ∧ j + c ≤ a.cols
  | byRows n f => 0 < n ∧ ∀ i, i < n → Formed M P (f i) ∧ (f i).size = (1, (f 0).cols)
  | byCols n f => 0 < n ∧ ∀ i, i < n → Formed M P (f i) ∧ (f i).size = ((f 0).rows, 1)
  | hcat a b => Formed M P a ∧ Formed M P b ∧ b.rows = a.rows
  | vcat a b => Formed M P a ∧ Formed M P b ∧ b.cols = a.cols
  | mpd n ds x => 0 < n ∧ (∀ i, i < n → Formed M P (ds i) ∧ (ds i).size = (ds 0).size) ∧ Formed M P x ∧ x.size = (n, 1)

/-- What a user may write. -/
abbrev Written (P : Ex K → K → Prop) [One K] [Neg K] (e : Ex K) : Prop := Formed Fits P e

/-- What levi keeps: the left factor of a product of non matching sizes is the 1×1 one. -/
abbrev Kept (P : Ex K → K → Prop) [One K] [Neg K] (e : Ex K) : Prop :=
  Formed (fun a b => a.cols = b.rows ∨ a.isScalar = true) P e

/-- The values of the variables with one component changed. -/
def set {K : Type} (ρ : Env K) (v : Var) (j : Nat) (x : K) : Env K := fun w k => if w = v ∧ k = j then x else ρ w k

/-- `std::pow` on the real numbers (where it is defined, see `PowOk`). -/
noncomputable def rpow (x α : ℝ) : ℝ := x ^ α

/-- At the point `ρ`, the base `a` may be raised to `α` and differentiated: the base is positive, or it is not zero and the
exponent is an integer, or the exponent is a positive integer.  Moreover the exponent is not within 1e-15 of a natural
number it is not equal to (the implementation takes an exponent that close to one to be one). -/
def PowOk (ρ : Env ℝ) (a : Ex ℝ) (α : ℝ) : Prop :=
  (0 < (a.ev rpow ρ).f 0 0 ∨ ((a.ev rpow ρ).f 0 0 ≠ 0 ∧ ∃ z : ℤ, α = z) ∨ ∃ n : ℕ, 1 ≤ n ∧ α = n) ∧
  ∀ n : ℕ, |α - n| < 1 / 10 ^ 15 → α = n

/-- `d` is, at `ρ`, the Jacobian of column `c` of `e` with respect to `v`: it has the rows of `e` and one column per
component of `v`, and its entries are the partial derivatives. -/
structure IsColumnDerivative (ρ : Env ℝ) (e : Ex ℝ) (c : Nat) (v : Var) (d : Ex ℝ) : Prop where
  size : d.size = (e.rows, v.dim)
  deriv : ∀ i j, i < e.rows → j < v.dim →
    HasDerivAt (fun t => (e.ev rpow (set ρ v j t)).f i c) ((d.ev rpow ρ).f i j) (ρ v j)

/-- The expressions obtained from what the user wrote, `e`, by asking for column derivatives, any number of times; the
order of the requests, columns and variables is arbitrary. -/
inductive Obtained (cfg : Cfg ℝ) (e : Ex ℝ) : Ex ℝ → Prop
  | built : Obtained cfg e (build cfg e)
  | derived {x d c v n} : Obtained cfg e x → c < x.cols → 0 < v.dim → D cfg n x c v = some d → Obtained cfg e d

end Verif.Levi.Spec
