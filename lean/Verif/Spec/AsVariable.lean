import Verif.Spec.Levi
import Verif.Model.AsVariable
/- Specification of the derivatives of expressions that contain variables made from expressions. -/
namespace Verif.Levi.Spec
open Ex AsVariable

/-- The variables made from expressions, the last made first: each is new when it is made (no other made variable is equal to it, neither its own expression nor an expression of those before contains it), its expression is a column of its size, well
formed at the point `σ`. -/
def Ordered (σ : Env ℝ) : List (Def ℝ) → Prop
  | [] => True
  | d :: l => Kept (PowOk σ) d.expr ∧ d.expr.size = (d.var.dim, 1) ∧ d.expr.dep d.var = false ∧ (∀ o ∈ l, o.var ≠ d.var ∧ o.expr.dep d.var = false) ∧ Ordered σ l

/-- The value of a dependent variable is the one of its expression. -/
def Agrees (defs : List (Def ℝ)) (σ : Env ℝ) : Prop := ∀ d ∈ defs, d.dependent = true → σ d.var = fun k => (d.expr.ev rpow σ).f k 0

/-- Component `j` of `v` moves: the dependent variables (other than `v`) follow their expressions, the others stay where they are in `σ`. -/
structure Moves (defs : List (Def ℝ)) (v : Var) (j : Nat) (σ : Env ℝ) (γ : ℝ → Env ℝ) : Prop where
  moved : ∀ t k, γ t v k = if k = j then t else σ v k
  follow : ∀ t, ∀ d ∈ defs, d.dependent = true → d.var ≠ v → γ t d.var = fun k => (d.expr.ev rpow (γ t)).f k 0
  stay : ∀ t w, w ≠ v → (∀ d ∈ defs, d.dependent = true → d.var ≠ w) → γ t w = σ w

end Verif.Levi.Spec
