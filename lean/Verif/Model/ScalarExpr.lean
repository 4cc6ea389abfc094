import Mathlib.Data.Real.Basic
import Mathlib.Algebra.BigOperators.Group.Finset.Basic
import Mathlib.Algebra.BigOperators.Fin
/-
Expressions written entry by entry.  A levi expression is a matrix whose entries are sums and products of entries of other expressions; here
each entry is a scalar expression over the atoms `A` (entries of variables, of constants and of the hand written evaluables), and the derivative
follows the rules of levi for sums, differences, products, blocks, `Horzcat` and `skew` (extern/levi/include/levi; levi itself, with its trees of
matrices, is Model/Levi).
-/
namespace Verif.NLP.Kin

/-- A scalar expression. -/
inductive SExp (A : Type) : Type
  | const (r : ℝ)
  | atom (a : A)
  | add (e f : SExp A)
  | mul (e f : SExp A)
  | neg (e : SExp A)
  | sum {k : ℕ} (f : Fin k → SExp A)

namespace SExp
variable {A : Type}

/-- The evaluation. -/
def eval (v : A → ℝ) : SExp A → ℝ
  | .const r => r
  | .atom a => v a
  | .add e f => eval v e + eval v f
  | .mul e f => eval v e * eval v f
  | .neg e => -eval v e
  | .sum f => ∑ i, eval v (f i)

/-- `getColumnDerivative`, given the derivatives of the atoms. -/
def der (d : A → SExp A) : SExp A → SExp A
  | .const _ => .const 0
  | .atom a => d a
  | .add e f => .add (der d e) (der d f)
  | .mul e f => .add (.mul (der d e) f) (.mul e (der d f))
  | .neg e => .neg (der d e)
  | .sum f => .sum fun i => der d (f i)

/-- All the atoms satisfy `P`. -/
def All (P : A → Prop) : SExp A → Prop
  | .const _ => True
  | .atom a => P a
  | .add e f => All P e ∧ All P f
  | .mul e f => All P e ∧ All P f
  | .neg e => All P e
  | .sum f => ∀ i, All P (f i)

end SExp

/-- A matrix of scalar expressions. -/
abbrev SMat (A : Type) (r c : ℕ) := Fin r → Fin c → SExp A

namespace SMat
variable {A : Type} {r c k : ℕ}

/-- Product. -/
def mul (M : SMat A r k) (N : SMat A k c) : SMat A r c := fun i j => .sum fun l => .mul (M i l) (N l j)
/-- Sum. -/
def add (M N : SMat A r c) : SMat A r c := fun i j => .add (M i j) (N i j)
/-- Change of sign. -/
def neg (M : SMat A r c) : SMat A r c := fun i j => .neg (M i j)
/-- Scalar times matrix. -/
def smul (e : SExp A) (M : SMat A r c) : SMat A r c := fun i j => .mul e (M i j)
/-- `levi::Identity(n, n)`. -/
def ident (n : ℕ) : SMat A n n := fun i j => .const (if i = j then 1 else 0)
/-- `skew()` of a vector. -/
def skew (v : SMat A 3 1) : SMat A 3 3 := fun i j =>
  match i, j with
  | 0, 0 => .const 0 | 0, 1 => .neg (v 2 0) | 0, 2 => v 1 0
  | 1, 0 => v 2 0 | 1, 1 => .const 0 | 1, 2 => .neg (v 0 0)
  | 2, 0 => .neg (v 1 0) | 2, 1 => v 0 0 | 2, 2 => .const 0
/-- `Horzcat`. -/
def hcat (M : SMat A r c) (N : SMat A r k) : SMat A r (c + k) := fun i => Fin.append (M i) (N i)
/-- `transpose()`. -/
def transpose (M : SMat A r c) : SMat A c r := fun i j => M j i

end SMat
end Verif.NLP.Kin
