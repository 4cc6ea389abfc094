import Verif.Model.CodeGen
/- What a generated text means: the fragment of the grammar of C++ it uses, with the values of the sub-expressions. -/
namespace Verif.Levi.Code.Spec
open Ex
variable {K : Type} [Field K] [LinearOrder K]

/-- A C++ value: a number, or an Eigen matrix. -/
inductive Value (K : Type) [Zero K]
  | num (x : K)
  | mat (A : SM K)

namespace Value
/-- Opposite. -/
def neg : Value K → Value K
  | num x => num (-x)
  | mat A => mat (.neg A)

/-- Sum (`add`) or difference: of numbers, or of matrices of the same size. -/
def plus (add : Bool) : Value K → Value K → Option (Value K)
  | num x, num y => some (num (if add then x + y else x - y))
  | mat A, mat B => if B.r = A.r ∧ B.c = A.c then some (mat (if add then .add A B else .sub A B)) else none
  | _, _ => none

/-- Product: of numbers, of a number and a matrix, of matrices with matching sizes. -/
def mul : Value K → Value K → Option (Value K)
  | num x, num y => some (num (x * y))
  | num x, mat B => some (mat (.smul x B))
  | mat A, num y => some (mat (.smul y A))
  | mat A, mat B => if A.c = B.r then some (mat (.mul A B)) else none

/-- Division by a number. -/
def div : Value K → Value K → Option (Value K)
  | num x, num y => some (num (x / y))
  | mat A, num y => some (mat (.smul y⁻¹ A))
  | _, _ => none

/-- Methods and operators of Eigen written after a matrix; the accessed entries must exist. -/
def access : Tok K → Value K → Option (Value K)
  | .transpose, mat A => some (mat (.tr A))
  | .row i, mat A => if i < A.r then some (mat (.row A i)) else none
  | .col j, mat A => if j < A.c then some (mat (.col A j)) else none
  | .entry i j, mat A => if i < A.r ∧ j < A.c then some (num (A.f i j)) else none
  | .entry00, mat A => if 0 < A.r ∧ 0 < A.c then some (num (A.f 0 0)) else none
  | .block r c i j, mat A => if i + r ≤ A.r ∧ j + c ≤ A.c then some (mat (.block A i j r c)) else none
  | _, _ => none
end Value

/-- Values of the declared variables. -/
abbrev Vars (K : Type) [Zero K] := Tok K → Option (Value K)

/-- Value of a name, `g` are the values of the generics. -/
def named (g : List (SM K)) (vars : Vars K) : Tok K → Option (Value K)
  | .gen k true => g[k]?.bind fun A => if 0 < A.r ∧ 0 < A.c then some (.num (A.f 0 0)) else none
  | .gen k false => g[k]?.map .mat
  | .helper k => vars (.helper k)
  | .common k => vars (.common k)
  | _ => none

/-- Kinds of expressions of the grammar of C++, from the tightest: primary, postfix, unary, multiplicative, additive. -/
inductive Level
  | primary | postfix | unary | multiplicative | additive

/-- `Means pw g vars l s v`: the text `s` is an expression of kind `l` with value `v`.  Operators of the same precedence associate to the
left.  Two minus signs without a blank between them are a decrement, which cannot be applied to a value. -/
inductive Means (pw : K → K → K) (g : List (SM K)) (vars : Vars K) : Level → List (Tok K) → Value K → Prop
  | name {τ v} : named g vars τ = some v → Means pw g vars .primary [τ] v
  | paren {s v} : Means pw g vars .additive s v → Means pw g vars .primary (.lpar :: s ++ [.rpar]) v
  | pow {s x a} : Means pw g vars .additive s (.num a) → Means pw g vars .primary (.powOpen :: s ++ [.powClose x]) (.num (pw a x))
  | primary {s v} : Means pw g vars .primary s v → Means pw g vars .postfix s v
  | access {s v τ w} : Means pw g vars .postfix s v → Value.access τ v = some w → Means pw g vars .postfix (s ++ [τ]) w
  | postfix {s v} : Means pw g vars .postfix s v → Means pw g vars .unary s v
  | sign {s v} : Means pw g vars .unary s v → s.head? ≠ some .sign → Means pw g vars .unary (.sign :: s) v.neg
  | unary {s v} : Means pw g vars .unary s v → Means pw g vars .multiplicative s v
  | times {s v r w x} : Means pw g vars .multiplicative s v → Means pw g vars .unary r w → v.mul w = some x →
      Means pw g vars .multiplicative (s ++ .times :: r) x
  | over {s v r w x} : Means pw g vars .multiplicative s v → Means pw g vars .unary r w → v.div w = some x →
      Means pw g vars .multiplicative (s ++ .slash :: r) x
  | multiplicative {s v} : Means pw g vars .multiplicative s v → Means pw g vars .additive s v
  | plus {s v r w x} : Means pw g vars .additive s v → Means pw g vars .multiplicative r w → v.plus true w = some x →
      Means pw g vars .additive (s ++ .plus :: r) x
  | minus {s v r w x} : Means pw g vars .additive s v → Means pw g vars .multiplicative r w → v.plus false w = some x →
      Means pw g vars .additive (s ++ .minus :: r) x

/-- The value can initialise a variable of the declared type. -/
def Fits (scalar : Bool) (r c : Nat) : Value K → Prop
  | .num _ => scalar = true
  | .mat A => scalar = false ∧ A.r = r ∧ A.c = c

/-- Execution of declarations: each name is declared once, its text uses what has been declared before. -/
inductive Executes (pw : K → K → K) (g : List (SM K)) : Vars K → List (Decl K) → Vars K → Prop
  | done {vars} : Executes pw g vars [] vars
  | next {vars vars' d ds v} : vars d.name = none → Means pw g vars .additive d.text v → Fits d.scalar d.rows d.cols v →
      Executes pw g (Function.update vars d.name (some v)) ds vars' → Executes pw g vars (d :: ds) vars'

/-- The line of an output stores the matrix `A`. -/
def Stores (pw : K → K → K) (g : List (SM K)) (vars : Vars K) (o : Out K) (A : SM K) : Prop :=
  if o.scalar then Means pw g vars .additive o.text (.num (A.f 0 0)) ∧ A = .scalar (A.f 0 0)
  else Means pw g vars .additive o.text (.mat A)

/-- The program compiles and computes the values `As`. -/
def Computes (pw : K → K → K) (g : List (SM K)) (p : Program K) (As : List (SM K)) : Prop :=
  ∃ vars, Executes pw g (fun _ => none) p.decls vars ∧ List.Forall₂ (Stores pw g vars) p.outs As

/-- The text of an expression may start with a minus sign. -/
def leading : Ex K → Bool
  | neg _ => true
  | mul a _ => leading a
  | _ => false

/-- Expressions without divisions, in which the opposite is not taken of something that starts with a minus sign, only matrices are
accessed or transposed, and the exponents are printed exactly. -/
def Printable (shown : K → K) : Ex K → Prop
  | add a b | sub a b | mul a b => Printable shown a ∧ Printable shown b
  | neg a => Printable shown a ∧ leading a = false
  | pow a x => Printable shown a ∧ shown x = x
  | transpose a | row a _ | col a _ | elem a _ _ | block a _ _ _ _ => Printable shown a ∧ a.size ≠ (1, 1)
  | div _ _ => False
  | _ => True

end Verif.Levi.Code.Spec
