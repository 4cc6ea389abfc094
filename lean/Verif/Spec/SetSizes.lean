import Verif.Model.SetSizes
/- What a program that sets variables and matrices and evaluates expressions should see (C104): sizes and values in the usual sense, nothing remembered but the last value each object was set to. -/
namespace Verif.Levi.Sizes.Spec
variable {K : Type} [Field K]

/-- A declaration. -/
inductive Decl
  | var (name : String) (dimension : Nat)
  | mat (rows cols : Nat)

def Decl.size : Decl → Nat × Nat
  | .var _ d => (d, 1)
  | .mat r c => (r, c)

/-- The declared object. -/
def Decl.make : Decl → Obj K
  | .var name d => newVariable name d
  | .mat r c => newMutable r c

/-- The Jacobian of an object with respect to the variable `name` of dimension `dim`. -/
def Decl.jacobian (name : String) (dim : Nat) : Decl → SM K
  | .var m n => if m = name ∧ n = dim then .one n else .zero n dim
  | .mat r _ => .zero r dim

/-- What an object is set to, as a matrix. -/
def asMatrix : Value K → SM K
  | .number x => .of 1 1 fun _ _ => x
  | .vector n x => .of n 1 fun i _ => x i
  | .matrix A => A

/-- The value of what is written, for the values of the objects. -/
def value (ρ : Nat → SM K) : Form K → SM K
  | .leaf i => ρ i
  | .const A => A
  | .add x y => (value ρ x).add (value ρ y)
  | .sub x y => (value ρ x).sub (value ρ y)
  | .neg x => (value ρ x).neg
  | .mul x y => (value ρ x).mul (value ρ y)
  | .tr x => (value ρ x).tr
  | .block x i j r c => (value ρ x).block i j r c
  | .hcat x y => (value ρ x).hcat (value ρ y)
  | .vcat x y => (value ρ x).vcat (value ρ y)

/-- The sizes of what is written are right in the usual sense, when the objects have the values `ρ`. -/
def Fits (ρ : Nat → SM K) : Form K → Prop
  | .leaf _ | .const _ => True
  | .add x y | .sub x y => Fits ρ x ∧ Fits ρ y ∧ (value ρ x).r = (value ρ y).r ∧ (value ρ x).c = (value ρ y).c
  | .neg x | .tr x => Fits ρ x
  | .mul x y => Fits ρ x ∧ Fits ρ y ∧ (value ρ x).c = (value ρ y).r
  | .block x i j r c => Fits ρ x ∧ i + r ≤ (value ρ x).r ∧ j + c ≤ (value ρ x).c
  | .hcat x y => Fits ρ x ∧ Fits ρ y ∧ (value ρ x).r = (value ρ y).r
  | .vcat x y => Fits ρ x ∧ Fits ρ y ∧ (value ρ x).c = (value ρ y).c

/-- The object `d` can be set to `v`: the type is right and so are the sizes. -/
def MaySet (d : Decl) (v : Value K) : Prop :=
  ((asMatrix v).r, (asMatrix v).c) = d.size ∧ match d, v with
  | .var _ _, .matrix _ => False
  | .mat _ _, .number _ => False
  | _, _ => True

/-- A program in which objects are set to values of their sizes, the sizes of what is written are right, and only expressions that were written are asked about (`fs`). -/
def Proper (d : Nat → Decl) (ρ : Nat → SM K) (fs : List (Form K)) : List (Use K) → Prop
  | [] => True
  | .set i v :: l => MaySet (d i) v ∧ Proper d (Function.update ρ i (asMatrix v)) fs l
  | .build f :: l => Fits ρ f ∧ Proper d ρ (fs ++ [f]) l
  | .evaluate k :: l => k < fs.length ∧ Proper d ρ fs l
  | .size k :: l => k < fs.length ∧ Proper d ρ fs l
  | .derive _ _ _ :: l => Proper d ρ fs l

/-- The answers it should get: the value of what was written at the values the objects have now, its sizes, the Jacobian of an object with respect to a variable. -/
def expected (d : Nat → Decl) (ρ : Nat → SM K) (fs : List (Form K)) : List (Use K) → List (Answer K)
  | [] => []
  | .set i v :: l => expected d (Function.update ρ i (asMatrix v)) fs l
  | .build f :: l => expected d ρ (fs ++ [f]) l
  | .evaluate k :: l =>
    match fs[k]? with
    | some f => .value (value ρ f) :: expected d ρ fs l
    | none => []
  | .size k :: l =>
    match fs[k]? with
    | some f => .size (value ρ f).r (value ρ f).c :: expected d ρ fs l
    | none => []
  | .derive i name dim :: l =>
    .value ((d i).jacobian name dim) :: expected d ρ fs l

/-- Values of objects that were just declared. -/
def zeros (d : Nat → Decl) (i : Nat) : SM K := .zero (d i).size.1 (d i).size.2

end Verif.Levi.Sizes.Spec
