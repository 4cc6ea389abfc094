import Verif.Model.VariablesLabeller
/-
Specification of the labelled vector: an ordered collection of independent named vectors.
It does not mention offsets.
-/
namespace Verif.Labeller.Spec

/-- Named vectors in registration order. -/
abbrev Store (K : Type) := List (String × List K)

/-- The vector stored under a name. -/
def lookupName {K : Type} : Store K → String → Option (List K)
  | [], _ => none
  | (k, v) :: rest, n => if k = n then some v else lookupName rest n

/-- Replace the vector stored under a name. -/
def put {K : Type} : Store K → String → List K → Store K
  | [], _, _ => []
  | (k, v) :: rest, n, x => if k = n then (k, x) :: rest else (k, v) :: put rest n x

/-- Distribute a long vector over the named vectors, in order, keeping their sizes. -/
def distribute {K : Type} : Store K → List K → Store K
  | [], _ => []
  | (k, v) :: rest, x => (k, x.take v.length) :: distribute rest (x.drop v.length)

/-- All values, in registration order. -/
def flat {K : Type} (s : Store K) : List K := (s.map (·.2)).flatten

/-- What each call should do to the named vectors. -/
def step {K : Type} [Zero K] (s : Store K) : Op K → Option (Store K)
  | .add n d => match lookupName s n with
    | some _ => some s
    | none => some (s ++ [(n, List.replicate d 0)])
  | .zero => some (s.map fun p => (p.1, List.replicate p.2.length 0))
  | .write n x => match lookupName s n with
    | some v => if x.length = v.length then some (put s n x) else none
    | none => if x.length = 0 then some s else none
  | .writeAt i x => if i < (flat s).length then some (distribute s ((flat s).set i x)) else none
  | .assign v => if v.length = (flat s).length then some (distribute s v) else none
  | .clear => some []

def run {K : Type} [Zero K] (s : Store K) : List (Op K) → Option (Store K)
  | [] => some s
  | op :: ops => match step s op with
    | some s' => run s' ops
    | none => none

end Verif.Labeller.Spec
