import Verif.Spec.Levi
/- What it means that two expressions are written in the same way: same nodes, or the same operation on operands written in the
same way, where the addends of a sum can be swapped. -/
namespace Verif.Levi.Spec
variable {K : Type}

/-- `same` tells which nodes are one and the same object in memory. -/
inductive SameForm (same : Ex K → Ex K → Bool) : Ex K → Ex K → Prop
  | shared {a b} : same a b = true → SameForm same a b
  | null {r c} : SameForm same (.null r c) (.null r c)
  | ident {n} : SameForm same (.ident n) (.ident n)
  | add {a b a' b'} : SameForm same a a' → SameForm same b b' → SameForm same (.add a b) (.add a' b')
  | swapped {a b a' b'} : SameForm same a b' → SameForm same b a' → SameForm same (.add a b) (.add a' b')
  | sub {a b a' b'} : SameForm same a a' → SameForm same b b' → SameForm same (.sub a b) (.sub a' b')
  | mul {a b a' b'} : SameForm same a a' → SameForm same b b' → SameForm same (.mul a b) (.mul a' b')
  | div {a b a' b'} : SameForm same a a' → SameForm same b b' → SameForm same (.div a b) (.div a' b')
  | hcat {a b a' b'} : SameForm same a a' → SameForm same b b' → SameForm same (.hcat a b) (.hcat a' b')
  | vcat {a b a' b'} : SameForm same a a' → SameForm same b b' → SameForm same (.vcat a b) (.vcat a' b')
  | neg {a a'} : SameForm same a a' → SameForm same (.neg a) (.neg a')
  | transpose {a a'} : SameForm same a a' → SameForm same (.transpose a) (.transpose a')
  | pow {a a' e} : SameForm same a a' → SameForm same (.pow a e) (.pow a' e)
  | row {a a' i} : SameForm same a a' → SameForm same (.row a i) (.row a' i)
  | col {a a' j} : SameForm same a a' → SameForm same (.col a j) (.col a' j)
  | elem {a a' i j} : SameForm same a a' → SameForm same (.elem a i j) (.elem a' i j)
  | block {a a' i j r c} : SameForm same a a' → SameForm same (.block a i j r c) (.block a' i j r c)

/-- The nodes of an expression that are compared by their address only: what is not one of the operations above. -/
def byAddress : Ex K → List (Ex K)
  | .null _ _ | .ident _ => []
  | .add a b | .sub a b | .mul a b | .div a b | .hcat a b | .vcat a b => byAddress a ++ byAddress b
  | .neg a | .transpose a | .pow a _ | .row a _ | .col a _ | .elem a _ _ | .block a _ _ _ _ => byAddress a
  | x => [x]

end Verif.Levi.Spec
