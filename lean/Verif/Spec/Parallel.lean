import Verif.Model.Parallel
import Verif.Spec.EvalCache
/- What is expected of the parallel evaluation of expressions. -/
namespace Verif.Parallel.Spec
open Verif.EvalCache
variable {V : Type}

/-- One action on expressions without any cache; evaluating in parallel gives the values of the expressions. -/
def act (s : EvalCache.Spec.State V) : Act V → EvalCache.Spec.State V × List V
  | .op o => ((EvalCache.Spec.step s o).1, (EvalCache.Spec.step s o).2.toList)
  | .parallel _ ps _ => (s, ((ps.mapM s.value).getD []))

/-- The values returned along a history. -/
def acts (s : EvalCache.Spec.State V) : List (Act V) → List (List V)
  | [] => []
  | a :: l => (act s a).2 :: acts (act s a).1 l

/-- No variable is made from an expression. -/
def NoVariables : Act V → Prop
  | .op (.build _ _ (.variable _) _) => False
  | _ => True

/-- Every variable made from an expression is up to date: an expression containing it answers not to be new. -/
def VariablesCurrent (w : World V) : Prop :=
  ∀ i f ch b, (w.heap i).kind = .op f ch (.variable b) → ∃ p c, w.handle p = some (i, c) ∧ w.isNew p = some false

/-- A piece of memory of an object. -/
inductive Location
  | counter (i : Nat)
  | reg (i c : Nat)
  | computed (i : Nat)
  | buffer (i : Nat)
deriving DecidableEq

/-- The next access of a thread, and if it is a write. -/
def next : Prog V → Option (Location × Bool)
  | .readCounter i _ => some (.counter i, false)
  | .writeCounter i _ _ => some (.counter i, true)
  | .readReg i c _ => some (.reg i c, false)
  | .writeReg i c _ _ => some (.reg i c, true)
  | .readComputed i _ => some (.computed i, false)
  | .writeComputed i _ _ => some (.computed i, true)
  | .readBuffer i _ => some (.buffer i, false)
  | .writeBuffer i _ _ => some (.buffer i, true)
  | _ => none

/-- Two threads are about to access the same piece of memory, one of them to write. -/
def Race (s : State V) : Prop :=
  ∃ (t u : Nat) (p q : Prog V) (l : Location) (a b : Bool), t ≠ u ∧ s.threads[t]? = some p ∧ s.threads[u]? = some q ∧ next p = some (l, a) ∧ next q = some (l, b) ∧ (a || b) = true

end Verif.Parallel.Spec
