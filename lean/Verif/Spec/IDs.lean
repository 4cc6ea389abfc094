import Verif.Model.EvalCache
/- Who uses an evaluable (ExpressionImplementation.h:200-217, Registrar.h:130-169): the expressions in the hands of the user, the
operands of other evaluables and the dependencies of other evaluables (and of an `Assignable` on itself). -/
namespace Verif.EvalCache.Spec
variable {V : Type}

/-- The operands stored by an evaluable. -/
def operands (n : Node V) : List (Nat × Nat) :=
  match n.kind with
  | .var => []
  | .op _ ch _ => ch

/-- How many use the object `i`, each with an ID of its own. -/
def users (w : World V) (i : Nat) : Nat :=
  (w.handles.map (Option.map Prod.fst)).count (some i) +
    ((List.range w.size).map fun j => ((operands (w.heap j)).map Prod.fst).count i + ((w.heap j).deps.map Prod.fst).count i).sum

/-- What happens when the expression at position `p` is assigned from an empty expression of another type,
ExpressionImplementation.h:692-707 and 723-735: the ID is given back, the evaluable and the ID are kept. -/
def forget (w : World V) (p : Nat) : World V :=
  match w.handle p with
  | some k => { w with heap := deleteID w.heap k.1 k.2 }
  | none => w

end Verif.EvalCache.Spec
