import Verif.Model.EvalCache
/- Sets of dependencies of levi: extern/levi/include/levi/DependenciesSet.h.  A set is the list of the expressions it holds (their
positions among those in the hands of the user; the set holds copies, `Op.copy`). -/
namespace Verif.EvalCache
variable {V : Type}

/-- `isNew(size_t_value<i>())`, DependenciesSet.h:42-45 and 83-86: the answer of the `i`-th expression (an expression that is not there
is not in a set). -/
def askNew (w : World V) (p : Nat) : Bool × World V := ((w.isNew p).getD false, (step w (.askNew p)).1)

/-- `areNewHelper`, DependenciesSet.h:134-142 (the first is asked before the others, and all are asked), and `areNew` of the empty set,
lines 180-182. -/
def areNew (w : World V) : List Nat → Bool × World V
  | [] => (false, w)
  | [p] => askNew w p
  | p :: q :: ps =>
    let first := askNew w p
    let others := areNew first.2 (q :: ps)
    (others.1 || first.1, others.2)

/-- `evaluate(size_t_value<i>())`, DependenciesSet.h:50-52 and 91-93. -/
def evaluateOf (w : World V) (ps : List Nat) (i : Nat) : World V × Option V :=
  match ps[i]? with
  | some p => step w (.eval p)
  | none => (w, none)

end Verif.EvalCache
