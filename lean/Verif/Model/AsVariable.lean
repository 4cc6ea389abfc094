import Verif.Model.DerivativeCache
/-
`ExpressionComponent::asVariable()` and `VariableFromExpressionEvaluable` (extern/levi/include/levi/AdvancedConstructors.h:199-257): a variable whose value is the one of an expression.

An expression that contains such a variable is a tree `Ex` with a node `var`; the list of definitions says which variables are made from an expression, the last that was made first.  Variables are compared by name and dimension, as in
AdvancedConstructors.h:229; here two variables with the same name and dimension are the same variable, so that a list with two different definitions of one variable does not describe a program (levi keeps two objects then, but
cannot tell them apart in a derivative).  Without caches (see DerivativeCache.lean for them).  `evaluate` of such a variable is in the specification: the value of the expression.
-/
namespace Verif.Levi
open Ex
namespace AsVariable
variable {K : Type} [Field K] [LinearOrder K]
open DerivativeCache

/-- `m_expression`, `m_isDependent` of a variable made from an expression. -/
structure Def (K : Type) where
  var : Var
  expr : Ex K
  dependent : Bool

/-- Some variable in the expression is such that `p`: the dependencies of Registrar.h:213-222. -/
def mentions (p : Var → Bool) : Ex K → Bool
  | const _ _ _ | null _ _ | ident _ | sparse _ _ _ => false
  | var w => p w
  | add a b | sub a b | mul a b | div a b | hcat a b | vcat a b => mentions p a || mentions p b
  | neg a | pow a _ | skew a | transpose a | vee a | row a _ | col a _ | elem a _ _ | block a _ _ _ _ => mentions p a
  | byRows n f | byCols n f => (List.range n).any fun i => mentions p (f i)
  | mpd n ds x => mentions p x || (List.range n).any fun i => mentions p (ds i)

/-- `isDependentFrom(v)` of a variable: Variable.h:95-97, AdvancedConstructors.h:228-230. -/
def varDepends (v : Var) : List (Def K) → Var → Bool
  | [], w => decide (w = v)
  | d :: l, w => if w = d.var then decide (w = v) || (d.dependent && mentions (varDepends v l) d.expr) else varDepends v l w

/-- `isDependentFrom(v)` of an expression. -/
def depends (defs : List (Def K)) (v : Var) (e : Ex K) : Bool := mentions (varDepends v defs) e

/-- The definition of a variable. -/
def definition (defs : List (Def K)) (w : Var) : Option (Def K) := defs.find? fun d => d.var = w

/-- `getNewColumnDerivative` of a variable: Variable.h:99-114 and AdvancedConstructors.h:243-256; `ask` is the derivative of the column 0 of an expression. -/
def variableDerivative (defs : List (Def K)) (v : Var) (ask : Ex K → Option (Ex K)) (w : Var) : Option (Ex K) :=
  if w = v then some (ident v.dim)
  else match definition defs w with
    | some d => if varDepends v defs w then ask d.expr else some (null w.dim v.dim)
    | none => some (null w.dim v.dim)

/-- `getColumnDerivative(column, variable)`, Evaluable.h:280-305.  The number bounds the depth of the recursion. -/
def derivative (cfg : Cfg K) (defs : List (Def K)) : Nat → Ex K → Nat → Var → Option (Ex K)
  | 0, _, _, _ => none
  | n + 1, e, c, v =>
    if depends defs v e then
      newDerivative cfg v (depends defs v) (variableDerivative defs v fun x => derivative cfg defs n x 0 v) (fun x k => derivative cfg defs n x k v) e c
    else some (null e.rows v.dim)

end AsVariable
end Verif.Levi
