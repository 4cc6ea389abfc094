import Verif.Model.Levi
/-
The caches of derivatives of levi: `getColumnDerivative` of extern/levi/include/levi/Evaluable.h:280-312 (and 588-620, for scalars), `clearDerivativesCache` (309-311), with the `getNewColumnDerivative` of the nodes
as in Model/Levi.lean.

Every evaluable has a cache of its own: a map from names of variables to a vector with an expression for each column.  Which object is asked is not visible in the tree `Ex` of an expression (two objects can have equal
trees, a sub expression can be shared, a new derivative has new objects), and caches can be cleared at any time.  The model covers all these cases: it keeps all the entries ever stored by any object, and a function
`seen`, over which the theorems quantify, tells for each call of `getColumnDerivative`, in the order of the execution, which of the entries the cache of the object that is asked has (if any).  An
entry can be found only if it was stored by an object with the same tree, for the same name of the variable and the same column.
The column out of range is checked for the requests of the user only (those of the nodes are in range).  Not modelled: the assertion on the size of a new derivative.
-/
namespace Verif.Levi
open Ex
namespace DerivativeCache
noncomputable section
variable {K : Type} [Field K] [LinearOrder K]

/-- The expressions of the first `n` columns or elements, asked in order. -/
def collectM {m : Type → Type} [Monad m] : Nat → (Nat → m (Ex K)) → m (Nat → Ex K)
  | 0, _ => pure fun _ => null 1 1
  | n + 1, f => do
    let g ← collectM n f
    let x ← f n
    return fun i => if i = n then x else g i

/-- The elements that `VeeEvaluable` reads, OperatorsEvaluables.h. -/
def veeElement (cfg : Cfg K) (a : Ex K) : Nat → Ex K
  | 0 => a.elemAcc cfg 2 1
  | 1 => a.elemAcc cfg 0 2
  | _ => a.elemAcc cfg 1 0

/-- `getNewColumnDerivative(column, variable)` of the nodes, with the calls of `getColumnDerivative` on other expressions (always for the same variable) left open as `ask`, `isDependentFrom(variable)` as `dp` and the derivative
of a variable as `ofVar`.  The same cases as in `D` (Model/Levi.lean), where the lines are cited. -/
def newDerivative {m : Type → Type} [Monad m] (cfg : Cfg K) (v : Var) (dp : Ex K → Bool) (ofVar : Var → m (Ex K)) (ask : Ex K → Nat → m (Ex K)) (e : Ex K) (c : Nat) : m (Ex K) :=
  match e with
  | const _ _ _ | null _ _ | ident _ | sparse _ _ _ => pure (null e.rows v.dim)
  | var w => ofVar w
  | add a b =>
    if dp a && dp b then do return addOp cfg (← ask a c) (← ask b c)
    else if dp a then ask a c
    else ask b c
  | sub a b =>
    if dp a && dp b then do return subOp cfg (← ask a c) (← ask b c)
    else if dp a then ask a c
    else do return negOp (← ask b c)
  | neg a => do return negOp (← ask a c)
  | mul a b =>
    if a.isScalar && b.isScalar then
      if dp a && dp b then do
        return addOp cfg (mulOp cfg b (← ask a c)) (mulOp cfg a (← ask b c))
      else if dp a then do return mulOp cfg b (← ask a c)
      else do return mulOp cfg a (← ask b c)
    else if a.isScalar then
      if dp a && dp b then do
        return addOp cfg (mulOp cfg a (← ask b c)) (mulOp cfg (b.colAcc cfg c) (← ask a 0))
      else if dp a then do return mulOp cfg (b.colAcc cfg c) (← ask a 0)
      else do return mulOp cfg a (← ask b c)
    else if b.isScalar then
      if dp a && dp b then do
        return addOp cfg (mulOp cfg b (← ask a c)) (mulOp cfg (a.colAcc cfg c) (← ask b 0))
      else if dp a then do return mulOp cfg b (← ask a c)
      else do return mulOp cfg (a.colAcc cfg c) (← ask b 0)
    else
      if dp a && dp b then do
        return addOp cfg (mulOp cfg a (← ask b c))
          (mpd a.cols (← collectM a.cols fun k => ask a k) (b.colAcc cfg c))
      else if dp a then do return mpd a.cols (← collectM a.cols fun k => ask a k) (b.colAcc cfg c)
      else do return mulOp cfg a (← ask b c)
  | pow a α =>
    if |α - 1| < e15 then ask a c
    else do return mulOp cfg (mulOp cfg (pow a (α - 1)) (const 1 1 fun _ _ => α)) (← ask a c)
  | div a b => ask (mulOp cfg a (pow b (-1))) c
  | skew a => do return mulOp cfg (sparse 3 3 (leviCivita c)) (← ask a 0)
  | transpose a => do return byRows e.rows (← collectM e.rows fun j => ask (a.elemAcc cfg c j) 0)
  | vee a => do return byRows 3 (← collectM 3 fun k => ask (veeElement cfg a k) 0)
  | row a i => do return row (← ask a c) i
  | col a j => ask a j
  | elem a i j => do return row (← ask a j) i
  | block a i j r _ => do return blockOp (← ask a (j + c)) i 0 r v.dim
  | byRows m f => do return byRows m (← collectM m fun i => ask ((f i).elemAcc cfg 0 c) 0)
  | byCols _ f => ask (f c) 0
  | hcat a b => if c < a.cols then ask a c else ask b (c - a.cols)
  | vcat a b => do return vcat (← ask a c) (← ask b c)
  | mpd m ds x => ask (mulOp cfg (byCols m fun k => colAcc cfg (ds k) c) x) 0

/-- `getNewColumnDerivative(column, variable)` when each variable depends on itself only. -/
def newColumnDerivative {m : Type → Type} [Monad m] (cfg : Cfg K) (v : Var) (ask : Ex K → Nat → m (Ex K)) (e : Ex K) (c : Nat) : m (Ex K) :=
  newDerivative cfg v (fun x => x.dep v) (fun w => pure (if w = v then ident v.dim else null w.dim v.dim)) ask e c

/-- An entry of a cache: the tree of the object that has it, the name of the variable, the column, the expression. -/
structure Entry (K : Type) where
  object : Ex K
  name : String
  column : Nat
  derivative : Ex K

/-- The entries that were stored, and the number of calls of `getColumnDerivative`. -/
structure Store (K : Type) where
  entries : List (Entry K)
  calls : Nat

/-- A computation that can store entries; `none`: the depth is not enough. -/
abbrev Run (K : Type) := StateT (Store K) Option

open Classical in
/-- The entry that the object finds in its cache, Evaluable.h:282-292. -/
def found (seen : Nat → Option Nat) (s : Store K) (e : Ex K) (c : Nat) (v : Var) : Option (Ex K) :=
  match seen s.calls with
  | none => none
  | some i =>
    match s.entries[i]? with
    | none => none
    | some entry => if entry.object = e ∧ entry.name = v.name ∧ entry.column = c then some entry.derivative else none

/-- `getColumnDerivative(column, variable)`, Evaluable.h:280-305.  The second argument bounds the depth of the recursion.  Which expressions share a node changes while derivatives are computed (an entry that is found is a shared
node, one that is computed again is not): there is a `Cfg` for each call. -/
def getColumnDerivative (cfg : Nat → Cfg K) (seen : Nat → Option Nat) : Nat → Ex K → Nat → Var → Run K (Ex K)
  | 0, _, _, _ => fun _ => none
  | n + 1, e, c, v => do
    let s ← get
    set { s with calls := s.calls + 1 }
    match found seen s e c v with
    | some d => return d
    | none =>
      let d ← if e.dep v then newColumnDerivative (cfg s.calls) v (fun x k => getColumnDerivative cfg seen n x k v) e c else pure (null e.rows v.dim)
      modify fun s => { s with entries := s.entries ++ [⟨e, v.name, c, d⟩] }
      return d

/-- A request: the expression, the column, the variable. -/
abbrev Request (K : Type) := Ex K × Nat × Var

/-- Requests one after the other. -/
def requests (cfg : Nat → Cfg K) (seen : Nat → Option Nat) (n : Nat) : List (Request K) → Run K (List (Ex K))
  | [] => pure []
  | r :: l => do
    let d ← getColumnDerivative cfg seen n r.1 r.2.1 r.2.2
    return d :: (← requests cfg seen n l)

/-- What a user can ask for a derivative of: an expression that was written with the operators, or an answer received before. -/
inductive Source (K : Type)
  | written (cfg : Cfg K) (e : Ex K)
  | answer (i : Nat)

/-- The object that is asked. -/
def Source.object (answers : List (Ex K)) : Source K → Option (Ex K)
  | written cfg e => some (build cfg e)
  | answer i => answers[i]?

/-- Requests one after the other, also on the answers; a column out of range is an exception (`at`, Evaluable.h:294), which ends the run. -/
def session (cfg : Nat → Cfg K) (seen : Nat → Option Nat) (n : Nat) : List (Source K × Nat × Var) → List (Ex K) → Run K (List (Ex K))
  | [], answers => pure answers
  | r :: l, answers =>
    match r.1.object answers with
    | none => fun _ => none
    | some e =>
      if r.2.1 < e.cols then do
        let d ← getColumnDerivative cfg seen n e r.2.1 r.2.2
        session cfg seen n l (answers ++ [d])
      else fun _ => none

end
end DerivativeCache
end Verif.Levi
