import Verif.Tac
/- The evaluation cache of levi: extern/levi/include/levi/Registrar.h, the two `evaluateID` of Evaluable.h, the caller bookkeeping
of ExpressionImplementation.h, the variables (Variable.h, Assignable.h) and the variables built from expressions
(AdvancedConstructors.h:199-257).

Objects live at increasing addresses, in order of construction; an object only refers to older ones or to itself.  The value of an
evaluable is of an arbitrary type `V`; the `evaluate()` of an operator is an arbitrary function `f` of the values of its operands,
each evaluated once, from left to right.  Not modelled: mutexes, overflow of the `int` counter, destruction of evaluables, and the
temporary copies of expressions and dependencies made while constructing (these only take and give back fresh IDs). -/
namespace Verif.EvalCache
variable {V : Type}

/-- Whether an evaluable is seen by its dependants as itself (`VariableFromExpressionEvaluable`, AdvancedConstructors.h:199-257,
with the flag `treatAsDependentExpression`) or through its own dependencies (any other operator). -/
inductive Role
  | plain
  | variable (isDependent : Bool)
deriving DecidableEq

/-- What an evaluable is: a variable (or `Assignable`), or an operator with its operands (object and caller ID of each
`ExpressionComponent` it stores). -/
inductive Kind (V : Type)
  | var
  | op (f : List V → V) (children : List (Nat × Nat)) (role : Role)

/-- An evaluable with its `Registrar` part, Registrar.h:15-127: `counter` is `m_isNewCounter`, `ids` the size and `reg` the content
of `m_evaluationRegister`, `bin` is `m_IDRecycleBin` (last element first), `deps` is `m_dependencies` (registrar and ID),
`computed` is `m_alreadyComputed`, `buffer` is `m_evaluationBuffer`. -/
structure Node (V : Type) where
  kind : Kind V
  deps : List (Nat × Nat)
  counter : Int
  ids : Nat
  reg : Nat → Int
  bin : List Nat
  computed : Bool
  buffer : V

/-- The objects alive. -/
abbrev Heap (V : Type) := Nat → Node V

/-- Registrar.h:32-35 (`resetEvaluationRegister`). -/
def reset (h : Heap V) (i : Nat) : Heap V :=
  Function.update h i { h i with counter := (h i).counter + 1, computed := false }

/-- Body of the loop of `isNew`, Registrar.h:195-198: `rec` is `isNew` of the dependency. -/
def newStep (rec : Heap V → Nat → Nat → Bool × Heap V) (i : Nat) (acc : Bool × Heap V) (d : Nat × Nat) : Bool × Heap V :=
  if acc.1 then acc else if d.1 = i then (false, acc.2) else rec acc.2 d.1 d.2

/-- Registrar.h:190-205 (`isNew`); the fuel bounds the depth of the recursion, see `isNew`. -/
def isNewF : Nat → Heap V → Nat → Nat → Bool × Heap V
  | 0, h, _, _ => (false, h)
  | fuel + 1, h, i, c =>
    let r := (h i).deps.foldl (newStep (isNewF fuel) i) (false, h)
    let h := if r.1 then reset r.2 i else r.2
    (decide ((h i).reg c ≠ (h i).counter), h)

/-- Registrar.h:190-205 (`isNew`): dependencies are older objects, so the address bounds the depth. -/
def isNew (h : Heap V) (i c : Nat) : Bool × Heap V := isNewF (i + 1) h i c

/-- Registrar.h:237-239 (`checkID`). -/
def checkID (h : Heap V) (i c : Nat) : Heap V :=
  Function.update h i { h i with reg := Function.update (h i).reg c (h i).counter }

/-- Registrar.h:231-235 (`dependenciesChecked`). -/
def dependenciesChecked (h : Heap V) (i : Nat) : Heap V :=
  (h i).deps.foldl (fun h d => checkID h d.1 d.2) h

/-- Registrar.h:245-254 (`getNewCallerID`). -/
def newCallerID (h : Heap V) (i : Nat) : Nat × Heap V :=
  match (h i).bin with
  | s :: rest => (s, Function.update h i { h i with reg := Function.update (h i).reg s ((h i).counter - 1), bin := rest })
  | [] => ((h i).ids, Function.update h i { h i with reg := Function.update (h i).reg (h i).ids ((h i).counter - 1), ids := (h i).ids + 1 })

/-- Registrar.h:267-270 (`deleteID`). -/
def deleteID (h : Heap V) (i c : Nat) : Heap V :=
  Function.update h i { h i with reg := Function.update (h i).reg c ((h i).counter - 1), bin := c :: (h i).bin }

/-- One operand: `m_expression.evaluate()`, ExpressionImplementation.h:265-269. -/
def operandStep (rec : Heap V → Nat → Nat → V × Heap V) (acc : List V × Heap V) (k : Nat × Nat) : List V × Heap V :=
  let r := rec acc.2 k.1 k.2
  (acc.1 ++ [r.1], r.2)

/-- `evaluate()`: a variable returns its buffer (Variable.h:79-81), an operator evaluates its operands and fills its buffer. -/
def body (rec : Heap V → Nat → Nat → V × Heap V) (h : Heap V) (i : Nat) : Heap V :=
  match (h i).kind with
  | .var => h
  | .op f children _ =>
    let r := children.foldl (operandStep rec) ([], h)
    Function.update r.2 i { r.2 i with buffer := f r.1 }

/-- Evaluable.h:226-247 and 533-553 (`evaluateID`); the fuel bounds the depth, see `evaluateID`. -/
def evaluateF : Nat → Heap V → Nat → Nat → V × Heap V
  | 0, h, i, _ => ((h i).buffer, h)
  | fuel + 1, h, i, c =>
    if c < (h i).ids then
      let r := isNew h i c
      if r.1 then
        if (r.2 i).computed then
          let h := checkID r.2 i c
          let h := dependenciesChecked h i
          ((h i).buffer, h)
        else
          let h := body (evaluateF fuel) r.2 i
          let h := checkID h i c
          let h := Function.update h i { h i with computed := true }
          let h := dependenciesChecked h i
          ((h i).buffer, h)
      else ((r.2 i).buffer, r.2)
    else
      let h := body (evaluateF fuel) h i
      ((h i).buffer, h)

/-- Evaluable.h:226-247 (`evaluateID`): operands are older objects, so the address bounds the depth. -/
def evaluateID (h : Heap V) (i c : Nat) : V × Heap V := evaluateF (i + 1) h i c

/-- `getDependencies`: Registrar.h:223-229, Variable.h:99-101, AdvancedConstructors.h:228-237.  (`Assignable` stores itself among
its dependencies, Assignable.h:30, so the inherited method gives the same as the one of the variables.) -/
def getDependencies (h : Heap V) (i : Nat) : List Nat :=
  match (h i).kind with
  | .var => [i]
  | .op _ _ .plain => (h i).deps.map Prod.fst
  | .op _ _ (.variable true) => (h i).deps.map Prod.fst ++ [i]
  | .op _ _ (.variable false) => [i]

/-- The objects and the expressions in the hands of the user (`none` after destruction). -/
structure World (V : Type) where
  heap : Heap V
  size : Nat
  handles : List (Option (Nat × Nat))

/-- `addDependencies` for one registrar, Registrar.h:130-146, 155-169: it is added unless already there; `acc` is the list so far. -/
def addDependency (acc : List (Nat × Nat) × Heap V) (j : Nat) : List (Nat × Nat) × Heap V :=
  if acc.1.any (fun d => d.1 == j) then acc
  else
    let r := newCallerID acc.2 j
    (acc.1 ++ [(j, r.1)], r.2)

/-- Copy of an expression into a member of the operator, ExpressionImplementation.h:168-176. -/
def addOperand (acc : List (Nat × Nat) × Heap V) (k : Nat) : List (Nat × Nat) × Heap V :=
  let r := newCallerID acc.2 k
  (acc.1 ++ [(k, r.1)], r.2)

/-- A freshly constructed evaluable, Registrar.h:175-179, with the handle of the expression containing it
(ExpressionImplementation.h:200-209): ID 0. -/
def fresh (kind : Kind V) (deps : List (Nat × Nat)) (buffer : V) : Node V :=
  { kind, deps, counter := 0, ids := 1, reg := fun _ => -1, bin := [], computed := false, buffer }

/-- Constructing an operator on the objects `ks` (OperatorsBase.h:24-90, AdvancedConstructors.h): its operands and dependencies. -/
def build (w : World V) (f : List V → V) (ks : List Nat) (role : Role) (initial : V) : World V :=
  let c := ks.foldl addOperand ([], w.heap)
  let d := (ks.flatMap (getDependencies c.2)).foldl addDependency ([], c.2)
  { heap := Function.update d.2 w.size (fresh (.op f c.1 role) d.1 initial), size := w.size + 1, handles := w.handles ++ [some (w.size, 0)] }

/-- What a user does. -/
inductive Op (V : Type)
  | newVar (assignable : Bool) (v : V)
  | build (f : List V → V) (operands : List Nat) (role : Role) (initial : V)
  | copy (p : Nat)
  | drop (p : Nat)
  | assign (p : Nat) (v : V)
  | eval (p : Nat)
  | askNew (p : Nat)
  | become (p q : Nat)

/-- The expression at position `p` among those in the hands of the user. -/
def World.handle (w : World V) (p : Nat) : Option (Nat × Nat) := (w.handles[p]?).join

/-- A variable: Variable.h:46-57; an `Assignable` also depends on itself, Assignable.h:27-43. -/
def newVar (w : World V) (assignable : Bool) (v : V) : World V :=
  let node : Node V := fresh .var [] v
  let node := if assignable then { node with deps := [(w.size, 1)], ids := 2 } else node
  { heap := Function.update w.heap w.size node, size := w.size + 1, handles := w.handles ++ [some (w.size, 0)] }

/-- Assignment of a constant, Variable.h:73-77, Assignable.h:48-51: allowed on variables, also on those made from expressions. -/
def assign (w : World V) (i : Nat) (v : V) : World V :=
  match (w.heap i).kind with
  | .op _ _ .plain => w
  | _ => { w with heap := reset (Function.update w.heap i { w.heap i with buffer := v }) i }

/-- The expression at position `p` gives back its ID: `~ExpressionComponent`, ExpressionImplementation.h:211-217, and the first part of `operator=`. -/
def release (w : World V) (p : Nat) : World V :=
  match w.handle p with
  | some k => { w with heap := deleteID w.heap k.1 k.2, handles := w.handles.set p none }
  | none => w

/-- `operator=` between expressions of the same type, ExpressionImplementation.h:709-721 and 737-750 (also with itself, and from an empty expression); a position without expression becomes an empty expression first. -/
def become (w : World V) (p q : Nat) : World V :=
  if p < w.handles.length then
    match (w.handle q).map Prod.fst with
    | some j =>
      let w := release w p
      let r := newCallerID w.heap j
      { w with heap := r.2, handles := w.handles.set p (some (j, r.1)) }
    | none => release w p
  else w

/-- One action; actions on missing expressions do nothing.  The result is the value returned, for an evaluation. -/
def step (w : World V) : Op V → World V × Option V
  | .newVar a v => (newVar w a v, none)
  | .build f ps role initial =>
    match ps.mapM w.handle with
    | some ks => (build w f (ks.map Prod.fst) role initial, none)
    | none => (w, none)
  | .copy p =>
    match w.handle p with
    | some k => let r := newCallerID w.heap k.1; ({ w with heap := r.2, handles := w.handles ++ [some (k.1, r.1)] }, none)
    | none => (w, none)
  | .drop p =>
    match w.handle p with
    | some k => ({ w with heap := deleteID w.heap k.1 k.2, handles := w.handles.set p none }, none)
    | none => (w, none)
  | .assign p v =>
    match w.handle p with
    | some k => (assign w k.1 v, none)
    | none => (w, none)
  | .eval p =>
    match w.handle p with
    | some k => let r := evaluateID w.heap k.1 k.2; ({ w with heap := r.2 }, some r.1)
    | none => (w, none)
  | .askNew p =>
    match w.handle p with
    | some k => ({ w with heap := (isNew w.heap k.1 k.2).2 }, none)
    | none => (w, none)
  | .become p q => (become w p q, none)

/-- Nothing constructed yet. -/
def World.empty [Inhabited V] : World V := { heap := fun _ => fresh .var [] default, size := 0, handles := [] }

/-- The objects and expressions after a history. -/
def after (w : World V) (os : List (Op V)) : World V := os.foldl (fun w o => (step w o).1) w

/-- What `isNew()` of the expression at position `p` answers, ExpressionImplementation.h:243-248. -/
def World.isNew (w : World V) (p : Nat) : Option Bool := (w.handle p).map fun k => (EvalCache.isNew w.heap k.1 k.2).1

/-- The values returned along a history. -/
def run (w : World V) : List (Op V) → List (Option V)
  | [] => []
  | o :: os => (step w o).2 :: run (step w o).1 os

end Verif.EvalCache
