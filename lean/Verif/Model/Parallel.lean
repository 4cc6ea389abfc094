import Verif.Model.EvalCache
/-
Evaluation of several expressions in parallel: src/private/CentroidalMomentumConstraint.cpp:493-495, 559-564 (`std::async` on the expressions of the Hessians), which
share their sub-expressions; extern/levi/include/levi/Evaluable.h:226-247, 533-553 (`evaluateID`, with its mutex) and Registrar.h:190-270 (without any mutex).

The same functions as in Model/EvalCache.lean, here as programs made of single accesses to the memory, so that those of different threads can be interleaved in any
way.  Simplifications: the accesses are sequentially consistent; the size of the registers and the lists of dependencies, which do not change during an evaluation, are
not accesses; the copies of the expressions made for the threads are those in the hands of the user (they are made before the threads start, and are destroyed
afterwards); the value is read by the thread at the end (the code reads it in the main thread, later).
-/
namespace Verif.Parallel
open Verif.EvalCache
variable {V : Type}

/-- The memory: the objects, and which thread has locked the mutex of each. -/
structure Mem (V : Type) where
  heap : Heap V
  lock : Nat → Option Nat

/-- A program: what is left to do. -/
inductive Prog (V : Type)
  | done (v : V)
  | lock (i : Nat) (k : Prog V)
  | unlock (i : Nat) (k : Prog V)
  | readCounter (i : Nat) (k : Int → Prog V)
  | writeCounter (i : Nat) (x : Int) (k : Prog V)
  | readReg (i c : Nat) (k : Int → Prog V)
  | writeReg (i c : Nat) (x : Int) (k : Prog V)
  | readComputed (i : Nat) (k : Bool → Prog V)
  | writeComputed (i : Nat) (b : Bool) (k : Prog V)
  | readBuffer (i : Nat) (k : V → Prog V)
  | writeBuffer (i : Nat) (v : V) (k : Prog V)

def Mem.modify (m : Mem V) (i : Nat) (n : Node V) : Mem V := { m with heap := Function.update m.heap i n }

/-- The next access of the thread `t`; `none` if it has finished or waits for a mutex. -/
def Prog.step (t : Nat) (m : Mem V) : Prog V → Option (Mem V × Prog V)
  | .done _ => none
  | .lock i k => if m.lock i = none then some ({ m with lock := Function.update m.lock i (some t) }, k) else none
  | .unlock i k => some ({ m with lock := Function.update m.lock i none }, k)
  | .readCounter i k => some (m, k (m.heap i).counter)
  | .writeCounter i x k => some (m.modify i { m.heap i with counter := x }, k)
  | .readReg i c k => some (m, k ((m.heap i).reg c))
  | .writeReg i c x k => some (m.modify i { m.heap i with reg := Function.update (m.heap i).reg c x }, k)
  | .readComputed i k => some (m, k (m.heap i).computed)
  | .writeComputed i b k => some (m.modify i { m.heap i with computed := b }, k)
  | .readBuffer i k => some (m, k (m.heap i).buffer)
  | .writeBuffer i v k => some (m.modify i { m.heap i with buffer := v }, k)

/-- The loop of `isNew`, Registrar.h:195-198. -/
def newDeps (rec : Nat → Nat → (Bool → Prog V) → Prog V) (i : Nat) (k : Bool → Prog V) : List (Nat × Nat) → Prog V
  | [] => k false
  | d :: ds => if d.1 = i then newDeps rec i k ds else rec d.1 d.2 fun b => if b then k true else newDeps rec i k ds

/-- Registrar.h:204: the comparison at the end of `isNew`. -/
def askReg (i c : Nat) (k : Bool → Prog V) : Prog V := .readReg i c fun r => .readCounter i fun n => k (decide (r ≠ n))

/-- Registrar.h:190-205 (`isNew`), 32-35 (`resetEvaluationRegister`); `g` are the objects, for their dependencies. -/
def isNewP (g : Heap V) : Nat → Nat → Nat → (Bool → Prog V) → Prog V
  | 0, _, _, k => k false
  | fuel + 1, i, c, k => newDeps (isNewP g fuel) i (fun new =>
      if new then .readCounter i fun n => .writeCounter i (n + 1) (.writeComputed i false (askReg i c k)) else askReg i c k) (g i).deps

/-- Registrar.h:237-239 (`checkID`), Evaluable.h:232, 237. -/
def checkP (i c : Nat) (k : Prog V) : Prog V := .readCounter i fun n => .writeReg i c n k

/-- Registrar.h:231-235 (`dependenciesChecked`). -/
def checkAllP (k : Prog V) : List (Nat × Nat) → Prog V
  | [] => k
  | d :: ds => checkP d.1 d.2 (checkAllP k ds)

/-- The operands are evaluated, from left to right. -/
def operandsP (rec : Nat → Nat → Prog V → Prog V) (k : Prog V) : List (Nat × Nat) → Prog V
  | [] => k
  | d :: ds => rec d.1 d.2 (operandsP rec k ds)

/-- Their buffers are read. -/
def readsP (k : List V → Prog V) : List Nat → Prog V
  | [] => k []
  | j :: js => .readBuffer j fun v => readsP (fun l => k (v :: l)) js

/-- Every operand is read as soon as it is evaluated, and a part of the buffer of the operator is written. -/
def eachP (rec : Nat → Nat → Prog V → Prog V) (i : Nat) (part : V) (k : List V → Prog V) : List (Nat × Nat) → Prog V
  | [] => k []
  | d :: ds => rec d.1 d.2 (.readBuffer d.1 fun v => .writeBuffer i part (eachP rec i part (fun l => k (v :: l)) ds))

/-- How the operators fill their buffers: `part i` is what the buffer of the object `i` holds while it is being written (a matrix product of Eigen starts by
filling it with zeros), `each i` tells if it is written operand by operand. -/
structure Style (V : Type) where
  part : Nat → V
  each : Nat → Bool

/-- `evaluate()` of an operator (OperatorsEvaluables.h:156, 238, 315, 642: the operands, then the result; AdvancedConstructors.h:40-44, 134-138, 303-304: operand by
operand) and of a variable (Variable.h:79-81). -/
def bodyP (g : Heap V) (y : Style V) (rec : Nat → Nat → Prog V → Prog V) (i : Nat) (k : Prog V) : Prog V :=
  match (g i).kind with
  | .var => k
  | .op f children _ =>
    if y.each i then eachP rec i (y.part i) (fun l => .writeBuffer i (f l) k) children
    else operandsP rec (readsP (fun l => .writeBuffer i (y.part i) (.writeBuffer i (f l) k)) (children.map Prod.fst)) children

/-- Evaluable.h:226-247 and 533-553 (`evaluateID`). -/
def evaluateP (g : Heap V) (y : Style V) : Nat → Nat → Nat → Prog V → Prog V
  | 0, _, _, k => k
  | fuel + 1, i, c, k =>
    .lock i (
      if c < (g i).ids then
        isNewP g (i + 1) i c fun new =>
          if new then
            .readComputed i fun b =>
              if b then checkP i c (checkAllP (.unlock i k) (g i).deps)
              else bodyP g y (evaluateP g y fuel) i (checkP i c (.writeComputed i true (checkAllP (.unlock i k) (g i).deps)))
          else .unlock i k
      else bodyP g y (evaluateP g y fuel) i (.unlock i k))

/-- What one thread does. -/
def threadP (g : Heap V) (y : Style V) (k : Nat × Nat) : Prog V := evaluateP g y (k.1 + 1) k.1 k.2 (.readBuffer k.1 .done)

/-- The memory and what is left to do of each thread. -/
structure State (V : Type) where
  mem : Mem V
  threads : List (Prog V)

/-- One access of the thread `t`. -/
def State.step (s : State V) (t : Nat) : Option (State V) := do
  let p ← s.threads[t]?
  let (m, p) ← p.step t s.mem
  some ⟨m, s.threads.set t p⟩

/-- The accesses in the order of a schedule; where the thread cannot go on, nothing happens. -/
def State.run (s : State V) : List Nat → State V
  | [] => s
  | t :: l => ((s.step t).getD s).run l

/-- The threads start: one for each of the expressions. -/
def start (g : Heap V) (y : Style V) (roots : List (Nat × Nat)) : State V := ⟨⟨g, fun _ => none⟩, roots.map (threadP g y)⟩

/-- The value that a thread has returned. -/
def Prog.result : Prog V → Option V
  | .done v => some v
  | _ => none

/-- The values, once all the threads have finished. -/
def State.results (s : State V) : Option (List V) := s.threads.mapM Prog.result

/-- One of the actions of Model/EvalCache.lean, or the evaluation of several expressions by as many threads, in the order of a schedule
(CentroidalMomentumConstraint.cpp:493-502, 559-570). -/
inductive Act (V : Type)
  | op (o : Op V)
  | parallel (y : Style V) (ps : List Nat) (schedule : List Nat)

/-- The threads, when they start. -/
def launch (w : World V) (y : Style V) (ps : List Nat) : Option (State V) := (ps.mapM w.handle).map (start w.heap y)

/-- One action, with the values returned; `none` if the schedule leaves some thread unfinished (the code waits for all of them). -/
def act (w : World V) : Act V → Option (World V × List V)
  | .op o => some ((step w o).1, (step w o).2.toList)
  | .parallel y ps schedule =>
    match launch w y ps with
    | none => some (w, [])
    | some s => (s.run schedule).results.map fun l => ({ w with heap := (s.run schedule).mem.heap }, l)

/-- The values returned along a history. -/
def acts (w : World V) : List (Act V) → Option (List (List V))
  | [] => some []
  | a :: l => do
    let (w, v) ← act w a
    let vs ← acts w l
    some (v :: vs)

end Verif.Parallel
