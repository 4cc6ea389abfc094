import Verif.Model.LeviMatrix
/-
Sizes of the objects of levi that can be set (extern/levi/include/levi/Variable.h: `EvaluableVariable`; Assignable.h; BasicEvaluables.h: `MutableEvaluable`, 105-133; ExpressionImplementation.h:750-762) and of the expressions built on
them.

Each node of an expression has its own buffer, with the sizes it was made with, and reads it to answer `rows()` and `cols()` (Evaluable.h:181-191), also while it evaluates.  In Model/Levi.lean sizes are functions of the tree; here
they are state.  All types are dynamic except the number of columns of variables; the rewritings of the operators are in Model/Levi.lean, here each operator makes its node.  `evaluate` computes all the nodes again (the counters that
save evaluations are in Model/EvalCache.lean).  `none`: a failed assertion, of levi or of Eigen.
-/
namespace Verif.Levi.Sizes
variable {K : Type} [Field K]

/-- `EvaluableVariable`, with name and `m_dimension` (VariableBase.h:23-28), or `MutableEvaluable`. -/
inductive Kind
  | var (name : String) (dimension : Nat)
  | mat

/-- An object that can be set, with `m_evaluationBuffer`. -/
structure Obj (K : Type) [Zero K] where
  kind : Kind
  buffer : SM K

/-- Variable.h:49-57; Evaluable.h:131-139. -/
def newVariable (name : String) (n : Nat) : Obj K := ⟨.var name n, .zero n 1⟩

/-- BasicEvaluables.h:117-119; Evaluable.h:131-139. -/
def newMutable (r c : Nat) : Obj K := ⟨.mat, .zero r c⟩

/-- What an object is set to, by its type in C++: a number, a matrix with one column at compile time, a matrix. -/
inductive Value (K : Type) [Zero K]
  | number (x : K)
  | vector (n : Nat) (x : Nat → K)
  | matrix (A : SM K)

/-- `operator=`: Variable.h:30-44 and 71-74, Assignable.h:48-51.  A matrix for a variable and a number for a mutable do not compile. -/
def Obj.set (o : Obj K) (v : Value K) : Option (Obj K) :=
  match o.kind, v with
  | .var _ _, .number x => some ⟨o.kind, .of 1 1 fun _ _ => x⟩
  | .var _ d, .vector n x => if n = d then some ⟨o.kind, .of n 1 fun i _ => x i⟩ else none
  | .var _ _, .matrix _ => none
  | .mat, .number _ => none
  | .mat, .vector n x => some ⟨o.kind, .of n 1 fun i _ => x i⟩
  | .mat, .matrix A => some ⟨o.kind, A⟩

/-- `getColumnDerivative(0, v)` asked for the first time, `v` given by name and dimension: Evaluable.h:278-305 with Variable.h:80-97, BasicEvaluables.h:127-130. -/
def Obj.derivative (o : Obj K) (name : String) (dim : Nat) : Option (SM K) :=
  match o.kind with
  | .var m d =>
    if m = name ∧ d = dim then
      if d = o.buffer.r ∧ d = dim then some (.one d) else none
    else some (.zero o.buffer.r dim)
  | .mat => some (.zero o.buffer.r dim)

/-- Nodes, each with its buffer. -/
inductive Node (K : Type) [Zero K]
  | leaf (i : Nat)
  | const (A : SM K)
  | add (b : SM K) (x y : Node K)
  | sub (b : SM K) (x y : Node K)
  | neg (b : SM K) (x : Node K)
  | mul (b : SM K) (x y : Node K)
  | tr (b : SM K) (x : Node K)
  | block (b : SM K) (x : Node K) (i j : Nat)
  | hcat (b : SM K) (x y : Node K)
  | vcat (b : SM K) (x y : Node K)

/-- What is written by the user. -/
inductive Form (K : Type) [Zero K]
  | leaf (i : Nat)
  | const (A : SM K)
  | add (x y : Form K)
  | sub (x y : Form K)
  | neg (x : Form K)
  | mul (x y : Form K)
  | tr (x : Form K)
  | block (x : Form K) (i j r c : Nat)
  | hcat (x y : Form K)
  | vcat (x y : Form K)

/-- `rows()` and `cols()`, Evaluable.h:181-191. -/
def Node.size (σ : Nat → Obj K) : Node K → Nat × Nat
  | .leaf i => ((σ i).buffer.r, (σ i).buffer.c)
  | .const A => (A.r, A.c)
  | .add b _ _ | .sub b _ _ | .neg b _ | .mul b _ _ | .tr b _ | .block b _ _ _ | .hcat b _ _ | .vcat b _ _ => (b.r, b.c)

/-- The operators: assertions of ExpressionImplementation.h:274-275, 331-332, 401, 828, 997-1017 and constructors of the nodes: OperatorsEvaluables.h:163-169,
245-251, 320-325, 700-707, 956-961, AccessorEvaluables.h:359-373, AdvancedConstructors.h:267-275, 325-333. -/
def build (σ : Nat → Obj K) : Form K → Option (Node K)
  | .leaf i => some (.leaf i)
  | .const A => some (.const A)
  | .add f g => do
    let x ← build σ f
    let y ← build σ g
    if x.size σ = y.size σ then some (.add (.zero (x.size σ).1 (x.size σ).2) x y) else none
  | .sub f g => do
    let x ← build σ f
    let y ← build σ g
    if x.size σ = y.size σ then some (.sub (.zero (x.size σ).1 (x.size σ).2) x y) else none
  | .neg f => do
    let x ← build σ f
    some (.neg (.zero (x.size σ).1 (x.size σ).2) x)
  | .mul f g => do
    let x ← build σ f
    let y ← build σ g
    if x.size σ = (1, 1) ∨ y.size σ = (1, 1) ∨ (x.size σ).2 = (y.size σ).1 then
      some (.mul (.zero (if x.size σ = (1, 1) ∧ (y.size σ).1 ≠ 1 then (y.size σ).1 else (x.size σ).1) (if y.size σ = (1, 1) ∧ (x.size σ).2 ≠ 1 then (x.size σ).2 else (y.size σ).2)) x y)
    else none
  | .tr f => do
    let x ← build σ f
    some (.tr (.zero (x.size σ).2 (x.size σ).1) x)
  | .block f i j r c => do
    let x ← build σ f
    if i + r ≤ (x.size σ).1 ∧ j + c ≤ (x.size σ).2 then some (.block (.zero r c) x i j) else none
  | .hcat f g => do
    let x ← build σ f
    let y ← build σ g
    if (x.size σ).1 = (y.size σ).1 then some (.hcat (.zero (x.size σ).1 ((x.size σ).2 + (y.size σ).2)) x y) else none
  | .vcat f g => do
    let x ← build σ f
    let y ← build σ g
    if (x.size σ).2 = (y.size σ).2 then some (.vcat (.zero ((x.size σ).1 + (y.size σ).1) (x.size σ).2) x y) else none

/-- `b.block(i, j, r, c) = A` in Eigen. -/
def write (b : SM K) (i j r c : Nat) (A : SM K) : Option (SM K) :=
  if i + r ≤ b.r ∧ j + c ≤ b.c ∧ A.r = r ∧ A.c = c then
    some (.of b.r b.c fun k l => if i ≤ k ∧ k < i + r ∧ j ≤ l ∧ l < j + c then A.f (k - i) (l - j) else b.f k l)
  else none

/-- `evaluate()`: OperatorsEvaluables.h:151-157, 233-239, 310-316, 641-644, 979-983, AccessorEvaluables.h:388-393, AdvancedConstructors.h:302-306, 361-365.  The value is the buffer of the node that is left.  A sum, a difference, a
product and a transposition resize the buffer; a block has the sizes of its node; the others write in parts of their buffer, the sizes of the parts being read before the operand is evaluated. -/
def evaluate (σ : Nat → Obj K) : Node K → Option (SM K × Node K)
  | .leaf i => some ((σ i).buffer, .leaf i)
  | .const A => some (A, .const A)
  | .add _ x y => do
    let (A, x') ← evaluate σ x
    let (B, y') ← evaluate σ y
    if A.r = B.r ∧ A.c = B.c then some (A.add B, .add (A.add B) x' y') else none
  | .sub _ x y => do
    let (A, x') ← evaluate σ x
    let (B, y') ← evaluate σ y
    if A.r = B.r ∧ A.c = B.c then some (A.sub B, .sub (A.sub B) x' y') else none
  | .neg _ x => do
    let (A, x') ← evaluate σ x
    some (A.neg, .neg A.neg x')
  | .mul _ x y => do
    let (A, x') ← evaluate σ x
    let (B, y') ← evaluate σ y
    if A.c = B.r then some (A.mul B, .mul (A.mul B) x' y') else none
  | .tr _ x => do
    let (A, x') ← evaluate σ x
    some (A.tr, .tr A.tr x')
  | .block b x i j => do
    let (A, x') ← evaluate σ x
    if i + b.r ≤ A.r ∧ j + b.c ≤ A.c then some (A.block i j b.r b.c, .block (A.block i j b.r b.c) x' i j) else none
  | .hcat b x y => do
    let (A, x') ← evaluate σ x
    let b₁ ← write b 0 0 b.r (x.size σ).2 A
    let (B, y') ← evaluate σ y
    let b₂ ← write b₁ 0 (b₁.c - (y.size σ).2) b₁.r (y.size σ).2 B
    some (b₂, .hcat b₂ x' y')
  | .vcat b x y => do
    let (A, x') ← evaluate σ x
    let b₁ ← write b 0 0 (x.size σ).1 b.c A
    let (B, y') ← evaluate σ y
    let b₂ ← write b₁ (b₁.r - (y.size σ).1) 0 (y.size σ).1 b₁.c B
    some (b₂, .vcat b₂ x' y')

/-- What a program does. -/
inductive Use (K : Type) [Zero K]
  | set (i : Nat) (v : Value K)
  | build (f : Form K)
  | evaluate (k : Nat)
  | size (k : Nat)
  | derive (i : Nat) (name : String) (dim : Nat)

/-- What it gets back. -/
inductive Answer (K : Type) [Zero K]
  | value (A : SM K)
  | size (r c : Nat)

/-- The objects, and the expressions in the order they were built. -/
structure Program (K : Type) [Zero K] where
  objects : Nat → Obj K
  exprs : List (Node K)

/-- One step. -/
def Program.step (p : Program K) : Use K → Option (List (Answer K) × Program K)
  | .set i v => do
    let o ← (p.objects i).set v
    some ([], ⟨Function.update p.objects i o, p.exprs⟩)
  | .build f => do
    let n ← Sizes.build p.objects f
    some ([], ⟨p.objects, p.exprs ++ [n]⟩)
  | .evaluate k => do
    let n ← p.exprs[k]?
    let (A, n') ← Sizes.evaluate p.objects n
    some ([.value A], ⟨p.objects, p.exprs.set k n'⟩)
  | .size k => do
    let n ← p.exprs[k]?
    some ([.size (n.size p.objects).1 (n.size p.objects).2], p)
  | .derive i name dim => do
    let A ← (p.objects i).derivative name dim
    some ([.value A], p)

/-- The answers of a sequence of steps. -/
def Program.answers (p : Program K) : List (Use K) → Option (List (Answer K))
  | [] => some []
  | u :: l => do
    let (a, p') ← p.step u
    let b ← p'.answers l
    some (a ++ b)

end Verif.Levi.Sizes
