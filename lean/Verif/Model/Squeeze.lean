import Verif.Model.Levi
/- The flattened form of an expression: extern/levi/include/levi/TreeExpander.h, SqueezeEvaluable.h and MultipleSqueezedExpressions.h. -/
namespace Verif.Levi.Squeeze
open Ex
variable {K : Type} [Field K] [LinearOrder K]

/-- TypeDetector.h:13-31 (`EvaluableType`). -/
inductive Kind
  | generic | null | identity | constant | sum | subtraction | invertedSign | product | division | pow | transpose | row | column
  | element | block | vertcat | horzcat
deriving DecidableEq

/-- `info().type`, as set by the constructors: BasicEvaluables.h:36, 183, 283, 379, OperatorsEvaluables.h, AccessorEvaluables.h:82, 173,
267, 366, AdvancedConstructors.h:272, 330; Evaluable.h:136 for all the others (variables, skew, vee, constructions by rows or by
columns, products with a matrix of derivatives). -/
def typeOf : Ex K → Kind
  | const _ _ _ | sparse _ _ _ => .constant
  | null _ _ => .null
  | ident _ => .identity
  | add _ _ => .sum
  | sub _ _ => .subtraction
  | neg _ => .invertedSign
  | mul _ _ => .product
  | div _ _ => .division
  | pow _ _ => .pow
  | transpose _ => .transpose
  | row _ _ => .row
  | col _ _ => .column
  | elem _ _ _ => .element
  | block _ _ _ _ _ => .block
  | vcat _ _ => .vertcat
  | hcat _ _ => .horzcat
  | var _ | skew _ | vee _ | byRows _ _ | byCols _ _ | mpd _ _ _ => .generic

/-- `TreeComponent`, TreeExpander.h:34-96, without its buffer: the expression (with its type, sizes, block and exponent) and the
positions of its operands. -/
structure Comp (K : Type) where
  e : Ex K
  lhs : Nat
  rhs : Nat

/-- `expandedExpression` (its length and elements, each with its buffer), `generics` and `alreadyAdded`, TreeExpander.h:107-111. -/
structure Tree (K : Type) [Zero K] where
  n : Nat
  comp : Nat → Comp K
  buf : Nat → SM K
  generics : List Nat
  added : Kind → List Nat

/-- The buffer of a new component, TreeExpander.h:68-82; `u` is the content of fresh memory. -/
def initial (u : Nat → Nat → K) (e : Ex K) : SM K :=
  match e with
  | null r c => .zero r c
  | ident n => .one n
  | const _ _ _ | sparse _ _ _ => e.ev (fun x _ => x) (fun _ _ => 0)
  | _ => .of e.rows e.cols u

/-- `expandedExpression.push_back(newComponent)`. -/
def push (u : Nat → Nat → K) (t : Tree K) (c : Comp K) : Tree K :=
  { t with n := t.n + 1, comp := Function.update t.comp t.n c, buf := Function.update t.buf t.n (initial u c.e) }

/-- TreeExpander.h:123-134: a generic expression, added once. -/
def addGeneric (cfg : Cfg K) (u : Nat → Nat → K) (e : Ex K) (t : Tree K) : Nat × Tree K :=
  match t.generics.find? fun g => (t.comp g).e.eqv cfg e with
  | some g => (g, t)
  | none => (t.n, { push u t ⟨e, 0, 0⟩ with generics := t.generics ++ [t.n] })

/-- TreeExpander.h:136-140. -/
def addConstant (u : Nat → Nat → K) (e : Ex K) (t : Tree K) : Nat × Tree K := (t.n, push u t ⟨e, 0, 0⟩)

/-- Last part of the two cases of operators, TreeExpander.h:149-172 and 180-203; `old` tells that the operands were already there. -/
def addOperator (cfg : Cfg K) (u : Nat → Nat → K) (e : Ex K) (old : Bool) (l r : Nat) (t : Tree K) : Nat × Tree K :=
  match (if old then (t.added (typeOf e)).find? fun i => (t.comp i).e.eqv cfg e else none) with
  | some i => (i, t)
  | none => (t.n, { push u t ⟨e, l, r⟩ with added := Function.update t.added (typeOf e) (t.added (typeOf e) ++ [t.n]) })

/-- TreeExpander.h:107-209 (`expandTree` with `expandForSqueeze`): the position of the expression and the vector it leaves. -/
def expand (cfg : Cfg K) (u : Nat → Nat → K) : Ex K → Tree K → Nat × Tree K
  | const r c M, t => addConstant u (const r c M) t
  | sparse r c l, t => addConstant u (sparse r c l) t
  | null r c, t => addConstant u (null r c) t
  | ident n, t => addConstant u (ident n) t
  | add a b, t =>
    let l := expand cfg u a t
    let r := expand cfg u b l.2
    addOperator cfg u (add a b) (decide (l.1 < t.n) && decide (r.1 < t.n)) l.1 r.1 r.2
  | sub a b, t =>
    let l := expand cfg u a t
    let r := expand cfg u b l.2
    addOperator cfg u (sub a b) (decide (l.1 < t.n) && decide (r.1 < t.n)) l.1 r.1 r.2
  | mul a b, t =>
    let l := expand cfg u a t
    let r := expand cfg u b l.2
    addOperator cfg u (mul a b) (decide (l.1 < t.n) && decide (r.1 < t.n)) l.1 r.1 r.2
  | div a b, t =>
    let l := expand cfg u a t
    let r := expand cfg u b l.2
    addOperator cfg u (div a b) (decide (l.1 < t.n) && decide (r.1 < t.n)) l.1 r.1 r.2
  | vcat a b, t =>
    let l := expand cfg u a t
    let r := expand cfg u b l.2
    addOperator cfg u (vcat a b) (decide (l.1 < t.n) && decide (r.1 < t.n)) l.1 r.1 r.2
  | hcat a b, t =>
    let l := expand cfg u a t
    let r := expand cfg u b l.2
    addOperator cfg u (hcat a b) (decide (l.1 < t.n) && decide (r.1 < t.n)) l.1 r.1 r.2
  | neg a, t =>
    let l := expand cfg u a t
    addOperator cfg u (neg a) (decide (l.1 < t.n)) l.1 0 l.2
  | pow a x, t =>
    let l := expand cfg u a t
    addOperator cfg u (pow a x) (decide (l.1 < t.n)) l.1 0 l.2
  | transpose a, t =>
    let l := expand cfg u a t
    addOperator cfg u (transpose a) (decide (l.1 < t.n)) l.1 0 l.2
  | row a i, t =>
    let l := expand cfg u a t
    addOperator cfg u (row a i) (decide (l.1 < t.n)) l.1 0 l.2
  | col a j, t =>
    let l := expand cfg u a t
    addOperator cfg u (col a j) (decide (l.1 < t.n)) l.1 0 l.2
  | elem a i j, t =>
    let l := expand cfg u a t
    addOperator cfg u (elem a i j) (decide (l.1 < t.n)) l.1 0 l.2
  | block a i j r c, t =>
    let l := expand cfg u a t
    addOperator cfg u (block a i j r c) (decide (l.1 < t.n)) l.1 0 l.2
  | var v, t => addGeneric cfg u (var v) t
  | skew a, t => addGeneric cfg u (skew a) t
  | vee a, t => addGeneric cfg u (vee a) t
  | byRows n f, t => addGeneric cfg u (byRows n f) t
  | byCols n f, t => addGeneric cfg u (byCols n f) t
  | mpd n ds x, t => addGeneric cfg u (mpd n ds x) t

/-- Body of the loop, SqueezeEvaluable.h:59-96 and MultipleSqueezedExpressions.h:62-99 (the same text): the new buffer of a component
with expression `e`, buffer `own` and operands `lhs`, `rhs` with buffers `A`, `B`.  Sizes `rows()`, `cols()` are those reported by the
expressions, the others those of the buffers. -/
def computeNode (pw : K → K → K) (e lhs rhs : Ex K) (A B own : SM K) : SM K :=
  match e with
  | add _ _ => .add A B
  | sub _ _ => .sub A B
  | mul _ _ =>
    if lhs.cols ≠ rhs.rows then
      if lhs.rows = 1 ∧ lhs.cols = 1 then .smul (A.f 0 0) B
      else .of A.r A.c fun i j => A.f i j * B.f 0 0
    else .of A.r B.c fun i j => ∑ k ∈ Finset.range A.c, A.f i k * B.f k j
  | div _ _ => .div A B
  | neg _ => .neg A
  | pow _ x => .of own.r own.c fun a b => if a = 0 ∧ b = 0 then pw (A.f 0 0) x else own.f a b
  | transpose _ => .tr A
  | row _ k => .row A k
  | col _ k => .col A k
  | elem _ k l => .of own.r own.c fun a b => if a = 0 ∧ b = 0 then A.f k l else own.f a b
  | block _ k l r c => .block A k l r c
  | hcat _ _ => .of own.r own.c fun a b =>
      if own.c - rhs.cols ≤ b then B.f a (b - (own.c - rhs.cols)) else if b < lhs.cols then A.f a b else own.f a b
  | vcat _ _ => .of own.r own.c fun a b =>
      if own.r - rhs.rows ≤ a then B.f (a - (own.r - rhs.rows)) b else if a < lhs.rows then A.f a b else own.f a b
  | _ => own

/-- SqueezeEvaluable.h:59-96: component `i`, with the buffers of the positions of its operands. -/
def compute (pw : K → K → K) (t : Tree K) (buf : Nat → SM K) (i : Nat) : SM K :=
  computeNode pw (t.comp i).e (t.comp (t.comp i).lhs).e (t.comp (t.comp i).rhs).e (buf (t.comp i).lhs) (buf (t.comp i).rhs) (buf i)

/-- SqueezeEvaluable.h:49-96: all the buffers, given those left by the previous evaluation. -/
def evaluateAll (pw : K → K → K) (ρ : Env K) (t : Tree K) : Nat → SM K :=
  let generics := t.generics.foldl (fun buf g => Function.update buf g ((t.comp g).e.ev pw ρ)) t.buf
  (List.range t.n).foldl (fun buf i => Function.update buf i (compute pw t buf i)) generics

/-- An empty vector. -/
def empty : Tree K := ⟨0, fun _ => ⟨null 0 0, 0, 0⟩, fun _ => .zero 0 0, [], fun _ => []⟩

/-- SqueezeEvaluable.h:35-43: constructor. -/
def squeeze (cfg : Cfg K) (u : Nat → Nat → K) (e : Ex K) : Tree K := (expand cfg u e empty).2

/-- SqueezeEvaluable.h:47-103 (`evaluate`): the result, and the vector left for the next evaluation. -/
def evaluate (pw : K → K → K) (ρ : Env K) (t : Tree K) : SM K × Tree K :=
  (evaluateAll pw ρ t (t.n - 1), { t with buf := evaluateAll pw ρ t })

/-- MultipleSqueezedExpressions.h:21-32: the vector, and the position of each name. -/
structure Multiple (K : Type) [Zero K] where
  tree : Tree K
  index : List (String × Nat)

/-- MultipleSqueezedExpressions.h:36-43: constructor; `alreadyAdded` starts empty for each expression (TreeExpander.h:98-105), the
vector and the generics are shared. -/
def multiple (cfg : Cfg K) (u : Nat → Nat → K) (es : List (String × Ex K)) : Multiple K :=
  es.foldl (fun m x =>
    let r := expand cfg u x.2 { m.tree with added := fun _ => [] }
    ⟨r.2, m.index ++ [(x.1, r.1)]⟩) ⟨empty, []⟩

/-- MultipleSqueezedExpressions.h:47-107 (`evaluate`): the results by name (`none` for other names). -/
def Multiple.evaluate (pw : K → K → K) (ρ : Env K) (m : Multiple K) : (String → Option (SM K)) × Multiple K :=
  let buf := evaluateAll pw ρ m.tree
  (m.index.foldl (fun out x => Function.update out x.1 (some (buf x.2))) (fun _ => none), { m with tree := { m.tree with buf := buf } })

end Verif.Levi.Squeeze
