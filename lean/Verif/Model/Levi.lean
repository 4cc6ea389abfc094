import Verif.Model.LeviMatrix
/-
Model of the symbolic expressions of `extern/levi/include/levi` (all file names below are relative to it).

Simplifications, for the whole file:
* compile-time sizes are erased: a node whose run-time size is 1×1 is a scalar, and `CastEvaluable`
  (AccessorEvaluables.h:456-526), which forwards every request, disappears; an operation that exists only for matching
  compile-time types is modelled as existing whenever the run-time sizes match;
* a node is identified with its tree, shared pointers are not modelled; whether two expressions share their node
  (`info().hash`, the address) is answered by an oracle `same` that is only assumed to be right when it says yes;
* names of expressions are dropped; a variable is its name and its dimension (Variable.h:95-97);
* `IdentityEvaluable` is square;
* user defined evaluables, `MutableEvaluable`, `VariableFromExpressionEvaluable` and the caches are not in this file.
-/
namespace Verif.Levi

/-- VariableBase.h / Variable.h: a column vector of variables. -/
structure Var where
  name : String
  dim : Nat
deriving DecidableEq

/-- Nodes of an expression. -/
inductive Ex (K : Type) : Type where
  /-- ConstantEvaluable, BasicEvaluables.h:30-100. -/
  | const (r c : Nat) (M : Nat → Nat → K)
  /-- NullEvaluable, BasicEvaluables.h:176-268. -/
  | null (r c : Nat)
  /-- IdentityEvaluable, BasicEvaluables.h:277-368 (square). -/
  | ident (n : Nat)
  /-- SingleElementMatrix and TwoElementsMatrix, BasicEvaluables.h:371-520: zero except for the listed entries, which are
  one, or minus one when flagged (those are the only values levi stores there). -/
  | sparse (r c : Nat) (entries : List (Nat × Nat × Bool))
  /-- EvaluableVariable, Variable.h. -/
  | var (v : Var)
  /-- SumEvaluable, OperatorsEvaluables.h:142-222. -/
  | add (a b : Ex K)
  /-- SubtractionEvaluable, OperatorsEvaluables.h:228-306. -/
  | sub (a b : Ex K)
  /-- SignInvertedEvaluable, OperatorsEvaluables.h:309-361. -/
  | neg (a : Ex K)
  /-- ProductEvaluable, OperatorsEvaluables.h:462-759. -/
  | mul (a b : Ex K)
  /-- PowEvaluable, OperatorsEvaluables.h:763-820. -/
  | pow (a : Ex K) (e : K)
  /-- DivisionEvaluable, OperatorsEvaluables.h:823-866. -/
  | div (a b : Ex K)
  /-- SkewEvaluable, OperatorsEvaluables.h:874-945. -/
  | skew (a : Ex K)
  /-- TransposeEvaluable, OperatorsEvaluables.h:948-1000. -/
  | transpose (a : Ex K)
  /-- VeeEvaluable, OperatorsEvaluables.h:1003-1050. -/
  | vee (a : Ex K)
  /-- RowEvaluable, AccessorEvaluables.h:71-115. -/
  | row (a : Ex K) (i : Nat)
  /-- ColEvaluable, AccessorEvaluables.h:162-207. -/
  | col (a : Ex K) (j : Nat)
  /-- ElementEvaluable, AccessorEvaluables.h:255-293. -/
  | elem (a : Ex K) (i j : Nat)
  /-- BlockEvaluable, AccessorEvaluables.h:339-402. -/
  | block (a : Ex K) (i j r c : Nat)
  /-- ConstructorByRows, AdvancedConstructors.h:23-111: `n` rows. -/
  | byRows (n : Nat) (f : Nat → Ex K)
  /-- ConstructorByCols, AdvancedConstructors.h:118-198: `n` columns. -/
  | byCols (n : Nat) (f : Nat → Ex K)
  /-- HorzcatEvaluable, AdvancedConstructors.h:263-318. -/
  | hcat (a b : Ex K)
  /-- VertcatEvaluable, AdvancedConstructors.h:321-376. -/
  | vcat (a b : Ex K)
  /-- MatrixProductDerivative, OperatorsEvaluables.h:364-455: `n` derivatives of columns and the vector. -/
  | mpd (n : Nat) (ds : Nat → Ex K) (x : Ex K)

namespace Ex
variable {K : Type}

/-- Sizes as set by the constructors: product OperatorsEvaluables.h:697-699, division line 847 (the number of columns of
the divisor), the others in the constructors cited above. -/
def size : Ex K → Nat × Nat
  | const r c _ | null r c | sparse r c _ => (r, c)
  | ident n => (n, n)
  | var v => (v.dim, 1)
  | add a _ | sub a _ | neg a => a.size
  | mul a b =>
    (if a.size.1 = 1 ∧ a.size.2 = 1 ∧ b.size.1 ≠ 1 then b.size.1 else a.size.1,
     if b.size.1 = 1 ∧ b.size.2 = 1 ∧ a.size.2 ≠ 1 then a.size.2 else b.size.2)
  | pow _ _ => (1, 1)
  | div a b => (a.size.1, b.size.2)
  | skew _ => (3, 3)
  | transpose a => (a.size.2, a.size.1)
  | vee _ => (3, 1)
  | row a _ => (1, a.size.2)
  | col a _ => (a.size.1, 1)
  | elem _ _ _ => (1, 1)
  | block _ _ _ r c => (r, c)
  | byRows n f => (n, (f 0).size.2)
  | byCols n f => ((f 0).size.1, n)
  | hcat a b => (a.size.1, a.size.2 + b.size.2)
  | vcat a b => (a.size.1 + b.size.1, a.size.2)
  | mpd _ ds _ => (ds 0).size

abbrev rows (e : Ex K) : Nat := e.size.1
abbrev cols (e : Ex K) : Nat := e.size.2

/-- `rows() == 1 && cols() == 1`. -/
def isScalar (e : Ex K) : Bool := e.rows == 1 && e.cols == 1

/-- `m_isNull` (ExpressionImplementation.h:124-126, 181-182). -/
def isNull : Ex K → Bool
  | null _ _ => true
  | _ => false

/-- `m_isIdentity` (ExpressionImplementation.h:124-126, 184). -/
def isIdentity : Ex K → Bool
  | ident _ => true
  | _ => false

/-- `isDependentFrom`: Registrar.h:213-222 through the dependencies added by the constructors, Variable.h:95-97. -/
def dep (v : Var) : Ex K → Bool
  | const _ _ _ | null _ _ | ident _ | sparse _ _ _ => false
  | var w => decide (w = v)
  | add a b | sub a b | mul a b | div a b | hcat a b | vcat a b => a.dep v || b.dep v
  | neg a | pow a _ | skew a | transpose a | vee a | row a _ | col a _ | elem a _ _ | block a _ _ _ _ => a.dep v
  | byRows n f | byCols n f => (List.range n).any fun i => (f i).dep v
  | mpd n ds x => x.dep v || (List.range n).any fun i => (ds i).dep v

/-- Values of the variables. -/
abbrev Env (K : Type) := Var → Nat → K

/-- `evaluate()` of the nodes (same places as the constructors above); `pw` is `std::pow`. -/
def ev [Field K] (pw : K → K → K) (ρ : Env K) : Ex K → SM K
  | const r c M => .of r c M
  | null r c => .zero r c
  | ident n => .one n
  | sparse r c l => .of r c fun i j =>
      match l.find? fun t => t.1 == i && t.2.1 == j with
      | none => 0
      | some t => if t.2.2 then -1 else 1
  | var v => .of v.dim 1 fun i _ => ρ v i
  | add a b => .add (a.ev pw ρ) (b.ev pw ρ)
  | sub a b => .sub (a.ev pw ρ) (b.ev pw ρ)
  | neg a => .neg (a.ev pw ρ)
  | mul a b => .mul (a.ev pw ρ) (b.ev pw ρ)
  | pow a e => .scalar (pw ((a.ev pw ρ).f 0 0) e)
  | div a b => .div (a.ev pw ρ) (b.ev pw ρ)
  | skew a => .skew (a.ev pw ρ)
  | transpose a => .tr (a.ev pw ρ)
  | vee a => .vee (a.ev pw ρ)
  | row a i => .row (a.ev pw ρ) i
  | col a j => .col (a.ev pw ρ) j
  | elem a i j => .elem (a.ev pw ρ) i j
  | block a i j r c => .block (a.ev pw ρ) i j r c
  | byRows n f => .of n ((f 0).ev pw ρ).c fun i j => ((f i).ev pw ρ).f 0 j
  | byCols n f => .of ((f 0).ev pw ρ).r n fun i j => ((f j).ev pw ρ).f i 0
  | hcat a b => .hcat (a.ev pw ρ) (b.ev pw ρ)
  | vcat a b => .vcat (a.ev pw ρ) (b.ev pw ρ)
  | mpd n ds x => .of ((ds 0).ev pw ρ).r ((ds 0).ev pw ρ).c fun i j =>
      ∑ k ∈ Finset.range n, (x.ev pw ρ).f k 0 * ((ds k).ev pw ρ).f i j

variable [Field K] [LinearOrder K]

/-- What the operators depend on besides their operands: whether two expressions share their node, and a bound on the
depth of the recursive calls between operators.  Beyond the bound the plain node is made (a 1×1 factor first); a C++
execution corresponds to any bound larger than the depth it reaches. -/
structure Cfg (K : Type) where
  same : Ex K → Ex K → Bool
  depth : Nat

/-- `operator==`, ExpressionImplementation.h:639-672. -/
def eqv (cfg : Cfg K) : Ex K → Ex K → Bool
  | x@(add a b), y => cfg.same x y || match y with
    | add a' b' => (a.eqv cfg a' && b.eqv cfg b') || (a.eqv cfg b' && b.eqv cfg a')
    | _ => false
  | x@(sub a b), y => cfg.same x y || match y with
    | sub a' b' => a.eqv cfg a' && b.eqv cfg b'
    | _ => false
  | x@(mul a b), y => cfg.same x y || match y with
    | mul a' b' => a.eqv cfg a' && b.eqv cfg b'
    | _ => false
  | x@(div a b), y => cfg.same x y || match y with
    | div a' b' => a.eqv cfg a' && b.eqv cfg b'
    | _ => false
  | x@(hcat a b), y => cfg.same x y || match y with
    | hcat a' b' => a.eqv cfg a' && b.eqv cfg b'
    | _ => false
  | x@(vcat a b), y => cfg.same x y || match y with
    | vcat a' b' => a.eqv cfg a' && b.eqv cfg b'
    | _ => false
  | x@(neg a), y => cfg.same x y || match y with
    | neg a' => a.eqv cfg a'
    | _ => false
  | x@(transpose a), y => cfg.same x y || match y with
    | transpose a' => a.eqv cfg a'
    | _ => false
  | x@(pow a e), y => cfg.same x y || match y with
    | pow a' e' => a.eqv cfg a' && decide (e = e')
    | _ => false
  | x@(row a i), y => cfg.same x y || match y with
    | row a' i' => a.eqv cfg a' && i == i'
    | _ => false
  | x@(col a j), y => cfg.same x y || match y with
    | col a' j' => a.eqv cfg a' && j == j'
    | _ => false
  | x@(elem a i j), y => cfg.same x y || match y with
    | elem a' i' j' => a.eqv cfg a' && i == i' && j == j'
    | _ => false
  | x@(block a i j r c), y => cfg.same x y || match y with
    | block a' i' j' r' c' => a.eqv cfg a' && i == i' && j == j' && r == r' && c == c'
    | _ => false
  | x@(ident n), y => cfg.same x y || match y with
    | ident n' => n == n'
    | _ => false
  | x@(null r c), y => cfg.same x y || match y with
    | null r' c' => r == r' && c == c'
    | _ => false
  | x, y => cfg.same x y

/-- Unary minus, ExpressionImplementation.h:378-396. -/
def negOp : Ex K → Ex K
  | null r c => null r c
  | neg a => a
  | a => neg a

/-- ExpressionImplementation.h:473. -/
def costOfProduct (lhsRows lhsCols rhsCols : Nat) : Nat := lhsRows * rhsCols * (3 * lhsCols - 1)

/-- ExpressionImplementation.h:474-482: composing on the left, on the right. -/
def threeMatricesCost (leftmostRows leftmostCols rightmostRows rightmostCols : Nat) : Nat × Nat :=
  (costOfProduct leftmostRows leftmostCols rightmostRows + costOfProduct leftmostRows rightmostRows rightmostCols,
   costOfProduct leftmostCols rightmostRows rightmostCols + costOfProduct leftmostRows leftmostCols rightmostCols)

/-- ExpressionImplementation.h:541-566, costs of composing four factors on the left, in the middle, on the right. -/
def fourMatricesCost (a b c d : Ex K) : Nat × Nat × Nat :=
  let l := threeMatricesCost a.rows a.cols c.rows c.cols
  let r := threeMatricesCost b.rows b.cols d.rows d.cols
  (min l.1 l.2 + costOfProduct a.rows d.rows d.cols,
   costOfProduct a.rows a.cols b.cols + costOfProduct c.rows c.cols d.cols,
   min r.1 r.2 + costOfProduct a.rows a.cols b.rows)

/-- `info().lhs`, `info().rhs` of a product. -/
def asProduct : Ex K → Option (Ex K × Ex K)
  | mul a b => some (a, b)
  | _ => none

/-- Operand of a sign inversion. -/
def asNeg : Ex K → Option (Ex K)
  | neg a => some a
  | _ => none

/-- Product, ExpressionImplementation.h:398-600; the first argument bounds the recursion. -/
def mulF : Nat → Ex K → Ex K → Ex K
  | 0, a, b => if a.isScalar || !b.isScalar then mul a b else mul b a
  | n + 1, a, b =>
    if a.isNull || b.isNull then
      null (if a.rows = 1 ∧ a.cols = 1 ∧ b.rows ≠ 1 then b.rows else a.rows)
        (if b.rows = 1 ∧ b.cols = 1 ∧ a.cols ≠ 1 then a.cols else b.cols)
    else if b.isIdentity && (b.rows == b.cols) && (b.rows == 1 || a.cols == b.rows) then a
    else if a.isIdentity && (a.rows == a.cols) && (a.rows == 1 || a.cols == b.rows) then b
    else match a.asNeg with
    | some a' => negOp (mulF n a' b)
    | none => match b.asNeg with
    | some b' => negOp (mulF n a b')
    | none =>
      if a.isScalar then
        if b.isScalar then mul a b
        else match b.asProduct with
          | some (b1, b2) => if b1.isScalar then mul (mulF n a b1) b2 else mul (mulF n a b1) b2
          | none => mul a b
      else match a.asProduct with
        | some (a1, a2) =>
          if b.isScalar then
            if a1.isScalar then mul (mulF n a1 b) a2 else mul (mulF n b a1) a2
          else match b.asProduct with
            | some (b1, b2) =>
              if a1.isScalar then
                if b1.isScalar then mul (mulF n a1 b1) (mulF n a2 b2) else mul a1 (mulF n a2 b)
              else if b1.isScalar then mul b1 (mulF n a b2)
              else
                let cost := fourMatricesCost a1 a2 b1 b2
                if cost.1 < min cost.2.1 cost.2.2 then mul (mulF n a b1) b2
                else if cost.2.2 < min cost.2.1 cost.1 then mul a1 (mulF n a2 b)
                else mul a b
            | none =>
              if a1.isScalar then mul a1 (mulF n a2 b)
              else
                let cost := threeMatricesCost a1.rows a1.cols b.rows b.cols
                if cost.2 < cost.1 then mul a1 (mulF n a2 b) else mul a b
        | none =>
          if b.isScalar then mul b a
          else match b.asProduct with
            | some (b1, b2) =>
              if b1.isScalar then mul b1 (mulF n a b2)
              else
                let cost := threeMatricesCost a.rows a.cols b2.rows b2.cols
                if cost.1 < cost.2 then mul (mulF n a b1) b2 else mul a b
            | none => mul a b

def mulOp (cfg : Cfg K) (a b : Ex K) : Ex K := mulF cfg.depth a b

/-- AddendsExpander.h:20-23. -/
structure Addend (K : Type) where
  positive : Bool
  lhs : Ex K
  rhs : Ex K
  initial : Ex K

/-- The loop AddendsExpander.h:62-66. -/
def splitRight (cfg : Cfg K) (l : Ex K) : Ex K → Ex K × Ex K
  | mul r1 r2 => splitRight cfg (mulOp cfg l r1) r2
  | r => (l, r)

/-- `expandAddends`, AddendsExpander.h:33-81. -/
def expandAddends (cfg : Cfg K) (positive : Bool) : Ex K → List (Addend K)
  | add a b => expandAddends cfg positive a ++ expandAddends cfg positive b
  | sub a b => expandAddends cfg positive a ++ expandAddends cfg (!positive) b
  | neg a => expandAddends cfg (!positive) a
  | mul a b => [⟨positive, (splitRight cfg a b).1, (splitRight cfg a b).2, mul a b⟩]
  | e => [⟨positive, ident 1, e, e⟩]

/-- `maximumSizeLhs`, AddendsExpander.h:83-102. -/
def maximumSizeLhs (first : Addend K) (similar : List (Addend K)) : Nat × Nat :=
  similar.foldl (fun m a => (max m.1 a.lhs.rows, max m.2 a.lhs.cols)) (first.lhs.rows, first.lhs.cols)

/-- `getLhs`, AddendsExpander.h:104-117. -/
def getLhs (cfg : Cfg K) (a : Addend K) (required : Nat × Nat) : Ex K :=
  if a.lhs.rows = required.1 ∧ a.lhs.cols = required.2 then a.lhs else mulOp cfg a.lhs (ident required.1)

/-- `operator+` (first flag false) and `operator-` (true), ExpressionImplementation.h:273-309, 330-366, with the
constructor of AddendsExpander, AddendsExpander.h:121-151. -/
def addF (cfg : Cfg K) : Nat → Bool → Ex K → Ex K → Ex K
  | 0, false, a, b => add a b
  | 0, true, a, b => sub a b
  | n + 1, minus, a, b =>
    if a.isNull then (if minus then negOp b else b)
    else if b.isNull then a
    else if (a.isIdentity && b.isIdentity) || a.eqv cfg b then
      (if minus then null a.rows a.cols else mulOp cfg (const 1 1 fun _ _ => 2) b)
    else match a.asNeg with
    | some a' => if minus then negOp (addF cfg n false a' b) else addF cfg n true b a'
    | none => match b.asNeg with
    | some b' => addF cfg n (!minus) a b'
    | none =>
      match expandAddends cfg true a ++ expandAddends cfg (!minus) b with
      | [] => if minus then sub a b else add a b
      | first :: others =>
        let similar := others.filter fun x => x.rhs.eqv cfg first.rhs
        let different := others.filter fun x => !(x.rhs.eqv cfg first.rhs)
        if similar.isEmpty then (if minus then sub a b else add a b)
        else
          let size := maximumSizeLhs first similar
          let start := if first.positive then getLhs cfg first size else negOp (getLhs cfg first size)
          let factor := similar.foldl (fun e x => addF cfg n (!x.positive) e (getLhs cfg x size)) start
          let newLhs := mulOp cfg factor first.rhs
          match different with
          | [] => newLhs
          | d :: ds =>
            let newRhs := ds.foldl (fun e x => addF cfg n (!x.positive) e x.initial)
              (if d.positive then d.initial else negOp d.initial)
            add newLhs newRhs

def addOp (cfg : Cfg K) (a b : Ex K) : Ex K := addF cfg cfg.depth false a b
def subOp (cfg : Cfg K) (a b : Ex K) : Ex K := addF cfg cfg.depth true a b

/-- ExpressionImplementation.h:869-878. -/
def transposeOp (a : Ex K) : Ex K := if a.isScalar then a else transpose a

/-- ExpressionImplementation.h:814-826. -/
def blockOp (a : Ex K) (i j r c : Nat) : Ex K := if a.isNull then null r c else block a i j r c

/-- The three constant matrices of SkewEvaluable, OperatorsEvaluables.h:887-889. -/
def leviCivita : Nat → List (Nat × Nat × Bool)
  | 0 => [(1, 2, false), (2, 1, true)]
  | 1 => [(0, 2, true), (2, 0, false)]
  | _ => [(0, 1, false), (1, 0, true)]

/-- Rows of a matrix with few entries, BasicEvaluables.h:391-399, 459-481. -/
def sparseRow (c : Nat) (l : List (Nat × Nat × Bool)) (i : Nat) : Ex K :=
  match l.filter fun t => t.1 == i with
  | [] => null 1 c
  | l' => sparse 1 c (l'.map fun t => (0, t.2))

/-- Columns, BasicEvaluables.h:401-411, 483-508. -/
def sparseCol (r : Nat) (l : List (Nat × Nat × Bool)) (j : Nat) : Ex K :=
  match l.filter fun t => t.2.1 == j with
  | [] => null r 1
  | l' => sparse r 1 (l'.map fun t => (t.1, 0, t.2.2))

/-- Elements, BasicEvaluables.h:413-419, 510-518. -/
def sparseElem (l : List (Nat × Nat × Bool)) (i j : Nat) : Ex K :=
  match l.find? fun t => t.1 == i && t.2.1 == j with
  | none => null 1 1
  | some t => if t.2.2 then neg (ident 1) else ident 1

/-- `-m_col0.acc * x0 - m_col1.acc * x1 - m_col2.acc * x2`, OperatorsEvaluables.h:896-906; `g k` is the accessed part of
the k-th constant matrix. -/
def skewAcc (cfg : Cfg K) (g : Nat → Ex K) (x : Nat → Ex K) : Ex K :=
  subOp cfg (subOp cfg (mulOp cfg (negOp (g 0)) (x 0)) (mulOp cfg (g 1) (x 1))) (mulOp cfg (g 2) (x 2))

mutual
/-- `row`, ExpressionImplementation.h:766-782, with the overrides of the nodes (same classes as the constructors). -/
def rowAcc (cfg : Cfg K) : Ex K → Nat → Ex K
  | e@(null _ c), i => if e.rows = 1 then e else null 1 c
  | e@(ident n), i => if e.rows = 1 then e else sparse 1 n [(0, i, false)]
  | e@(sparse _ c l), i => if e.rows = 1 then e else sparseRow c l i
  | e@(add a b), i => if e.rows = 1 then e else addOp cfg (rowAcc cfg a i) (rowAcc cfg b i)
  | e@(sub a b), i => if e.rows = 1 then e else subOp cfg (rowAcc cfg a i) (rowAcc cfg b i)
  | e@(neg a), i => if e.rows = 1 then e else negOp (rowAcc cfg a i)
  | e@(mul a b), i => if e.rows = 1 then e else
      if a.isScalar then mulOp cfg a (rowAcc cfg b i) else mulOp cfg (rowAcc cfg a i) b
  | e@(div a b), i => if e.rows = 1 then e else div (rowAcc cfg a i) b
  | e@(skew a), i => if e.rows = 1 then e else
      skewAcc cfg (fun k => sparseRow 3 (leviCivita k) i) (fun k => elemAcc cfg a k 0)
  | e@(transpose a), i => if e.rows = 1 then e else transposeOp (colAcc cfg a i)
  | e@(col a j), i => if e.rows = 1 then e else elemAcc cfg a i j
  | e@(block a i0 j0 _ c), i => if e.rows = 1 then e else blockOp (rowAcc cfg a (i0 + i)) 0 j0 1 c
  | e@(byRows _ f), i => if e.rows = 1 then e else f i
  | e@(hcat a b), i => if e.rows = 1 then e else hcat (rowAcc cfg a i) (rowAcc cfg b i)
  | e@(vcat a b), i => if e.rows = 1 then e else
      if i < a.rows then rowAcc cfg a i else rowAcc cfg b (i - a.rows)
  | e, i => if e.rows = 1 then e else row e i

/-- `col`, ExpressionImplementation.h:784-800, with the overrides of the nodes. -/
def colAcc (cfg : Cfg K) : Ex K → Nat → Ex K
  | e@(null r _), j => if e.cols = 1 then e else null r 1
  | e@(ident n), j => if e.cols = 1 then e else sparse n 1 [(j, 0, false)]
  | e@(sparse r _ l), j => if e.cols = 1 then e else sparseCol r l j
  | e@(add a b), j => if e.cols = 1 then e else addOp cfg (colAcc cfg a j) (colAcc cfg b j)
  | e@(sub a b), j => if e.cols = 1 then e else subOp cfg (colAcc cfg a j) (colAcc cfg b j)
  | e@(neg a), j => if e.cols = 1 then e else negOp (colAcc cfg a j)
  | e@(mul a b), j => if e.cols = 1 then e else
      if b.isScalar then mulOp cfg (colAcc cfg a j) b else mulOp cfg a (colAcc cfg b j)
  | e@(div a b), j => if e.cols = 1 then e else div (colAcc cfg a j) b
  | e@(skew a), j => if e.cols = 1 then e else
      skewAcc cfg (fun k => sparseCol 3 (leviCivita k) j) (fun k => elemAcc cfg a k 0)
  | e@(transpose a), j => if e.cols = 1 then e else transposeOp (rowAcc cfg a j)
  | e@(row a i), j => if e.cols = 1 then e else elemAcc cfg a i j
  | e@(block a i0 j0 r _), j => if e.cols = 1 then e else blockOp (colAcc cfg a (j0 + j)) i0 0 r 1
  | e@(byCols _ f), j => if e.cols = 1 then e else f j
  | e@(hcat a b), j => if e.cols = 1 then e else
      if j < a.cols then colAcc cfg a j else colAcc cfg b (j - a.cols)
  | e@(vcat a b), j => if e.cols = 1 then e else vcat (colAcc cfg a j) (colAcc cfg b j)
  | e@(mpd n ds x), j => if e.cols = 1 then e else mulOp cfg (byCols n fun k => colAcc cfg (ds k) j) x
  | e, j => if e.cols = 1 then e else col e j

/-- `operator()(row, col)`, ExpressionImplementation.h:802-812, with the overrides of the nodes. -/
def elemAcc (cfg : Cfg K) : Ex K → Nat → Nat → Ex K
  | e@(null _ _), i, j => if e.isScalar then e else null 1 1
  | e@(ident _), i, j => if e.isScalar then e else if i = j then ident 1 else null 1 1
  | e@(sparse _ _ l), i, j => if e.isScalar then e else sparseElem l i j
  | e@(add a b), i, j => if e.isScalar then e else addOp cfg (elemAcc cfg a i j) (elemAcc cfg b i j)
  | e@(sub a b), i, j => if e.isScalar then e else subOp cfg (elemAcc cfg a i j) (elemAcc cfg b i j)
  | e@(neg a), i, j => if e.isScalar then e else negOp (elemAcc cfg a i j)
  | e@(mul a b), i, j => if e.isScalar then e else
      if a.isScalar then mulOp cfg a (elemAcc cfg b i j)
      else if b.isScalar then mulOp cfg (elemAcc cfg a i j) b
      else mulOp cfg (rowAcc cfg a i) (colAcc cfg b j)
  | e@(div a b), i, j => if e.isScalar then e else div (elemAcc cfg a i j) b
  | e@(skew a), i, j => if e.isScalar then e else
      skewAcc cfg (fun k => sparseElem (leviCivita k) i j) (fun k => elemAcc cfg a k 0)
  | e@(transpose a), i, j => if e.isScalar then e else elemAcc cfg a j i
  | e@(vee a), i, _ => if e.isScalar then e else
      match i with
      | 0 => elemAcc cfg a 2 1
      | 1 => elemAcc cfg a 0 2
      | _ => elemAcc cfg a 1 0
  | e@(row a i0), _, j => if e.isScalar then e else elemAcc cfg a i0 j
  | e@(col a j0), i, _ => if e.isScalar then e else elemAcc cfg a i j0
  | e@(block a i0 j0 _ _), i, j => if e.isScalar then e else elemAcc cfg a (i0 + i) (j0 + j)
  | e@(byRows _ f), i, j => if e.isScalar then e else elemAcc cfg (f i) 0 j
  | e@(byCols _ f), i, j => if e.isScalar then e else elemAcc cfg (f j) i 0
  | e@(hcat a b), i, j => if e.isScalar then e else
      if j < a.cols then elemAcc cfg a i j else elemAcc cfg b i (j - a.cols)
  | e@(vcat a b), i, j => if e.isScalar then e else
      if i < a.rows then elemAcc cfg a i j else elemAcc cfg b (i - a.rows) j
  | e, i, j => if e.isScalar then e else elem e i j
end

/-- The tolerance of OperatorsEvaluables.h:809. -/
def e15 : K := 1 / 10 ^ 15

/-- All of the first `n` optional expressions, or nothing. -/
def collect (n : Nat) (f : Nat → Option (Ex K)) : Option (Nat → Ex K) :=
  if (List.range n).all fun i => (f i).isSome then some fun i => if i < n then (f i).getD (null 1 1) else null 1 1 else none

/-- `getColumnDerivative(column, variable)` (Evaluable.h:280-305) with the `getNewColumnDerivative` of the nodes (same
classes as the constructors).  The first argument bounds the depth of recursion (`none`: not enough). The cache of
derivatives is left out here: it is in Model/DerivativeCache.lean (C99). -/
def D (cfg : Cfg K) : Nat → Ex K → Nat → Var → Option (Ex K)
  | 0, _, _, _ => none
  | n + 1, e, c, v =>
    if !e.dep v then some (null e.rows v.dim)
    else match e with
    | const _ _ _ | null _ _ | ident _ | sparse _ _ _ => some (null e.rows v.dim)
    | var w => some (if w = v then ident v.dim else null e.rows v.dim)
    | add a b =>
      if a.dep v && b.dep v then do addOp cfg (← D cfg n a c v) (← D cfg n b c v)
      else if a.dep v then D cfg n a c v
      else D cfg n b c v
    | sub a b =>
      if a.dep v && b.dep v then do subOp cfg (← D cfg n a c v) (← D cfg n b c v)
      else if a.dep v then D cfg n a c v
      else do negOp (← D cfg n b c v)
    | neg a => do negOp (← D cfg n a c v)
    | mul a b =>
      if a.isScalar && b.isScalar then
        if a.dep v && b.dep v then do
          addOp cfg (mulOp cfg b (← D cfg n a c v)) (mulOp cfg a (← D cfg n b c v))
        else if a.dep v then do mulOp cfg b (← D cfg n a c v)
        else do mulOp cfg a (← D cfg n b c v)
      else if a.isScalar then
        if a.dep v && b.dep v then do
          addOp cfg (mulOp cfg a (← D cfg n b c v)) (mulOp cfg (b.colAcc cfg c) (← D cfg n a 0 v))
        else if a.dep v then do mulOp cfg (b.colAcc cfg c) (← D cfg n a 0 v)
        else do mulOp cfg a (← D cfg n b c v)
      else if b.isScalar then
        if a.dep v && b.dep v then do
          addOp cfg (mulOp cfg b (← D cfg n a c v)) (mulOp cfg (a.colAcc cfg c) (← D cfg n b 0 v))
        else if a.dep v then do mulOp cfg b (← D cfg n a c v)
        else do mulOp cfg (a.colAcc cfg c) (← D cfg n b 0 v)
      else
        if a.dep v && b.dep v then do
          addOp cfg (mulOp cfg a (← D cfg n b c v))
            (mpd a.cols (← collect a.cols fun k => D cfg n a k v) (b.colAcc cfg c))
        else if a.dep v then do mpd a.cols (← collect a.cols fun k => D cfg n a k v) (b.colAcc cfg c)
        else do mulOp cfg a (← D cfg n b c v)
    | pow a α =>
      if |α - 1| < e15 then D cfg n a c v
      else do mulOp cfg (mulOp cfg (pow a (α - 1)) (const 1 1 fun _ _ => α)) (← D cfg n a c v)
    | div a b => D cfg n (mulOp cfg a (pow b (-1))) c v
    | skew a => do mulOp cfg (sparse 3 3 (leviCivita c)) (← D cfg n a 0 v)
    | transpose a => do byRows e.rows (← collect e.rows fun j => D cfg n (a.elemAcc cfg c j) 0 v)
    | vee a => do byRows 3 (← collect 3 fun k => match k with
        | 0 => D cfg n (a.elemAcc cfg 2 1) 0 v
        | 1 => D cfg n (a.elemAcc cfg 0 2) 0 v
        | _ => D cfg n (a.elemAcc cfg 1 0) 0 v)
    | row a i => do row (← D cfg n a c v) i
    | col a j => D cfg n a j v
    | elem a i j => do row (← D cfg n a j v) i
    | block a i j r _ => do blockOp (← D cfg n a (j + c) v) i 0 r v.dim
    | byRows m f => do byRows m (← collect m fun i => D cfg n ((f i).elemAcc cfg 0 c) 0 v)
    | byCols _ f => D cfg n (f c) 0 v
    | hcat a b => if c < a.cols then D cfg n a c v else D cfg n b (c - a.cols) v
    | vcat a b => do vcat (← D cfg n a c v) (← D cfg n b c v)
    | mpd m ds x => D cfg n (mulOp cfg (byCols m fun k => colAcc cfg (ds k) c) x) 0 v

/-- An expression as a user writes it with the operators and methods of `ExpressionComponent`: the tree `e` is what is
written, the result is the expression levi builds (operators: ExpressionImplementation.h; `row`, `col`, `operator()`,
`block`, `transpose`, `skew`, `vee`, `pow`, `/`, `ComposeByRows`, `ComposeByCols`, `Horzcat`, `Vertcat`).  The internal node
`mpd` is not written by users; the function is extended to it for uniformity. -/
def build (cfg : Cfg K) : Ex K → Ex K
  | add a b => addOp cfg (build cfg a) (build cfg b)
  | sub a b => subOp cfg (build cfg a) (build cfg b)
  | neg a => negOp (build cfg a)
  | mul a b => mulOp cfg (build cfg a) (build cfg b)
  | pow a e => pow (build cfg a) e
  | div a b => div (build cfg a) (build cfg b)
  | skew a => skew (build cfg a)
  | transpose a => transposeOp (build cfg a)
  | vee a => vee (build cfg a)
  | row a i => rowAcc cfg (build cfg a) i
  | col a j => colAcc cfg (build cfg a) j
  | elem a i j => elemAcc cfg (build cfg a) i j
  | block a i j r c => blockOp (build cfg a) i j r c
  | byRows n f => byRows n fun i => build cfg (f i)
  | byCols n f => byCols n fun i => build cfg (f i)
  | hcat a b => hcat (build cfg a) (build cfg b)
  | vcat a b => vcat (build cfg a) (build cfg b)
  | mpd n ds x => mpd n (fun i => build cfg (ds i)) (build cfg x)
  | e => e

end Ex
end Verif.Levi
