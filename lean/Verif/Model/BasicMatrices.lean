import Mathlib.Algebra.Order.Field.Basic
/-
Constant matrices with few entries, extern/levi/include/levi/BasicEvaluables.h: `NullEvaluable` (176-241), `IdentityEvaluable` (277-342), `SingleElementMatrix` (370-427), `TwoElementsMatrix` (431-521), with the methods `row`, `col`,
`operator()` of `ExpressionComponent` (ExpressionImplementation.h:764-812).

The value of an entry is an expression: here a function of the state `S` of the program (the values of the variables); the constructors evaluate it once.  In Model/Levi.lean the entries are only one and minus one, and identities
square; here they are arbitrary.  `none`: a failed assertion or a write out of the range of the matrix.  Names are left out.
-/
namespace Verif.Levi.Basic
variable {S K : Type} [Field K]

/-- `Triplet`, BasicEvaluables.h:16-21. -/
structure Triplet (S K : Type) where
  row : Nat
  col : Nat
  value : S → K

/-- The classes. -/
inductive Kind (S K : Type)
  | null
  | identity
  | single (t : Triplet S K)
  | two (t u : Triplet S K)

/-- An evaluable, with `m_evaluationBuffer`. -/
structure Matrix (S K : Type) where
  rows : Nat
  cols : Nat
  kind : Kind S K
  buffer : Nat → Nat → K

/-- `m_evaluationBuffer(i, j) = x`. -/
def write (r c : Nat) (b : Nat → Nat → K) (i j : Nat) (x : K) : Option (Nat → Nat → K) :=
  if i < r ∧ j < c then some fun k l => if k = i ∧ l = j then x else b k l else none

/-- BasicEvaluables.h:187-199. -/
def newNull (r c : Nat) : Matrix S K := ⟨r, c, .null, fun _ _ => 0⟩

/-- BasicEvaluables.h:288-293. -/
def newIdentity (r c : Nat) : Matrix S K := ⟨r, c, .identity, fun i j => if i = j then 1 else 0⟩

/-- BasicEvaluables.h:375-385. -/
def newSingle (s : S) (r c : Nat) (t : Triplet S K) : Option (Matrix S K) := do
  let b ← write r c (fun _ _ => 0) t.row t.col (t.value s)
  return ⟨r, c, .single t, b⟩

/-- BasicEvaluables.h:438-453. -/
def newTwo (s : S) (r c : Nat) (t u : Triplet S K) : Option (Matrix S K) := do
  let b ← write r c (fun _ _ => 0) t.row t.col (t.value s)
  let b ← write r c b u.row u.col (u.value s)
  return ⟨r, c, .two t u, b⟩

/-- `row(i)`: ExpressionImplementation.h:765-782, BasicEvaluables.h:203-206, 304-308, 389-397, 457-475. -/
def row (s : S) (m : Matrix S K) (i : Nat) : Option (Matrix S K) :=
  if i < m.rows then
    if m.rows = 1 then some m
    else match m.kind with
      | .null => some (newNull 1 m.cols)
      | .identity => newSingle s 1 m.cols ⟨0, i, fun _ => 1⟩
      | .single t => if i = t.row then newSingle s 1 m.cols ⟨0, t.col, t.value⟩ else some (newNull 1 m.cols)
      | .two t u =>
        if i = t.row ∧ i = u.row then newTwo s 1 m.cols ⟨0, t.col, t.value⟩ ⟨0, u.col, u.value⟩
        else if i = t.row then newSingle s 1 m.cols ⟨0, t.col, t.value⟩
        else if i = u.row then newSingle s 1 m.cols ⟨0, u.col, u.value⟩
        else some (newNull 1 m.cols)
  else none

/-- `col(j)`: ExpressionImplementation.h:784-800, BasicEvaluables.h:208-211, 310-315, 399-408, 477-500. -/
def col (s : S) (m : Matrix S K) (j : Nat) : Option (Matrix S K) :=
  if j < m.cols then
    if m.cols = 1 then some m
    else match m.kind with
      | .null => some (newNull m.rows 1)
      | .identity => newSingle s m.rows 1 ⟨j, 0, fun _ => 1⟩
      | .single t => if j = t.col then newSingle s m.rows 1 ⟨t.row, 0, t.value⟩ else some (newNull m.rows 1)
      | .two t u =>
        if j = t.col ∧ j = u.col then newTwo s m.rows 1 ⟨t.row, 0, t.value⟩ ⟨u.row, 0, u.value⟩
        else if j = t.col then newSingle s m.rows 1 ⟨t.row, 0, t.value⟩
        else if j = u.col then newSingle s m.rows 1 ⟨u.row, 0, u.value⟩
        else some (newNull m.rows 1)
  else none

/-- `operator()(i, j)`, as the value of the expression it returns: ExpressionImplementation.h:802-812, BasicEvaluables.h:213-216, 317-323, 410-416, 502-510. -/
def element (m : Matrix S K) (i j : Nat) : Option (S → K) :=
  if i < m.rows ∧ j < m.cols then
    if m.cols = 1 ∧ m.rows = 1 then some fun _ => m.buffer 0 0
    else match m.kind with
      | .null => some fun _ => 0
      | .identity => some fun _ => if i = j then 1 else 0
      | .single t => if i = t.row ∧ j = t.col then some t.value else some fun _ => 0
      | .two t u => if i = t.row ∧ j = t.col then some t.value else if i = u.row ∧ j = u.col then some u.value else some fun _ => 0
  else none

/-- What a user does with such a matrix: the access, in the state of that time. -/
inductive Access (S : Type)
  | row (s : S) (i : Nat)
  | col (s : S) (j : Nat)

/-- Accesses one after the other, each to the result of the one before. -/
def accesses (m : Matrix S K) : List (Access S) → Option (Matrix S K)
  | [] => some m
  | .row s i :: l => row s m i >>= fun m => accesses m l
  | .col s j :: l => col s m j >>= fun m => accesses m l

end Verif.Levi.Basic
