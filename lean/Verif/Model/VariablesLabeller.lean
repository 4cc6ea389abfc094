/-
Model of `DynamicalPlanner::Private::VariablesLabeller`
(src/private/VariablesLabeller.cpp, include/DynamicalPlannerPrivate/Utilities/VariablesLabeller.h).
-/
namespace Verif.Labeller

/-- `iDynTree::IndexRange` (offset and size); `InvalidRange()` is modelled by `none` where it is returned. -/
structure Range where
  offset : Nat
  size : Nat
deriving DecidableEq, Repr

/-- The three data members `m_fullVector`, `m_labelMap`, `m_labelsList`
(VariablesLabeller.h, private section).  The map is an association list (keys are unique, because
`insert` refuses an existing key). -/
structure Labeller (K : Type) where
  full : List K
  map : List (String × Range)
  labels : List String

/-- VariablesLabeller.cpp:13-16 (default constructor: everything empty). -/
def init (K : Type) : Labeller K := { full := [], map := [], labels := [] }

/-- `m_labelMap.find(name)`. -/
def find (m : List (String × Range)) (name : String) : Option Range :=
  match m with
  | [] => none
  | (k, r) :: rest => if k = name then some r else find rest name

/-- VariablesLabeller.cpp:22-39 `addLabel` (41-58 `addLabelAndGetIndexRange` has the same body with the range
as result).  `none` is the refused call (`false` / `InvalidRange`). -/
def add {K : Type} [Zero K] (s : Labeller K) (name : String) (dim : Nat) : Labeller K × Option Range :=
  let newRange : Range := { size := dim, offset := s.full.length }
  match find s.map name with
  | some _ => (s, none)
  | none =>
    ({ full := s.full ++ List.replicate dim 0
       map := s.map ++ [(name, newRange)]
       labels := s.labels ++ [name] }, some newRange)

/-- VariablesLabeller.cpp:60-63. -/
def size {K : Type} (s : Labeller K) : Nat := s.full.length

/-- VariablesLabeller.cpp:75-78. -/
def zero {K : Type} [Zero K] (s : Labeller K) : Labeller K :=
  { s with full := List.replicate s.full.length 0 }

/-- `subspan(offset, size)` read. -/
def slice {K : Type} (v : List K) (r : Range) : List K := (v.drop r.offset).take r.size

/-- VariablesLabeller.cpp:107-120 `operator()(labelName) const`: unknown label gives an empty span. -/
def read {K : Type} (s : Labeller K) (name : String) : List K :=
  match find s.map name with
  | some r => slice s.full r
  | none => slice s.full { offset := 0, size := 0 }

/-- Overwrite the elements of `v` starting at `off` with `x` (writing through a span); elements of `x`
that would fall past the end of `v` are not written. -/
def overwrite {K : Type} (v : List K) (off : Nat) (x : List K) : List K :=
  v.take off ++ x ++ v.drop (off + x.length)

/-- Writing through the span returned by VariablesLabeller.cpp:92-105 `operator()(labelName)`.
`none` is the out-of-bounds/size-mismatch outcome: the caller writes a vector whose size is not the
size of the span. -/
def write {K : Type} (s : Labeller K) (name : String) (x : List K) : Option (Labeller K) :=
  let r : Range := (find s.map name).getD { offset := 0, size := 0 }
  if x.length = r.size then some { s with full := overwrite s.full r.offset x } else none

/-- VariablesLabeller.cpp:127-130 (`double& operator()(index)`); `none` is the out of bounds access. -/
def writeAt {K : Type} (s : Labeller K) (i : Nat) (x : K) : Option (Labeller K) :=
  if i < s.full.length then some { s with full := s.full.set i x } else none

/-- VariablesLabeller.cpp:132-139 `operator=(vector)`; `none` is the failed assertion at 134. -/
def assign {K : Type} (s : Labeller K) (v : List K) : Option (Labeller K) :=
  if v.length = s.full.length then some { s with full := v } else none

/-- VariablesLabeller.cpp:141-150. -/
def getIndexRange {K : Type} (s : Labeller K) (name : String) : Option Range := find s.map name

/-- VariablesLabeller.cpp:152-155. -/
def numberOfLabels {K : Type} (s : Labeller K) : Nat := s.map.length

/-- VariablesLabeller.cpp:157-160. -/
def listOfLabels {K : Type} (s : Labeller K) : List String := s.labels

/-- VariablesLabeller.cpp:162-167. -/
def clear {K : Type} (_ : Labeller K) : Labeller K := { full := [], map := [], labels := [] }

/-- The public mutating calls. -/
inductive Op (K : Type) where
  | add (name : String) (dim : Nat)
  | zero
  | write (name : String) (x : List K)
  | writeAt (i : Nat) (x : K)
  | assign (v : List K)
  | clear

/-- One call; `none` means the call hit an assertion or accessed memory out of bounds. -/
def step {K : Type} [Zero K] (s : Labeller K) : Op K → Option (Labeller K)
  | .add n d => some (add s n d).1
  | .zero => some (zero s)
  | .write n x => write s n x
  | .writeAt i x => writeAt s i x
  | .assign v => assign s v
  | .clear => some (clear s)

/-- A whole history of calls. -/
def run {K : Type} [Zero K] (s : Labeller K) : List (Op K) → Option (Labeller K)
  | [] => some s
  | op :: ops => match step s op with
    | some s' => run s' ops
    | none => none

end Verif.Labeller
