import Verif.Model.State
/-
Model of `PositionReferenceGenerator` (src/PositionReferenceGenerator.cpp) and of the part of
`iDynTree::optimalcontrol::TimeRange` it relies on (external contract).
-/
namespace Verif.Reference
variable {K : Type} [Field K] [LinearOrder K]

/-- External contract of `iDynTree::optimalcontrol::TimeRange`: an interval. -/
structure TimeRange (K : Type) where
  initTime : K
  endTime : K
deriving DecidableEq

/-- `TimeRange::isInRange` (external): closed interval. -/
def TimeRange.isInRange (r : TimeRange K) (t : K) : Bool := decide (r.initTime ≤ t) && decide (t ≤ r.endTime)

/-- `TimeRange::setTimeInterval` (external): intervals in the wrong order are refused and the range is unchanged. The
callers modelled here ignore the result. -/
def TimeRange.setTimeInterval (r : TimeRange K) (initTime endTime : K) : TimeRange K :=
  if initTime > endTime then r else ⟨initTime, endTime⟩

/-- PositionReferenceGenerator.h:19-22. -/
structure Element (K : Type) where
  position : V3 K
  range : TimeRange K
deriving DecidableEq

/-- The generator: the shared data (PositionReferenceGenerator.cpp:12-22), the increase factors of the weight
(lines 24-37) and the value held by `m_zeroPosition` (line 42; its constructor at lines 100-102 does not assign it). -/
structure Generator (K : Type) where
  elements : List (Element K)
  factors : V3 K
  idle : V3 K

/-- Lines 53-61, 147-152: `init` makes `desiredPoints` zero elements; `range0` is what the default constructor of
`TimeRange` makes. -/
def Generator.init (desiredPoints : Nat) (factors idle : V3 K) (range0 : TimeRange K) : Generator K :=
  { elements := List.replicate desiredPoints ⟨0, range0⟩, factors := factors, idle := idle }

/-- Lines 181-185. -/
def Generator.resize (g : Generator K) (newSize : Nat) (range0 : TimeRange K) : Generator K :=
  { g with elements := StateM.resizeList g.elements newSize ⟨0, range0⟩ }

/-- Lines 162-179: writing through `at(index)`; `none` when out of bounds. -/
def Generator.write (g : Generator K) (index : Nat) (e : Element K) : Option (Generator K) :=
  if index < g.elements.length then some { g with elements := g.elements.set index e } else none

/-- Lines 81-84, 111-114: `find_if` on the reversed vector. -/
def Generator.active (g : Generator K) (time : K) : Option (Element K) :=
  g.elements.reverse.find? fun a => a.range.isInRange time

/-- Lines 91-95; `none` is the 0/0 NaN of a range that contains a single instant. -/
def weightOf (factors : V3 K) (e : Element K) (time : K) : Option (V3 K) :=
  if e.range.endTime - e.range.initTime = 0 then none
  else
    let a := (time - e.range.initTime) / (e.range.endTime - e.range.initTime)
    some ⟨(factors.x * a + 1) * (factors.x * a + 1), (factors.y * a + 1) * (factors.y * a + 1),
          (factors.z * a + 1) * (factors.z * a + 1)⟩

/-- Lines 78-98.  `isValid` is always true. -/
def Generator.weight (g : Generator K) (time : K) : Option (V3 K) × Bool :=
  match g.active time with
  | none => (some 0, true)
  | some e => (weightOf g.factors e time, true)

/-- Lines 104-121. -/
def Generator.reference (g : Generator K) (time : K) : V3 K × Bool :=
  if g.elements.isEmpty then (g.idle, true)
  else match g.active time with
    | none => (g.idle, true)
    | some e => (e.position, true)

end Verif.Reference
