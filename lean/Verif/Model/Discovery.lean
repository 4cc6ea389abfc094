import Verif.Model.Packing
import Verif.Model.Problem
/-
How the costs and the constraints find the contact points: by looking for substrings in the list of the labels.

Simplifications: `none` means that an assertion fails (a range that is not valid).
-/
namespace Verif.SolverM
open Labeller (Labeller Range)
variable {K : Type}

/-- `label.find(pattern) != std::string::npos`. -/
def containsText (label pattern : String) : Bool := decide (pattern.toList <:+: label.toList)

/-- The ranges of the labels, in order, as in the bodies of the loops over `listOfLabels()`. -/
def lookupAll (s : Labeller K) : List String → Option (List Range)
  | [] => some []
  | label :: rest => do
    let r ← Labeller.getIndexRange s label
    let rs ← lookupAll s rest
    some (r :: rs)

/-- MeanPointPositionCost.cpp:41-47. -/
def meanPointRanges (s : Labeller K) : Option (List Range) := do
  let rs ← lookupAll s (s.labels.filter fun label => containsText label "PositionPoint")
  if rs.length ≠ 0 then some rs else none

/-- FeetDistanceCost.cpp:41-53, FeetRelativeHeightConstraint.cpp:39-54: the points of the left foot and of the right foot. -/
def feetRanges (s : Labeller K) : Option (List Range × List Range) := do
  let left ← lookupAll s (s.labels.filter fun label => containsText label "LeftPositionPoint")
  let right ← lookupAll s (s.labels.filter fun label => containsText label "RightPositionPoint")
  if left.length ≠ 0 ∧ right.length ≠ 0 then some (left, right) else none

/-- ForceMeanCost.cpp:43-51, ForceRatioCost.cpp:44-52: the force of the point and the forces of the other points of the foot. -/
def forceRanges (s : Labeller K) (footName : String) (contactIndex : Nat) : Option (Range × List Range) := do
  let own ← Labeller.getIndexRange s (footName ++ "ForcePoint" ++ toString contactIndex)
  let others ← lookupAll s (s.labels.filter fun label =>
    containsText label (footName ++ "ForcePoint") && decide (label ≠ footName ++ "ForcePoint" ++ toString contactIndex))
  some (own, others)

/-- StaticTorquesCost.cpp:154-159, DynamicalConstraints.cpp:364-373: the number of points of a foot. -/
def countPoints (s : Labeller K) (footName : String) : Nat := (s.labels.filter fun label => containsText label (footName ++ "ForcePoint")).length

/-- StaticTorquesCost.cpp:152-170. -/
def torquesForceRanges (s : Labeller K) (footName : String) : Option (List Range) :=
  lookupAll s ((List.range (countPoints s footName)).map fun p => footName ++ "ForcePoint" ++ toString p)

/-- DynamicalConstraints.cpp:60-97. -/
def checkFootVariables (s c : Labeller K) (footName : String) (numberOfPoints : Nat) : Option FootRanges := do
  let force ← lookupAll s ((List.range numberOfPoints).map fun i => footName ++ "ForcePoint" ++ toString i)
  let position ← lookupAll s ((List.range numberOfPoints).map fun i => footName ++ "PositionPoint" ++ toString i)
  let forceControl ← lookupAll c ((List.range numberOfPoints).map fun i => footName ++ "ForceControlPoint" ++ toString i)
  let velocityControl ← lookupAll c ((List.range numberOfPoints).map fun i => footName ++ "VelocityControlPoint" ++ toString i)
  some ⟨position, force, velocityControl, forceControl⟩

/-- DynamicalConstraints.cpp:364-376: the ranges of the two feet. -/
def dynamicsRanges (s c : Labeller K) : Option (FootRanges × FootRanges) := do
  let left ← checkFootVariables s c "Left" (countPoints s "Left")
  let right ← checkFootVariables s c "Right" (countPoints s "Right")
  some (left, right)

end Verif.SolverM
