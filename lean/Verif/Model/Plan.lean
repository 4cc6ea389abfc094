import Verif.Model.PointConstraints
import Verif.Model.Problem
import Verif.Model.Bounds
import Verif.Spec.Settings
import Verif.Props.Packing
import Verif.Spec.Dynamics
/-
The problem handed to the optimiser, put together: the constraints that `setConstraints` (src/Solver.cpp:880-1126) creates are the objects of
Model/Constraints.lean, Model/CentroidalMomentum.lean and Model/PointConstraints.lean with the parameters they are given, the dynamics is the one of
Model/Dynamics.lean with the activations of `specifySettings` (lines 1446-1466), and the vectors of the optimiser are read by label at the positions
given by `setVariablesStructure` (lines 330-382).

Simplifications: `double` is ℝ; the transcription of the problem to a finite number of instants (MultipleShootingSolver, external) is not modelled: a
solution is a state and a control for each time.
-/
namespace Verif.Plan
open NLP NLP.Kin SolverM Rigid
open Labeller (Range)
noncomputable section
variable {n nj : ℕ} {L F : Type} [DecidableEq L] [DecidableEq F] {m : Model L (Fin nj)}

/-- The `footName` given to the constraints. -/
def side : Foot → Side
  | .left => .left
  | .right => .right

/-- The elements of a range of the vector of the state (`stateVariables(range)`); the ranges are the ones of Solver.cpp:330-382; positions beyond a range
do not exist and read as zero. -/
def readState (r : Ranges) (v : List ℝ) : SVec n := fun p =>
  match stateRange r p.1 with
  | some rg => if p.2 < rg.size then v.getD (rg.offset + p.2) 0 else 0
  | none => 0

/-- The elements of a range of the vector of the control. -/
def readControl (r : Ranges) (v : List ℝ) : CVec n := fun p =>
  match controlRange r p.1 with
  | some rg => if p.2 < rg.size then v.getD (rg.offset + p.2) 0 else 0
  | none => 0

/-- An `iDynTree::Position`. -/
def toVec (p : V3 ℝ) : Vec := ![p.x, p.y, p.z]

/-- What the constraints share: the kinematics and the expressions server, the frames by name (`robotModel.getFrameIndex`), the expressions they make,
the order in which the second derivatives are computed, what earlier calls left. -/
structure Objects (m : Model L (Fin nj)) (F : Type) where
  server : Server m F
  frame : String → F
  rot : RotExprs
  norm : NormExprs
  fuel : ℕ
  order : List StateTask
  order' : List MixedTask
  leftover : Leftover nj
  stored : V3 ℝ

/-- The constraint after `m_lowerBound` and `m_upperBound` are set to the same value in each row (`setEqualityTolerance`). -/
def withBounds {σ κ : Type} {r : ℕ} (c : Constraint σ κ r) (lower upper : ℝ) : Constraint σ κ r :=
  { c with
    lower := some fun _ => lower
    upper := some fun _ => upper }

/-- The activations given to the constraints, Solver.cpp:882-886. -/
def activation (scaling : ℝ) : Smooth.Params := ({} : Smooth.Params).setScaling scaling

/-- The constraint created by `setConstraints` holds: Solver.cpp:911-1123. -/
def satisfied (R : Objects m F) (x : SVec n) (u : CVec n) : SolverM.Con ℝ → Prop
  | .centroidalMomentum lower upper =>
    (withBounds (centroidalMomentum R.server R.norm R.fuel R.order R.order' 0) lower upper).Holds x u
  | .comPosition lower upper => (withBounds (comPositionConstraint R.server R.rot R.fuel R.leftover 0) lower upper).Holds x u
  | .feetLateralDistance direction reference other lower =>
    ∃ h : direction < 3, (feetLateralDistance R.server (R.frame reference) (R.frame other) ⟨direction, h⟩ R.leftover lower).Holds x u
  | .quaternionNorm lower upper => (withBounds (quaternionNorm (n := n) 0) lower upper).Holds x u
  | .feetRelativeHeight maximum => (feetRelativeHeight maximum).Holds x u
  | .planarVelocityControl foot i scaling maximumX maximumY =>
    ∃ h : i < n, (planarVelocityControl (side foot) ⟨i, h⟩ (activation scaling) maximumX maximumY R.stored).Holds x u
  | .classicalPlanarComplementarity foot i tolerance => ∃ h : i < n, (classicalPlanarComplementarity (side foot) ⟨i, h⟩ tolerance).Holds x u
  | .dynamicalComplementarity foot i dissipation upper => ∃ h : i < n, (dynamicalComplementarity (side foot) ⟨i, h⟩ dissipation upper).Holds x u
  | .forceControl foot i scaling maximum dissipation =>
    ∃ h : i < n, (contactForceControl (side foot) ⟨i, h⟩ (activation scaling) maximum dissipation).Holds x u
  | .classicalComplementarity foot i tolerance => ∃ h : i < n, (classicalComplementarity (side foot) ⟨i, h⟩ tolerance).Holds x u
  | .friction foot i coefficient => ∃ h : i < n, (contactFriction (side foot) ⟨i, h⟩ coefficient).Holds x u
  | .contactPosition foot i frame point lower upper => ∃ h : i < n,
    (withBounds (contactPositionConstraint R.server R.rot (R.frame frame) R.leftover (side foot) ⟨i, h⟩ (toVec point) 0) lower upper).Holds x u

/-- The activation given to the dynamics: with its scaling, or disabled (`disable()` has the default value 1). -/
def dynamicsActivation : Option ℝ → Smooth.Params
  | some scaling => activation scaling
  | none => ({} : Smooth.Params).disable 1

/-- `DynamicalConstraints` made by `specifySettings`, Solver.cpp:1446-1466, DynamicalConstraints.cpp:320-360; `masses` are the masses of the links. -/
def dynamicsParams (joints : ℕ) (masses : List ℝ) (d : DynamicsSetup ℝ) : Dynamics.Params where
  mass := Dynamics.totalMass masses
  joints := joints
  xy := dynamicsActivation d.velocityActivation
  z := dynamicsActivation d.forceActivation
  dissipation := d.dissipation

/-- The trajectory satisfies the differential equation given to the optimiser (`DynamicalConstraints::dynamics`) at `t`: each entry of the vector of the state
has, as derivative, the entry computed by the dynamics, whatever the buffer of the result held before. -/
def Follows (joints : ℕ) (P : Dynamics.Params) (r : Ranges) (s : ℝ → StateM.State ℝ) (q : ℝ → StateM.V4 ℝ) (c : ℝ → StateM.Control ℝ) (t : ℝ) : Prop :=
  ∀ (buffer : SVec n), ∀ p ∈ NLP.Spec.stateEntries n joints,
    HasDerivAt (fun τ => readState (n := n) r (SolverM.Spec.stateVector (s τ) (q τ)) p)
      (Dynamics.dynamics P (readState r (SolverM.Spec.stateVector (s t) (q t))) (readControl r (SolverM.Spec.controlVector (c t))) buffer p) t

/-! ### The whole problem -/

/-- The members of `Settings` that more than one part of the model reads are the same. -/
structure SameSettings {ρ T : Type} (i : Settings.SettingsStruct ℝ ρ) (ex : BoundExtras ℝ) (st : ProblemSettings ℝ T) : Prop where
  leftPoints : st.leftPointsPosition.length = i.nLeftPoints
  rightPoints : st.rightPointsPosition.length = i.nRightPoints
  feetDistance : st.minimumFeetDistance = i.minimumFeetDistance
  force : st.forceMaximumDerivative = ex.forceMaximumDerivative
  velocity : st.velocityMaximumDerivative = ⟨i.velocityMaximumDerivative.1, i.velocityMaximumDerivative.2.1, i.velocityMaximumDerivative.2.2⟩

/-- What `specifySettings` (Solver.cpp:1402-1488) leaves in the solver when it does not fail: validated settings, the ranges of the variables, the
constraints and the bounds.  `nj` is the number of joints, `n` of points per foot; `minusInf`, `plusInf` are the infinities of the optimiser. -/
structure Problem (nj n : ℕ) {ρ T : Type} (i : Settings.SettingsStruct ℝ ρ) (ex : BoundExtras ℝ) (st : ProblemSettings ℝ T) (minusInf plusInf : ℝ) where
  ranges : Ranges
  constraints : List (SolverM.Con ℝ)
  bounds : Bounds ℝ
  acceptable : Settings.Spec.Acceptable i
  same : SameSettings i ex st
  joints : i.robotModel.nrOfDOFs = nj
  points : i.nLeftPoints = n
  hasRanges : ∃ ls lc ls' lc' : Labeller.Labeller ℝ, setVariablesStructure ls lc i.robotModel.nrOfDOFs i.nLeftPoints = some (ls', lc', ranges)
  hasConstraints : ∃ accepts, setConstraints accepts st = some constraints
  hasBounds : setBounds minusInf plusInf ranges i ex = some bounds

/-- Each element of `v` is between the ones of the two bounds at that time, which are valid (what the optimiser does with the objects of
Solver.cpp:1218-1236). -/
def between (lower upper : VariableBound ℝ) (t : ℝ) (v : List ℝ) : Prop :=
  ∃ a b, lower.get t = some (a, true) ∧ upper.get t = some (b, true) ∧ List.Forall₂ (· ≤ ·) a v ∧ List.Forall₂ (· ≤ ·) v b

/-- What the optimiser promises: a state and a control for each instant, that satisfy the differential equation, the constraints and the bounds. -/
structure Solution {ρ T : Type} {i : Settings.SettingsStruct ℝ ρ} {ex : BoundExtras ℝ} {st : ProblemSettings ℝ T} {minusInf plusInf : ℝ}
    (P : Problem nj n i ex st minusInf plusInf) (R : Objects m F) (horizon : ℝ)
    (s : ℝ → StateM.State ℝ) (q : ℝ → StateM.V4 ℝ) (c : ℝ → StateM.Control ℝ) : Prop where
  stateSize : ∀ t ∈ Set.Ioo 0 horizon, SolverM.Spec.StateSize nj n (s t)
  controlSize : ∀ t ∈ Set.Ioo 0 horizon, SolverM.Spec.ControlSize nj n (c t)
  /-- no element is beyond what the optimiser calls infinity -/
  finite : ∀ t ∈ Set.Ioo 0 horizon, ∀ x ∈ SolverM.Spec.stateVector (s t) (q t) ++ SolverM.Spec.controlVector (c t), minusInf ≤ x ∧ x ≤ plusInf
  dynamics : ∀ t ∈ Set.Ioo 0 horizon, Follows (n := n) nj (dynamicsParams nj (m.links.map fun k => (m.inertia k).mass) (dynamicsSetup st)) P.ranges s q c t
  constraints : ∀ t ∈ Set.Ioo 0 horizon, ∀ k ∈ P.constraints, satisfied R (readState (n := n) P.ranges (SolverM.Spec.stateVector (s t) (q t)))
    (readControl P.ranges (SolverM.Spec.controlVector (c t))) k
  stateBounds : ∀ t ∈ Set.Ioo 0 horizon, between P.bounds.stateLower P.bounds.stateUpper t (SolverM.Spec.stateVector (s t) (q t))
  controlBounds : ∀ t ∈ Set.Ioo 0 horizon, between P.bounds.controlLower P.bounds.controlUpper t (SolverM.Spec.controlVector (c t))

end
end Verif.Plan
