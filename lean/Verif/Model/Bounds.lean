import Verif.Model.Packing
import Verif.Model.Settings
import Verif.Model.Reference
/-
Bounds of the optimisation variables: src/Solver.cpp:217-288 (`VariableBound`) and 1128-1248 (`setBounds`).  Simplifications: `double` is
an ordered field; the values of the optimiser that mean "no bound" are the numbers `minusInf` and `plusInf`; time varying references are
functions of time with the flag `isValid`; `none` stands for an access out of bounds.  The members of the settings that
`Settings.SettingsStruct` does not carry are the arguments `BoundExtras`.
-/
namespace Verif.SolverM
open StateM
open Labeller (Range overwrite)
variable {K : Type}

/-- `segment(v, r)(k) = ...`, `.topRows<2>() = ...`, `.bottomRows<3>() = ...`: the elements of the segment from the `k`-th. -/
def setPart (r : Range) (k : Nat) (x v : List K) : Option (List K) :=
  if r.offset + r.size ≤ v.length ∧ k + x.length ≤ r.size then some (overwrite v (r.offset + k) x) else none

/-- The vectors at Solver.cpp:311. -/
structure BoundVectors (K : Type) where
  stateLower : List K
  stateUpper : List K
  controlLower : List K
  controlUpper : List K

/-- The members of the settings used only here: Settings.h, `forceMaximumDerivative`, `constrainTargetCoMPositionRange`,
`desiredCoMTrajectory`, `targetCoMPositionTolerance` (null pointers are `none`). -/
structure BoundExtras (K : Type) where
  forceMaximumDerivative : V3 K
  constrainTargetCoMPositionRange : Reference.TimeRange K
  desiredCoMTrajectory : Option (K → List K × Bool)
  targetCoMPositionTolerance : Option (K → K × Bool)

/-- One foot: Solver.cpp:1139-1157 (left) and 1159-1177 (right). -/
def footBounds [Zero K] [Neg K] (force velocity : V3 K) : List Range → List Range → List Range → List Range → BoundVectors K → Option (BoundVectors K)
  | [], _, _, _, b => some b
  | p :: ps, f :: fs, fc :: fcs, vc :: vcs, b => do
    let sl ← setPart p 2 [0] b.stateLower
    let sl ← setPart f 2 [0] sl
    let cl ← setPart fc 2 [-force.z] b.controlLower
    let cu ← setPart fc 2 [force.z] b.controlUpper
    let cl ← setPart fc 0 [-force.x, -force.y] cl
    let cu ← setPart fc 0 [force.x, force.y] cu
    let cl ← setSegment vc [-velocity.x, -velocity.y, -velocity.z] cl
    let cu ← setSegment vc [velocity.x, velocity.y, velocity.z] cu
    footBounds force velocity ps fs fcs vcs { b with stateLower := sl, controlLower := cl, controlUpper := cu }
  | _ :: _, _, _, _, _ => none

/-- The loops at Solver.cpp:1189-1192 and 1194-1197, from the `j`-th joint. -/
def jointBounds (r : Range) : Nat → List (K × K) → List K × List K → Option (List K × List K)
  | _, [], v => some v
  | j, l :: ls, v => do
    let lo ← setPart r j [l.1] v.1
    let up ← setPart r j [l.2] v.2
    jointBounds r (j + 1) ls (lo, up)

/-- One foot: Solver.cpp:1204-1209 (left) and 1211-1216 (right), for the second bounds of the control. -/
def footFrozen [Zero K] : List Range → List Range → List K × List K → Option (List K × List K)
  | [], _, v => some v
  | vc :: vcs, fc :: fcs, v => do
    let lo ← setSegment vc [0, 0, 0] v.1
    let up ← setSegment vc [0, 0, 0] v.2
    let lo ← setSegment fc [0, 0, 0] lo
    let up ← setSegment fc [0, 0, 0] up
    footFrozen vcs fcs (lo, up)
  | _ :: _, _, _ => none

/-- Solver.cpp:1129-1197: the first bounds. -/
def firstBounds [Field K] {R : Type} (minusInf plusInf : K) (r : Ranges) (st : Settings.SettingsStruct K R) (ex : BoundExtras K) :
    Option (BoundVectors K) := do
  let velocity : V3 K := ⟨st.velocityMaximumDerivative.1, st.velocityMaximumDerivative.2.1, st.velocityMaximumDerivative.2.2⟩
  let b : BoundVectors K :=
    { stateLower := List.replicate r.stateDimension minusInf, stateUpper := List.replicate r.stateDimension plusInf
      controlLower := List.replicate r.controlDimension minusInf, controlUpper := List.replicate r.controlDimension plusInf }
  let b ← footBounds ex.forceMaximumDerivative velocity r.left.positionPoints r.left.forcePoints r.left.forceControlPoints
    r.left.velocityControlPoints b
  let b ← footBounds ex.forceMaximumDerivative velocity r.right.positionPoints r.right.forcePoints r.right.forceControlPoints
    r.right.velocityControlPoints b
  let sl ← setPart r.comPosition 2 [st.minimumCoMHeight] b.stateLower
  let a := st.maximumAngularMomentum
  let sl ← setPart r.momentum 3 [-a, -a, -a] sl
  let su ← setPart r.momentum 3 [a, a, a] b.stateUpper
  let s ← jointBounds r.jointsPosition 0 st.jointsLimits (sl, su)
  let c ← jointBounds r.jointsVelocity 0 st.jointsVelocityLimits (b.controlLower, b.controlUpper)
  some ⟨s.1, s.2, c.1, c.2⟩

/-- Solver.cpp:1199-1216: the second bounds. -/
def secondBounds [Zero K] (r : Ranges) (b : BoundVectors K) : Option (BoundVectors K) := do
  let c ← footFrozen r.left.velocityControlPoints r.left.forceControlPoints (b.controlLower, b.controlUpper)
  let c ← footFrozen r.right.velocityControlPoints r.right.forceControlPoints c
  some { b with controlLower := c.1, controlUpper := c.2 }

/-- Members of `VariableBound` about the centre of mass, Solver.cpp:222-226 (`comRange` is valid, line 254). -/
structure CoMTarget (K : Type) where
  range : Reference.TimeRange K
  comRange : Range
  sign : K
  reference : Option (K → List K × Bool)
  tolerance : Option (K → K × Bool)

/-- Solver.cpp:217-255 (`VariableBound`); without target for the first constructor. -/
structure VariableBound (K : Type) where
  first : List K
  second : List K
  switchTime : K
  target : Option (CoMTarget K)

/-- Solver.cpp:259-287 (`VariableBound::get`): the vector and `isValid`. -/
def VariableBound.get [Field K] [LinearOrder K] (b : VariableBound K) (time : K) : Option (List K × Bool) :=
  let base := if time < b.switchTime then b.first else b.second
  match b.target with
  | none => some (base, true)
  | some c =>
    match c.reference, c.tolerance with
    | some reference, some tolerance =>
      if c.range.isInRange time then
        let com := reference time
        if !com.2 then some (base, false)
        else
          let tol := if (tolerance time).2 then (tolerance time).1 else 0
          match com.1 with
          | [x, y, z] => (setSegment ⟨c.comRange.offset, 3⟩ [x + c.sign * tol, y + c.sign * tol, z + c.sign * tol] base).map (·, true)
          | _ => none
      else some (base, true)
    | _, _ => some (base, true)

/-- The four objects given to the optimal control problem, Solver.cpp:1218-1236. -/
structure Bounds (K : Type) where
  stateLower : VariableBound K
  stateUpper : VariableBound K
  controlLower : VariableBound K
  controlUpper : VariableBound K

/-- Solver.cpp:1128-1248 (`setBounds`), up to the two calls of the optimal control problem (external). -/
def setBounds [Field K] {R : Type} (minusInf plusInf : K) (r : Ranges) (st : Settings.SettingsStruct K R) (ex : BoundExtras K) : Option (Bounds K) := do
  let b ← firstBounds minusInf plusInf r st ex
  let b2 ← secondBounds r b
  let switchTime := st.horizon * st.activeControlPercentage
  let target (sign : K) : Option (CoMTarget K) :=
    if st.constrainTargetCoMPosition then
      some ⟨ex.constrainTargetCoMPositionRange, r.comPosition, sign, ex.desiredCoMTrajectory, ex.targetCoMPositionTolerance⟩
    else none
  some { stateLower := ⟨b.stateLower, b2.stateLower, switchTime, target (-1)⟩
         stateUpper := ⟨b.stateUpper, b2.stateUpper, switchTime, target 1⟩
         controlLower := ⟨b.controlLower, b2.controlLower, switchTime, none⟩
         controlUpper := ⟨b.controlUpper, b2.controlUpper, switchTime, none⟩ }

end Verif.SolverM
