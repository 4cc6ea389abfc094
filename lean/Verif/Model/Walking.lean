import Verif.Model.Reference
/-
Model of `Utilities::SimpleWalkingStateMachine` (src/Utilities.cpp:230-370).  Console output is not modelled.
`norm` is Eigen's `norm()`.
-/
namespace Verif.Walking
open Verif.Reference Verif.StateM
variable {K : Type} [Field K] [LinearOrder K]

/-- Members of the class, and the two elements of `m_references` (`none`: null pointer). -/
structure Machine (K : Type) where
  refs : Option (Element K × Element K)
  factors : V3 K
  stepIncrement : V3 K
  stepDuration : K
  horizon : K
  minimumDt : K
  forceThreshold : K
  positionThreshold : K

/-- The arguments of `initialize`. -/
structure Params (K : Type) where
  start : V3 K
  increment : V3 K
  stepDuration : K
  horizon : K
  minimumDt : K
  weights : V3 K
  forceThreshold : K
  positionThreshold : K

/-- Utilities.cpp:230-261.  `range0` is the default constructed `TimeRange` of new elements. -/
def initialise (m : Machine K) (p : Params K) (range0 : TimeRange K) : Machine K × Bool :=
  if p.forceThreshold < 0 then (m, false)
  else if p.minimumDt > p.horizon ∨ p.minimumDt > p.stepDuration then (m, false)
  else
    ({ refs := some (⟨p.start, range0.setTimeInterval 0 p.stepDuration⟩,
                     ⟨p.start, range0.setTimeInterval (p.horizon + 1) (p.horizon + 1)⟩)
       factors := p.weights
       stepIncrement := p.increment, stepDuration := p.stepDuration, horizon := p.horizon
       minimumDt := p.minimumDt, forceThreshold := p.forceThreshold, positionThreshold := p.positionThreshold }, true)

/-- Utilities.cpp:295-308: planning the next step.  Returns the (possibly) new second reference. -/
def plan (m : Machine K) (futureMeanPositionError : K) (r0 r1 : Element K) : Element K :=
  if r1.range.initTime > m.horizon ∧ r0.range.endTime ≤ 6 / 10 * m.horizon ∧
      (futureMeanPositionError < m.positionThreshold ∨ r0.range.endTime - r0.range.initTime > 2 * m.stepDuration) then
    ⟨r0.position + m.stepIncrement, r1.range.setTimeInterval m.horizon (m.horizon + m.stepDuration)⟩
  else r1

/-- Utilities.cpp:310-362: moving the references by the elapsed time. -/
def shift (m : Machine K) (minimumForce time : K) (r0 r1 : Element K) : Element K × Element K :=
  if r1.range.initTime ≤ m.horizon then
    let stepStart := r0.range.initTime - time
    if stepStart < 3 / 10 * m.horizon ∧ minimumForce < m.forceThreshold then
      ({ r0 with range := r0.range.setTimeInterval stepStart r0.range.endTime }, r1)
    else if stepStart + m.stepDuration < m.minimumDt then
      (⟨r1.position, r0.range.setTimeInterval 0 m.stepDuration⟩,
        { r1 with range := r1.range.setTimeInterval (m.horizon + 1) (m.horizon + 1) })
    else
      ({ r0 with range := r0.range.setTimeInterval stepStart (stepStart + m.stepDuration) },
        { r1 with range := r1.range.setTimeInterval (r1.range.initTime - time)
                            (r1.range.initTime - time + m.stepDuration) })
  else
    let stepStart := r0.range.initTime - time
    ({ r0 with range := r0.range.setTimeInterval stepStart (max (stepStart + m.stepDuration) (6 / 10 * m.horizon)) }, r1)

/-- Utilities.cpp:268-365; `none` is the undefined behaviour of asking the minimum force of a foot without points. -/
def advance (norm : V3 K → K) (m : Machine K) (current future : State K) : Option (Machine K × Bool) :=
  match m.refs with
  | none => some (m, false)
  | some (r0, r1) =>
    let futureMeanPositionError := norm (future.computeFeetCentroid - r0.position)
    match current.minimumPointForceOnForwardFoot norm m.stepIncrement with
    | none => none
    | some minimumForce =>
      let r1' := plan m futureMeanPositionError r0 r1
      some ({ m with refs := some (shift m minimumForce current.time r0 r1') }, true)

/-- A history of updates. -/
def advances (norm : V3 K → K) (m : Machine K) : List (State K × State K) → Option (Machine K)
  | [] => some m
  | (c, f) :: rest => match advance norm m c f with
    | none => none
    | some (m', _) => advances norm m' rest

/-- Utilities.cpp:367-370: the generator the planner reads. -/
def Machine.generator (m : Machine K) (idle : V3 K) : Option (Generator K) :=
  m.refs.map fun r => { elements := [r.1, r.2], factors := m.factors, idle := idle }

end Verif.Walking
