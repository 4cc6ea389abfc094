import Verif.Model.Walking
/- Specification vocabulary for references and the walking schedule. -/
namespace Verif.Reference.Spec
variable {K : Type} [Field K] [LinearOrder K]

/-- The element is active at the time: its closed interval contains it. -/
def ActiveAt (e : Element K) (t : K) : Prop := e.range.initTime ≤ t ∧ t ≤ e.range.endTime

/-- `e` is the last element of the list that is active at `t`. -/
def IsLastActive (l : List (Element K)) (t : K) (e : Element K) : Prop :=
  ∃ l1 l2, l = l1 ++ e :: l2 ∧ ActiveAt e t ∧ ∀ x ∈ l2, ¬ ActiveAt x t

end Verif.Reference.Spec

namespace Verif.Walking.Spec
open Verif.Reference Verif.StateM
variable {K : Type} [Field K] [LinearOrder K]

/-- Parameters that make sense: what `initialize` requires plus non-negative times. -/
structure Sensible (p : Params K) : Prop where
  minimumDt : 0 ≤ p.minimumDt
  horizon : p.minimumDt ≤ p.horizon
  duration : p.minimumDt ≤ p.stepDuration
  force : 0 ≤ p.forceThreshold

/-- The next step is planned (its start is within the horizon). -/
def Planned (p : Params K) (second : Element K) : Prop := second.range.initTime ≤ p.horizon

/-- A consistent schedule.  The first step contains the current instant (time zero); the second one is either parked one
second beyond the horizon or it lasts a step duration, starts within the horizon and at least a horizon after the first
one started; if a step is not longer than the horizon then the two never overlap and the second one stays in the
future. -/
structure Consistent (p : Params K) (first second : Element K) : Prop where
  first_now : first.range.initTime ≤ 0 ∧ 0 ≤ first.range.endTime
  parked_or_planned :
    (second.range.initTime = p.horizon + 1 ∧ second.range.endTime = p.horizon + 1) ∨
    (Planned p second ∧ second.range.endTime = second.range.initTime + p.stepDuration ∧
      first.range.initTime + p.horizon ≤ second.range.initTime)
  no_overlap : Planned p second → p.stepDuration ≤ p.horizon →
    first.range.endTime ≤ second.range.initTime ∧ p.minimumDt ≤ second.range.initTime

/-- Every update carries a non-negative elapsed time. -/
def ForwardTime (h : List (State K × State K)) : Prop := ∀ u ∈ h, 0 ≤ u.1.time

/-- The target after `k` steps. -/
def target (p : Params K) (k : Nat) : V3 K := p.start + V3.smul (k : K) p.increment

end Verif.Walking.Spec
