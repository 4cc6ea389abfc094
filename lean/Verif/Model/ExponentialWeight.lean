import Mathlib.Analysis.SpecialFunctions.Exp
/-
Model of `DynamicalPlanner::Utilities::ExponentialWeight` (include/DynamicalPlanner/Utilities.h:66-80, src/Utilities.cpp:372-395).  Numbers are real, `std::exp` is the exponential.
-/
namespace Verif.Util.Weight
noncomputable section

/-- The members, Utilities.h:68-72. -/
structure ExponentialWeight where
  premultiplier : ℝ
  timeMultiplier : ℝ
  offset : ℝ
  timeOffset : ℝ
  output : ℝ

/-- The constructor, Utilities.cpp:372-380. -/
def make (premultiplier timeMultiplier offset timeOffset : ℝ) : ExponentialWeight :=
  { premultiplier := premultiplier
    timeMultiplier := timeMultiplier
    offset := offset
    timeOffset := timeOffset
    output := 1 }

/-- `get`, Utilities.cpp:385-392: the object after the call and `isValid`; what is returned is a reference to the member `output`. -/
def get (w : ExponentialWeight) (time : ℝ) : ExponentialWeight × Bool :=
  ({ w with output := w.premultiplier * Real.exp (w.timeMultiplier * (time - w.timeOffset)) + w.offset }, true)

/-- Many calls of `get`. -/
def gets (w : ExponentialWeight) (times : List ℝ) : ExponentialWeight := times.foldl (fun w t => (get w t).1) w

end
end Verif.Util.Weight
