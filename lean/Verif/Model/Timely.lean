import Mathlib.Algebra.Order.Field.Basic
import Mathlib.Algebra.Order.AbsoluteValue.Basic
/-
Model of `DynamicalPlanner::Private::TimelySharedKinDynComputations`
(src/private/TimelySharedKinDynComputations.cpp).
`double` is an arbitrary linearly ordered field.  `m_pointerContainer` is modelled by the list of its `time`
members; the `pointer` member of entry `i` is identified by `i` (entry `i` is created once, at line 146-149, and its
pointer is never replaced).
-/
namespace Verif.Timely

variable {K : Type} [Field K] [LinearOrder K]

/-- `iDynTree::checkDoublesAreEqual(a, b, tol)` (external; `tol` has a library default). -/
def eqTol (tol a b : K) : Bool := decide (|a - b| < tol)

/-- The `while` loop, TimelySharedKinDynComputations.cpp:40-77.  `none` is an out-of-bounds access. -/
def search (ts : List K) (tol time : K) (i j mid : Nat) : Option Nat :=
  if h : i < j then
    let mid := (i + j) / 2
    match ts[mid]? with
    | none => none
    | some tm =>
      if eqTol tol time tm then some mid
      else if time < tm then
        if mid = 0 then none -- `mid - 1` wraps around (size_t)
        else match ts[mid - 1]? with
          | none => none
          | some tp =>
            if time > tp then some (if time - tp ≥ tm - time then mid else mid - 1)
            else search ts tol time i mid mid
      else match ts[mid + 1]? with
        | none => none
        | some tn =>
          if time < tn then some (if time - tm ≥ tn - time then mid + 1 else mid)
          else search ts tol time (mid + 1) j mid
  else some mid
termination_by j - i
decreasing_by all_goals simp_wf; omega

/-- `getClosestIndex`, TimelySharedKinDynComputations.cpp:18-78.  On every path the returned index is also the new
`m_previousIndex`.  `none` is an out-of-bounds access. -/
def getClosestIndex (ts : List K) (tol : K) (prev : Nat) (time : K) : Option Nat :=
  match ts[0]?, ts[ts.length - 1]? with
  | some t0, some tl =>
    if time ≤ t0 then some 0
    else if time ≥ tl then some (ts.length - 1)
    else match ts[prev]? with
      | none => none
      | some tp =>
        if eqTol tol time tp then some prev
        else if (match ts[prev + 1]? with
          | some tq => eqTol tol time tq
          | none => false) then some (prev + 1)
        else search ts tol time 0 ts.length 0
  | _, _ => none

/-- Data members used by the lookup (TimelySharedKinDynComputations.h); `valid` is `m_sharedTemplate->isValid()`. -/
structure Timely (K : Type) where
  valid : Bool
  times : List K
  timingsSet : Bool
  prev : Nat

/-- TimelySharedKinDynComputations.cpp:80-85; `valid` becomes true through `loadRobotModel` (90-93). -/
def init (K : Type) (valid : Bool) : Timely K :=
  { valid := valid, times := [], timingsSet := false, prev := 0 }

/-- The loop TimelySharedKinDynComputations.cpp:141-151: existing entries get the new time, missing entries are
appended, extra entries are kept. -/
def mergeTimes : List K → List K → List K
  | old, [] => old
  | [], new => new
  | _ :: old, t :: new => t :: mergeTimes old new

/-- TimelySharedKinDynComputations.cpp:135-155. -/
def setTimings (s : Timely K) (timings : List K) : Timely K × Bool :=
  if s.valid then ({ s with times := mergeTimes s.times timings, timingsSet := true }, true)
  else (s, false)

/-- Which object a lookup hands out: the template (timings never set) or entry `i`. -/
inductive Handle where
  | template
  | entry (i : Nat)
deriving DecidableEq, Repr

/-- TimelySharedKinDynComputations.cpp:157-166. `none` is the failed assertion or the out-of-bounds access. -/
def get (s : Timely K) (tol time : K) : Option (Timely K × Handle) :=
  if s.valid then
    if s.timingsSet then
      match getClosestIndex s.times tol s.prev time with
      | some k => some ({ s with prev := k }, .entry k)
      | none => none
    else some (s, .template)
  else none

/-- A sequence of lookups. -/
def gets (s : Timely K) (tol : K) : List K → Option (Timely K)
  | [] => some s
  | t :: rest => match get s tol t with
    | some (s', _) => gets s' tol rest
    | none => none

/-- The two calls that matter for the lookup. -/
inductive Op (K : Type) where
  | setTimings (l : List K)
  | get (t : K)

/-- A history of calls (with the library tolerance `tol`); `none` if one of them is an out-of-bounds access or a
failed assertion. -/
def run (s : Timely K) (tol : K) : List (Op K) → Option (Timely K)
  | [] => some s
  | .setTimings l :: rest => run (setTimings s l).1 tol rest
  | .get t :: rest => match get s tol t with
    | some (s', _) => run s' tol rest
    | none => none

end Verif.Timely
