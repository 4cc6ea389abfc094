import Verif.Model.Vec
import Mathlib.Algebra.Order.Field.Basic
/-
Model of `DynamicalPlanner::State` and `DynamicalPlanner::Control` (src/State.cpp, src/Control.cpp).
`double` is a linearly ordered field.  Memory that the code leaves uninitialised (elements appended by a resize) is a
parameter (`junk`).  `Eigen::...::norm()` is a parameter `norm`.
-/
namespace Verif.StateM
variable {K : Type}

/-- State.h:23-26. -/
structure PointState (K : Type) where
  force : V3 K
  position : V3 K
deriving DecidableEq

/-- State.h:29-38.  `momentumInCoM` is split in its linear and angular part. -/
structure State (K : Type) where
  left : List (PointState K)
  right : List (PointState K)
  linearMomentum : V3 K
  angularMomentum : V3 K
  com : V3 K
  base : Transform K
  joints : List K
  time : K

/-- `std::vector::resize(n)` with appended elements `junk`. -/
def resizeList {α : Type} (l : List α) (n : Nat) (junk : α) : List α := l.take n ++ List.replicate (n - l.length) junk

/-- What a resize leaves in newly allocated memory. -/
structure Junk (K : Type) where
  point : PointState K
  joint : K

/-- State.cpp:62-67. -/
def State.resize (s : State K) (numberOfDofs numberOfPoints : Nat) (junk : Junk K) : State K :=
  { s with left := resizeList s.left numberOfPoints junk.point
           right := resizeList s.right numberOfPoints junk.point
           joints := resizeList s.joints numberOfDofs junk.joint }

/-- `iDynTree::Transform::Identity()`. -/
def identityTransform (K : Type) [Zero K] [One K] : Transform K :=
  { rot := { r0 := ⟨1, 0, 0⟩, r1 := ⟨0, 1, 0⟩, r2 := ⟨0, 0, 1⟩ }, pos := 0 }

/-- State.cpp:69-86. -/
def State.zero [Zero K] [One K] (s : State K) : State K :=
  { left := s.left.map fun _ => ⟨0, 0⟩
    right := s.right.map fun _ => ⟨0, 0⟩
    linearMomentum := 0, angularMomentum := 0, com := 0
    base := identityTransform K
    joints := s.joints.map fun _ => 0
    time := 0 }

/-- State.cpp:50-51: the default constructor leaves vectors empty and the rest uninitialised (`s`). -/
def State.default (s : State K) : State K := { s with left := [], right := [], joints := [] }

/-- State.cpp:53-57. -/
def State.new [Zero K] [One K] (uninitialised : State K) (numberOfDofs numberOfPoints : Nat) (junk : Junk K) : State K :=
  ((State.default uninitialised).resize numberOfDofs numberOfPoints junk).zero

/-- State.cpp:88-93. -/
def State.sameSize (s o : State K) : Bool :=
  (s.left.length == o.left.length) && (s.right.length == o.right.length) && (s.joints.length == o.joints.length)

/-- State.cpp:95-100. -/
def State.checkSize (s : State K) (numberOfDofs numberOfPoints : Nat) : Bool :=
  (s.left.length == numberOfPoints) && (s.right.length == numberOfPoints) && (s.joints.length == numberOfDofs)

/-- The accumulation loops of State.cpp:111-117, 129-131, 136-138: running sum of the point positions. -/
def accumulate [Add K] (acc : V3 K) : List (PointState K) → V3 K
  | [] => acc
  | p :: ps => accumulate (acc + p.position) ps

/-- State.cpp:119, 133, 140: Eigen's `v /= n`. -/
def divBy [Field K] (v : V3 K) (n : Nat) : V3 K := ⟨v.x / n, v.y / n, v.z / n⟩

/-- State.cpp:102-122. -/
def State.computeFeetCentroid [Field K] (s : State K) : V3 K :=
  if s.left.length + s.right.length = 0 then 0
  else divBy (accumulate (accumulate 0 s.left) s.right) (s.left.length + s.right.length)

/-- State.cpp:124-145.  An empty foot gives a 0/0 NaN there and every comparison with NaN is false. -/
def State.leftIsForward [Field K] [LinearOrder K] (s : State K) (forward : V3 K) : Bool :=
  if s.left.isEmpty || s.right.isEmpty then false
  else decide ((divBy (accumulate 0 s.left) s.left.length).dot forward
        > (divBy (accumulate 0 s.right) s.right.length).dot forward)

/-- The loops State.cpp:155-159, 166-170. -/
def minLoop [LinearOrder K] (norm : V3 K → K) (m : K) : List (PointState K) → K
  | [] => m
  | p :: ps => minLoop norm (if norm p.force < m then norm p.force else m) ps

/-- State.cpp:152-161 / 163-172; `none` when `begin()` of an empty vector is dereferenced. -/
def minForce [LinearOrder K] (norm : V3 K → K) : List (PointState K) → Option K
  | [] => none
  | p :: ps => some (minLoop norm (norm p.force) ps)

/-- State.cpp:147-174. -/
def State.minimumPointForceOnForwardFoot [Field K] [LinearOrder K] (norm : V3 K → K) (s : State K)
    (forwardDirection : V3 K) : Option K :=
  if s.leftIsForward forwardDirection then minForce norm s.left else minForce norm s.right

/-- A vector with four components (quaternion derivative). -/
@[ext] structure V4 (K : Type) where
  w : K
  x : K
  y : K
  z : K
deriving DecidableEq

/-- Control.h:26-29. -/
structure PointControl (K : Type) where
  forceControl : V3 K
  velocityControl : V3 K
deriving DecidableEq

/-- Control.h:32-42. -/
structure Control (K : Type) where
  left : List (PointControl K)
  right : List (PointControl K)
  baseLinearVelocity : V3 K
  baseQuaternionDerivative : V4 K
  jointsVelocity : List K
  time : K

structure ControlJunk (K : Type) where
  point : PointControl K
  joint : K

/-- Control.cpp:60-65. -/
def Control.resize (s : Control K) (numberOfDofs numberOfPoints : Nat) (junk : ControlJunk K) : Control K :=
  { s with left := resizeList s.left numberOfPoints junk.point
           right := resizeList s.right numberOfPoints junk.point
           jointsVelocity := resizeList s.jointsVelocity numberOfDofs junk.joint }

/-- Control.cpp:67-85. -/
def Control.zero [Zero K] (s : Control K) : Control K :=
  { left := s.left.map fun _ => ⟨0, 0⟩
    right := s.right.map fun _ => ⟨0, 0⟩
    baseLinearVelocity := 0, baseQuaternionDerivative := ⟨0, 0, 0, 0⟩
    jointsVelocity := s.jointsVelocity.map fun _ => 0
    time := 0 }

/-- Control.cpp:48-49. -/
def Control.default (s : Control K) : Control K := { s with left := [], right := [], jointsVelocity := [] }

/-- Control.cpp:51-55. -/
def Control.new [Zero K] (uninitialised : Control K) (numberOfDofs numberOfPoints : Nat) (junk : ControlJunk K) :
    Control K := ((Control.default uninitialised).resize numberOfDofs numberOfPoints junk).zero

/-- Control.cpp:87-92. -/
def Control.sameSize (s o : Control K) : Bool :=
  (s.left.length == o.left.length) && (s.right.length == o.right.length)
    && (s.jointsVelocity.length == o.jointsVelocity.length)

/-- Control.cpp:94-99. -/
def Control.checkSize (s : Control K) (numberOfDofs numberOfPoints : Nat) : Bool :=
  (s.left.length == numberOfPoints) && (s.right.length == numberOfPoints)
    && (s.jointsVelocity.length == numberOfDofs)

end Verif.StateM
