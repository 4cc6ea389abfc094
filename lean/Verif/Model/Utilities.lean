import Verif.Model.State
import Verif.Model.RectangularFoot
/-
Model of the rest of src/Utilities.cpp: `FillDefaultInitialState`, `SetMinContactPointToZero`,
`TranslatingCoMStateGuess` (`ExponentialWeight` is in Model/ExponentialWeight.lean).
iDynTree's `KinDynComputations` is external: its answers are parameters.
-/
namespace Verif.Util
open Verif.StateM
variable {K : Type} [Field K] [LinearOrder K]

/-! ### Default initial state -/

/-- What the (external) kinematics library answers in `FillDefaultInitialState` once the left foot is the base and the
joints are set (Utilities.cpp:28-76). -/
structure Kin (K : Type) where
  loadOk : Bool
  baseOk : Bool
  stateOk : Bool
  com : V3 K
  linearMomentum : V3 K
  angularMomentum : V3 K
  base : Transform K
  leftT : Transform K
  rightT : Transform K
  linkMasses : List K

/-- The parts of the settings that are read. -/
structure Points (K : Type) where
  valid : Bool
  left : List (V3 K)
  right : List (V3 K)

/-- Utilities.cpp:80-83: positions of the points; `none` when the right list is shorter (out of bounds read). -/
def place (leftT rightT : Transform K) : List (V3 K) → List (V3 K) → List (PointState K) → List (PointState K) →
    Option (List (PointState K) × List (PointState K))
  | [], _, ls, rs => some (ls, rs)
  | a :: as, b :: bs, l :: ls, r :: rs =>
    match place leftT rightT as bs ls rs with
    | none => none
    | some (ls', rs') => some ({ l with position := leftT.apply a } :: ls', { r with position := rightT.apply b } :: rs')
  | _, _, _, _ => none

/-- Utilities.cpp:89.  With the centre of mass exactly above the right foot IEEE division gives infinity (left force
zero), or NaN (`none`) if it is also above the left one. -/
def leftNormal (normalForce dyLeft dyRight : K) : Option K :=
  if |dyRight| = 0 then (if |dyLeft| = 0 then none else some 0)
  else some (normalForce / (1 + |dyLeft| / |dyRight|))

/-- 9.81 -/
def g981 (K : Type) [Field K] : K := 981 / 100

/-- Utilities.cpp:71-78. -/
def weight (kin : Kin K) : K := kin.linkMasses.sum * g981 K

/-- Utilities.cpp:85-94: the two wrenches, given the left normal force. -/
def wrenches (kin : Kin K) (leftFz : K) : Foot.Wrench K × Foot.Wrench K :=
  let rightFz := weight kin - leftFz
  (⟨⟨0, 0, leftFz⟩, ⟨0, -leftFz * (kin.com.x - kin.leftT.pos.x), 0⟩⟩,
   ⟨⟨0, 0, rightFz⟩, ⟨0, -rightFz * (kin.com.x - kin.rightT.pos.x), 0⟩⟩)

/-- Utilities.cpp:110-113 for one foot; `none` when more than four points are asked from the four forces. -/
def putForces (F : Fin 4 → V3 K) (i : Nat) : List (PointState K) → Option (List (PointState K))
  | [] => some []
  | p :: ps =>
    if h : i < 4 then
      match putForces F (i + 1) ps with
      | none => none
      | some r => some ({ p with force := F ⟨i, h⟩ } :: r)
    else none

/-- Utilities.cpp:16-116.  `none` is undefined behaviour (out of bounds or NaN); otherwise the state as left by the
function and its result.  Points of the resized state that are not overwritten keep what they had. -/
def fillDefaultInitialState (s4 : Foot.Solver K 4) (s8 : Foot.Solver K 8) (pts : Points K) (kin : Kin K)
    (desiredJoints : List K) (leftFoot rightFoot : Foot.Foot K) (s : State K) (junk : Junk K) :
    Option (State K × Bool) :=
  if !pts.valid then some (s, false)
  else if !kin.loadOk then some (s, false)
  else
    let s := s.resize desiredJoints.length pts.left.length junk
    if !kin.baseOk then some (s, false)
    else if !kin.stateOk then some (s, false)
    else
      let s := { s with com := kin.com, joints := desiredJoints, linearMomentum := kin.linearMomentum
                        angularMomentum := kin.angularMomentum, time := 0, base := kin.base }
      match place kin.leftT kin.rightT pts.left pts.right s.left s.right with
      | none => none
      | some (l, r) =>
        let s := { s with left := l, right := r }
        match leftNormal (weight kin) (kin.com.y - kin.leftT.pos.y) (kin.com.y - kin.rightT.pos.y) with
        | none => none
        | some leftFz =>
          let w := wrenches kin leftFz
          match Foot.getForces s4 s8 leftFoot w.1 with
          | none => some (s, false)
          | some fl =>
            match Foot.getForces s4 s8 rightFoot w.2 with
            | none => some (s, false)
            | some fr =>
              match putForces fl 0 s.left, putForces fr 0 s.right with
              | some l', some r' => some ({ s with left := l', right := r' }, true)
              | _, _ => none

/-! ### Lowering the robot to the ground -/

/-- The external kinematics: poses of the feet and of the centre of mass relative to the base, as functions of the
joints (`getWorldTransform(frame) = base * relative`). -/
structure Relative (K : Type) where
  left : List K → Transform K
  right : List K → Transform K
  com : List K → V3 K
  stateOk : State K → Bool

/-- Composition of a pose with a relative one, applied to a point (Utilities.cpp:133-139). -/
def worldPoint (base rel : Transform K) (p : V3 K) : V3 K := base.apply (rel.apply p)

/-- The loop Utilities.cpp:138-150: updates the stored positions and computes the running minimum height. -/
def lowest (base lrel rrel : Transform K) : K → List (V3 K) → List (V3 K) → List (PointState K) → List (PointState K) →
    Option (K × List (PointState K) × List (PointState K))
  | m, [], _, ls, rs => some (m, ls, rs)
  | m, a :: as, b :: bs, l :: ls, r :: rs =>
    let pl := worldPoint base lrel a
    let m1 := if pl.z < m then pl.z else m
    let pr := worldPoint base rrel b
    let m2 := if pr.z < m1 then pr.z else m1
    match lowest base lrel rrel m2 as bs ls rs with
    | none => none
    | some (mm, ls', rs') => some (mm, { l with position := pl } :: ls', { r with position := pr } :: rs')
  | _, _, _, _, _ => none

/-- 1e-8 -/
def e8 (K : Type) [Field K] : K := 1 / 100000000

/-- Moving the base vertically (Utilities.cpp:153-160, 163-165). -/
def moveBase (s : State K) (dz : K) : State K :=
  { s with base := { s.base with pos := ⟨s.base.pos.x, s.base.pos.y, s.base.pos.z + dz⟩ } }

/-- Outcome of one activation of the recursive function. -/
inductive Outcome (K : Type) where
  | undefined
  | finished (s : State K) (ok : Bool)
  | again (s : State K)

/-- Utilities.cpp:118-168: one activation. -/
def lowerOnce (rel : Relative K) (pts : Points K) (s : State K) : Outcome K :=
  if !rel.stateOk s then .finished s false
  else
    let s := { s with com := s.base.apply (rel.com s.joints) }
    match lowest s.base (rel.left s.joints) (rel.right s.joints) 1 pts.left pts.right s.left s.right with
    | none => .undefined
    | some (minZ, l, r) =>
      let s := { s with left := l, right := r }
      if minZ < 0 ∨ minZ > e8 K then
        .again (moveBase s (-(99 / 100 * minZ) + (if minZ < 0 then e8 K else 0)))
      else .finished (moveBase s (-(2 * e8 K))) true

/-- The recursion: `n` bounds the number of activations (`none`: not finished yet). -/
def lower (rel : Relative K) (pts : Points K) : Nat → State K → Option (Outcome K)
  | 0, _ => none
  | n + 1, s => match lowerOnce rel pts s with
    | .again s' => lower rel pts n s'
    | o => some o

/-! ### Translating centre of mass guess -/

/-- Utilities.h: members of `TranslatingCoMStateGuess`. -/
structure Guess (K : Type) where
  state : State K
  initialState : State K

/-- Utilities.cpp:197-201. -/
def Guess.new (initialState : State K) : Guess K := ⟨initialState, initialState⟩

/-- Utilities.cpp:216-222 for one foot; `none` on an out of bounds read of the initial state. -/
def movePoints (d : V3 K) : List (PointState K) → List (PointState K) → Option (List (PointState K))
  | [], _ => some []
  | _ :: _, [] => none
  | p :: ps, q :: qs => match movePoints d ps qs with
    | none => none
    | some r => some ({ p with position := q.position + d } :: r)

/-- Utilities.cpp:206-228; `reference` is the (external) centre of mass reference, whose own validity flag is
overwritten at line 224. -/
def Guess.get (gs : Guess K) (reference : K → V3 K × Bool) (time : K) : Option (Guess K × State K × Bool) :=
  let com := (reference time).1
  let d := com - gs.initialState.com
  match movePoints d gs.state.left gs.initialState.left, movePoints d gs.state.right gs.initialState.right with
  | some l, some r =>
    let s := { gs.state with
      com := com, joints := gs.initialState.joints, linearMomentum := 0, angularMomentum := 0
      base := ⟨gs.initialState.base.rot, gs.initialState.base.pos + d⟩
      left := l, right := r, time := time }
    some ({ gs with state := s }, s, true)
  | _, _ => none

/-- A sequence of calls, returning the last answer. -/
def Guess.gets (gs : Guess K) (reference : K → V3 K × Bool) : List K → Option (Guess K)
  | [] => some gs
  | t :: ts => match gs.get reference t with
    | none => none
    | some (gs', _, _) => gs'.gets reference ts

end Verif.Util
