import Verif.Model.State
import Mathlib.Analysis.SpecialFunctions.Log.Base
import Mathlib.Algebra.Order.Round
/-
Model of src/Visualizer.cpp.  The window of iDynTree is a scene (the pose of the model, the arrows, the camera) and a list of what is seen from outside: drawings,
images saved, waits, commands run.  `double` is the real numbers; the texture used for the images shows the same scene as the window; colors, lights and labels are left
out; the times measured by the clock are a parameter (`elapsed`).  An uncaught exception or an access out of range is `none`.
-/
namespace Verif.Visualizer
open Verif.StateM

/-- What is visible. -/
structure Scene where
  base : Transform ℝ
  joints : List ℝ
  arrows : List (V3 ℝ × V3 ℝ)
  cameraPosition : V3 ℝ
  cameraTarget : V3 ℝ

/-- What is seen from outside. -/
inductive Event
  | draw (scene : Scene)
  | half (right : Bool) (scene : Scene)
  | wait (milliseconds : ℤ)
  | image (file : String)
  | command (args : String)

/-- The object; `model` are the joints of the model loaded, if any. -/
structure Viz where
  model : Option ℕ
  scene : Scene
  defaultPosition : V3 ℝ
  defaultTarget : V3 ℝ
  log : List Event

/-- Add an event. -/
def Viz.emit (v : Viz) (e : Event) : Viz := { v with log := v.log ++ [e] }

/-- `iDynTree::IModelVisualization::setPositions`: it refuses joints of another number. -/
def Viz.setPositions (v : Viz) (base : Transform ℝ) (joints : List ℝ) : Viz :=
  if v.model = some joints.length then { v with scene := { v.scene with base := base, joints := joints } } else v

/-- Visualizer.cpp:41-47 and 51-57: the arrow of one point. -/
def putArrow (x : List (V3 ℝ × V3 ℝ) × ℕ) (point : PointState ℝ) : List (V3 ℝ × V3 ℝ) × ℕ :=
  let vectorIndex := x.2
  (if vectorIndex < x.1.length then x.1.set vectorIndex (point.position, point.force) else x.1 ++ [(point.position, point.force)], vectorIndex + 1)

/-- `updateViz`, Visualizer.cpp:31-59. -/
def Viz.update (v : Viz) (s : State ℝ) : Viz :=
  let v := v.setPositions s.base s.joints
  let left := s.left.foldl putArrow (v.scene.arrows, 0)
  let right := s.right.foldl putArrow left
  { v with scene := { v.scene with arrows := right.1 } }

/-- Visualizer.cpp:82-96; `loaded` is the answer of iDynTree. -/
def Viz.setModel (v : Viz) (joints : ℕ) (loaded : Bool) : Bool × Viz :=
  if v.model.isSome then (false, v) else if loaded then (true, { v with model := some joints }) else (false, v)

/-- Visualizer.cpp:98-111. -/
def Viz.visualizeState (v : Viz) (s : State ℝ) : Bool × Viz :=
  if v.model.isNone then (false, v)
  else
    let v := v.update s
    (true, v.emit (.draw v.scene))

/-- `std::round`. -/
noncomputable def stdRound (x : ℝ) : ℤ := if 0 ≤ x then ⌊x + 1 / 2⌋ else ⌈x - 1 / 2⌉

/-- Visualizer.cpp:127-134, 166-173 and 201-208: wait until the time of the next state; `rest` are the states after this one. -/
noncomputable def Viz.pace (v : Viz) (elapsed : ℝ) (s : State ℝ) (rest : List (State ℝ)) : Viz :=
  match rest with
  | [] => v
  | next :: _ =>
    let durationMs := stdRound ((next.time - s.time) * 1000)
    if ⌊elapsed⌋ < durationMs then v.emit (.wait (durationMs - ⌊elapsed⌋)) else v

/-- The loop of Visualizer.cpp:120-135, from the `i`-th state. -/
noncomputable def statesLoop (elapsed : ℕ → ℝ) (endTime : ℝ) : ℕ → List (State ℝ) → Viz → Viz
  | _, [], v => v
  | i, s :: rest, v =>
    if endTime > 0 ∧ s.time > endTime then v
    else statesLoop elapsed endTime (i + 1) rest (((v.visualizeState s).2).pace (elapsed i) s rest)

/-- Visualizer.cpp:113-138. -/
noncomputable def Viz.visualizeStates (v : Viz) (elapsed : ℕ → ℝ) (states : List (State ℝ)) (endTime : ℝ) : Bool × Viz :=
  if v.model.isNone then (false, v) else (true, statesLoop elapsed endTime 0 states v)

/-- `viz.camera().setPosition` and `setTarget`. -/
def Viz.aim (v : Viz) (position target : V3 ℝ) : Viz := { v with scene := { v.scene with cameraPosition := position, cameraTarget := target } }

/-- The loop of Visualizer.cpp:157-174. -/
noncomputable def cameraLoop (elapsed : ℕ → ℝ) (endTime : ℝ) : ℕ → List (State ℝ × V3 ℝ × V3 ℝ) → Viz → Viz
  | _, [], v => v
  | i, (s, position, target) :: rest, v =>
    if endTime > 0 ∧ s.time > endTime then v
    else cameraLoop elapsed endTime (i + 1) rest ((((v.aim position target).visualizeState s).2).pace (elapsed i) s (rest.map (·.1)))

/-- Visualizer.cpp:140-181. -/
noncomputable def Viz.visualizeStatesWithCamera (v : Viz) (elapsed : ℕ → ℝ) (states : List (State ℝ)) (cameraPosition cameraTarget : List (V3 ℝ)) (endTime : ℝ) : Bool × Viz :=
  if v.model.isNone then (false, v)
  else if cameraPosition.length ≠ states.length then (false, v)
  else if cameraTarget.length ≠ states.length then (false, v)
  else
    let v := cameraLoop elapsed endTime 0 (states.zip (cameraPosition.zip cameraTarget)) v
    (true, v.aim v.defaultPosition v.defaultTarget)

/-- Visualizer.cpp:239-251. -/
def Viz.setCameraPosition (v : Viz) (position : V3 ℝ) : Viz := { v with scene := { v.scene with cameraPosition := position }, defaultPosition := position }
def Viz.setCameraTarget (v : Viz) (target : V3 ℝ) : Viz := { v with scene := { v.scene with cameraTarget := target }, defaultTarget := target }

/-- `static_cast<unsigned int>(std::floor(std::log10(n) + 1))`, Visualizer.cpp:190 and 290. -/
noncomputable def digitsFor (n : ℕ) : ℕ := ⌊Real.logb 10 n + 1⌋₊

/-- The name of an image, Visualizer.cpp:199 and 323: `std::string(digits - to_string(i).size(), '0')` throws when the subtraction is negative. -/
def imageName (workingFolder fileName : String) (digits i : ℕ) : Option String :=
  if (toString i).length ≤ digits then
    some (workingFolder ++ "/" ++ fileName ++ "_img_" ++ (String.ofList (List.replicate (digits - (toString i).length) '0') ++ toString i) ++ ".png")
  else none

/-- The loop of Visualizer.cpp:192-211, from the `i`-th state; with the index after the last image. -/
noncomputable def animationLoop (elapsed : ℕ → ℝ) (workingFolder fileName : String) (digits : ℕ) (endTime : ℝ) : ℕ → List (State ℝ) → Viz → Option (ℕ × Viz)
  | i, [], v => some (i, v)
  | i, s :: rest, v =>
    if ¬ endTime < 0 ∨ s.time ≤ endTime then do
      let v := (v.visualizeState s).2
      let name ← imageName workingFolder fileName digits i
      animationLoop elapsed workingFolder fileName digits endTime (i + 1) rest ((v.emit (.image name)).pace (elapsed i) s rest)
    else some (i, v)

/-- The command, Visualizer.cpp:217-234. -/
def ffmpeg (fps : ℤ) (workingFolder fileName fileExtension : String) (digits : ℕ) : String :=
  "ffmpeg" ++ (" -framerate " ++ toString fps) ++ (" -i " ++ workingFolder ++ "/" ++ fileName ++ "_img_%0" ++ toString digits ++ "d" ++ ".png") ++ " -y" ++
    (if fileExtension = "mp4" then " -pix_fmt yuv420p" else "") ++ (" " ++ workingFolder ++ "/" ++ fileName ++ "." ++ fileExtension)

/-- Visualizer.cpp:183-237. -/
noncomputable def Viz.saveAnimation (v : Viz) (elapsed : ℕ → ℝ) (states : List (State ℝ)) (workingFolder fileName fileExtension : String) (endTime : ℝ) : Option (Bool × Viz) :=
  if v.model.isNone then some (false, v)
  else do
    let digits := digitsFor states.length
    let (i, v) ← animationLoop elapsed workingFolder fileName digits endTime 0 states v
    if i = 0 then some (true, v)
    else
      let last ← states[i - 1]?
      some (true, v.emit (.command (ffmpeg (stdRound (i / last.time)) workingFolder fileName fileExtension digits)))

/-! ### `visualizeMPCStatesAndSaveAnimation` -/

/-- One image, Visualizer.cpp:307-324 and 329-346: the camera is moved (its target is not), each half is drawn, and the two halves are saved together; the `draw` that
follows the two `subDraw` shows them. -/
def Viz.frame (v : Viz) (left right : State ℝ) (leftCamera rightCamera : V3 ℝ) (name : String) : Viz :=
  let v := (v.aim leftCamera v.scene.cameraTarget).update left
  let v := v.emit (.half false v.scene)
  let v := (v.aim rightCamera v.scene.cameraTarget).update right
  let v := v.emit (.half true v.scene)
  v.emit (.image name)

/-- The loop of Visualizer.cpp:305-325, from the image number `frameIndex`. -/
def mpcFull (stateCamera fullCamera : State ℝ → V3 ℝ) (workingFolder fileName : String) (digits : ℕ) (initialState : State ℝ) :
    ℕ → List (State ℝ) → Viz → Option (ℕ × Viz)
  | frameIndex, [], v => some (frameIndex, v)
  | frameIndex, s :: rest, v => do
    let name ← imageName workingFolder fileName digits frameIndex
    mpcFull stateCamera fullCamera workingFolder fileName digits initialState (frameIndex + 1) rest
      (v.frame initialState s (stateCamera initialState) (fullCamera initialState) name)

/-- The loop of Visualizer.cpp:327-350, with the number of rounds left. -/
def mpcStates (stateCamera fullCamera : State ℝ → V3 ℝ) (workingFolder fileName : String) (digits : ℕ) (states full : List (State ℝ)) :
    ℕ → ℕ → ℕ → State ℝ → Viz → Option (ℕ × ℕ × State ℝ × Viz)
  | 0, stateIndex, frameIndex, initialState, v => some (stateIndex, frameIndex, initialState, v)
  | n + 1, stateIndex, frameIndex, initialState, v => do
    let s ← states[stateIndex]?
    let back ← full.getLast?
    let name ← imageName workingFolder fileName digits frameIndex
    mpcStates stateCamera fullCamera workingFolder fileName digits states full n (stateIndex + 1) (frameIndex + 1) s
      (v.frame s back (stateCamera initialState) (fullCamera initialState) name)

/-- The loop of Visualizer.cpp:304-355, on the predictions left; with the index of the state reached. -/
noncomputable def mpcLoop (stateCamera fullCamera : State ℝ → V3 ℝ) (workingFolder fileName : String) (digits statesIncrement : ℕ) (states : List (State ℝ)) (endTime : ℝ) :
    List (List (State ℝ)) → ℕ → ℕ → State ℝ → Viz → Option (ℕ × Viz)
  | [], stateIndex, _, _, v => some (stateIndex, v)
  | full :: rest, stateIndex, frameIndex, initialState, v =>
    match states[stateIndex]? with
    | none => some (stateIndex, v)
    | some s =>
      if ¬ endTime < 0 ∨ s.time ≤ endTime then do
        let (frameIndex, v) ← mpcFull stateCamera fullCamera workingFolder fileName digits initialState frameIndex full v
        let (stateIndex, frameIndex, initialState, v) ←
          mpcStates stateCamera fullCamera workingFolder fileName digits states full statesIncrement stateIndex frameIndex initialState v
        mpcLoop stateCamera fullCamera workingFolder fileName digits statesIncrement states endTime rest stateIndex frameIndex initialState v
      else some (stateIndex, v)

/-- Visualizer.cpp:287-288; the two variables are `unsigned int`. -/
def statesIncrement (states fullStates : ℕ) : ℕ := ((states - 1) / fullStates) % 2 ^ 32
def numberOfFrames (fullStates front increment : ℕ) : ℕ := (fullStates * (front + (increment + (2 ^ 32 - 1)) % 2 ^ 32)) % 2 ^ 32

/-- Visualizer.cpp:268-384; the logarithm of zero has no number of digits. -/
noncomputable def Viz.saveMPC (v : Viz) (states : List (State ℝ)) (stateCamera : State ℝ → V3 ℝ) (fullStates : List (List (State ℝ))) (fullCamera : State ℝ → V3 ℝ)
    (workingFolder fileName fileExtension : String) (speedUp endTime : ℝ) : Option (Bool × Viz) :=
  if v.model.isNone then some (false, v)
  else match states, fullStates with
  | [], _ => some (true, v)
  | _, [] => some (true, v)
  | first :: others, front :: fulls =>
    if (first :: others).length < (front :: fulls).length then some (false, v)
    else
      let increment := statesIncrement (first :: others).length (front :: fulls).length
      let frames := numberOfFrames (front :: fulls).length front.length increment
      if frames = 0 then none
      else do
        let digits := digitsFor frames
        let (stateIndex, v) ← mpcLoop stateCamera fullCamera workingFolder fileName digits increment (first :: others) endTime (front :: fulls) 1 0 first v
        let v := v.aim v.defaultPosition v.defaultTarget
        let last ← (first :: others)[stateIndex - 1]?
        some (true, v.emit (.command (ffmpeg (stdRound (stateIndex / last.time * speedUp)) workingFolder fileName fileExtension digits)))

end Verif.Visualizer
