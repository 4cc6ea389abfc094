import Verif.Model.Visualizer
/- Specification for the visualizer. -/
namespace Verif.Visualizer.Spec
open Verif.StateM Verif.Visualizer

/-- The arrows of a state: where the forces are applied, and the forces. -/
def arrowsOf (s : State ℝ) : List (V3 ℝ × V3 ℝ) := (s.left ++ s.right).map fun p => (p.position, p.force)

/-- The state seen by a camera, and nothing else. -/
def picture (s : State ℝ) (position target : V3 ℝ) : Scene := ⟨s.base, s.joints, arrowsOf s, position, target⟩

/-- The drawings, in order. -/
def drawings (l : List Event) : List Scene := l.filterMap fun e => match e with | .draw scene => some scene | _ => none

/-- The images saved, in order. -/
def images (l : List Event) : List String := l.filterMap fun e => match e with | .image file => some file | _ => none

/-- The commands run, in order. -/
def commands (l : List Event) : List String := l.filterMap fun e => match e with | .command args => some args | _ => none

/-- The states that are not after the end time; no limit for an end time that is zero or negative. -/
def Before (endTime : ℝ) (s : State ℝ) : Prop := endTime ≤ 0 ∨ s.time ≤ endTime

/-- A model is loaded, these states have as many joints as it has and all the same number of contact points, and no more arrows than these points are in the window. -/
structure Ready (v : Viz) (states : List (State ℝ)) (n : ℕ) : Prop where
  joints : ∀ s ∈ states, v.model = some s.joints.length
  loaded : v.model.isSome
  points : ∀ s ∈ states, (arrowsOf s).length = n
  arrows : v.scene.arrows.length ≤ n

/-- The halves drawn, in order: which one, and what it shows. -/
def halves (l : List Event) : List (Bool × Scene) := l.filterMap fun e => match e with | .half right scene => some (right, scene) | _ => none

/-- An image of the animation of the predictions: the state on the left, the predicted state on the right, the state the cameras look at. -/
structure Frame where
  left : State ℝ
  right : State ℝ
  seen : State ℝ

/-- The images of the `k`-th prediction, when `increment` states are executed after each: first the prediction, the state where it was made on the left; then the states
executed, the end of the prediction on the right. -/
def predictionFrames (stateAt : ℕ → State ℝ) (increment k : ℕ) (prediction : List (State ℝ)) : List Frame :=
  (prediction.map fun r => ⟨stateAt (k * increment), r, stateAt (k * increment)⟩) ++
  (List.range increment).flatMap fun j => prediction.getLast?.toList.map fun r => ⟨stateAt (k * increment + j + 1), r, stateAt (k * increment + j)⟩

/-- All the images. -/
def allFrames (stateAt : ℕ → State ℝ) (increment : ℕ) (predictions : List (List (State ℝ))) : List Frame :=
  predictions.zipIdx.flatMap fun x => predictionFrames stateAt increment x.2 x.1

/-- What is drawn for an image. -/
def Frame.drawn (stateCamera fullCamera : State ℝ → V3 ℝ) (target : V3 ℝ) (f : Frame) : List (Bool × Scene) :=
  [(false, picture f.left (stateCamera f.seen) target), (true, picture f.right (fullCamera f.seen) target)]

/-- The states and predictions of an animation: at least a state executed after each prediction, no prediction empty (`m` is the length of the first), a window that can show them, numbers
that the program can hold. -/
structure Animation (v : Viz) (first : State ℝ) (others : List (State ℝ)) (predictions : List (List (State ℝ))) (m increment n : ℕ) : Prop where
  some_prediction : predictions ≠ []
  first_length : ∀ p ∈ predictions.head?, p.length = m
  not_empty : ∀ p ∈ predictions, p ≠ []
  executed : increment = others.length / predictions.length
  at_least_one : 1 ≤ increment
  ready : Ready v (first :: others ++ predictions.flatten) n
  small_states : others.length < 2 ^ 32
  small_frames : predictions.length * (m + increment) < 2 ^ 32

/-- The number of images: for each prediction, the states predicted and those executed after it. -/
def frameCount (increment : ℕ) (predictions : List (List (State ℝ))) : ℕ := (predictions.map fun p => p.length + increment).sum

end Verif.Visualizer.Spec
