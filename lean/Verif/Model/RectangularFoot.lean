import Verif.Model.Vec
import Mathlib.Algebra.Order.Field.Basic
import Mathlib.Algebra.Order.AbsoluteValue.Basic
/-
Model of `DynamicalPlanner::RectangularFoot` (src/RectangularFoot.cpp).  `double` is a linearly ordered field; the
Eigen linear solver `colPivHouseholderQr().solve` is a parameter.
-/
namespace Verif.Foot

variable {K : Type} [Field K] [LinearOrder K]

/-- The data written by an accepted `setFoot` (RectangularFoot.cpp:16-29). -/
structure Config (K : Type) where
  halfL : K
  halfD : K
  center : V3 K
  point : Fin 4 → V3 K

/-- The object: `none` while `footSet` is false (RectangularFoot.cpp:31-46). -/
abbrev Foot (K : Type) := Option (Config K)

def init (K : Type) : Foot K := none

/-- RectangularFoot.cpp:69-83. -/
def corner (halfL halfD : K) : Fin 4 → V3 K
  | 0 => ⟨halfL, halfD, 0⟩
  | 1 => ⟨halfL, -halfD, 0⟩
  | 2 => ⟨-halfL, halfD, 0⟩
  | 3 => ⟨-halfL, -halfD, 0⟩

/-- RectangularFoot.cpp:51-94 (the regression matrix of 85-89 is a function of the points, see `regression`). -/
def setFoot (f : Foot K) (xLength yLength : K) (topLeft : V3 K) : Foot K × Bool :=
  if xLength ≤ 0 then (f, false)
  else if yLength ≤ 0 then (f, false)
  else
    let halfL := xLength / 2
    let halfD := yLength / 2
    (some { halfL := halfL, halfD := halfD
            center := topLeft + ⟨-halfL, -halfD, 0⟩
            point := corner halfL halfD }, true)

/-- RectangularFoot.cpp:96-110. -/
def getPoints (f : Foot K) (t : Transform K) : Option (Fin 4 → V3 K) :=
  match f with
  | none => none
  | some c => some fun i => t.apply (c.center + c.point i)

/-- RectangularFoot.cpp:112-127 (the warning at 119-121 has no effect on the result). -/
def ratios (c : Config K) (copX copY : K) : Fin 4 → K :=
  let l := 2 * c.halfL
  let d := 2 * c.halfD
  let r3 := (max 0 (-copX / l - copY / d) + min (1 / 2 - copY / d) (1 / 2 - copX / l)) / 2
  let r0 := r3 + copX / l + copY / d
  let r1 := -r3 + 1 / 2 - copY / d
  let r2 := 1 - r0 - r1 - r3
  fun i => match i with
    | 0 => r0
    | 1 => r1
    | 2 => r2
    | 3 => r3

/-- `iDynTree::Wrench`: force and moment. -/
structure Wrench (K : Type) where
  force : V3 K
  moment : V3 K

/-- RectangularFoot.cpp:140-142: `Transform(Identity, -center) * wrench`. -/
def wrenchInCenter (c : Config K) (w : Wrench K) : Wrench K :=
  { force := w.force, moment := w.moment + V3.cross (-c.center) w.force }

/-- RectangularFoot.cpp:85-89 (rows: sum of x forces, sum of y forces, moment about z). -/
def regression (p : Fin 4 → V3 K) (row : Fin 3) (col : Fin 8) : K :=
  let i : Fin 4 := ⟨col.val / 2, by omega⟩
  match row with
  | 0 => if col.val % 2 = 0 then 1 else 0
  | 1 => if col.val % 2 = 0 then 0 else 1
  | 2 => if col.val % 2 = 0 then -(p i).y else (p i).x

/-- RectangularFoot.cpp:40-41 and 200-207: regression on the two active points `a` and `b`. -/
def reducedRegression (a b : V3 K) (row : Fin 3) (col : Fin 4) : K :=
  let q : V3 K := if col.val / 2 = 0 then a else b
  match row with
  | 0 => if col.val % 2 = 0 then 1 else 0
  | 1 => if col.val % 2 = 0 then 0 else 1
  | 2 => if col.val % 2 = 0 then -q.y else q.x

/-- RectangularFoot.cpp:155, 177. -/
def eps (K : Type) [Field K] : K := 1 / 10000000

/-- A linear solver for three equations in `n` unknowns. -/
abbrev Solver (K : Type) (n : Nat) := (Fin 3 → Fin n → K) → (Fin 3 → K) → Fin n → K

/-- Indices of the active points in increasing order. -/
def actives (active : Fin 4 → Bool) : List (Fin 4) := [0, 1, 2, 3].filter active

/-- RectangularFoot.cpp:129-236.  The outer `none` is the refused call (foot not set). -/
def getForces (solve4 : Solver K 4) (solve8 : Solver K 8) (f : Foot K) (w : Wrench K) : Option (Fin 4 → V3 K) :=
  match f with
  | none => none
  | some c =>
    let wc := wrenchInCenter c w
    let fx := wc.force.x
    let fy := wc.force.y
    let fz := wc.force.z
    let copX := -wc.moment.y / fz
    let copY := wc.moment.x / fz
    if fz < eps K then some fun _ => 0
    else
      let alpha := ratios c copX copY
      let b : Fin 3 → K := fun r => match r with
        | 0 => fx
        | 1 => fy
        | 2 => wc.moment.z
      let active : Fin 4 → Bool := fun i => decide (|alpha i| > eps K)
      match actives active with
      | [k] => some fun i => if i = k then ⟨fx, fy, alpha i * fz⟩ else 0
      | [k, m] =>
        let s := solve4 (reducedRegression (c.point k) (c.point m)) b
        some fun i => if i = k then ⟨s 0, s 1, alpha i * fz⟩
          else if i = m then ⟨s 2, s 3, alpha i * fz⟩
          else 0
      | _ =>
        let s := solve8 (regression c.point) b
        some fun i => ⟨s ⟨2 * i.val, by omega⟩, s ⟨2 * i.val + 1, by omega⟩, alpha i * fz⟩

/-- A history of configurations. -/
def setFoots (f : Foot K) : List (K × K × V3 K) → Foot K
  | [] => f
  | (a, b, p) :: rest => setFoots (setFoot f a b p).1 rest

end Verif.Foot
