import Verif.Model.RectangularFoot
import Mathlib.Algebra.BigOperators.Fin
import Mathlib.Data.Fintype.Basic
/- Specification: net wrench of point forces, rotations, exactness of a linear solver. -/
namespace Verif.Foot.Spec
variable {K : Type} [Field K]

/-- Sum of the four point forces. -/
def netForce (F : Fin 4 → V3 K) : V3 K := F 0 + F 1 + F 2 + F 3

/-- Sum of the moments of the four point forces, applied at positions `p`, about the origin of `p`'s frame. -/
def netMoment (p F : Fin 4 → V3 K) : V3 K :=
  V3.cross (p 0) (F 0) + V3.cross (p 1) (F 1) + V3.cross (p 2) (F 2) + V3.cross (p 3) (F 3)

/-- The solver returns a solution whenever one exists. -/
def ExactSolver {n : Nat} (s : Solver K n) : Prop :=
  ∀ A b, (∃ x : Fin n → K, ∀ r, ∑ j, A r j * x j = b r) → ∀ r, ∑ j, A r j * s A b j = b r

/-- Rows of the matrix are orthonormal and so are its columns. -/
structure IsRotation (m : M3 K) : Prop where
  c00 : m.r0.x * m.r0.x + m.r1.x * m.r1.x + m.r2.x * m.r2.x = 1
  c11 : m.r0.y * m.r0.y + m.r1.y * m.r1.y + m.r2.y * m.r2.y = 1
  c22 : m.r0.z * m.r0.z + m.r1.z * m.r1.z + m.r2.z * m.r2.z = 1
  c01 : m.r0.x * m.r0.y + m.r1.x * m.r1.y + m.r2.x * m.r2.y = 0
  c02 : m.r0.x * m.r0.z + m.r1.x * m.r1.z + m.r2.x * m.r2.z = 0
  c12 : m.r0.y * m.r0.z + m.r1.y * m.r1.z + m.r2.y * m.r2.z = 0

end Verif.Foot.Spec

namespace Verif.Foot
variable {K : Type} [Field K] [LinearOrder K]

/-- Centre of pressure of a wrench expressed at the foot centre. -/
def copOf (c : Config K) (w : Wrench K) : K × K :=
  (-(wrenchInCenter c w).moment.y / w.force.z, (wrenchInCenter c w).moment.x / w.force.z)

/-- Number of corners whose normal force ratio exceeds the activity threshold. -/
def activeCorners (c : Config K) (w : Wrench K) : Nat :=
  (Finset.univ.filter fun i : Fin 4 => |ratios c (copOf c w).1 (copOf c w).2 i| > eps K).card

end Verif.Foot
