import Mathlib.Algebra.Field.Basic
import Mathlib.Data.Fin.Basic
/- Small fixed-size vectors (iDynTree::Position / Force / Vector3). -/
namespace Verif

/-- A vector with three components. -/
@[ext] structure V3 (K : Type) where
  x : K
  y : K
  z : K
deriving DecidableEq

namespace V3
variable {K : Type}

instance [Zero K] : Zero (V3 K) := ⟨⟨0, 0, 0⟩⟩
instance [Add K] : Add (V3 K) := ⟨fun a b => ⟨a.x + b.x, a.y + b.y, a.z + b.z⟩⟩
instance [Sub K] : Sub (V3 K) := ⟨fun a b => ⟨a.x - b.x, a.y - b.y, a.z - b.z⟩⟩
instance [Neg K] : Neg (V3 K) := ⟨fun a => ⟨-a.x, -a.y, -a.z⟩⟩

/-- Scaling. -/
def smul [Mul K] (k : K) (a : V3 K) : V3 K := ⟨k * a.x, k * a.y, k * a.z⟩
/-- Scalar product. -/
def dot [Mul K] [Add K] (a b : V3 K) : K := a.x * b.x + a.y * b.y + a.z * b.z
/-- Vector product. -/
def cross [Mul K] [Sub K] (a b : V3 K) : V3 K :=
  ⟨a.y * b.z - a.z * b.y, a.z * b.x - a.x * b.z, a.x * b.y - a.y * b.x⟩

@[simp] theorem zero_x [Zero K] : (0 : V3 K).x = 0 := rfl
@[simp] theorem zero_y [Zero K] : (0 : V3 K).y = 0 := rfl
@[simp] theorem zero_z [Zero K] : (0 : V3 K).z = 0 := rfl
@[simp] theorem add_x [Add K] (a b : V3 K) : (a + b).x = a.x + b.x := rfl
@[simp] theorem add_y [Add K] (a b : V3 K) : (a + b).y = a.y + b.y := rfl
@[simp] theorem add_z [Add K] (a b : V3 K) : (a + b).z = a.z + b.z := rfl
@[simp] theorem sub_x [Sub K] (a b : V3 K) : (a - b).x = a.x - b.x := rfl
@[simp] theorem sub_y [Sub K] (a b : V3 K) : (a - b).y = a.y - b.y := rfl
@[simp] theorem sub_z [Sub K] (a b : V3 K) : (a - b).z = a.z - b.z := rfl
@[simp] theorem neg_x [Neg K] (a : V3 K) : (-a).x = -a.x := rfl
@[simp] theorem neg_y [Neg K] (a : V3 K) : (-a).y = -a.y := rfl
@[simp] theorem neg_z [Neg K] (a : V3 K) : (-a).z = -a.z := rfl
@[simp] theorem smul_x [Mul K] (k : K) (a : V3 K) : (smul k a).x = k * a.x := rfl
@[simp] theorem smul_y [Mul K] (k : K) (a : V3 K) : (smul k a).y = k * a.y := rfl
@[simp] theorem smul_z [Mul K] (k : K) (a : V3 K) : (smul k a).z = k * a.z := rfl
@[simp] theorem cross_x [Mul K] [Sub K] (a b : V3 K) : (cross a b).x = a.y * b.z - a.z * b.y := rfl
@[simp] theorem cross_y [Mul K] [Sub K] (a b : V3 K) : (cross a b).y = a.z * b.x - a.x * b.z := rfl
@[simp] theorem cross_z [Mul K] [Sub K] (a b : V3 K) : (cross a b).z = a.x * b.y - a.y * b.x := rfl

instance [AddCommMonoid K] : AddCommMonoid (V3 K) where
  add_assoc a b c := by ext <;> simp [add_assoc]
  zero_add a := by ext <;> simp
  add_zero a := by ext <;> simp
  add_comm a b := by ext <;> simp [add_comm]
  nsmul := nsmulRec

/-- Component maps as additive homomorphisms. -/
def xHom [AddCommMonoid K] : V3 K →+ K where
  toFun := V3.x
  map_zero' := rfl
  map_add' _ _ := rfl
def yHom [AddCommMonoid K] : V3 K →+ K where
  toFun := V3.y
  map_zero' := rfl
  map_add' _ _ := rfl
def zHom [AddCommMonoid K] : V3 K →+ K where
  toFun := V3.z
  map_zero' := rfl
  map_add' _ _ := rfl

end V3

/-- A 3x3 matrix given by its rows. -/
structure M3 (K : Type) where
  r0 : V3 K
  r1 : V3 K
  r2 : V3 K

/-- Matrix times vector. -/
def M3.mulVec {K : Type} [Mul K] [Add K] (m : M3 K) (v : V3 K) : V3 K := ⟨m.r0.dot v, m.r1.dot v, m.r2.dot v⟩

/-- `iDynTree::Transform` (rotation and position) applied to a position. -/
structure Transform (K : Type) where
  rot : M3 K
  pos : V3 K

def Transform.apply {K : Type} [Mul K] [Add K] (t : Transform K) (p : V3 K) : V3 K := t.rot.mulVec p + t.pos

end Verif
