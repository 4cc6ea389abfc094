import Mathlib.Algebra.BigOperators.Group.Finset.Basic
import Mathlib.Algebra.Order.Field.Basic
/- Run-time sized matrices: the values computed by the expressions of `extern/levi`.  External contract of the Eigen
operations levi uses (product, sum, blocks, transposition); `double` is a field. -/
namespace Verif.Levi
variable {K : Type} [Field K]

/-- A matrix with its run-time size; entries outside are zero, so that equal matrices are equal terms. -/
@[ext] structure SM (K : Type) [Zero K] where
  r : Nat
  c : Nat
  f : Nat → Nat → K
  out : ∀ i j, ¬(i < r ∧ j < c) → f i j = 0

namespace SM

/-- The `r × c` matrix with entries `f i j`. -/
def of (r c : Nat) (f : Nat → Nat → K) : SM K :=
  ⟨r, c, fun i j => if i < r ∧ j < c then f i j else 0, fun _ _ h => if_neg h⟩

/-- A 1×1 matrix. -/
def IsScalar (A : SM K) : Prop := A.r = 1 ∧ A.c = 1

instance (A : SM K) : Decidable A.IsScalar := inferInstanceAs (Decidable (_ ∧ _))

def zero (r c : Nat) : SM K := of r c fun _ _ => 0
def one (n : Nat) : SM K := of n n fun i j => if i = j then 1 else 0
def add (A B : SM K) : SM K := of A.r A.c fun i j => A.f i j + B.f i j
def sub (A B : SM K) : SM K := of A.r A.c fun i j => A.f i j - B.f i j
def neg (A : SM K) : SM K := of A.r A.c fun i j => -A.f i j
def smul (k : K) (A : SM K) : SM K := of A.r A.c fun i j => k * A.f i j
/-- Product: of matrices, or of a 1×1 factor with a matrix. -/
def mul (A B : SM K) : SM K :=
  if A.c = B.r then of A.r B.c fun i j => ∑ k ∈ Finset.range A.c, A.f i k * B.f k j
  else if A.IsScalar then smul (A.f 0 0) B
  else smul (B.f 0 0) A
def scalar (x : K) : SM K := of 1 1 fun _ _ => x
def div (A B : SM K) : SM K := of A.r A.c fun i j => A.f i j / B.f 0 0
def tr (A : SM K) : SM K := of A.c A.r fun i j => A.f j i
def row (A : SM K) (i : Nat) : SM K := of 1 A.c fun _ j => A.f i j
def col (A : SM K) (j : Nat) : SM K := of A.r 1 fun i _ => A.f i j
def elem (A : SM K) (i j : Nat) : SM K := of 1 1 fun _ _ => A.f i j
def block (A : SM K) (i0 j0 r c : Nat) : SM K := of r c fun i j => A.f (i0 + i) (j0 + j)
def hcat (A B : SM K) : SM K := of A.r (A.c + B.c) fun i j => if j < A.c then A.f i j else B.f i (j - A.c)
def vcat (A B : SM K) : SM K := of (A.r + B.r) A.c fun i j => if i < A.r then A.f i j else B.f (i - A.r) j
/-- The matrix `S` with `S y = x × y`. -/
def skew (A : SM K) : SM K := of 3 3 fun i j =>
  match i, j with
  | 0, 1 => -A.f 2 0
  | 0, 2 => A.f 1 0
  | 1, 0 => A.f 2 0
  | 1, 2 => -A.f 0 0
  | 2, 0 => -A.f 1 0
  | 2, 1 => A.f 0 0
  | _, _ => 0
/-- Inverse of `skew`: entries (2,1), (0,2), (1,0). -/
def vee (A : SM K) : SM K := of 3 1 fun i _ =>
  match i with
  | 0 => A.f 2 1
  | 1 => A.f 0 2
  | _ => A.f 1 0

end SM
end Verif.Levi
