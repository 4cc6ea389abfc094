import Verif.Lemmas.CentroidalMomentum
/- Lemmas: the atoms of the expressions of the centroidal momentum and their derivatives along the coordinates. -/
set_option linter.unusedSectionVars false
namespace Verif.NLP.Kin
open Matrix Verif.Rigid Function
open Verif.Quaternion (rotationFromQuaternion normalized normalizedDerivative leftTrivializedDerivativeInverse)
open Verif.NLP.Dynamics (quatOf velOf baseRotation rpow env NonNull)
open Verif.Levi Verif.Levi.Ex

/-! ### Rows of spatial vectors -/

theorem row_add (a b : Spatial) (r : Fin 6) : row (a + b) r = row a r + row b r := by
  fin_cases r <;> rfl
theorem row_smul (k : ℝ) (a : Spatial) (r : Fin 6) : row (k • a) r = k * row a r := by
  fin_cases r <;> rfl
theorem row_zero (r : Fin 6) : row 0 r = 0 := by
  fin_cases r <;> rfl
theorem row_sum {ι : Type} (t : Finset ι) (f : ι → Spatial) (r : Fin 6) : row (∑ i ∈ t, f i) r = ∑ i ∈ t, row (f i) r := by
  classical
  induction t using Finset.induction_on with
  | empty => simp [row_zero]
  | insert i t hi ih => simp only [Finset.sum_insert hi, row_add, ih]

theorem rows_unit6 (y : Spatial) : y = ∑ r, row y r • unit6 r := by
  simp only [Fin.sum_univ_six]
  ext i <;> fin_cases i <;> simp [row, unit6, unit3, Fin.append, Fin.addCases]

theorem hasDerivAt_row {f : ℝ → Spatial} {f' : Spatial} {x : ℝ} (h : HasDerivAt f f' x) (r : Fin 6) : HasDerivAt (fun y => row (f y) r) (row f' r) x := by
  have h1 := fun i => hasDerivAt_pi.1 h.fst i
  have h2 := fun i => hasDerivAt_pi.1 h.snd i
  fin_cases r
  · exact h1 0
  · exact h1 1
  · exact h1 2
  · exact h2 0
  · exact h2 1
  · exact h2 2

/-- A linear function of a spatial vector, by rows. -/
theorem linear_rows (f : Spatial → Spatial) (ha : ∀ a b, f (a + b) = f a + f b) (hs : ∀ (k : ℝ) a, f (k • a) = k • f a) (y : Spatial) :
    f y = ∑ r, row y r • f (unit6 r) := by
  have h0 : f 0 = 0 := by have := hs 0 0; simpa using this
  have key : ∀ t : Finset (Fin 6), f (∑ r ∈ t, row y r • unit6 r) = ∑ r ∈ t, row y r • f (unit6 r) := by
    intro t
    induction t using Finset.induction_on with
    | empty => simpa using h0
    | insert i t hi ih => simp only [Finset.sum_insert hi, ha, ih, hs]
  rw [← key, ← rows_unit6]

noncomputable section
variable {n nj : ℕ} {L F : Type} [DecidableEq L] [DecidableEq F] {m : Model L (Fin nj)} (s : Server m F) {x : SVec n} {u : CVec n} {lam : Fin 3 → ℝ} {fuel : ℕ}
  {E : NormExprs}

/-! ### Values -/

theorem atomVal_mom (hm : m.Regular) (r : Fin 6) :
    atomVal s E fuel x u lam (.mom r) = row (s.kin.momentum 1 (baseTwist x u) (jointsOf x) (jointVelOf u)) r := by
  show row (s.veval (kstate x u) s.momentumExpr) r = _
  rw [s.veval_momentumExpr hm]; rfl

theorem atomVal_mom1_position (r : Fin 6) (j : Fin nj) :
    atomVal s E fuel x u lam (.mom1 r (.position j)) = row (s.kin.momentumJointsDerivative 1 (baseTwist x u) (jointsOf x) (jointVelOf u) j) r := rfl

theorem atomVal_mom1_velocity (hm : m.Regular) (r : Fin 6) (j : Fin nj) :
    atomVal s E fuel x u lam (.mom1 r (.velocity j)) = row (s.kin.momentum 1 0 (jointsOf x) (Pi.single j 1)) r := by
  show row (s.veval (kstate x u) (s.momentumDeriv (.velocity j))) r = _
  rw [s.veval_momentumDeriv_velocity hm]; rfl

theorem atomVal_mom1_twist (r : Fin 6) (e : Spatial) :
    atomVal s E fuel x u lam (.mom1 r (.twist e)) = row (s.kin.momentum 1 e (jointsOf x) (fun _ => 0)) r := by
  show row (s.veval (kstate x u) (s.momentumDeriv (.twist e))) r = _
  rw [s.veval_momentumDeriv_twist]; rfl

theorem atomVal_mom1 (hm : m.Regular) (r : Fin 6) (d : KVar (Fin nj)) :
    atomVal s E fuel x u lam (.mom1 r d) = row (s.veval (kstate x u) (s.momentumDeriv d)) r := by
  cases d with
  | position j =>
    rw [s.veval_momentumDeriv_position hm]; rfl
  | velocity j => rfl
  | twist e => rfl

theorem atomVal_mom2 (r : Fin 6) (d d' : KVar (Fin nj)) :
    atomVal s E fuel x u lam (.mom2 r d d') = row (s.veval (kstate x u) (s.momentumDeriv2 (fuel + 1) d d')) r := rfl

/-! ### When the base twist moves -/

theorem hasDerivAt_mom_twist {τ : ℝ → Spatial} {dτ : Fin 6 → ℝ} {t : ℝ} (hτ : ∀ r, HasDerivAt (fun y => row (τ y) r) (dτ r) t)
    (q dq : Fin nj → ℝ) (r : Fin 6) :
    HasDerivAt (fun y => row (s.kin.momentum 1 (τ y) q dq) r) (∑ k, dτ k * row (s.kin.momentum 1 (unit6 k) q (fun _ => 0)) r) t := by
  have e : ∀ v, row (s.kin.momentum 1 v q dq) r = row (s.kin.momentum 1 0 q dq) r + ∑ k, row v k * row (s.kin.momentum 1 (unit6 k) q (fun _ => 0)) r := by
    intro v
    conv_lhs => rw [← zero_add v, s.momentum_add, row_add,
      linear_rows (fun w => s.kin.momentum 1 w q (fun _ => 0)) (fun a b => s.momentum_add a b q _) (fun k a => s.momentum_smul k a q) v, row_sum]
    simp only [row_smul]
  rw [funext fun y => e (τ y)]
  exact (HasDerivAt.fun_sum fun k _ => (hτ k).mul_const _).const_add _

theorem hasDerivAt_mom1_twist (hm : m.Regular) {τ : ℝ → Spatial} {dτ : Fin 6 → ℝ} {t : ℝ} (hτ : ∀ r, HasDerivAt (fun y => row (τ y) r) (dτ r) t)
    (q dq : Fin nj → ℝ) (j : Fin nj) (r : Fin 6) :
    HasDerivAt (fun y => row (s.kin.momentumJointsDerivative 1 (τ y) q dq j) r)
      (∑ k, dτ k * row (s.kin.momentumJointsDerivative 1 (unit6 k) q (fun _ => 0) j) r) t := by
  have e : ∀ v, row (s.kin.momentumJointsDerivative 1 v q dq j) r = row (s.kin.momentumJointsDerivative 1 0 q dq j) r +
      ∑ k, row v k * row (s.kin.momentumJointsDerivative 1 (unit6 k) q (fun _ => 0) j) r := by
    intro v
    conv_lhs => rw [← zero_add v, s.momentumJointsDerivative_add hm, row_add,
      linear_rows (fun w => s.kin.momentumJointsDerivative 1 w q (fun _ => 0) j) (fun a b => s.momentumJointsDerivative_add hm a b q _ j)
        (fun k a => s.momentumJointsDerivative_smul hm k a q j) v, row_sum]
    simp only [row_smul]
  rw [funext fun y => e (τ y)]
  exact (HasDerivAt.fun_sum fun k _ => (hτ k).mul_const _).const_add _

/-- The rows of the base twist, as expressions. -/
def twistExpr : Fin 6 → SExp (CAtom nj) := Fin.append (m := 3) (n := 3) (fun i => .atom (.v i)) (fun i => angExpr i 0)

/-- The atoms of the base twist. -/
def TwistAtom : CAtom nj → Prop
  | .n _ | .v _ | .qd _ => True
  | _ => False

theorem twistExpr_all (r : Fin 6) : (twistExpr (nj := nj) r).All TwistAtom := by
  fin_cases r <;>
    simp [twistExpr, Fin.append, Fin.addCases, SExp.All, angExpr, SMat.mul, SMat.smul, gExpr, SMat.hcat, SMat.neg, SMat.add, SMat.skew, SMat.ident, imCol, TwistAtom,
      Fin.forall_fin_succ]

theorem twistDer_eq (d : CVar nj) (r : Fin 6) : twistDer d r = (twistExpr r).der (leaf d) := by
  fin_cases r <;> rfl

theorem eval_twistExpr (r : Fin 6) : (twistExpr r).eval (atomVal s E fuel x u lam) = row (baseTwist x u) r := by
  fin_cases r <;>
    simp [twistExpr, Fin.append, Fin.addCases, SExp.eval, angExpr, SMat.mul, SMat.smul, gExpr, SMat.hcat, SMat.neg, SMat.add, SMat.skew, SMat.ident, imCol, row, baseTwist,
      atomVal, velOf, leftTrivializedDerivativeInverse, Quaternion.colCols, Quaternion.im, Quaternion.skew, Matrix.mulVec, dotProduct, Fin.sum_univ_four, quatVelOf]

end
end Verif.NLP.Kin
