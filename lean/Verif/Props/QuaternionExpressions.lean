import Verif.Lemmas.QuaternionExpressions
import Verif.Props.QuaternionUtils
import Verif.Props.Levi
/- Properties of the expressions of the base rotation and twist (C48, C49). -/
namespace Verif.Levi.Quat
open Ex Spec Matrix Verif.Quaternion Verif.Quaternion.Spec

/-- The column an expression evaluates to. -/
noncomputable def column (n : Nat) (e : Ex ℝ) (ρ : Env ℝ) : Fin n → ℝ := fun k => (e.ev rpow ρ).f k 0

theorem ev_c {n : Ex ℝ} {ρ : Env ℝ} (h : (n.ev rpow ρ).r = 4 ∧ (n.ev rpow ρ).c = 1) (k : Nat) (j : Nat) (hj : 0 < j) : (n.ev rpow ρ).f k j = 0 :=
  (n.ev rpow ρ).out _ _ (by omega)

/-- **C48.** The rotation expression evaluates to the rotation of the quaternion it is given. -/
theorem C48_rotation_value (n : Ex ℝ) (ρ : Env ℝ) (i j : Fin 3) :
    ((rotation n).ev rpow ρ).f i j = rotationFromQuaternion (column 4 n ρ) i j := by
  rw [rotation_entry]
  fin_cases i <;> fin_cases j <;>
   simp [rotation, ev, SM.add, SM.mul, SM.of, SM.one, SM.skew, SM.elem, SM.block, SM.smul, SM.IsScalar, re, Quat.im, two, Finset.sum_range_succ, column] <;> ring


/-- The normalisation expression evaluates to the normalised quaternion. -/
theorem normalized_value (ρ : Env ℝ) (h : 0 < ρ q 0 ^ 2 + ρ q 1 ^ 2 + ρ q 2 ^ 2 + ρ q 3 ^ 2) :
    column 4 (Quat.normalized (var q)) ρ = Quaternion.normalized Real.sqrt fun k : Fin 4 => ρ q k := by
  funext k
  have hs : squaredNorm (fun k : Fin 4 => ρ q k) = ρ q 0 ^ 2 + ρ q 1 ^ 2 + ρ q 2 ^ 2 + ρ q 3 ^ 2 := squaredNorm_eq _
  have hn := nn_value rpow ρ
  unfold column Quat.normalized
  show (SM.div _ (SM.scalar (rpow _ _))).f k 0 = _
  rw [hn]
  unfold Quaternion.normalized Quaternion.norm
  rw [if_pos (by rw [hs]; exact h), hs, Real.sqrt_eq_rpow]
  have : (k : Nat) < 4 := k.2
  simp [SM.div, SM.scalar, SM.of, ev, q, rpow, this]

/-- **C48.** What levi builds for the base rotation evaluates, at any non null quaternion and however it is rewritten, to the
rotation of the normalised quaternion. -/
theorem C48_base_rotation_value {cfg : Cfg ℝ} (hs : Sound cfg) (ρ : Env ℝ)
    (h : (fun k : Fin 4 => ρ q k) ≠ 0) (i j : Fin 3) :
    ((build cfg (rotation (Quat.normalized (var q)))).ev rpow ρ).f i j =
      rotationFromQuaternion (Quaternion.normalized Real.sqrt fun k : Fin 4 => ρ q k) i j := by
  have hp : 0 < ρ q 0 ^ 2 + ρ q 1 ^ 2 + ρ q 2 ^ 2 + ρ q 3 ^ 2 := by
    have := quat_ne_zero h
    rw [squaredNorm_eq] at this; exact this
  have hw := written_rotation (written_normalized hp) rfl
  have vb := build_val hs (fun a a' α => PowOk.transfer a a' α) hw
  have e := vb.2 rpow ρ
  dsimp only at e
  rw [e, C48_rotation_value, normalized_value ρ hp]

theorem twist_top {v : Ex ℝ} {w : Ex ℝ} {ρ : Env ℝ} (hv : (v.ev rpow ρ).r = 3) (hc : (v.ev rpow ρ).c = 1) (hw : (w.ev rpow ρ).r = 3) :
    (∀ i : Fin 3, ((vcat v w).ev rpow ρ).f i 0 = column 3 v ρ i) ∧ ∀ i : Fin 3, ((vcat v w).ev rpow ρ).f (3 + i) 0 = column 3 w ρ i := by
  constructor
  · intro i
    have := i.2
    simp only [ev, SM.vcat, SM.of, hv, hw, hc, column]
    rw [if_pos (by omega), if_pos (by omega)]
  · intro i
    have := i.2
    simp only [ev, SM.vcat, SM.of, hv, hw, hc, column]
    rw [if_pos (by omega), if_neg (by omega)]
    congr 1
    omega

/-- **C49.** `BodyTwistFromQuaternionVelocity` evaluates to the linear velocity followed by the angular velocity in the rotating
frame (the inverse of the left trivialised derivative; see `C33_body_angular_velocity`). -/
theorem C49_body_twist_partial (v qd n : Ex ℝ) (ρ : Env ℝ) (hv : (v.ev rpow ρ).r = 3 ∧ (v.ev rpow ρ).c = 1)
    (hq : (qd.ev rpow ρ).r = 4 ∧ (qd.ev rpow ρ).c = 1) (i : Fin 3) :
    ((bodyTwist v qd n).ev rpow ρ).f i 0 = column 3 v ρ i ∧
    ((bodyTwist v qd n).ev rpow ρ).f (3 + i) 0 = (leftTrivializedDerivativeInverse (column 4 n ρ) *ᵥ column 4 qd ρ) i := by
  have t := twist_top (v := v) (w := mul (mul two (gMap n)) qd) (ρ := ρ) hv.1 hv.2
    (by simp [ev, SM.mul, SM.of, SM.hcat, SM.smul, SM.IsScalar, two, gMap, SM.neg, SM.block, SM.add, SM.one, Quat.im, re, SM.elem, hq])
  refine ⟨t.1 i, ?_⟩
  refine (t.2 i).trans ?_
  rw [inverse_entry]
  fin_cases i <;> simp [ev, SM.mul, SM.of, SM.hcat, SM.smul, SM.IsScalar, two, gMap, SM.neg, SM.block, SM.add, SM.one, SM.skew, Quat.im, re,
    SM.elem, hq, column, Finset.sum_range_succ] <;> ring

/-- **C49**, what the server's `baseTwist` is: the angular part is the one in the fixed frame. -/
theorem C49_server_twist_value (v qd n : Ex ℝ) (ρ : Env ℝ) (hv : (v.ev rpow ρ).r = 3 ∧ (v.ev rpow ρ).c = 1)
    (hq : (qd.ev rpow ρ).r = 4 ∧ (qd.ev rpow ρ).c = 1) (hu : UnitQ (column 4 n ρ)) (ht : Tangent (column 4 n ρ) (column 4 qd ρ)) (i : Fin 3) :
    ((serverTwist v qd n).ev rpow ρ).f i 0 = column 3 v ρ i ∧
    ((serverTwist v qd n).ev rpow ρ).f (3 + i) 0 =
      (rotationFromQuaternion (column 4 n ρ) *ᵥ (leftTrivializedDerivativeInverse (column 4 n ρ) *ᵥ column 4 qd ρ)) i := by
  have t := twist_top (v := v) (w := mul two (add (mul (neg (Quat.im n)) (elem qd 0 0))
    (mul (sub (mul (elem (re n) 0 0) (ident 3)) (skew (neg (Quat.im n)))) (block qd 1 0 3 1)))) (ρ := ρ) hv.1 hv.2
    (by simp [ev, SM.mul, SM.of, SM.sub, SM.smul, SM.IsScalar, two, SM.neg, SM.block, SM.add, SM.one, Quat.im, re, SM.elem])
  refine ⟨t.1 i, ?_⟩
  refine (t.2 i).trans ?_
  rw [inverse_entry, rotate_entry]
  unfold UnitQ at hu
  unfold Tangent at ht
  have e : ∀ k : Fin 4, (ev rpow ρ n).f k 0 = column 4 n ρ k := fun _ => rfl
  have e' : ∀ k : Fin 4, (ev rpow ρ qd).f k 0 = column 4 qd ρ k := fun _ => rfl
  have e0 := e 0
  have e1 := e 1
  have e2 := e 2
  have e3 := e 3
  have e0' := e' 0
  have e1' := e' 1
  have e2' := e' 2
  have e3' := e' 3
  simp only [Fin.isValue, Fin.val_zero, Fin.val_one, Fin.val_two, show ((3 : Fin 4) : Nat) = 3 from rfl] at e0 e1 e2 e3 e0' e1' e2' e3'
  clear e e' t
  generalize column 4 n ρ 0 = a0 at *
  generalize column 4 n ρ 1 = a1 at *
  generalize column 4 n ρ 2 = a2 at *
  generalize column 4 n ρ 3 = a3 at *
  generalize column 4 qd ρ 0 = b0 at *
  generalize column 4 qd ρ 1 = b1 at *
  generalize column 4 qd ρ 2 = b2 at *
  generalize column 4 qd ρ 3 = b3 at *
  have hc : a3 ^ 2 = 1 - a0 ^ 2 - a1 ^ 2 - a2 ^ 2 := by linarith
  fin_cases i <;> simp [ev, SM.mul, SM.of, SM.sub, SM.smul, SM.IsScalar, two, SM.neg, SM.block, SM.add, SM.one, SM.skew, Quat.im, re,
    SM.elem, hq, column, Finset.sum_range_succ, e0, e1, e2, e3, e0', e1', e2', e3'] <;> clear e0 e1 e2 e3 e0' e1' e2' e3' hv hq <;> grind

/-- Values for the finding below: base rotated about x, turning about its own y axis. -/
noncomputable def turning : Env ℝ := fun v k =>
  if v = q then (match k with | 0 => 3 / 5 | 1 => 4 / 5 | _ => 0) else if v = qDot then (match k with | 2 => 3 / 5 | 3 => 4 / 5 | _ => 0) else 0

/-- Finding: with the base rotated about x and turning about its own y axis, the y component of the angular velocity in the
rotating frame is 2; the server's expression says -14/25. -/
theorem C49_finding_server_twist_is_not_the_body_twist :
    UnitQ (column 4 (var q) turning) ∧ Tangent (column 4 (var q) turning) (column 4 (var qDot) turning) ∧
    ((bodyTwist (var vBase) (var qDot) (var q)).ev rpow turning).f 4 0 = 2 ∧
    ((serverTwist (var vBase) (var qDot) (var q)).ev rpow turning).f 4 0 = -14 / 25 := by
  have c0 : column 4 (var q) turning = ![3 / 5, 4 / 5, 0, 0] := by
    funext k; fin_cases k <;> simp [column, ev, SM.of, q, turning]
  have c1 : column 4 (var qDot) turning = ![0, 0, 3 / 5, 4 / 5] := by
    funext k; fin_cases k <;> simp [column, ev, SM.of, q, qDot, turning]
  have hu : UnitQ (column 4 (var q) turning) := by rw [c0]; simp [UnitQ]; norm_num
  have ht : Tangent (column 4 (var q) turning) (column 4 (var qDot) turning) := by rw [c0, c1]; simp [Tangent]
  refine ⟨hu, ht, ?_, ?_⟩
  · refine (C49_body_twist_partial (var vBase) (var qDot) (var q) turning ⟨rfl, rfl⟩ ⟨rfl, rfl⟩ 1).2.trans ?_
    rw [c0, c1, inverse_entry]; simp; norm_num
  · refine (C49_server_twist_value (var vBase) (var qDot) (var q) turning ⟨rfl, rfl⟩ ⟨rfl, rfl⟩ hu ht 1).2.trans ?_
    rw [c0, c1, inverse_entry, rotate_entry]; simp; norm_num

end Verif.Levi.Quat
