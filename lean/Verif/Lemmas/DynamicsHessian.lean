import Verif.Lemmas.DynamicsGrad
import Verif.Props.QuaternionExpressions
/- Second derivatives of the dynamics. -/
set_option linter.unusedSectionVars false
set_option linter.unusedSimpArgs false
namespace Verif.NLP.Dynamics
open Verif.NLP.Spec Verif.Smooth Matrix Function
open Verif.Quaternion (rotationFromQuaternion normalized normalizedDerivative rotatedVectorJacobian)
open Verif.Levi Verif.Levi.Ex
variable {n : Nat}

theorem range_sum (m : Nat) (f : Nat → ℝ) : ((List.range m).map f).sum = ∑ k ∈ Finset.range m, f k := by
  induction m with
  | zero => simp
  | succ m ih => rw [List.range_succ, List.map_append, List.sum_append, ih, Finset.sum_range_succ]; simp

/-- The weighted rows, block by block. -/
theorem weightedRows_eq (joints : Nat) (lam f : SVec n) : weightedRows joints lam f =
    (∑ a : Pt n, (∑ k ∈ Finset.range 3, lam (.force a.1 a.2, k) * f (.force a.1 a.2, k) +
      ∑ k ∈ Finset.range 3, lam (.pos a.1 a.2, k) * f (.pos a.1 a.2, k))) +
    (∑ k ∈ Finset.range 6, lam (.momentum, k) * f (.momentum, k) + ∑ k ∈ Finset.range 3, lam (.com, k) * f (.com, k) +
     ∑ k ∈ Finset.range 3, lam (.basePos, k) * f (.basePos, k) + ∑ k ∈ Finset.range 4, lam (.baseQuat, k) * f (.baseQuat, k) +
     ∑ k ∈ Finset.range joints, lam (.joints, k) * f (.joints, k)) := by
  have blk : ∀ b : SBlk n, (((List.range (stateSize joints b)).map fun k => (b, k)).map fun p => lam p * f p).sum =
      ∑ k ∈ Finset.range (stateSize joints b), lam (b, k) * f (b, k) := by
    intro b
    rw [List.map_map, ← range_sum]; rfl
  have foot : ∀ s : Side, ((((List.finRange n).flatMap fun i => [SBlk.force s i, SBlk.pos s i]).flatMap fun b =>
      (List.range (stateSize joints b)).map fun k => (b, k)).map fun p => lam p * f p).sum =
      ∑ i : Fin n, (∑ k ∈ Finset.range 3, lam (.force s i, k) * f (.force s i, k) +
      ∑ k ∈ Finset.range 3, lam (.pos s i, k) * f (.pos s i, k)) := by
    intro s
    rw [← sum_finRange]
    induction List.finRange n with
    | nil => rfl
    | cons i l ih =>
      rw [List.flatMap_cons, List.flatMap_append, List.map_append, List.sum_append, ih, List.map_cons, List.sum_cons]
      congr 1
      simp only [List.flatMap_cons, List.flatMap_nil, List.append_nil, List.map_append, List.sum_append, blk]
      rfl
  rw [weightedRows, stateEntries, stateLabels, List.flatMap_append, List.flatMap_append, List.map_append, List.map_append,
    List.sum_append, List.sum_append, foot, foot, Fintype.sum_prod_type]
  have : (Finset.univ : Finset Side) = {.left, .right} := rfl
  rw [this, Finset.sum_pair (by decide)]
  congr 1
  simp only [List.flatMap_cons, List.flatMap_nil, List.append_nil, List.map_append, List.sum_append, blk]
  simp only [stateSize, add_assoc]

/-- Multiplier-weighted columns of the state Jacobian. -/
noncomputable def WC (P : Params) (lam : SVec n) (x : SVec n) (u : CVec n) : SBlk n → Nat → ℝ
  | .force s i, l => if l < 3 then lam (.momentum, l) + times3 (angular lam) (skew3 (distance x s i)) l +
      (if l = 2 then lam (.force s i, 2) * (P.dissipation * (P.δz.eval (x (.pos s i, 2)) - 1)) else 0) else 0
  | .pos s i, l => if l < 3 then -times3 (angular lam) (skew3 (vec3 x (.force s i))) l +
      (if l = 2 then lam (.force s i, 2) * (P.δz.evalDerivative (x (.pos s i, 2)) * (u (.forceCtl s i, 2) + P.dissipation * x (.force s i, 2))) +
        P.δxy.evalDerivative (x (.pos s i, 2)) * (lam (.pos s i, 0) * u (.velCtl s i, 0) + lam (.pos s i, 1) * u (.velCtl s i, 1)) else 0) else 0
  | .com, l => if l < 3 then ∑ a : Pt n, times3 (angular lam) (skew3 (vec3 x (.force a.1 a.2))) l else 0
  | .momentum, l => if l < 3 then lam (.com, l) * (1 / P.mass) else 0
  | .baseQuat, l => if l < 4 then times3 (vec3 lam .basePos) (ent (quatJac x u)) l else 0
  | _, _ => 0

theorem weighted_column (P : Params) (lam : SVec n) (x : SVec n) (u : CVec n) (c : SBlk n) (l : Nat) :
    weightedRows P.joints lam (fun r => stateJac P x u (fun _ _ => 0) r (c, l)) = WC P lam x u c l := by
  simp only [weightedRows_eq, stateJac_entry]
  rcases c with ⟨s, i⟩ | ⟨s, i⟩ | _ | _ | _ | _ | _
  · rw [sum_one (s, i) (by
      rintro ⟨s', i'⟩ hne
      have : ¬ ((s', i') = (s, i)) := hne
      simp [SJ, this])]
    simp only [SJ, WC, Finset.sum_range_succ, Finset.sum_range_zero]
    by_cases hl : l < 3
    · have : l = 0 ∨ l = 1 ∨ l = 2 := by omega
      rcases this with rfl | rfl | rfl <;> simp [eye, times3, angular] <;> ring
    · simp [hl, show ¬ l = 2 by omega]
  · rw [sum_one (s, i) (by
      rintro ⟨s', i'⟩ hne
      have : ¬ ((s', i') = (s, i)) := hne
      simp [SJ, this])]
    simp only [SJ, WC, Finset.sum_range_succ, Finset.sum_range_zero]
    by_cases hl : l < 3
    · have : l = 0 ∨ l = 1 ∨ l = 2 := by omega
      rcases this with rfl | rfl | rfl <;> simp [times3, angular] <;> ring
    · simp [hl, show ¬ l = 2 by omega]
  · simp only [SJ, WC, Finset.sum_range_succ, Finset.sum_range_zero]
    by_cases hl : l < 3
    · have : l = 0 ∨ l = 1 ∨ l = 2 := by omega
      rcases this with rfl | rfl | rfl <;> simp [eye]
    · simp [hl]
  · simp only [SJ, WC, Finset.sum_range_succ, Finset.sum_range_zero]
    by_cases hl : l < 3
    · simp [hl, times3, angular, Finset.sum_add_distrib, Finset.mul_sum]
    · simp [hl]
  · simp [SJ, WC]
  · simp only [SJ, WC, Finset.sum_range_succ, Finset.sum_range_zero]
    by_cases hl : l < 4
    · simp [hl, times3, vec3]
    · simp [hl]
  · simp [SJ, WC]

/-! ### What the symbolic expressions evaluate to -/

theorem deriv_of {cfg : Cfg ℝ} (hs : Levi.Spec.Sound cfg) {e d : Ex ℝ} {ρ : Env ℝ} (hw : Levi.Spec.Written (Levi.Spec.PowOk ρ) e) {c m : Nat}
    (hc : c < e.cols) {v : Var} (hv : 0 < v.dim) (hd : D cfg m (build cfg e) c v = some d) (i j : Nat) (hi : i < e.rows) (hj : j < v.dim) :
    HasDerivAt (fun t => (e.ev Levi.Spec.rpow (Levi.Spec.set ρ v j t)).f i c) ((d.ev Levi.Spec.rpow ρ).f i j) (ρ v j) := by
  have vb := build_val hs (fun a a' α => PowOk.transfer a a' α) hw
  have sz := size_of_ev vb.1 hw vb.2
  have h := (C25_column_derivatives_exist_and_are_true hs e {ρ}
    (by intro σ hσ; rw [Set.mem_singleton_iff.1 hσ]; exact hw) ⟨ρ, rfl⟩ Levi.Spec.Obtained.built c (by rw [cols, sz]; exact hc) v hv).2 m d hd ρ rfl
  have := h.deriv i j (by rw [rows, sz]; exact hi) hj
  simpa only [vb.2] using this

theorem written_skew (P : Ex ℝ → ℝ → Prop) : Levi.Spec.Written P (.skew (.var fVar)) := ⟨Nat.succ_pos 2, rfl⟩

/-- The derivative of `skewForce`. -/
theorem skew_value {cfg : Cfg ℝ} (hs : Levi.Spec.Sound cfg) {m : Nat} {j : Fin 3} {d : Ex ℝ}
    (hd : D cfg m (build cfg (.skew (.var fVar))) j fVar = some d) (ρ : Env ℝ) (k l : Nat) (hk : k < 3) (hl : l < 3) :
    (d.ev rpow ρ).f k l = skew3 ⟨if l = 0 then 1 else 0, if l = 1 then 1 else 0, if l = 2 then 1 else 0⟩ k j := by
  have h := deriv_of hs (written_skew (Levi.Spec.PowOk ρ)) (c := j) (by exact j.2) (v := fVar) (Nat.succ_pos 2) hd k l hk hl
  have e : ∀ t, (ev Levi.Spec.rpow (Levi.Spec.set ρ fVar l t) (.skew (.var fVar))).f k j = skew3 ⟨if l = 0 then t else ρ fVar 0,
      if l = 1 then t else ρ fVar 1, if l = 2 then t else ρ fVar 2⟩ k j := by
    intro t
    have hk' : k = 0 ∨ k = 1 ∨ k = 2 := by omega
    have hl' : l = 0 ∨ l = 1 ∨ l = 2 := by omega
    rcases hk' with rfl | rfl | rfl <;> rcases hl' with rfl | rfl | rfl <;> fin_cases j <;>
      simp [ev, SM.skew, SM.of, skew3, Levi.Spec.set, fVar]
  simp only [e] at h
  refine h.unique ?_
  have hk' : k = 0 ∨ k = 1 ∨ k = 2 := by omega
  have hl' : l = 0 ∨ l = 1 ∨ l = 2 := by omega
  rcases hk' with rfl | rfl | rfl <;> rcases hl' with rfl | rfl | rfl <;> fin_cases j <;>
    simp only [skew3, Fin.zero_eta, Fin.mk_one, Fin.reduceFinMk, Fin.isValue, Fin.val_zero, Fin.val_one, Fin.val_two, if_true, if_false, one_ne_zero,
      OfNat.ofNat_ne_zero, OfNat.ofNat_ne_one, zero_ne_one, OfNat.zero_ne_ofNat, OfNat.one_ne_ofNat, neg_zero] <;>
    first
      | exact hasDerivAt_const _ _
      | exact hasDerivAt_id _
      | exact (hasDerivAt_id _).neg

/-- `forceHessian`: the row of the cross-product matrix of the multipliers of the angular momentum. -/
theorem forceHessian_value {cfg : Cfg ℝ} (hs : Levi.Spec.Sound cfg) {E : Exprs} (hE : E.Made cfg) (lam : SVec n) (ρ : Env ℝ)
    (j : Fin 3) (l : Nat) (hl : l < 3) : times3 (angular lam) ((E.skewForce j).ev rpow ρ).f l = skew3 (angular lam) j l := by
  obtain ⟨m, hm⟩ := hE.2.2 j
  have h := fun k hk => skew_value hs hm ρ k l hk hl
  simp only [times3, h 0 (by omega), h 1 (by omega), h 2 (by omega)]
  have hl' : l = 0 ∨ l = 1 ∨ l = 2 := by omega
  rcases hl' with rfl | rfl | rfl <;> fin_cases j <;> simp [skew3]

/-- Where the quaternion is not null. -/
def NonNull : Set (Env ℝ) := {ρ | 0 < ρ Quat.q 0 ^ 2 + ρ Quat.q 1 ^ 2 + ρ Quat.q 2 ^ 2 + ρ Quat.q 3 ^ 2}

theorem written_rotE {ρ : Env ℝ} (h : ρ ∈ NonNull) : Levi.Spec.Written (Levi.Spec.PowOk ρ) rotE :=
  Quat.written_rotation (Quat.written_normalized h) rfl

theorem written_bpdE {ρ : Env ℝ} (h : ρ ∈ NonNull) : Levi.Spec.Written (Levi.Spec.PowOk ρ) bpdE :=
  ⟨written_rotE h, Nat.succ_pos 2, Or.inl rfl⟩

theorem env_set (x : SVec n) (u : CVec n) (f : V3 ℝ) (l : Nat) (t : ℝ) :
    Levi.Spec.set (env x u f) Quat.q l t = env (update x (.baseQuat, l) t) u f := by
  funext v k
  by_cases hv : v = Quat.q
  · subst hv
    by_cases hk : k = l
    · subst hk; simp [Levi.Spec.set, env]
    · simp [Levi.Spec.set, env, hk]
  · simp [Levi.Spec.set, env, hv]

theorem env_nonNull {x : SVec n} (h : quatOf x ≠ 0) (u : CVec n) (f : V3 ℝ) : env x u f ∈ NonNull := by
  have := Quaternion.quat_ne_zero h
  rw [Quaternion.squaredNorm_eq] at this
  simpa [NonNull, env, quatOf] using this

theorem env_q (x : SVec n) (u : CVec n) (f : V3 ℝ) : (fun k : Fin 4 => env x u f Quat.q k) = quatOf x := by
  funext k; simp [env, quatOf]

/-- Value of the rotation. -/
theorem rotE_value {x : SVec n} (h : quatOf x ≠ 0) (u : CVec n) (f : V3 ℝ) (k l : Fin 3) :
    (rotE.ev Levi.Spec.rpow (env x u f)).f k l = baseRotation x k l := by
  rw [rotE, Quat.C48_rotation_value, Quat.normalized_value _ (env_nonNull h u f), env_q]; rfl

/-- Value of the velocity of the base. -/
theorem bpdE_value {x : SVec n} (h : quatOf x ≠ 0) (u : CVec n) (f : V3 ℝ) (k : Fin 3) :
    (bpdE.ev Levi.Spec.rpow (env x u f)).f k 0 = (baseRotation x *ᵥ velOf u) k := by
  have hv : ∀ l, (ev Levi.Spec.rpow (env x u f) (.var Quat.vBase)).f l 0 = if l < 3 then u (.baseVel, l) else 0 := by
    intro l; simp [ev, SM.of, Quat.vBase, Quat.q, env]
  have e : bpdE.ev Levi.Spec.rpow (env x u f) = SM.mul (rotE.ev Levi.Spec.rpow (env x u f)) (ev Levi.Spec.rpow (env x u f) (.var Quat.vBase)) := rfl
  have r3 : (rotE.ev Levi.Spec.rpow (env x u f)).c = 3 := rfl
  have rr : (rotE.ev Levi.Spec.rpow (env x u f)).r = 3 := rfl
  rw [e]
  have hk := k.2
  have h0 := rotE_value h u f k 0
  have h1 := rotE_value h u f k 1
  have h2 := rotE_value h u f k 2
  simp only [Fin.isValue, Fin.val_zero, Fin.val_one, Fin.val_two] at h0 h1 h2
  simp only [SM.mul, SM.of, r3, rr, hv, Finset.sum_range_succ, Finset.sum_range_zero, Matrix.mulVec, dotProduct, Fin.sum_univ_three, velOf, h0, h1, h2]
  have ev0 : ∀ l, env x u f ⟨"baseLinVel", 3⟩ l = u (.baseVel, l) := by intro l; simp [env, Quat.vBase, Quat.q]
  simp [ev, SM.of, Quat.vBase, SM.IsScalar, r3, rr, hk, h0, h1, h2, ev0]

open Filter Topology in
theorem eventually_nonNull {x : SVec n} (h : quatOf x ≠ 0) : ∀ᶠ y in 𝓝 x, quatOf y ≠ 0 := by
  have hc : Continuous (quatOf (n := n)) := continuous_pi fun k => continuous_apply _
  exact hc.continuousAt.eventually_ne h

open Filter Topology in
theorem eventually_update {x : SVec n} {p : Idx (SBlk n)} {Q : SVec n → Prop} (h : ∀ᶠ y in 𝓝 x, Q y) :
    ∀ᶠ t in 𝓝 (x p), Q (update x p t) := by
  have hc : Continuous fun t : ℝ => update x p t := continuous_const.update p continuous_id
  have : Tendsto (fun t : ℝ => update x p t) (𝓝 (x p)) (𝓝 x) := by
    have := hc.tendsto (x p)
    rwa [Function.update_eq_self] at this
  exact this.eventually h

/-- The returned Jacobian is the one of the symbolic expression. -/
theorem quatJac_value {cfg : Cfg ℝ} (hs : Levi.Spec.Sound cfg) {m : Nat} {j : Ex ℝ} (hj : D cfg m (build cfg bpdE) 0 Quat.q = some j)
    {x : SVec n} (hx : quatOf x ≠ 0) (u : CVec n) (f : V3 ℝ) (k : Fin 3) (l : Fin 4) :
    quatJac x u k l = (j.ev Levi.Spec.rpow (env x u f)).f k l := by
  have h := deriv_of hs (written_bpdE (env_nonNull hx u f)) (c := 0) (by decide) (v := Quat.q) (by decide) hj k l k.2 l.2
  simp only [env_set] at h
  have b := base_grad x hx u k (.baseQuat, l)
  have e0 : env x u f Quat.q l = x (.baseQuat, l) := by simp [env]
  rw [e0] at h
  have b' := b.congr_of_eventuallyEq (f₁ := fun t => (bpdE.ev Levi.Spec.rpow (env (update x (.baseQuat, l) t) u f)).f k 0) (by
    filter_upwards [eventually_update (p := (.baseQuat, (l : Nat))) (eventually_nonNull hx)] with t ht
    rw [bpdE_value ht])
  have := b'.unique h
  simpa [ent] using this

/-- Derivatives of the returned Jacobian. -/
theorem quatJac_grad {cfg : Cfg ℝ} (hs : Levi.Spec.Sound cfg) {E : Exprs} (hE : E.Made cfg) {x : SVec n} (hx : quatOf x ≠ 0) (u : CVec n)
    (k : Fin 3) (i : Fin 4) :
    GradAt (fun y => quatJac y u k i) (fun q => if q.1 = .baseQuat ∧ q.2 < 4 then ((E.hess i).ev rpow (env x u 0)).f k q.2 else 0) x := by
  obtain ⟨⟨m, j, hj, hh⟩, -⟩ := hE
  obtain ⟨m', hh⟩ := hh i
  rintro ⟨c, l⟩
  by_cases h : c = .baseQuat ∧ l < 4
  · obtain ⟨rfl, hl⟩ := h
    simp only [hl, true_and, if_true]
    have := (C25_second_derivative_of_what_was_written hs bpdE NonNull (fun ρ hρ => written_bpdE hρ) (c := 0) (by decide)
      (v := Quat.q) (by decide) (v' := Quat.q) (by decide) (c' := i) i.2 hj hh (env x u 0) (env_nonNull hx u 0) k l k.2 hl).1
    simp only [env_set] at this
    have e0 : env x u 0 Quat.q l = x (.baseQuat, l) := by simp [env]
    rw [e0] at this
    refine this.congr_of_eventuallyEq ?_
    filter_upwards [eventually_update (p := (.baseQuat, l)) (eventually_nonNull hx)] with t ht
    exact quatJac_value hs hj ht u 0 k i
  · simp only [h, if_false, quatJac]
    have hne : c ≠ .baseQuat ∨ 4 ≤ l := by
      by_cases hc : c = .baseQuat
      · exact Or.inr (by by_contra hl; exact h ⟨hc, by omega⟩)
      · exact Or.inl hc
    simp only [quatOf_update_other x (c, l) hne]
    exact hasDerivAt_const _ _

/-- The returned Jacobian in terms of the derivatives of the columns of the rotation. -/
theorem quatJac_columns {cfg : Cfg ℝ} (hs : Levi.Spec.Sound cfg) {E : Exprs} (hE : E.Made cfg) {x : SVec n} (hx : quatOf x ≠ 0)
    (u v : CVec n) (k : Fin 3) (i : Fin 4) :
    quatJac x v k i = ∑ c : Fin 3, ((E.rot c).ev rpow (env x u 0)).f k i * velOf v c := by
  have b := base_grad x hx v k (.baseQuat, i)
  have hc : ∀ c : Fin 3, HasDerivAt (fun t => baseRotation (update x (.baseQuat, (i : Nat)) t) k c) (((E.rot c).ev rpow (env x u 0)).f k i) (x (.baseQuat, (i : Nat))) := by
    intro c
    obtain ⟨m, hm⟩ := hE.2.1 c
    have h := deriv_of hs (written_rotE (env_nonNull hx u 0)) (c := c) (by exact c.2) (v := Quat.q) (by decide) hm k i k.2 i.2
    simp only [env_set] at h
    have e0 : env x u 0 Quat.q i = x (.baseQuat, (i : Nat)) := by simp [env]
    rw [e0] at h
    refine h.congr_of_eventuallyEq ?_
    filter_upwards [eventually_update (p := (.baseQuat, (i : Nat))) (eventually_nonNull hx)] with t ht
    exact (rotE_value ht u 0 k c).symm
  have hs := HasDerivAt.fun_sum (u := Finset.univ) fun c _ => (hc c).mul_const (velOf v c)
  have := b.unique hs
  simpa [ent] using this

end Verif.NLP.Dynamics
