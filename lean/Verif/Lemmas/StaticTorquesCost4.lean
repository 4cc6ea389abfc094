import Verif.Lemmas.StaticTorquesCost3
/- Lemmas: the entries of the Jacobian of the static torques. -/
set_option linter.unusedSectionVars false
namespace Verif.NLP.Kin
open Matrix Verif.Rigid Function Verif.NLP.Spec
open Verif.Quaternion (rotationFromQuaternion normalized normalizedDerivative rotatedVectorJacobian inverse inverseDerivative leftTrivializedDerivative)
open Verif.NLP.Dynamics (quatOf baseRotation)
noncomputable section
variable {n nj : ℕ} {L F : Type} [DecidableEq L] [DecidableEq F] {m : Model L (Fin nj)} {x : SVec n}

theorem foldl_putForce_other {W : Type} (side : Side) (V : Fin n → Fin 3 → W) (q : Idx (SBlk n)) (hq : ∀ p, ¬ (q.1 = .force side p ∧ q.2 < 3)) (xs : List (Fin n))
    (J : Idx (SBlk n) → W) : xs.foldl (fun J p => putCols J (.force side p) 3 (V p)) J q = J q := by
  induction xs generalizing J with
  | nil => rfl
  | cons a xs ih => rw [List.foldl_cons, ih, putCols, dif_neg (hq a)]

theorem foldl_putForce {W : Type} (side : Side) (V : Fin n → Fin 3 → W) (p : Fin n) (k : Fin 3) (xs : List (Fin n)) (hp : p ∈ xs)
    (J : Idx (SBlk n) → W) : xs.foldl (fun J p => putCols J (.force side p) 3 (V p)) J (.force side p, (k : ℕ)) = V p k := by
  induction xs generalizing J with
  | nil => simp at hp
  | cons a xs ih =>
    rw [List.foldl_cons]
    by_cases h : p ∈ xs
    · exact ih h _
    · have e : p = a := by simpa [h] using hp
      subst e
      have keep : ∀ (ys : List (Fin n)) (J : Idx (SBlk n) → W), p ∉ ys → ys.foldl (fun J p => putCols J (.force side p) 3 (V p)) J (.force side p, (k : ℕ)) = J (.force side p, (k : ℕ)) := by
        intro ys
        induction ys with
        | nil => intro J _; rfl
        | cons b ys ih =>
          intro J hb
          rw [List.foldl_cons, ih _ (fun h => hb (List.mem_cons_of_mem _ h)), putCols, dif_neg]
          rintro ⟨e, -⟩
          have : p = b := by simpa using e
          exact hb (by simp [this])
      rw [keep _ _ h, putCols, dif_pos ⟨rfl, k.2⟩]

theorem foldl_addCols {W : Type} [AddCommMonoid W] (b : SBlk n) (k : ℕ) (A : Fin n → Fin k → W) (J : Idx (SBlk n) → W) (q : Idx (SBlk n)) :
    (List.finRange n).foldl (fun J p => addCols J b k (A p)) J q = if h : q.1 = b ∧ q.2 < k then J q + ∑ p, A p ⟨q.2, h.2⟩ else J q := by
  split_ifs with h
  · rw [← foldl_sum]
    generalize List.finRange n = xs
    induction xs generalizing J with
    | nil => rfl
    | cons a xs ih => rw [List.foldl_cons, List.foldl_cons, ih, addCols, dif_pos h]
  · generalize List.finRange n = xs
    induction xs generalizing J with
    | nil => rfl
    | cons a xs ih => rw [List.foldl_cons, ih, addCols, dif_neg h]

namespace StaticTorques
variable (c : StaticTorques m F n) (J : Idx (SBlk n) → Fin nj → ℝ)

theorem footJacobian_force (side : Side) (p : Fin n) (k : Fin 3) : c.footJacobian x side J (.force side p, (k : ℕ)) =
    fun j => -power (c.frameJacobian x side j) (pointMap (c.footTransform x side)⁻¹.R (c.point side p) (unit3 k)) := by
  unfold footJacobian
  rw [foldl_addCols, dif_neg (by simp), foldl_addCols, dif_neg (by simp), foldl_putForce _ _ _ _ _ (by simp)]

theorem footJacobian_quat (side : Side) (k : Fin 4) : c.footJacobian x side J (.baseQuat, (k : ℕ)) = J (.baseQuat, (k : ℕ)) +
    ∑ p, fun j => -power (c.frameJacobian x side j) (pointMap ((c.footTransform x side)⁻¹ * baseTransform x).R (c.point side p) fun i => quatDer x (pointForce x side p) i k) := by
  unfold footJacobian
  rw [foldl_addCols, dif_neg (by simp), foldl_addCols, dif_pos ⟨rfl, k.2⟩, foldl_putForce_other _ _ _ (by simp)]

theorem footJacobian_joint (side : Side) (z : Fin nj) : c.footJacobian x side J (.joints, (z : ℕ)) = J (.joints, (z : ℕ)) +
    ∑ p, fun j => -power (c.frameJacobian x side j) (pointMap 1 (c.point side p) (c.turnDer x side (pointForce x side p) z)) := by
  unfold footJacobian
  rw [foldl_addCols, dif_pos ⟨rfl, z.2⟩, foldl_addCols, dif_neg (by simp), foldl_putForce_other _ _ _ (by simp)]

theorem footJacobian_other (side : Side) (q : Idx (SBlk n)) (h1 : ¬ (q.1 = .baseQuat ∧ q.2 < 4)) (h2 : ¬ (q.1 = .joints ∧ q.2 < nj))
    (h3 : ∀ p, ¬ (q.1 = .force side p ∧ q.2 < 3)) : c.footJacobian x side J q = J q := by
  unfold footJacobian
  rw [foldl_addCols, dif_neg h2, foldl_addCols, dif_neg h1, foldl_putForce_other _ _ _ h3]

theorem torquesJacobian_force (side : Side) (p : Fin n) (k : Fin 3) : c.torquesJacobian J x (.force side p, (k : ℕ)) =
    fun j => -power (c.frameJacobian x side j) (pointMap (c.footTransform x side)⁻¹.R (c.point side p) (unit3 k)) := by
  unfold torquesJacobian
  cases side with
  | right => exact footJacobian_force ..
  | left =>
    rw [footJacobian_other _ _ _ _ (by simp) (by simp) (by simp)]
    exact footJacobian_force ..

/-- The derivative of the forces seen from the feet, when the quaternion changes. -/
def quatD (k : Fin 4) (side : Side) (p : Fin n) : Vec :=
  ((c.footTransform x side)⁻¹ * baseTransform x).R *ᵥ fun i => quatDer x (pointForce x side p) i k

theorem torquesJacobian_quat (k : Fin 4) (j : Fin nj) : c.torquesJacobian J x (.baseQuat, (k : ℕ)) j =
    -(∑ i, c.massMatrix x j i * quatDer x c.gravity i k) - c.footPart x (c.quatD (x := x) k) j := by
  unfold torquesJacobian
  rw [footJacobian_quat, footJacobian_quat, Pi.add_apply, Pi.add_apply, putCols, dif_pos ⟨rfl, k.2⟩, Finset.sum_apply, Finset.sum_apply,
    Finset.sum_neg_distrib, Finset.sum_neg_distrib, footPart]
  have : ∀ side p, pointMap 1 (c.point side p) (c.quatD (x := x) k side p) =
      pointMap ((c.footTransform x side)⁻¹ * baseTransform x).R (c.point side p) fun i => quatDer x (pointForce x side p) i k := by
    intro side p; simp [pointMap, quatD]
  simp only [this, Fin.eta]
  ring

theorem torquesJacobian_joint (z : Fin nj) (j : Fin nj) : c.torquesJacobian J x (.joints, (z : ℕ)) j =
    c.server.kin.staticTorquesDerivative (baseTransform x) (Traversal.baseAcc (baseTransform x) c.gravity) (c.contactWrenches x) (jointsOf x) j z -
      c.footPart x (fun side p => c.turnDer x side (pointForce x side p) z) j := by
  unfold torquesJacobian
  rw [footJacobian_joint, footJacobian_joint, Pi.add_apply, Pi.add_apply, putCols, dif_neg (by simp), putCols, dif_pos ⟨rfl, z.2⟩, Finset.sum_apply, Finset.sum_apply,
    Finset.sum_neg_distrib, Finset.sum_neg_distrib, footPart]
  ring

theorem torquesJacobian_other (q : Idx (SBlk n)) (h1 : ¬ (q.1 = .baseQuat ∧ q.2 < 4)) (h2 : ¬ (q.1 = .joints ∧ q.2 < nj))
    (h3 : ∀ side p, ¬ (q.1 = .force side p ∧ q.2 < 3)) : c.torquesJacobian J x q = J q := by
  unfold torquesJacobian
  rw [footJacobian_other _ _ _ _ h1 h2 (h3 _), footJacobian_other _ _ _ _ h1 h2 (h3 _), putCols, dif_neg h1, putCols, dif_neg h2]

/-- The quaternions of the rotation of a foot and of its inverse are unit quaternions of these rotations, and inverse of each other. -/
def Coherent (x : SVec n) : Prop := ∀ side, let R := (c.footTransform x side).R
  Quaternion.Spec.UnitQ (c.asQuaternion R) ∧ rotationFromQuaternion (c.asQuaternion R) = R ∧ c.asQuaternion Rᵀ = inverse (c.asQuaternion R)

theorem turnDer_eq (hq : c.Coherent x) (side : Side) (f : Vec) (z : Fin nj) :
    c.turnDer x side f z = -((c.frameJacobian x side z).2 ⨯₃ ((c.footTransform x side).Rᵀ *ᵥ f)) := by
  obtain ⟨h1, h2, h3⟩ := hq side
  have e := turn_seen (c.asQuaternion (c.footTransform x side).R) (c.frameJacobian x side z).2 f (by
    unfold Quaternion.Spec.UnitQ at h1; linarith)
  rw [h2] at e
  rw [← e, turnDer]
  rw [inv_inv, SE3.inv_R, h3]

variable {c}
theorem footTransform_seen (x : SVec n) (side : Side) (f : Vec) :
    (c.footTransform x side).Rᵀ *ᵥ f = ((c.footTransform x side)⁻¹ * baseTransform x).R *ᵥ ((baseRotation x)ᵀ *ᵥ f) := by
  rw [SE3.mul_R, ← mulVec_mulVec]
  have : (baseTransform x).R *ᵥ ((baseRotation x)ᵀ *ᵥ f) = f := by
    rw [mulVec_mulVec]
    have := (baseTransform x).orthogonal
    change (baseTransform x).R * (baseTransform x).Rᵀ = 1 at this
    show ((baseTransform x).R * (baseTransform x).Rᵀ) *ᵥ f = f
    rw [this, one_mulVec]
  rw [this]; rfl

theorem footRel (x : SVec n) (side : Side) : (c.footTransform x side)⁻¹ * baseTransform x =
    (c.server.kin.world 1 (jointsOf x) (c.server.frames.link (c.frame side)) * c.server.frames.offset (c.frame side))⁻¹ := by
  rw [footTransform, c.server.kin.world_eq (baseTransform x)]
  group

theorem torques_grad (hm : m.Regular) (hc : c.Apart) (hx : quatOf x ≠ 0) (hq : c.Coherent x) (j : Fin nj)
    (hJ : ∀ q : Idx (SBlk n), ¬ (q.1 = .baseQuat ∧ q.2 < 4) → ¬ (q.1 = .joints ∧ q.2 < nj) → (∀ side p, ¬ (q.1 = .force side p ∧ q.2 < 3)) → J q j = 0) :
    GradAt (fun y => c.staticTorques y j) (fun q => c.torquesJacobian J x q j) x := by
  intro q
  by_cases h2 : q.1 = .joints ∧ q.2 < nj
  · obtain ⟨b, l⟩ := q
    obtain ⟨rfl, hl⟩ := h2
    obtain ⟨z, rfl⟩ : ∃ z : Fin nj, l = z := ⟨⟨l, hl⟩, rfl⟩
    refine (hasDerivAt_torque_joint hm hc z j).congr_deriv ?_
    dsimp only
    rw [torquesJacobian_joint]
    simp only [c.turnDer_eq hq]
  have hj : ∀ t, (jointsOf (update x q t) : Fin nj → ℝ) = jointsOf x := jointsOf_update_other x _ h2
  by_cases h1 : q.1 = .baseQuat ∧ q.2 < 4
  · obtain ⟨b, l⟩ := q
    obtain ⟨rfl, hl⟩ := h1
    obtain ⟨k, rfl⟩ : ∃ k : Fin 4, l = k := ⟨⟨l, hl⟩, rfl⟩
    refine (hasDerivAt_torque_still (d := c.quatD (x := x) k) hc hj (base_seen_hasDerivAt hx k c.gravity) (fun side p => ?_) j).congr_deriv ?_
    · have hf : ∀ t, pointForce (update x (.baseQuat, (k : ℕ)) t) side p = pointForce x side p := by intro t; funext i; simp [pointForce]
      simp only [footTransform_seen, footRel, hj, hf]
      refine (hasDerivAt_mulVec (R := fun _ => (c.server.kin.world 1 (jointsOf x) (c.server.frames.link (c.frame side)) * c.server.frames.offset (c.frame side))⁻¹.R)
        (R' := 0) (fun _ _ => hasDerivAt_const _ _) (base_seen_hasDerivAt hx k (pointForce x side p))).congr_deriv ?_
      rw [zero_mulVec, zero_add, quatD, footRel]
    · dsimp only
      rw [torquesJacobian_quat]
  have hb : ∀ t, baseRotation (update x q t) = baseRotation x := fun t => baseRotation_congr (quatOf_other x _ h1 t)
  have ha : HasDerivAt (fun t => (baseRotation (update x q t))ᵀ *ᵥ c.gravity) 0 (x q) := by
    simp only [hb]; exact hasDerivAt_const _ _
  have hT : ∀ t side, (c.footTransform (update x q t) side).R = (c.footTransform x side).R := by
    intro t side
    rw [footTransform, footTransform, c.server.kin.world_eq (baseTransform x), c.server.kin.world_eq (baseTransform (update x q t)), hj]
    simp only [SE3.mul_R]
    have : (baseTransform (update x q t)).R = (baseTransform x).R := hb t
    rw [this]
  by_cases h3 : ∃ side p, q.1 = .force side p ∧ q.2 < 3
  · obtain ⟨side, p, h3⟩ := h3
    obtain ⟨b, l⟩ := q
    have hb' : b = .force side p := h3.1
    subst hb'
    obtain ⟨k, rfl⟩ : ∃ k : Fin 3, l = k := ⟨⟨l, h3.2⟩, rfl⟩
    let d : Side → Fin n → Vec := fun side' p' => if side' = side ∧ p' = p then (c.footTransform x side).Rᵀ *ᵥ unit3 k else 0
    refine (hasDerivAt_torque_still (d := d) hc hj ha (fun side' p' => ?_) j).congr_deriv ?_
    · simp only [hT]
      by_cases e : side' = side ∧ p' = p
      · obtain ⟨rfl, rfl⟩ := e
        simp only [d, and_self, if_true]
        have hf : HasDerivAt (fun t => pointForce (update x (.force side' p', (k : ℕ)) t) side' p') (unit3 k) (x (.force side' p', (k : ℕ))) := by
          rw [hasDerivAt_pi]
          intro i
          by_cases hik : i = k
          · subst hik
            simp only [pointForce, update_self, unit3, Pi.single_eq_same]
            exact hasDerivAt_id _
          · have : (i : ℕ) ≠ k := fun e => hik (Fin.ext e)
            simp only [pointForce, unit3, Pi.single_eq_of_ne hik]
            have hc : ∀ t, update x (.force side' p', (k : ℕ)) t (.force side' p', (i : ℕ)) = x (.force side' p', (i : ℕ)) := by intro t; simp [this]
            simp only [hc]; exact hasDerivAt_const _ _
        refine (hasDerivAt_mulVec (R := fun _ => (c.footTransform x side').Rᵀ) (R' := 0) (fun _ _ => hasDerivAt_const _ _) hf).congr_deriv ?_
        rw [zero_mulVec, zero_add]
      · have hf : ∀ t, pointForce (update x (.force side p, (k : ℕ)) t) side' p' = pointForce x side' p' := by
          intro t; funext i
          have : ((.force side' p', (i : ℕ)) : Idx (SBlk n)) ≠ (.force side p, (k : ℕ)) := by
            intro h; simp at h; exact e h.1
          simp [pointForce, this]
        simp only [hf, d, if_neg e]
        exact hasDerivAt_const _ _
    · dsimp only
      rw [torquesJacobian_force]
      have hz : ∀ v : Vec, pointMap 1 v (0 : Vec) = 0 := by intro v; simp [pointMap]
      have hp0 : ∀ s : Spatial, power s 0 = 0 := by intro s; simp [power]
      have hs : ∀ side', (∑ p', power (c.frameJacobian x side' j) (pointMap 1 (c.point side' p') (d side' p'))) =
          if side' = side then power (c.frameJacobian x side j) (pointMap (c.footTransform x side)⁻¹.R (c.point side p) (unit3 k)) else 0 := by
        intro side'
        by_cases e : side' = side
        · subst e
          rw [if_pos rfl, Finset.sum_eq_single p]
          · simp [d, pointMap]
          · intro p' _ hp'; simp [d, hp', hz, hp0]
          · simp
        · simp [d, e, hz, hp0]
      rw [footPart, hs, hs]
      cases side <;> simp
  have h3' : ∀ side p, ¬ (q.1 = .force side p ∧ q.2 < 3) := fun side p h => h3 ⟨side, p, h⟩
  refine (hasDerivAt_torque_still (d := fun _ _ => 0) hc hj ha (fun side p => ?_) j).congr_deriv ?_
  · have hf : ∀ t, pointForce (update x q t) side p = pointForce x side p := by
      intro t; funext i
      have : ((.force side p, (i : ℕ)) : Idx (SBlk n)) ≠ q := by rintro rfl; exact h3' side p ⟨rfl, i.2⟩
      simp [pointForce, this]
    simp only [hT, hf]
    exact hasDerivAt_const _ _
  · dsimp only
    rw [torquesJacobian_other _ _ _ h1 h2 h3', hJ q h1 h2 h3']
    simp [footPart, pointMap, power]

end StaticTorques
end
end Verif.NLP.Kin
