import Verif.Lemmas.StaticTorquesCost2
/- Lemmas: the derivatives of the static torques. -/
set_option linter.unusedSectionVars false
namespace Verif.NLP.Kin
open Matrix Verif.Rigid Function Verif.NLP.Spec
open Verif.Quaternion (rotationFromQuaternion normalized normalizedDerivative rotatedVectorJacobian inverse inverseDerivative leftTrivializedDerivative)
open Verif.NLP.Dynamics (quatOf baseRotation)
noncomputable section
variable {n nj : ℕ} {L F : Type} [DecidableEq L] [DecidableEq F] {m : Model L (Fin nj)} {x : SVec n}

theorem foldl_sum {M : Type} [AddCommMonoid M] (f : Fin n → M) (a : M) : (List.finRange n).foldl (fun w p => w + f p) a = a + ∑ p, f p := by
  have h : ∀ (xs : List (Fin n)) (a : M), xs.foldl (fun w p => w + f p) a = a + (xs.map f).sum := by
    intro xs
    induction xs with
    | nil => simp
    | cons y xs ih => intro a; rw [List.foldl_cons, ih, List.map_cons, List.sum_cons, add_assoc]
  rw [h, ← List.ofFn_eq_map, List.sum_ofFn]

theorem rows3 (v : Vec) : v = ∑ k, v k • unit3 k := by
  funext i
  simp [unit3, Finset.sum_apply, Pi.single_apply]

namespace StaticTorques
variable (c : StaticTorques m F n)

theorem pointMap_add (A : Matrix (Fin 3) (Fin 3) ℝ) (p v w : Vec) : pointMap A p (v + w) = pointMap A p v + pointMap A p w := by
  simp [pointMap, mulVec_add]
theorem pointMap_smul (A : Matrix (Fin 3) (Fin 3) ℝ) (p v : Vec) (k : ℝ) : pointMap A p (k • v) = k • pointMap A p v := by
  simp [pointMap, mulVec_smul]

theorem totalWrench_eq (x : SVec n) (side : Side) :
    c.totalWrenchInFrame x side = ∑ p, pointMap 1 (c.point side p) ((c.footTransform x side).Rᵀ *ᵥ pointForce x side p) := by
  rw [totalWrenchInFrame, foldl_sum, zero_add]
  refine Finset.sum_congr rfl fun p _ => ?_
  simp [shift, turn, SE3.actF, pointMap]

theorem hasDerivAt_pointMap (p : Vec) {v : ℝ → Vec} {v' : Vec} {t : ℝ} (hv : HasDerivAt v v' t) :
    HasDerivAt (fun y => pointMap 1 p (v y)) (pointMap 1 p v') t := by
  simp only [pointMap, one_mulVec]
  refine hv.prodMk ?_
  refine (hasDerivAt_cross (hasDerivAt_const t p) hv).congr_deriv ?_
  simp

theorem hasDerivAt_totalWrench {y : ℝ → SVec n} {t : ℝ} (side : Side) {d : Fin n → Vec}
    (h : ∀ p, HasDerivAt (fun t => (c.footTransform (y t) side).Rᵀ *ᵥ pointForce (y t) side p) (d p) t) :
    HasDerivAt (fun t => c.totalWrenchInFrame (y t) side) (∑ p, pointMap 1 (c.point side p) (d p)) t := by
  simp only [totalWrench_eq]
  exact HasDerivAt.fun_sum (u := Finset.univ) fun p _ => hasDerivAt_pointMap (c.point side p) (h p)

/-- The wrenches on the links made by a wrench for each foot. -/
def wrenches (W : Side → Spatial) : L → Spatial :=
  update (update (fun _ => 0) (c.server.frames.link (c.frame .left)) ((c.server.frames.offset (c.frame .left)).actF (W .left)))
    (c.server.frames.link (c.frame .right)) ((c.server.frames.offset (c.frame .right)).actF (W .right))

theorem contactWrenches_eq (x : SVec n) : c.contactWrenches x = c.wrenches (c.totalWrenchInFrame x) := rfl

theorem hasDerivAt_wrenches {W : ℝ → Side → Spatial} {W' : Side → Spatial} {t : ℝ} (h : ∀ side, HasDerivAt (fun t => W t side) (W' side) t) (l : L) :
    HasDerivAt (fun t => c.wrenches (W t) l) (c.wrenches W' l) t := by
  have hF : ∀ side, HasDerivAt (fun t => (c.server.frames.offset (c.frame side)).actF (W t side)) ((c.server.frames.offset (c.frame side)).actF (W' side)) t := fun side => by
    refine ((hasTangent_const (c.server.frames.offset (c.frame side)) t).actF (h side)).congr_deriv ?_
    simp
  unfold wrenches
  by_cases h1 : l = c.server.frames.link (c.frame .right)
  · subst h1; simp only [update_self]; exact hF .right
  · simp only [update_of_ne h1]
    by_cases h2 : l = c.server.frames.link (c.frame .left)
    · subst h2; simp only [update_self]; exact hF .left
    · simp only [update_of_ne h2]; exact hasDerivAt_const _ _

/-- The feet are attached to different links. -/
def Apart : Prop := c.server.frames.link (c.frame .left) ≠ c.server.frames.link (c.frame .right)

variable {c}
theorem power_wrenches (hc : c.Apart) (W : Side → Spatial) (V : L → Spatial) :
    Traversal.total m (fun l => power (V l) (c.wrenches W l)) =
      power ((c.server.frames.offset (c.frame .left))⁻¹.act (V (c.server.frames.link (c.frame .left)))) (W .left) +
        power ((c.server.frames.offset (c.frame .right))⁻¹.act (V (c.server.frames.link (c.frame .right)))) (W .right) := by
  rw [← power_actF, ← power_actF]
  have e : (fun l => power (V l) (c.wrenches W l)) = fun l =>
      (if l = c.server.frames.link (c.frame .left) then power (V l) ((c.server.frames.offset (c.frame .left)).actF (W .left)) else 0) +
        (if l = c.server.frames.link (c.frame .right) then power (V l) ((c.server.frames.offset (c.frame .right)).actF (W .right)) else 0) := by
    funext l
    unfold wrenches
    by_cases h1 : l = c.server.frames.link (c.frame .right)
    · subst h1; rw [update_self, if_neg (Ne.symm hc), if_pos rfl, zero_add]
    · rw [update_of_ne h1, if_neg h1]
      by_cases h2 : l = c.server.frames.link (c.frame .left)
      · subst h2; rw [update_self, if_pos rfl, add_zero]
      · rw [update_of_ne h2, if_neg h2]; simp [power]
  rw [e, Traversal.total_add, Traversal.total_single, Traversal.total_single]

/-- What the feet add to the derivative of the torque of a joint. -/
def footPart (c : StaticTorques m F n) (x : SVec n) (d : Side → Fin n → Vec) (j : Fin nj) : ℝ :=
  (∑ p, power (c.frameJacobian x .left j) (pointMap 1 (c.point .left p) (d .left p))) +
    ∑ p, power (c.frameJacobian x .right j) (pointMap 1 (c.point .right p) (d .right p))

theorem footPart_eq (hc : c.Apart) (d : Side → Fin n → Vec) (j : Fin nj) :
    Traversal.total m (fun l => power (c.server.kin.vel 0 (jointsOf x) (Pi.single j 1) l) (c.wrenches (fun side => ∑ p, pointMap 1 (c.point side p) (d side p)) l)) =
      c.footPart x d j := by
  rw [power_wrenches hc, power_sum, power_sum]; rfl

/-- The torque when neither the joints nor ... change but the base and the forces do. -/
theorem hasDerivAt_torque_still (hc : c.Apart) {y : ℝ → SVec n} {t : ℝ} (hy : ∀ s, (jointsOf (y s) : Fin nj → ℝ) = jointsOf x) {a' : Vec}
    (ha : HasDerivAt (fun s => (baseRotation (y s))ᵀ *ᵥ c.gravity) a' t) {d : Side → Fin n → Vec}
    (hd : ∀ side p, HasDerivAt (fun s => (c.footTransform (y s) side).Rᵀ *ᵥ pointForce (y s) side p) (d side p) t) (j : Fin nj) :
    HasDerivAt (fun s => c.staticTorques (y s) j) (-(∑ i, c.massMatrix x j i * a' i) - c.footPart x d j) t := by
  have h := c.server.kin.hasDerivAt_staticTorque_still (H := fun s => baseTransform (y s)) (jointsOf x) j ha.neg
    (fun l => c.hasDerivAt_wrenches (fun side => c.hasDerivAt_totalWrench side (hd side)) l)
  have h' : (fun s => c.staticTorques (y s) j) = fun s => c.server.kin.staticTorque (baseTransform (y s)) ((-fun s => (baseRotation (y s))ᵀ *ᵥ c.gravity) s, 0)
      (c.wrenches fun side => c.totalWrenchInFrame (y s) side) (jointsOf x) j := by
    simp only [staticTorques, hy]
    rfl
  rw [h']
  refine h.congr_deriv ?_
  · simp only [power_sub]
    rw [Traversal.total_sub, footPart_eq hc]
    congr 1
    have e : ∀ l, c.server.kin.vel (-a', 0) (jointsOf x) 0 l = -∑ i, a' i • c.server.kin.vel (unit3 i, 0) (jointsOf x) 0 l := by
      intro l
      have e : ∀ v, c.server.kin.vel v (jointsOf x) 0 l = (c.server.kin.rel 1 (jointsOf x) l c.server.kin.root).act v := fun v => c.server.kin.vel_still v (jointsOf x) l
      simp only [e, ← SE3.act_smul]
      have : ((-a', 0) : Spatial) = -∑ i, a' i • ((unit3 i, 0) : Spatial) := by
        ext1
        · simp only [Prod.fst_neg, Prod.fst_sum, Prod.smul_fst, ← rows3]
        · simp [Prod.snd_sum]
      rw [this, SE3.act_neg]
      congr 1
      simp only [Fin.sum_univ_three, SE3.act_add]
    have e2 : ∀ l, (m.inertia l).mul (c.server.kin.vel (-a', 0) (jointsOf x) 0 l) = -∑ i, a' i • (m.inertia l).mul (c.server.kin.vel (unit3 i, 0) (jointsOf x) 0 l) := by
      intro l
      rw [e, Inertia.mul_neg]
      simp only [Fin.sum_univ_three, Inertia.mul_add, Inertia.mul_smul]
    have ps : ∀ (a f : Spatial) (k : ℝ), power a (k • f) = k * power a f := by intro a f k; simp [power]; ring
    simp only [e2, power_neg, power_sum, ps, massMatrix, Traversal.links_sum, Traversal.total]
    rw [Finset.sum_neg_distrib, Finset.sum_comm]
    congr 1
    refine Finset.sum_congr rfl fun i _ => ?_
    rw [Finset.sum_mul]
    refine Finset.sum_congr rfl fun l _ => ?_
    ring

/-- The torque when a joint changes. -/
theorem hasDerivAt_torque_joint (hm : m.Regular) (hc : c.Apart) (z j : Fin nj) :
    HasDerivAt (fun t => c.staticTorques (update x (.joints, (z : ℕ)) t) j)
      (c.server.kin.staticTorquesDerivative (baseTransform x) (Traversal.baseAcc (baseTransform x) c.gravity) (c.contactWrenches x) (jointsOf x) j z -
        c.footPart x (fun side p => -((c.frameJacobian x side z).2 ⨯₃ ((c.footTransform x side).Rᵀ *ᵥ pointForce x side p))) j) (x (.joints, (z : ℕ))) := by
  have hb : ∀ t, baseTransform (update x (.joints, (z : ℕ)) t) = baseTransform x := by
    intro t
    have h1 := baseRotation_congr (quatOf_other x (.joints, (z : ℕ)) (by simp) t)
    have h2 : basePosOf (update x (.joints, (z : ℕ)) t) = basePosOf x := by funext a; simp [basePosOf]
    simp only [baseTransform, h1, h2]
  have hf : ∀ t side p, pointForce (update x (.joints, (z : ℕ)) t) side p = pointForce x side p := by intro t side p; funext k; simp [pointForce]
  have hT : ∀ side, HasTangent (fun t => c.footTransform (update x (.joints, (z : ℕ)) t) side) (c.frameJacobian x side z) (jointsOf x z) := by
    intro side
    have h := (c.server.kin.hasTangent_world hm (baseTransform x) (jointsOf x) (c.server.kin.child_ne z) (c.server.frames.link (c.frame side))).mul
      (hasTangent_const (c.server.frames.offset (c.frame side)) _)
    rw [c.server.kin.joint_child, ← c.server.kin.vel_single] at h
    simp only [footTransform, hb, jointsOf_update_joint]
    simpa [frameJacobian, Traversal.frameVel] using h
  have hd : ∀ side p, HasDerivAt (fun t => (c.footTransform (update x (.joints, (z : ℕ)) t) side).Rᵀ *ᵥ pointForce (update x (.joints, (z : ℕ)) t) side p)
      (-((c.frameJacobian x side z).2 ⨯₃ ((c.footTransform x side).Rᵀ *ᵥ pointForce x side p))) (jointsOf x z) := by
    intro side p
    have h := (hT side).transpose_mulVec (pointForce x side p)
    have e : update x (.joints, (z : ℕ)) (jointsOf x z) = x := update_eq_self _ _
    rw [e] at h
    simp only [hf]
    exact h
  have h := c.server.kin.hasDerivAt_staticTorque_moving hm (baseTransform x) c.gravity (jointsOf x) j z
    (fun l => c.hasDerivAt_wrenches (fun side => c.hasDerivAt_totalWrench side (hd side)) l)
  rw [footPart_eq hc] at h
  have e : update x (.joints, (z : ℕ)) (jointsOf x z) = x := update_eq_self _ _
  rw [e] at h
  simp only [staticTorques, hb, jointsOf_update_joint]
  exact h

end StaticTorques
end
end Verif.NLP.Kin
