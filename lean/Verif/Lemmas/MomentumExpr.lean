import Verif.Lemmas.VecExpr2
import Verif.Model.MomentumExpr
/- Lemmas: the second derivative of the momentum. -/
namespace Verif.Rigid
open Matrix
variable {L J F : Type} [DecidableEq L] [DecidableEq J] [DecidableEq F] {m : Model L J}

theorem Inertia.mul_smul (I : Inertia) (k : ℝ) (a : Spatial) : I.mul (k • a) = k • I.mul a := by
  ext1 <;> simp [Inertia.mul, mulVec_smul, smul_sub, smul_comm k]
theorem Inertia.smooth (I : Inertia) : Smooth I.mul := smooth_of_linear I.mul_add I.mul_smul

theorem hasDerivAt_crossM (a : Spatial) {f : ℝ → Spatial} {f' : Spatial} {x : ℝ} (hf : HasDerivAt f f' x) :
    HasDerivAt (fun y => crossM a (f y)) (crossM a f') x := (smooth_crossM a).hasDerivAt hf
theorem hasDerivAt_crossF (a : Spatial) {f : ℝ → Spatial} {f' : Spatial} {x : ℝ} (hf : HasDerivAt f f' x) :
    HasDerivAt (fun y => crossF a (f y)) (crossF a f') x := (smooth_crossF a).hasDerivAt hf

theorem crossF_zero_left (a : Spatial) : crossF 0 a = 0 := by ext1 <;> simp [crossF]
theorem crossF_add_right (a b c : Spatial) : crossF a (b + c) = crossF a b + crossF a c := by
  ext1 <;> simp [crossF] <;> abel

namespace Traversal
variable (t : Traversal m)

/-- The second derivative of the momentum of `l` with respect to the joint above `c`, then to the one above `k`, which is above `c`. -/
noncomputable def second (v : Spatial) (q dq : J → ℝ) (l c k : L) : Spatial :=
  let u := (t.rel 1 q l k).act (crossM (t.subspace k) (-t.vel v q dq k))
  let P := crossF (t.subspace c) ((t.rel 1 q c l).actF ((m.inertia l).mul (t.vel v q dq l))) +
    (t.rel 1 q c l).actF ((m.inertia l).mul ((t.rel 1 q l c).act (crossM (t.subspace c) (-t.vel v q dq c))))
  (t.rel 1 q t.root k).actF (crossF (t.subspace k) ((t.rel 1 q k c).actF P)) +
    (t.rel 1 q t.root c).actF (crossF (t.subspace c) ((t.rel 1 q c l).actF ((m.inertia l).mul u)) -
      (t.rel 1 q c l).actF ((m.inertia l).mul ((t.rel 1 q l c).act (crossM (t.subspace c) ((t.rel 1 q c l).act u)))))

theorem hasDerivAt_linkMomentumDerivative (hm : m.Regular) (v : Spatial) (q dq : J → ℝ) (l : L) (j i : J) (hc : t.child j ∈ t.up l) :
    HasDerivAt (fun x => t.linkMomentumDerivative 1 v (Function.update q i x) dq l j)
      (if t.child i ∈ t.up (t.child j) then t.second v q dq l (t.child j) (t.child i)
        else if t.child i ∈ t.up l then t.second v q dq l (t.child i) (t.child j) else 0) (q i) := by
  have key : ∀ a b, HasTangent (fun x => t.rel 1 (Function.update q i x) a b)
      ((if t.child i ∈ t.up b then (t.rel 1 q b (t.child i)).act (t.subspace (t.child i)) else 0) -
        (if t.child i ∈ t.up a then (t.rel 1 q b (t.child i)).act (t.subspace (t.child i)) else 0)) (q i) := by
    intro a b
    have := t.hasTangent_rel hm 1 q (t.child_ne i) a b
    rwa [t.joint_child] at this
  have hv : ∀ a, HasDerivAt (fun x => t.vel v (Function.update q i x) dq a)
      (if t.child i ∈ t.up a then (t.rel 1 q a (t.child i)).act (crossM (t.subspace (t.child i)) (-t.vel v q dq (t.child i))) else 0) (q i) := by
    intro a
    have := t.hasDerivAt_vel hm 1 v q dq (t.child_ne i) a
    rwa [t.joint_child] at this
  have h1 := (key t.root (t.child j)).actF (hasDerivAt_crossF (t.subspace (t.child j)) ((key (t.child j) l).actF (hasDerivAt_inertia (m.inertia l) (hv l))))
  have h2 := (key t.root l).actF (hasDerivAt_inertia (m.inertia l) ((key l (t.child j)).act (hasDerivAt_crossM (t.subspace (t.child j)) (hv (t.child j)).neg)))
  refine (h1.add h2).congr_deriv ?_
  simp only [Pi.neg_apply, Function.update_eq_self, up_root, List.not_mem_nil, if_false, sub_zero]
  by_cases ha : t.child i ∈ t.up (t.child j)
  · have hb : t.child i ∈ t.up l := t.mem_up_trans ha hc
    simp only [if_pos ha, if_pos hb, sub_self, second]
    simp only [crossF_zero_left, zero_crossM, neg_zero, zero_add, SE3.actF_add, SE3.actF_sub, SE3.actF_crossF, SE3.act_crossM, crossF_add_right,
      ← SE3.actF_mul, ← SE3.act_mul, rel_mul, SE3.act_neg, crossM_neg, Inertia.mul_neg, SE3.actF_neg, neg_neg]
    abel
  · simp only [if_neg ha]
    by_cases hb : t.child i ∈ t.up l
    · simp only [if_pos hb, second]
      simp only [crossF_zero_left, zero_crossM, zero_add, zero_sub, sub_zero, neg_zero, add_zero, crossM_zero, SE3.actF_add, SE3.actF_sub, SE3.actF_crossF,
        SE3.act_crossM, crossF_add_right, ← SE3.actF_mul, ← SE3.act_mul, rel_mul, SE3.act_neg, crossM_neg, neg_crossM, Inertia.mul_neg, SE3.actF_neg, neg_neg]
      abel
    · simp only [if_neg hb]
      simp [crossF_zero_left]

end Traversal
end Verif.Rigid
