import Verif.Lemmas.MomentumExpr5
import Verif.Model.CoMExpr
/- Lemmas: the derivatives of the position of the centre of mass. -/
namespace Verif.Rigid
open Matrix
variable {L J F : Type} [DecidableEq L] [DecidableEq J] [DecidableEq F] {m : Model L J}

theorem hasDerivAt_vec_sum {α : Type} (xs : List α) {f : α → ℝ → Vec} {f' : α → Vec} {x : ℝ}
    (h : ∀ a, HasDerivAt (f a) (f' a) x) : HasDerivAt (fun t => (xs.map fun a => f a t).sum) ((xs.map f').sum) x := by
  induction xs with
  | nil => exact hasDerivAt_const x (0 : Vec)
  | cons a xs ih =>
    simp only [List.map_cons, List.sum_cons]
    exact (h a).add ih

theorem vec_sum_hom {α : Type} (G : Vec → Vec) (hG : ∀ a b, G (a + b) = G a + G b) (h0 : G 0 = 0) (f : α → Vec) (xs : List α) :
    G ((xs.map f).sum) = (xs.map fun c => G (f c)).sum := by
  induction xs with
  | nil => simp [h0]
  | cons x xs ih => simp [ih, hG]

theorem fst_sum {α : Type} (f : α → Spatial) (xs : List α) : ((xs.map f).sum).1 = (xs.map fun c => (f c).1).sum := by
  induction xs with
  | nil => simp
  | cons x xs ih => simp [ih]

/-- The velocity of the point `y` of a body that moves with velocity `u`. -/
def pointVelocity (y : Vec) (u : Spatial) : Spatial := (u.1 + u.2 ⨯₃ y, 0)

theorem pointVelocity_zero (y : Vec) : pointVelocity y 0 = 0 := by ext1 <;> simp [pointVelocity]
theorem pointVelocity_add (y : Vec) (a b : Spatial) : pointVelocity y (a + b) = pointVelocity y a + pointVelocity y b := by
  ext1 <;> simp [pointVelocity]; abel
theorem pointVelocity_smul (y : Vec) (k : ℝ) (a : Spatial) : pointVelocity y (k • a) = k • pointVelocity y a := by
  ext1 <;> simp [pointVelocity]
theorem pointVelocity_smooth (y : Vec) : Smooth (pointVelocity y) := smooth_of_linear (pointVelocity_add y) (pointVelocity_smul y)

/-- The order of two motions does not matter for the second derivative of a point. -/
theorem pointVelocity_symm (y : Vec) (a b : Spatial) :
    crossM a (pointVelocity y b) + pointVelocity y (-crossM a b) = crossM b (pointVelocity y a) := by
  ext i
  · fin_cases i <;> simp [pointVelocity, crossM, cross_apply, vecHead, vecTail] <;> ring
  · simp [pointVelocity, crossM]

namespace Traversal
variable (t : Traversal m)

theorem linkDirection_mem {q : J → ℝ} {l : L} {j : J} (h : t.child j ∈ t.up l) :
    t.linkDirection q l j = (t.rel 1 q l (t.child j)).act (t.subspace (t.child j)) := by rw [linkDirection, if_pos h]
theorem linkDirection_not {q : J → ℝ} {l : L} {j : J} (h : t.child j ∉ t.up l) : t.linkDirection q l j = 0 := by rw [linkDirection, if_neg h]

theorem hasTangent_world_link (hm : m.Regular) (H : SE3) (q : J → ℝ) (l : L) (j : J) :
    HasTangent (fun x => t.world H (Function.update q j x) l) (t.linkDirection q l j) (q j) := by
  have h := t.hasTangent_world hm H q (t.child_ne j) l
  rw [t.joint_child, t.rel_base] at h
  exact h

/-- The second derivative of the position of the centre of mass of `l`: `k` is above `c`. -/
noncomputable def comSecond (q : J → ℝ) (l c k : L) : Spatial :=
  (t.rel 1 q t.root l).act (crossM ((t.rel 1 q l k).act (t.subspace k)) (pointVelocity (m.inertia l).com ((t.rel 1 q l c).act (t.subspace c))))

theorem hasDerivAt_comColumn (hm : m.Regular) (q : J → ℝ) (l : L) (j i : J) (hc : t.child j ∈ t.up l) :
    HasDerivAt (fun x => (t.rel 1 (Function.update q i x) t.root l).act (pointVelocity (m.inertia l).com (t.linkDirection (Function.update q i x) l j)))
      (if t.child i ∈ t.up (t.child j) then t.comSecond q l (t.child j) (t.child i)
        else if t.child i ∈ t.up l then t.comSecond q l (t.child i) (t.child j) else 0) (q i) := by
  have key : ∀ a b, HasTangent (fun x => t.rel 1 (Function.update q i x) a b)
      ((if t.child i ∈ t.up b then (t.rel 1 q b (t.child i)).act (t.subspace (t.child i)) else 0) -
        (if t.child i ∈ t.up a then (t.rel 1 q b (t.child i)).act (t.subspace (t.child i)) else 0)) (q i) := by
    intro a b
    have := t.hasTangent_rel hm 1 q (t.child_ne i) a b
    rwa [t.joint_child] at this
  simp only [t.linkDirection_mem hc]
  have h := (key t.root l).act ((pointVelocity_smooth (m.inertia l).com).hasDerivAt ((key l (t.child j)).act (hasDerivAt_const (q i) (t.subspace (t.child j)))))
  refine h.congr_deriv ?_
  simp only [Function.update_eq_self, up_root, List.not_mem_nil, if_false, sub_zero, SE3.act_zero, add_zero]
  by_cases ha : t.child i ∈ t.up (t.child j)
  · have hb : t.child i ∈ t.up l := t.mem_up_trans ha hc
    simp only [if_pos ha, if_pos hb, sub_self, comSecond, zero_crossM, SE3.act_zero, pointVelocity_zero, add_zero]
  · simp only [if_neg ha]
    by_cases hb : t.child i ∈ t.up l
    · simp only [if_pos hb, comSecond]
      congr 1
      rw [← pointVelocity_symm _ ((t.rel 1 q l (t.child i)).act (t.subspace (t.child i))) ((t.rel 1 q l (t.child j)).act (t.subspace (t.child j)))]
      congr 2
      rw [zero_sub, neg_crossM, SE3.act_neg, SE3.act_crossM, ← SE3.act_mul, rel_mul]
    · simp only [if_neg hb]
      simp [pointVelocity_zero]

end Traversal

namespace Server
variable (s : Server m F)

theorem point_comp (T U : SE3) (y : Vec) : (T * U).point y = T.point (U.point y) := by
  show T.p + T.R *ᵥ U.p + (T.R * U.R) *ᵥ y = T.p + T.R *ᵥ (U.p + U.R *ᵥ y)
  rw [mulVec_add, mulVec_mulVec]; abel

theorem totalMass_eq : m.totalMass = (m.links.map fun l => (m.inertia l).mass).sum := by
  have : ∀ (xs : List L) (M : ℝ), xs.foldl (fun M l => M + (m.inertia l).mass) M = M + (xs.map fun l => (m.inertia l).mass).sum := by
    intro xs
    induction xs with
    | nil => simp
    | cons x xs ih => intro M; rw [List.foldl_cons, ih, List.map_cons, List.sum_cons, add_assoc]
  rw [Model.totalMass, this, zero_add]

theorem relativeMass_sum (hM : m.totalMass ≠ 0) : (m.links.map fun l => m.relativeMass l).sum = 1 := by
  have : ∀ xs : List L, (xs.map fun l => m.relativeMass l).sum = (xs.map fun l => (m.inertia l).mass).sum / m.totalMass := by
    intro xs
    induction xs with
    | nil => simp
    | cons x xs ih => rw [List.map_cons, List.map_cons, List.sum_cons, List.sum_cons, ih, add_div, Model.relativeMass]
  rw [this, ← totalMass_eq, div_self hM]

theorem affine_sum (T : SE3) (w : L → ℝ) (f : L → Vec) (xs : List L) :
    T.R *ᵥ ((xs.map fun l => w l • f l).sum) + (xs.map w).sum • T.p = (xs.map fun l => w l • T.point (f l)).sum := by
  induction xs with
  | nil => simp
  | cons x xs ih =>
    simp only [List.map_cons, List.sum_cons]
    rw [← ih, mulVec_add, mulVec_smul, SE3.point, smul_add, add_smul]
    abel

theorem comInBase_eq (hM : m.totalMass ≠ 0) (H : SE3) (q : J → ℝ) :
    s.comInBase H q = (m.links.map fun l => m.relativeMass l • (s.kin.rel 1 q s.base l).point (m.inertia l).com).sum := by
  have h := affine_sum (H⁻¹) m.relativeMass (fun l => (s.kin.world H q l).point (m.inertia l).com) m.links
  rw [relativeMass_sum hM, one_smul] at h
  rw [comInBase, Traversal.comPosition, SE3.point, add_comm, h]
  congr 1
  refine List.map_congr_left fun l _ => ?_
  rw [← point_comp, ← s.kin.rel_base H, Traversal.rel, ← s.kin_root, Traversal.world_root]

theorem comInBaseJacobian_eq (H : SE3) (q : J → ℝ) (j : J) :
    s.comInBaseJacobian H q j = ((m.links.map fun l => if s.kin.child j ∈ s.kin.up l then m.relativeMass l • (s.kin.rel 1 q s.kin.root l).act
      (pointVelocity (m.inertia l).com (s.kin.linkDirection q l j)) else 0).sum).1 := by
  rw [comInBaseJacobian, Traversal.comJacobian, vec_sum_hom (fun x => H⁻¹.R *ᵥ x) (fun a b => mulVec_add _ a b) (mulVec_zero _), fst_sum]
  congr 1
  refine List.map_congr_left fun l _ => ?_
  have hr : (s.kin.rel 1 q s.kin.root l).R = H⁻¹.R * (s.kin.world H q l).R := by
    rw [← s.kin.rel_base H, Traversal.rel, Traversal.world_root]; rfl
  split_ifs with h
  · simp [SE3.act, pointVelocity, hr, mulVec_smul, mulVec_mulVec]
  · rw [s.kin.linkDirection_not h]; simp

theorem hasDerivAt_comInBase (hm : m.Regular) (H : SE3) (q : J → ℝ) (j : J) :
    HasDerivAt (fun x => s.comInBase H (Function.update q j x)) (s.comInBaseJacobian H q j) (q j) := by
  have h1 : HasDerivAt (fun x => s.kin.comPosition H (Function.update q j x)) (s.kin.comJacobian H q j) (q j) := by
    unfold Traversal.comPosition Traversal.comJacobian
    refine hasDerivAt_vec_sum m.links (f := fun l x => m.relativeMass l • (s.kin.world H (Function.update q j x) l).point (m.inertia l).com) fun l => ?_
    have h := s.kin.hasTangent_world_link hm H q l j (m.inertia l).com
    dsimp only at h
    rw [Function.update_eq_self] at h
    exact h.const_smul (m.relativeMass l)
  unfold comInBase comInBaseJacobian SE3.point
  have h2 := hasDerivAt_mulVec (R := fun _ => H⁻¹.R) (R' := 0) (fun i k => hasDerivAt_const (q j) _) h1
  refine (h2.const_add H⁻¹.p).congr_deriv ?_
  simp

end Server
end Verif.Rigid
