import Verif.Spec.TreeExpr
import Verif.Lemmas.Kinematics2
import Mathlib.Analysis.Calculus.Deriv.Comp
/- The derivatives of the expressions of the transforms. -/
namespace Verif.Rigid
open Matrix
variable {L J F : Type} [DecidableEq L] [DecidableEq J] [DecidableEq F]

namespace Traversal
variable {m : Model L J}

theorem joint_ends (t : Traversal m) (j : J) : m.first j ≠ m.second j := by
  have h := t.connects (t.child j) (t.child_ne j)
  rw [t.joint_child] at h
  have hp : t.parent (t.child j) ≠ t.child j := by
    intro e; have := t.depth_lt _ (t.child_ne j); rw [e] at this; omega
  rcases h with ⟨h1, h2⟩ | ⟨h1, h2⟩
  · rw [h1, h2]; exact hp
  · rw [h1, h2]; exact Ne.symm hp

/-- The transform between the two links of a joint. -/
theorem rel_joint (t : Traversal m) (H : SE3) (q : J → ℝ) (j : J) : t.rel H q (m.first j) (m.second j) = m.T j (q j) := by
  have hc := t.child_ne j
  have h := t.connects (t.child j) hc
  have hr := t.rel_parent H q hc
  rw [t.joint_child] at h
  unfold jointTransform at hr
  rw [t.joint_child] at hr
  rcases h with ⟨h1, h2⟩ | ⟨h1, h2⟩
  · rw [if_pos h2] at hr
    rw [h1, h2, hr]
  · have : m.second j ≠ t.child j := by rw [← h2]; exact Ne.symm (t.joint_ends j)
    rw [if_neg this] at hr
    rw [h1, h2, ← t.rel_inv, hr, inv_inv]

/-- The relative transforms do not depend on the traversal. -/
theorem rel_unique (t t' : Traversal m) (H H' : SE3) (q : J → ℝ) (a b : L) : t.rel H q a b = t'.rel H' q a b := by
  have key : ∀ l, t.rel H q t'.root l = t'.rel H' q t'.root l := by
    intro l
    induction l using t'.ind with
    | root => rw [rel_self, rel_self]
    | step l h ih =>
      rw [← t.rel_mul H q _ (t'.parent l) l, ih, ← t'.rel_mul H' q _ (t'.parent l) l]
      congr 1
      have e1 := t.rel_joint H q (t'.joint l)
      have e2 := t'.rel_joint H' q (t'.joint l)
      rcases t'.connects l h with ⟨h1, h2⟩ | ⟨h1, h2⟩
      · rw [h1, h2] at e1 e2
        rw [e1, e2]
      · rw [h1, h2] at e1 e2
        rw [← t.rel_inv, ← t'.rel_inv, e1, e2]
  rw [← t.rel_mul H q a t'.root b, ← t'.rel_mul H' q a t'.root b, key b, ← t.rel_inv H q t'.root a, ← t'.rel_inv H' q t'.root a, key a]

end Traversal

namespace Server
variable {m : Model L J} (s : Server m F)

theorem transform_tree (t : Traversal m) (q : J → ℝ) (a b : F) :
    s.transform q a b = (s.frames.offset a)⁻¹ * t.rel 1 q (s.frames.link a) (s.frames.link b) * s.frames.offset b := by
  rw [transform, s.kin.rel_unique t 1 1]

theorem transform_self (q : J → ℝ) (a : F) : s.transform q a a = 1 := by simp [transform, Traversal.rel_self]
theorem transform_mul (q : J → ℝ) (a b c : F) : s.transform q a b * s.transform q b c = s.transform q a c := by
  simp only [transform, ← s.kin.rel_mul 1 q (s.frames.link a) (s.frames.link b) (s.frames.link c), mul_assoc, mul_inv_cancel_left]
theorem transform_inv (q : J → ℝ) (a b : F) : (s.transform q a b)⁻¹ = s.transform q b a := by
  rw [inv_eq_iff_mul_eq_one, transform_mul, transform_self]
theorem transform_same (q : J → ℝ) (a b : F) (h : s.frames.link a = s.frames.link b) : s.transform q a b = (s.frames.offset a)⁻¹ * s.frames.offset b := by
  simp [transform, h, Traversal.rel_self]

theorem eval_adj (q : J → ℝ) (a b : F) : s.eval q (.adj a b) = (s.transform q a b).act := by
  simp only [eval]
  split_ifs with h1 h2
  · subst h1; funext x; simp [transform_self]
  · rw [s.transform_same q a b h2]
  · rfl
theorem eval_adjWrench (q : J → ℝ) (a b : F) : s.eval q (.adjWrench a b) = (s.transform q a b).actF := by
  simp only [eval]
  split_ifs with h1 h2
  · subst h1; funext x; simp [transform_self]
  · rw [s.transform_same q a b h2]
  · rfl

/-- The velocity of a frame with respect to another when a joint moves, in the frame itself. -/
noncomputable def direction (q : J → ℝ) (a b : F) (j : J) : Spatial :=
  let t := s.tree (s.frames.link a)
  if t.child j ∈ t.up (s.frames.link b) then (s.transform q b (s.frames.ofLink (t.child j))).act (t.subspace (t.child j)) else 0

theorem hasTangent_transform (hm : m.Regular) (q : J → ℝ) (a b : F) (j : J) :
    HasTangent (fun x => s.transform (Function.update q j x) a b) (s.direction q a b j) (q j) := by
  let t := s.tree (s.frames.link a)
  have h := t.hasTangent_rel hm 1 q (t.child_ne j) (s.frames.link a) (s.frames.link b)
  rw [t.joint_child] at h
  have hr : t.root = s.frames.link a := s.root_tree _
  have hu : t.up (s.frames.link a) = [] := by rw [← hr]; exact t.up_root
  simp only [hu, List.not_mem_nil, if_false, sub_zero] at h
  have h2 := ((hasTangent_const (s.frames.offset a)⁻¹ (q j)).mul h).mul (hasTangent_const (s.frames.offset b) (q j))
  have h3 : ∀ x, s.transform (Function.update q j x) a b =
      (s.frames.offset a)⁻¹ * t.rel 1 (Function.update q j x) (s.frames.link a) (s.frames.link b) * s.frames.offset b := fun x => s.transform_tree t _ a b
  simp only [h3]
  refine Eq.mp ?_ h2
  congr 1
  simp only [SE3.act_zero, zero_add, add_zero]
  show _ = if t.child j ∈ t.up (s.frames.link b) then (s.transform q b (s.frames.ofLink (t.child j))).act (t.subspace (t.child j)) else 0
  split_ifs
  · rw [s.transform_tree t q b (s.frames.ofLink (t.child j)), s.frames.link_ofLink, s.frames.offset_ofLink, mul_one, SE3.act_mul]
  · simp

/-! ### The adjoint transforms -/

theorem foldl_op {m : Model L J} (t : Traversal m) {xs : List L} (hr : ∀ l ∈ xs, l ≠ t.root) (G : L → Op F) (D : J → Op F) (j : J) :
    xs.foldl (fun D l => Function.update D (t.joint l) (G l)) D j = if t.child j ∈ xs then G (t.child j) else D j := by
  induction xs generalizing D with
  | nil => simp
  | cons l xs ih =>
    rw [List.foldl_cons, ih (fun l hl => hr l (List.mem_cons_of_mem _ hl))]
    by_cases hm : t.child j ∈ xs
    · simp [hm]
    · by_cases e : t.joint l = j
      · subst e
        simp [hm, t.child_joint l (hr l (List.mem_cons_self))]
      · have : t.child j ≠ l := fun e' => e (by rw [← e', t.joint_child])
        simp [hm, this, Function.update_of_ne (Ne.symm e)]

theorem adjDerivative_eq (a b : F) (j : J) :
    s.adjDerivative a b j =
      if s.frames.link a = s.frames.link b then .zero
      else if (s.tree (s.frames.link a)).child j = s.frames.link b then
        .mul (.adj a b) (.const (crossM ((s.tree (s.frames.link a)).subspace (s.frames.link b))))
      else if (s.tree (s.frames.link a)).child j ∈ (s.tree (s.frames.link a)).up (s.frames.link b) then
        .mul (.mul (.adj a (s.frames.ofLink ((s.tree (s.frames.link a)).child j))) (.const (crossM ((s.tree (s.frames.link a)).subspace ((s.tree (s.frames.link a)).child j)))))
          (.adj (s.frames.ofLink ((s.tree (s.frames.link a)).child j)) b)
      else .zero := by
  unfold adjDerivative
  by_cases hab : a = b
  · subst hab; simp
  · by_cases hl : s.frames.link a = s.frames.link b
    · simp [hab, hl]
    · simp only [hab, hl, if_false]
      generalize ht : s.tree (s.frames.link a) = t
      have hroot : s.frames.link b ≠ t.root := by
        rw [← ht, s.root_tree]; exact Ne.symm hl
      rw [foldl_op t (fun _ h => t.ne_root_of_mem h)]
      by_cases hc : t.child j = s.frames.link b
      · have hj : t.joint (s.frames.link b) = j := by rw [← hc, t.joint_child]
        rw [if_pos hc, if_neg (by rw [hc]; exact t.not_mem_up_parent hroot), ← hj, Function.update_self]
      · have hj : j ≠ t.joint (s.frames.link b) := fun e => hc (by rw [e, t.child_joint _ hroot])
        rw [if_neg hc, Function.update_of_ne hj]
        simp only [t.mem_up_iff hroot, hc, false_or]

theorem adjWrenchDerivative_eq (a b : F) (j : J) :
    s.adjWrenchDerivative a b j =
      if s.frames.link a = s.frames.link b then .zero
      else if (s.tree (s.frames.link a)).child j = s.frames.link b then
        .mul (.adjWrench a b) (.const (crossF ((s.tree (s.frames.link a)).subspace (s.frames.link b))))
      else if (s.tree (s.frames.link a)).child j ∈ (s.tree (s.frames.link a)).up (s.frames.link b) then
        .mul (.mul (.adjWrench a (s.frames.ofLink ((s.tree (s.frames.link a)).child j))) (.const (crossF ((s.tree (s.frames.link a)).subspace ((s.tree (s.frames.link a)).child j)))))
          (.adjWrench (s.frames.ofLink ((s.tree (s.frames.link a)).child j)) b)
      else .zero := by
  unfold adjWrenchDerivative
  by_cases hab : a = b
  · subst hab; simp
  · by_cases hl : s.frames.link a = s.frames.link b
    · simp [hab, hl]
    · simp only [hab, hl, if_false]
      generalize ht : s.tree (s.frames.link a) = t
      have hroot : s.frames.link b ≠ t.root := by
        rw [← ht, s.root_tree]; exact Ne.symm hl
      rw [foldl_op t (fun _ h => t.ne_root_of_mem h)]
      by_cases hc : t.child j = s.frames.link b
      · have hj : t.joint (s.frames.link b) = j := by rw [← hc, t.joint_child]
        rw [if_pos hc, if_neg (by rw [hc]; exact t.not_mem_up_parent hroot), ← hj, Function.update_self]
      · have hj : j ≠ t.joint (s.frames.link b) := fun e => hc (by rw [e, t.child_joint _ hroot])
        rw [if_neg hc, Function.update_of_ne hj]
        simp only [t.mem_up_iff hroot, hc, false_or]

/-- What the derivative of the adjoint transform is, for the joints that are not just above the target. -/
theorem eval_adjDerivative (q : J → ℝ) (a b : F) (j : J) (x : Spatial) :
    s.eval q (s.adjDerivative a b j) x =
      if (s.tree (s.frames.link a)).child j = s.frames.link b then
        (s.transform q a b).act (crossM ((s.tree (s.frames.link a)).subspace (s.frames.link b)) x)
      else (s.transform q a b).act (crossM (s.direction q a b j) x) := by
  rw [adjDerivative_eq]
  generalize ht : s.tree (s.frames.link a) = t
  have hroot : t.root = s.frames.link a := by rw [← ht, s.root_tree]
  by_cases hl : s.frames.link a = s.frames.link b
  · have hc : t.child j ≠ s.frames.link b := by rw [← hl, ← hroot]; exact t.child_ne j
    have hu : t.up (s.frames.link b) = [] := by rw [← hl, ← hroot]; exact t.up_root
    have hd : s.direction q a b j = 0 := by
      simp only [direction, ht, hu, List.not_mem_nil, if_false]
    rw [if_pos hl, if_neg hc, hd]
    simp [eval]
  · rw [if_neg hl]
    by_cases hc : t.child j = s.frames.link b
    · rw [if_pos hc, if_pos hc, eval, eval_adj]; rfl
    · rw [if_neg hc, if_neg hc]
      simp only [direction, ht]
      split_ifs with hu
      · simp only [eval.eq_5, eval_adj, eval.eq_2]
        rw [← s.transform_mul q a (s.frames.ofLink (t.child j)) b, SE3.act_mul, SE3.act_crossM _ (SE3.act _ _), ← SE3.act_mul, transform_mul, transform_self,
          SE3.act_one]
      · simp [eval]

theorem eval_adjWrenchDerivative (q : J → ℝ) (a b : F) (j : J) (x : Spatial) :
    s.eval q (s.adjWrenchDerivative a b j) x =
      if (s.tree (s.frames.link a)).child j = s.frames.link b then
        (s.transform q a b).actF (crossF ((s.tree (s.frames.link a)).subspace (s.frames.link b)) x)
      else (s.transform q a b).actF (crossF (s.direction q a b j) x) := by
  rw [adjWrenchDerivative_eq]
  generalize ht : s.tree (s.frames.link a) = t
  have hroot : t.root = s.frames.link a := by rw [← ht, s.root_tree]
  by_cases hl : s.frames.link a = s.frames.link b
  · have hc : t.child j ≠ s.frames.link b := by rw [← hl, ← hroot]; exact t.child_ne j
    have hu : t.up (s.frames.link b) = [] := by rw [← hl, ← hroot]; exact t.up_root
    have hd : s.direction q a b j = 0 := by
      simp only [direction, ht, hu, List.not_mem_nil, if_false]
    rw [if_pos hl, if_neg hc, hd]
    simp [eval]
  · rw [if_neg hl]
    by_cases hc : t.child j = s.frames.link b
    · rw [if_pos hc, if_pos hc, eval, eval_adjWrench]; rfl
    · rw [if_neg hc, if_neg hc]
      simp only [direction, ht]
      split_ifs with hu
      · simp only [eval.eq_5, eval_adjWrench, eval.eq_2]
        rw [← s.transform_mul q a (s.frames.ofLink (t.child j)) b, SE3.actF_mul, SE3.actF_crossF _ (SE3.act _ _), ← SE3.act_mul, transform_mul, transform_self,
          SE3.act_one]
      · simp [eval]

end Server
end Verif.Rigid
