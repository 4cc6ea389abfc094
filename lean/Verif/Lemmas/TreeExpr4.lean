import Verif.Lemmas.VecExpr2
/- Lemmas: the rotations between frames that keep the axes of the joints of their link; the second derivatives are symmetric. -/
namespace Verif.Rigid
open Matrix
variable {L J F : Type} [DecidableEq L] [DecidableEq J] [DecidableEq F]

namespace Server
variable {m : Model L J} (s : Server m F)

theorem keepsAxes_ofLink (l : L) : s.KeepsAxes (s.frames.ofLink l) := by
  intro a _
  rw [s.frames.offset_ofLink]; simp

theorem keepsAxes_of_rotation {b : F} (h : (s.frames.offset b).R = 1) : s.KeepsAxes b := by
  intro a _
  rw [h]; simp

theorem eval_rot_snd (q : J → ℝ) {e : Op F} (he : s.RotTargets e) (v : Vec) : (s.eval q e (v, 0)).2 = 0 := by
  induction e generalizing v with
  | zero => rfl
  | const M => exact he.2 v
  | adj a b => rw [s.eval_adj]; simp [SE3.act]
  | adjWrench a b => exact he.elim
  | mul A B hA hB =>
    have e : s.eval q B (v, 0) = ((s.eval q B (v, 0)).1, 0) := Prod.ext rfl (hB he.2 v)
    show (s.eval q A (s.eval q B (v, 0))).2 = 0
    rw [e]; exact hA he.1 _
  | add A B hA hB => simp only [eval]; rw [Prod.snd_add, hA he.1, hB he.2, add_zero]
  | sub A B hA hB => simp only [eval]; rw [Prod.snd_sub, hA he.1, hB he.2, sub_zero]
  | neg A hA => simp only [eval]; rw [Prod.snd_neg, hA he, neg_zero]

theorem eval_rot_eq (q : J → ℝ) {e : Op F} (he : s.RotTargets e) (v : Vec) : s.eval q e (v, 0) = ((s.eval q e (v, 0)).1, 0) :=
  Prod.ext rfl (s.eval_rot_snd q he v)

theorem eval_rot_add (q : J → ℝ) {e : Op F} (he : s.RotTargets e) (x y : Spatial) : s.eval q e (x + y) = s.eval q e x + s.eval q e y := by
  induction e generalizing x y with
  | zero => simp [eval]
  | const M => obtain ⟨N, hN⟩ := he.1; simp [eval, hN]
  | adj a b => rw [eval_adj, SE3.act_add]
  | adjWrench a b => exact he.elim
  | mul A B hA hB => simp only [eval, hB he.2, hA he.1]
  | add A B hA hB => simp only [eval, hB he.2, hA he.1]; abel
  | sub A B hA hB => simp only [eval, hB he.2, hA he.1]; abel
  | neg A hA => simp only [eval, hA he]; abel

theorem eval_rot_smul (q : J → ℝ) {e : Op F} (he : s.RotTargets e) (k : ℝ) (x : Spatial) : s.eval q e (k • x) = k • s.eval q e x := by
  induction e generalizing x with
  | zero => simp [eval]
  | const M => obtain ⟨N, hN⟩ := he.1; simp [eval, hN]
  | adj a b => rw [eval_adj, SE3.act_smul]
  | adjWrench a b => exact he.elim
  | mul A B hA hB => simp only [eval, hB he.2, hA he.1]
  | add A B hA hB => simp only [eval, hB he.2, hA he.1, smul_add]
  | sub A B hA hB => simp only [eval, hB he.2, hA he.1, smul_sub]
  | neg A hA => simp only [eval, hA he, smul_neg]

theorem crossM_rot (a b : Spatial) (h : a.2 = b.2) (v : Vec) : crossM a (v, 0) = crossM b (v, 0) := by
  simp [crossM, h]

theorem eval_adjDerivative_rot (q : J → ℝ) (a b : F) (hb : s.KeepsAxes b) (j : J) (v : Vec) :
    s.eval q (s.adjDerivative a b j) (v, 0) = (s.transform q a b).act (crossM (s.direction q a b j) (v, 0)) := by
  rw [eval_adjDerivative]
  split_ifs with h
  · have hne : s.frames.link a ≠ s.frames.link b := by
      intro e
      exact Traversal.child_ne _ j (h.trans (e.symm.trans (s.root_tree _).symm))
    rw [s.direction_above q a b j h]
    congr 1
    refine crossM_rot _ _ ?_ v
    rw [← hb a hne]
    rfl
  · rfl

theorem hasDerivAt_eval_rot (hm : m.Regular) (q : J → ℝ) (j : J) (e : Op F) (he : s.RotTargets e) {y : ℝ → Vec} {y' : Vec}
    (hy : HasDerivAt y y' (q j)) :
    HasDerivAt (fun x => s.eval (Function.update q j x) e (y x, 0)) (s.eval q (s.deriv j e) (y (q j), 0) + s.eval q e (y', 0)) (q j) := by
  have hy2 : ∀ {y : ℝ → Vec} {y' : Vec}, HasDerivAt y y' (q j) → HasDerivAt (fun x => ((y x, 0) : Spatial)) (y', 0) (q j) :=
    fun hy => hy.prodMk (hasDerivAt_const _ _)
  induction e generalizing y y' with
  | zero => simpa [eval, deriv] using hasDerivAt_const (q j) (0 : Spatial)
  | const M => simpa [eval, deriv] using he.1.hasDerivAt (hy2 hy)
  | adj a b =>
    simp only [eval_adj, deriv, s.eval_adjDerivative_rot q a b he]
    refine ((s.hasTangent_transform hm q a b j).act (hy2 hy)).congr_deriv ?_
    rw [Function.update_eq_self, SE3.act_add]
  | adjWrench a b => exact he.elim
  | mul A B hA hB =>
    have h1 := hB he.2 hy
    have h1' : HasDerivAt (fun x => (s.eval (Function.update q j x) B (y x, 0)).1) (s.eval q (s.deriv j B) (y (q j), 0) + s.eval q B (y', 0)).1 (q j) := h1.fst
    have z : (s.eval q (s.deriv j B) (y (q j), 0) + s.eval q B (y', 0)).2 = 0 := by
      have h2 : HasDerivAt (fun x => (s.eval (Function.update q j x) B (y x, 0)).2) (s.eval q (s.deriv j B) (y (q j), 0) + s.eval q B (y', 0)).2 (q j) := h1.snd
      simp only [s.eval_rot_snd _ he.2] at h2
      exact h2.unique (hasDerivAt_const _ _)
    have h3 := hA he.1 h1'
    have e1 : (fun x => s.eval (Function.update q j x) (.mul A B) (y x, 0)) =
        fun x => s.eval (Function.update q j x) A ((s.eval (Function.update q j x) B (y x, 0)).1, 0) := by
      funext x
      simp only [eval]
      rw [s.eval_rot_eq _ he.2]
    rw [e1]
    refine h3.congr_deriv ?_
    simp only [deriv, eval, Function.update_eq_self]
    rw [← s.eval_rot_eq _ he.2]
    have e2 : ((s.eval q (s.deriv j B) (y (q j), 0) + s.eval q B (y', 0)).1, (0 : Vec)) = s.eval q (s.deriv j B) (y (q j), 0) + s.eval q B (y', 0) := Prod.ext rfl z.symm
    rw [e2, s.eval_rot_add q he.1]
    abel
  | add A B hA hB =>
    refine ((hA he.1 hy).add (hB he.2 hy)).congr_deriv ?_
    simp only [deriv, eval]; abel
  | sub A B hA hB =>
    refine ((hA he.1 hy).sub (hB he.2 hy)).congr_deriv ?_
    simp only [deriv, eval]; abel
  | neg A hA =>
    refine (hA he hy).neg.congr_deriv ?_
    simp only [deriv, eval]; abel

theorem smooth_crossM_rot (x : Spatial) : Smooth (crossM x) ∧ ∀ v : Vec, (crossM x (v, 0)).2 = 0 := ⟨smooth_crossM x, fun v => by simp [crossM]⟩

theorem rotTargets_deriv (j : J) (e : Op F) (he : s.RotTargets e) : s.RotTargets (s.deriv j e) := by
  induction e with
  | zero => trivial
  | const M => trivial
  | adj a b =>
    simp only [deriv, adjDerivative_eq]
    split_ifs
    · trivial
    · exact ⟨he, smooth_crossM_rot _⟩
    · exact ⟨⟨s.keepsAxes_ofLink _, smooth_crossM_rot _⟩, he⟩
    · trivial
  | adjWrench a b => exact he.elim
  | mul A B hA hB => exact ⟨⟨hA he.1, he.2⟩, he.1, hB he.2⟩
  | add A B hA hB => exact ⟨hA he.1, hB he.2⟩
  | sub A B hA hB => exact ⟨hA he.1, hB he.2⟩
  | neg A hA => exact hA he

theorem rotTargets_derivs (js : List J) (e : Op F) (he : s.RotTargets e) : s.RotTargets (s.derivs e js) := by
  induction js generalizing e with
  | nil => exact he
  | cons j js ih => exact ih _ (s.rotTargets_deriv j e he)

/-! ### The directions -/

/-- How the direction of a joint changes with another one: only when that one is between the joint and the frame. -/
theorem hasDerivAt_direction' (hm : m.Regular) (q : J → ℝ) (a b : F) (j k : J) :
    HasDerivAt (fun x => s.direction (Function.update q k x) a b j)
      (if (s.tree (s.frames.link a)).child k ∈ (s.tree (s.frames.link a)).up ((s.tree (s.frames.link a)).child j) then 0
        else -crossM (s.direction q a b k) (s.direction q a b j)) (q k) := by
  let t := s.tree (s.frames.link a)
  let c := s.frames.ofLink (t.child j)
  have lc : s.frames.link c = t.child j := s.frames.link_ofLink _
  by_cases hj : t.child j ∈ t.up (s.frames.link b)
  · have e1 : ∀ q, s.direction q a b j = ((s.transform q a b)⁻¹ * s.transform q a c).act (t.subspace (t.child j)) := by
      intro q
      have : (s.transform q a b)⁻¹ * s.transform q a c = s.transform q b c := by simp [transform, Traversal.rel, mul_assoc]
      rw [this]
      show (if t.child j ∈ t.up (s.frames.link b) then _ else _) = _
      rw [if_pos hj]
    have h1 := (s.hasTangent_transform hm q a b k).inv.mul (s.hasTangent_transform hm q a c k)
    have h2 := h1.act (hasDerivAt_const (q k) (t.subspace (t.child j)))
    rw [funext fun x => e1 (Function.update q k x)]
    refine h2.congr_deriv ?_
    simp only [Function.update_eq_self, add_zero]
    rw [e1 q]
    by_cases hk : t.child k ∈ t.up (t.child j)
    · rw [if_pos hk]
      have d1 : s.direction q a c k = (s.transform q c (s.frames.ofLink (t.child k))).act (t.subspace (t.child k)) := by
        show (if t.child k ∈ t.up (s.frames.link c) then _ else _) = _
        rw [lc, if_pos hk]
      have d2 : s.direction q a b k = (s.transform q b (s.frames.ofLink (t.child k))).act (t.subspace (t.child k)) := by
        show (if t.child k ∈ t.up (s.frames.link b) then _ else _) = _
        rw [if_pos (t.mem_up_trans hk hj)]
      have z : (s.transform q a c)⁻¹.act (-(s.transform q a b).act (s.direction q a b k)) + s.direction q a c k = 0 := by
        rw [d1, d2, SE3.act_neg, ← SE3.act_mul, ← SE3.act_mul]
        have : (s.transform q a c)⁻¹ * (s.transform q a b * s.transform q b (s.frames.ofLink (t.child k))) = s.transform q c (s.frames.ofLink (t.child k)) := by
          simp [transform, Traversal.rel, mul_assoc]
        rw [← mul_assoc] at this
        rw [this]; abel
      rw [z]
      ext1 <;> simp [crossM, SE3.act]
    · rw [if_neg hk]
      have d1 : s.direction q a c k = 0 := by
        show (if t.child k ∈ t.up (s.frames.link c) then _ else _) = _
        rw [lc, if_neg hk]
      rw [d1, add_zero, SE3.act_crossM]
      rw [SE3.act_neg, SE3.act_neg, ← SE3.act_mul, ← SE3.act_mul]
      have : (s.transform q a b)⁻¹ * s.transform q a c * ((s.transform q a c)⁻¹ * s.transform q a b) = 1 := by group
      rw [← mul_assoc] at this
      rw [show ((s.transform q a b)⁻¹ * s.transform q a c * (s.transform q a c)⁻¹ * s.transform q a b) = 1 from this, SE3.act_one]
      ext1 <;> simp [crossM] <;> abel
  · have e1 : ∀ q, s.direction q a b j = 0 := by
      intro q
      show (if t.child j ∈ t.up (s.frames.link b) then _ else _) = _
      rw [if_neg hj]
    simp only [e1]
    refine (hasDerivAt_const (q k) (0 : Spatial)).congr_deriv ?_
    split_ifs
    · rfl
    · ext1 <;> simp [crossM]

/-- The derivatives of every order of what is made of rotations. -/
theorem hasDerivAt_rotations (hm : m.Regular) (e : Op F) (he : s.RotTargets e) (q : J → ℝ) (js : List J) (j : J) (v : Vec) :
    HasDerivAt (fun y => s.eval (Function.update q j y) (s.derivs e js) (v, 0)) (s.eval q (s.derivs e (js ++ [j])) (v, 0)) (q j) := by
  rw [s.derivs_snoc]
  refine (s.hasDerivAt_eval_rot hm q j (s.derivs e js) (s.rotTargets_derivs js e he) (hasDerivAt_const (q j) v)).congr_deriv ?_
  have z : s.eval q (s.derivs e js) ((0 : Vec), 0) = 0 := by
    have := s.eval_rot_smul q (s.rotTargets_derivs js e he) 0 0
    rw [zero_smul, zero_smul] at this
    exact this
  rw [z, add_zero]

/-! ### The second derivatives are symmetric -/

theorem direction_above_or_zero (q : J → ℝ) (a b : F) (j k : J) :
    s.direction q a b j = 0 ∨ s.direction q a b k = 0 ∨
      ((s.tree (s.frames.link a)).child k ∈ (s.tree (s.frames.link a)).up ((s.tree (s.frames.link a)).child j) ∨
      (s.tree (s.frames.link a)).child j ∈ (s.tree (s.frames.link a)).up ((s.tree (s.frames.link a)).child k)) := by
  by_cases hj : (s.tree (s.frames.link a)).child j ∈ (s.tree (s.frames.link a)).up (s.frames.link b)
  · by_cases hk : (s.tree (s.frames.link a)).child k ∈ (s.tree (s.frames.link a)).up (s.frames.link b)
    · exact .inr (.inr ((Traversal.mem_up_total _ hk hj)))
    · exact .inr (.inl (if_neg hk))
  · exact .inl (if_neg hj)

theorem direction_congr (q : J → ℝ) (a b : F) {j k : J} (h : (s.tree (s.frames.link a)).child j = (s.tree (s.frames.link a)).child k) :
    s.direction q a b j = s.direction q a b k := by
  unfold direction
  simp only [h]

/-- How the direction of a joint changes with another one. -/
noncomputable def directionDer (q : J → ℝ) (a b : F) (j k : J) : Spatial :=
  if (s.tree (s.frames.link a)).child k ∈ (s.tree (s.frames.link a)).up ((s.tree (s.frames.link a)).child j) then 0
  else -crossM (s.direction q a b k) (s.direction q a b j)

theorem directionDer_cases (q : J → ℝ) (a b : F) (j k : J) :
    s.directionDer q a b j k - s.directionDer q a b k j = crossM (s.direction q a b j) (s.direction q a b k) := by
  unfold directionDer
  have hz : ∀ x : Spatial, crossM 0 x = 0 := fun x => by ext1 <;> simp [crossM]
  have hz' : ∀ x : Spatial, crossM x 0 = 0 := fun x => by ext1 <;> simp [crossM]
  rcases s.direction_above_or_zero q a b j k with h | h | h | h
  · rw [h, hz, hz']; split_ifs <;> simp
  · rw [h, hz, hz']; split_ifs <;> simp
  · rw [if_pos h]
    by_cases h' : (s.tree (s.frames.link a)).child j ∈ (s.tree (s.frames.link a)).up ((s.tree (s.frames.link a)).child k)
    · rw [if_pos h', s.direction_congr q a b (Traversal.mem_up_antisymm _ h' h)]
      ext1 <;> simp [crossM]
    · rw [if_neg h']; abel
  · rw [if_pos h]
    by_cases h' : (s.tree (s.frames.link a)).child k ∈ (s.tree (s.frames.link a)).up ((s.tree (s.frames.link a)).child j)
    · rw [if_pos h', s.direction_congr q a b (Traversal.mem_up_antisymm _ h h')]
      ext1 <;> simp [crossM]
    · rw [if_neg h', sub_zero]
      ext1 <;> simp [crossM]

/-- The second derivative of a rotation. -/
theorem eval_rot_second (hm : m.Regular) (q : J → ℝ) (a b : F) (hb : s.KeepsAxes b) (j k : J) (v : Vec) :
    s.eval q (s.derivs (.adj a b) [j, k]) (v, 0) =
      (s.transform q a b).act (crossM (s.direction q a b k) (crossM (s.direction q a b j) (v, 0)) + crossM (s.directionDer q a b j k) (v, 0)) := by
  have h1 := s.hasDerivAt_rotations hm (.adj a b) hb q [j] k v
  have e : ∀ q, s.eval q (s.derivs (.adj a b) [j]) (v, 0) = (s.transform q a b).act (crossM (s.direction q a b j) (v, 0)) :=
    fun q => s.eval_adjDerivative_rot q a b hb j v
  rw [funext fun y => e (Function.update q k y)] at h1
  have hd : HasDerivAt (fun x => crossM (s.direction (Function.update q k x) a b j) (v, 0)) (crossM (s.directionDer q a b j k) (v, 0)) (q k) := by
    have := s.hasDerivAt_direction' hm q a b j k
    have h2 : HasDerivAt (fun x => (s.direction (Function.update q k x) a b j).2) (s.directionDer q a b j k).2 (q k) := this.snd
    have h3 := hasDerivAt_cross h2 (hasDerivAt_const (q k) v)
    have e1 : ∀ x : Spatial, crossM x (v, 0) = (x.2 ⨯₃ v, 0) := fun x => by ext1 <;> simp [crossM]
    simp only [e1]
    refine HasDerivAt.prodMk (h3.congr_deriv (by simp)) (hasDerivAt_const _ _)
  have h2 := (s.hasTangent_transform hm q a b k).act hd
  refine h1.unique (h2.congr_deriv ?_)
  rw [Function.update_eq_self]

theorem rot_second_symm (hm : m.Regular) (q : J → ℝ) (a b : F) (hb : s.KeepsAxes b) (j k : J) (v : Vec) :
    s.eval q (s.derivs (.adj a b) [j, k]) (v, 0) = s.eval q (s.derivs (.adj a b) [k, j]) (v, 0) := by
  rw [s.eval_rot_second hm q a b hb, s.eval_rot_second hm q a b hb]
  congr 1
  have h := s.directionDer_cases q a b j k
  have e : s.directionDer q a b j k = crossM (s.direction q a b j) (s.direction q a b k) + s.directionDer q a b k j := by
    rw [← h]; abel
  rw [e]
  generalize s.direction q a b j = x
  generalize s.direction q a b k = y
  generalize s.directionDer q a b k j = z
  ext i
  · fin_cases i <;> simp [crossM, cross_apply, vecHead, vecTail] <;> ring
  · simp [crossM]

end Server
end Verif.Rigid
