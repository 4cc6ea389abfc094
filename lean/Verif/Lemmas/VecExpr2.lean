import Verif.Lemmas.VecExpr
import Mathlib.Analysis.Calculus.Deriv.Add
import Mathlib.Analysis.Calculus.Deriv.Shift
/- Lemmas: the derivatives of the expressions of the velocities. -/
namespace Verif.Rigid
open Matrix
variable {L J F : Type} [DecidableEq L] [DecidableEq J] [DecidableEq F] {m : Model L J}
namespace Server
variable (s : Server m F)

theorem kin_up_base : s.kin.up s.base = [] := by
  have h := s.kin.up_root; rwa [show s.kin.root = s.base from s.root_tree _] at h

theorem absoluteVelocityJointsDerivative_eq (b : F) (j : J) :
    s.absoluteVelocityJointsDerivative b j =
      if s.kin.child j ∈ s.kin.up (s.frames.link b) then
        (.app (.mul (.adj b (s.frames.ofLink (s.kin.child j))) (.neg (.const (crossM (s.kin.subspace (s.kin.child j)))))) (.absVel (s.frames.ofLink (s.kin.child j))))
      else .zero := by
  unfold absoluteVelocityJointsDerivative
  by_cases h : b = s.baseFrame
  · subst h
    rw [if_pos rfl, if_neg (by rw [s.frames.link_ofLink, s.kin_up_base]; simp)]
  · rw [if_neg h]
    exact foldl_pair s.kin (fun _ h => Traversal.ne_root_of_mem _ h) (fun visited => (VExp.app (.mul (.adj b (s.frames.ofLink visited)) (.neg (.const (crossM (s.kin.subspace visited))))) (.absVel (s.frames.ofLink visited)) : VExp J F)) _ j

variable [Fintype J]

theorem hasDerivAt_sum {f : J → ℝ → Spatial} {f' : J → Spatial} {x : ℝ} (h : ∀ k, HasDerivAt (f k) (f' k) x) :
    HasDerivAt (fun y => ∑ k, f k y) (∑ k, f' k) x := by
  have := HasDerivAt.sum (u := Finset.univ) (fun k _ => h k)
  refine this.congr_of_eventuallyEq (Filter.Eventually.of_forall fun y => ?_)
  simp

theorem veval_jacobianColumn (st : KState J) (a b : F) (j : J) : s.veval st (s.jacobianColumn a b j) = s.direction st.q a b j := by
  simp only [jacobianColumn, veval]; exact s.eval_jacobian st.q a b j

theorem hasDerivAt_direction (hm : m.Regular) (q : J → ℝ) (a b : F) (j k : J) :
    HasDerivAt (fun x => s.direction (Function.update q j x) a b k)
      (s.eval q (s.deriv j (s.jacobian a b k).1) (s.jacobian a b k).2) (q j) := by
  simp only [← eval_jacobian]
  refine (s.hasDerivAt_eval hm q j _ (s.jacobian_linkTargets a b k) (hasDerivAt_const (q j) _)).congr_deriv ?_
  rw [s.eval_zero q _ (s.jacobian_linkTargets a b k), add_zero]

/-- With respect to the position of a joint. -/
theorem hasDerivAt_position (hm : m.Regular) (st : KState J) (j : J) (X : VExp J F) (hX : X.LinkTargets s.frames) :
    HasDerivAt (fun x => s.veval { st with q := Function.update st.q j x } X) (s.veval st (s.vderiv (.position j) X)) (st.q j) := by
  induction X with
  | zero => exact hasDerivAt_const _ _
  | const x => exact hasDerivAt_const _ _
  | twist => exact hasDerivAt_const _ _
  | comb X ih =>
    simp only [veval, vderiv]
    refine hasDerivAt_sum fun k => ?_
    have : HasDerivAt (fun x => st.dq k • s.veval { st with q := Function.update st.q j x } (X k)) (st.dq k • s.veval st (s.vderiv (.position j) (X k))) (st.q j) :=
      (ih k (hX k)).const_smul (st.dq k)
    exact this
  | relVel a b =>
    simp only [veval, vderiv, s.relativeVelocity_eq hm, s.eval_zero _ _ (s.jacobian_linkTargets a b _), add_zero]
    refine hasDerivAt_sum fun k => ?_
    have : HasDerivAt (fun x => st.dq k • s.direction (Function.update st.q j x) a b k) (st.dq k • s.eval st.q (s.deriv j (s.jacobian a b k).1) (s.jacobian a b k).2) (st.q j) :=
      (s.hasDerivAt_direction hm st.q a b j k).const_smul (st.dq k)
    exact this
  | absVel b =>
    simp only [s.veval_absVel hm, vderiv]
    refine (s.kin.hasDerivAt_frameVel hm 1 st.twist st.q st.dq (s.frames.link b) (s.frames.offset b) j).congr_deriv ?_
    rw [Traversal.frameVelJointsDerivative_eq, absoluteVelocityJointsDerivative_eq]
    split_ifs
    · have h1 := s.veval_absVel hm st (s.frames.ofLink (s.kin.child j))
      simp only [veval] at h1 ⊢
      rw [h1, s.frames.link_ofLink, s.frames.offset_ofLink]
      simp only [eval]
      have h2 := s.eval_adj st.q b (s.frames.ofLink (s.kin.child j))
      simp only [eval] at h2
      rw [h2, transform, s.frames.link_ofLink, s.frames.offset_ofLink, mul_one, crossM_neg, Traversal.frameVel]
      simp
    · rfl
  | app A X ih =>
    simp only [veval, vderiv]
    refine (s.hasDerivAt_eval hm st.q j A hX.1 (ih hX.2)).congr_deriv ?_
    simp
  | add X Y ihX ihY =>
    simp only [veval, vderiv]
    exact (ihX hX.1).add (ihY hX.2)
  | sub X Y ihX ihY =>
    simp only [veval, vderiv]
    exact (ihX hX.1).sub (ihY hX.2)
  | neg X ih =>
    simp only [veval, vderiv]
    exact (ih hX).neg

theorem eval_smooth (q : J → ℝ) (A : Op F) (hA : A.LinkTargets s.frames) : Smooth (s.eval q A) := by
  induction A with
  | zero => exact ⟨0, fun _ => rfl⟩
  | const M => exact hA
  | adj a b => rw [s.eval_adj]; exact smooth_of_linear (SE3.act_add _) (SE3.act_smul _)
  | adjWrench a b => rw [s.eval_adjWrench]; exact smooth_of_linear (SE3.actF_add _) (SE3.actF_smul _)
  | mul A B ihA ihB =>
    obtain ⟨M, hM⟩ := ihA hA.1; obtain ⟨N, hN⟩ := ihB hA.2
    exact ⟨M.comp N, fun x => by simp [eval, hM, hN]⟩
  | add A B ihA ihB =>
    obtain ⟨M, hM⟩ := ihA hA.1; obtain ⟨N, hN⟩ := ihB hA.2
    exact ⟨M + N, fun x => by simp [eval, hM, hN]⟩
  | sub A B ihA ihB =>
    obtain ⟨M, hM⟩ := ihA hA.1; obtain ⟨N, hN⟩ := ihB hA.2
    exact ⟨M - N, fun x => by simp [eval, hM, hN]⟩
  | neg A ihA =>
    obtain ⟨M, hM⟩ := ihA hA
    exact ⟨-M, fun x => by simp [eval, hM]⟩

theorem hasDerivAt_update (dq : J → ℝ) (j k : J) : HasDerivAt (fun x => Function.update dq j x k) (if k = j then 1 else 0) (dq j) := by
  by_cases h : k = j
  · subst h; simpa using hasDerivAt_id' (dq k)
  · simpa [Function.update_of_ne h, h] using hasDerivAt_const (dq j) (dq k)

theorem hasDerivAt_smul_const {f : ℝ → ℝ} {f' x : ℝ} (hf : HasDerivAt f f' x) (v : Spatial) : HasDerivAt (fun y => f y • v) (f' • v) x := hf.smul_const v

theorem sum_pick (f : J → Spatial) (j : J) : ∑ k, (if k = j then (1 : ℝ) else 0) • f k = f j := by simp

/-- With respect to the velocity of a joint. -/
theorem hasDerivAt_velocity (hm : m.Regular) (st : KState J) (j : J) (X : VExp J F) (hX : X.LinkTargets s.frames) :
    HasDerivAt (fun x => s.veval { st with dq := Function.update st.dq j x } X) (s.veval st (s.vderiv (.velocity j) X)) (st.dq j) := by
  have hrel : ∀ a b, HasDerivAt (fun x => ∑ k, (Function.update st.dq j x k) • s.direction st.q a b k) (s.direction st.q a b j) (st.dq j) := by
    intro a b
    refine (hasDerivAt_sum (f := fun k x => (Function.update st.dq j x k) • s.direction st.q a b k)
      (f' := fun k => (if k = j then (1 : ℝ) else 0) • s.direction st.q a b k) fun k => ?_).congr_deriv (sum_pick _ j)
    exact hasDerivAt_smul_const (hasDerivAt_update st.dq j k) _
  induction X with
  | zero => exact hasDerivAt_const _ _
  | const x => exact hasDerivAt_const _ _
  | twist => exact hasDerivAt_const _ _
  | comb X ih =>
    simp only [veval, vderiv]
    have h : ∀ k, HasDerivAt (fun x => Function.update st.dq j x k • s.veval { st with dq := Function.update st.dq j x } (X k))
        ((if k = j then (1 : ℝ) else 0) • s.veval st (X k) + st.dq k • s.veval st (s.vderiv (.velocity j) (X k))) (st.dq j) := by
      intro k
      have := (hasDerivAt_update st.dq j k).smul (ih k (hX k))
      refine this.congr_deriv ?_
      simp [add_comm]
    refine (hasDerivAt_sum h).congr_deriv ?_
    rw [Finset.sum_add_distrib, sum_pick]
  | relVel a b =>
    simp only [veval, vderiv, s.relativeVelocity_eq hm, veval_jacobianColumn]
    exact hrel a b
  | absVel b =>
    simp only [veval, vderiv]
    split_ifs with h
    · exact hasDerivAt_const _ _
    · simp only [s.relativeVelocity_eq hm, veval_jacobianColumn]
      exact (hrel _ b).add_const _
  | app A X ih =>
    simp only [veval, vderiv]
    exact (s.eval_smooth st.q A hX.1).hasDerivAt (ih hX.2)
  | add X Y ihX ihY =>
    simp only [veval, vderiv]
    exact (ihX hX.1).add (ihY hX.2)
  | sub X Y ihX ihY =>
    simp only [veval, vderiv]
    exact (ihX hX.1).sub (ihY hX.2)
  | neg X ih =>
    simp only [veval, vderiv]
    exact (ih hX).neg

/-- With respect to the base twist. -/
theorem hasDerivAt_twist (hm : m.Regular) (st : KState J) (e : Spatial) (X : VExp J F) (hX : X.LinkTargets s.frames) :
    HasDerivAt (fun x : ℝ => s.veval { st with twist := st.twist + x • e } X) (s.veval st (s.vderiv (.twist e) X)) 0 := by
  have hid : HasDerivAt (fun x : ℝ => st.twist + x • e) e 0 := by
    have := (hasDerivAt_smul_const (hasDerivAt_id (0 : ℝ)) e).const_add st.twist
    exact this.congr_deriv (by simp)
  induction X with
  | zero => exact hasDerivAt_const _ _
  | const x => exact hasDerivAt_const _ _
  | twist => exact hid
  | comb X ih =>
    simp only [veval, vderiv]
    refine hasDerivAt_sum fun k => ?_
    have : HasDerivAt (fun x : ℝ => st.dq k • s.veval { st with twist := st.twist + x • e } (X k)) (st.dq k • s.veval st (s.vderiv (.twist e) (X k))) 0 :=
      (ih k (hX k)).const_smul (st.dq k)
    exact this
  | relVel a b =>
    simp only [veval, vderiv, s.relativeVelocity_eq hm]
    exact hasDerivAt_const _ _
  | absVel b =>
    simp only [veval, vderiv]
    split_ifs with h
    · exact hid
    · simp only [s.relativeVelocity_eq hm, veval]
      exact ((s.eval_smooth st.q (.adj b s.baseFrame) ⟨_, rfl⟩).hasDerivAt hid).const_add _
  | app A X ih =>
    simp only [veval, vderiv]
    exact (s.eval_smooth st.q A hX.1).hasDerivAt (ih hX.2)
  | add X Y ihX ihY =>
    simp only [veval, vderiv]
    exact (ihX hX.1).add (ihY hX.2)
  | sub X Y ihX ihY =>
    simp only [veval, vderiv]
    exact (ihX hX.1).sub (ihY hX.2)
  | neg X ih =>
    simp only [veval, vderiv]
    exact (ih hX).neg

/-- With respect to any variable. -/
theorem hasDerivAt_veval (hm : m.Regular) (st : KState J) (d : KVar J) (X : VExp J F) (hX : X.LinkTargets s.frames) :
    HasDerivAt (fun x => s.veval (st.move d x) X) (s.veval st (s.vderiv d X)) 0 := by
  cases d with
  | position j =>
    have h := s.hasDerivAt_position hm st j X hX
    rw [← add_zero (st.q j)] at h
    exact h.comp_const_add (st.q j) 0
  | velocity j =>
    have h := s.hasDerivAt_velocity hm st j X hX
    rw [← add_zero (st.dq j)] at h
    exact h.comp_const_add (st.dq j) 0
  | twist e => exact s.hasDerivAt_twist hm st e X hX

theorem jacobianColumn_linkTargets (a b : F) (j : J) : (s.jacobianColumn a b j).LinkTargets s.frames := ⟨s.jacobian_linkTargets a b j, trivial⟩

theorem absoluteVelocityJointsDerivative_linkTargets (b : F) (j : J) : (s.absoluteVelocityJointsDerivative b j).LinkTargets s.frames := by
  rw [absoluteVelocityJointsDerivative_eq]
  split_ifs
  · exact ⟨⟨⟨_, rfl⟩, smooth_crossM _⟩, trivial⟩
  · trivial

theorem vderiv_linkTargets (d : KVar J) (X : VExp J F) (hX : X.LinkTargets s.frames) : (s.vderiv d X).LinkTargets s.frames := by
  induction X with
  | zero => cases d <;> trivial
  | const x => cases d <;> trivial
  | twist => cases d <;> trivial
  | comb X ih =>
    cases d with
    | velocity j => exact ⟨hX j, fun k => ih k (hX k)⟩
    | position j => exact fun k => ih k (hX k)
    | twist e => exact fun k => ih k (hX k)
  | relVel a b =>
    cases d with
    | velocity j => exact s.jacobianColumn_linkTargets a b j
    | position j => exact fun k => ⟨⟨s.linkTargets_deriv j _ (s.jacobian_linkTargets a b k), trivial⟩, s.jacobian_linkTargets a b k, trivial⟩
    | twist e => trivial
  | absVel b =>
    cases d with
    | velocity j => simp only [vderiv]; split_ifs; exacts [trivial, s.jacobianColumn_linkTargets _ b j]
    | position j => exact s.absoluteVelocityJointsDerivative_linkTargets b j
    | twist e => simp only [vderiv]; split_ifs; exacts [trivial, ⟨⟨_, rfl⟩, trivial⟩]
  | app A X ih =>
    cases d with
    | velocity j => exact ⟨hX.1, ih hX.2⟩
    | position j => exact ⟨⟨s.linkTargets_deriv j A hX.1, hX.2⟩, hX.1, ih hX.2⟩
    | twist e => exact ⟨hX.1, ih hX.2⟩
  | add X Y ihX ihY => cases d <;> exact ⟨ihX hX.1, ihY hX.2⟩
  | sub X Y ihX ihY => cases d <;> exact ⟨ihX hX.1, ihY hX.2⟩
  | neg X ih => cases d <;> exact ih hX

theorem vderivs_linkTargets (ds : List (KVar J)) (X : VExp J F) (hX : X.LinkTargets s.frames) : (s.vderivs X ds).LinkTargets s.frames := by
  induction ds generalizing X with
  | nil => exact hX
  | cons d ds ih => exact ih _ (s.vderiv_linkTargets d X hX)

theorem vderivs_snoc (X : VExp J F) (ds : List (KVar J)) (d : KVar J) : s.vderivs X (ds ++ [d]) = s.vderiv d (s.vderivs X ds) := by
  unfold vderivs; rw [List.foldl_append]; rfl

end Server
end Verif.Rigid
