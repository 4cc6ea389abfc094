import Verif.Model.FrameVelocityCost
import Verif.Lemmas.FrameOrientation4
/- Lemmas: the absolute velocity as a function of the base twist; the atoms of the angular velocity cost. -/
set_option linter.unusedSectionVars false
namespace Verif.Rigid.Server
open Matrix Function
variable {L J F : Type} [DecidableEq L] [DecidableEq J] [DecidableEq F] [Fintype J] {m : Model L J} (s : Server m F)

/-- The velocity of the base in the state of `KinDynComputations` does not matter. -/
theorem veval_stateVel (hm : m.Regular) (st : KState J) (w : Spatial) (X : VExp J F) : s.veval { st with stateVel := w } X = s.veval st X := by
  induction X with
  | zero => rfl
  | const x => rfl
  | twist => rfl
  | comb X ih => simp only [veval, ih]
  | relVel a b => simp only [veval, s.relativeVelocity_eq hm]
  | absVel b => simp only [veval, s.relativeVelocity_eq hm]
  | app A X ih => simp only [veval, ih]
  | add X Y ihX ihY => simp only [veval, ihX, ihY]
  | sub X Y ihX ihY => simp only [veval, ihX, ihY]
  | neg X ih => simp only [veval, ih]

/-- Along a curve of base twists. -/
theorem hasDerivAt_twist_curve (hm : m.Regular) (st : KState J) {τ : ℝ → Spatial} {e : Spatial} {t : ℝ} (hid : HasDerivAt τ e t) (X : VExp J F)
    (hX : X.LinkTargets s.frames) :
    HasDerivAt (fun y : ℝ => s.veval { st with twist := τ y } X) (s.veval { st with twist := τ t } (s.vderiv (.twist e) X)) t := by
  induction X with
  | zero => exact hasDerivAt_const _ _
  | const x => exact hasDerivAt_const _ _
  | twist => exact hid
  | comb X ih =>
    simp only [veval, vderiv]
    refine hasDerivAt_sum fun k => ?_
    have : HasDerivAt (fun y : ℝ => st.dq k • s.veval { st with twist := τ y } (X k)) (st.dq k • s.veval { st with twist := τ t } (s.vderiv (.twist e) (X k))) t :=
      (ih k (hX k)).const_smul (st.dq k)
    exact this
  | relVel a b =>
    simp only [veval, vderiv, s.relativeVelocity_eq hm]
    exact hasDerivAt_const _ _
  | absVel b =>
    simp only [veval, vderiv]
    split_ifs with h
    · exact hid
    · simp only [s.relativeVelocity_eq hm, veval]
      exact ((s.eval_smooth st.q (.adj b s.baseFrame) ⟨_, rfl⟩).hasDerivAt hid).const_add _
  | app A X ih =>
    simp only [veval, vderiv]
    exact (s.eval_smooth st.q A hX.1).hasDerivAt (ih hX.2)
  | add X Y ihX ihY =>
    simp only [veval, vderiv]
    exact (ihX hX.1).add (ihY hX.2)
  | sub X Y ihX ihY =>
    simp only [veval, vderiv]
    exact (ihX hX.1).sub (ihY hX.2)
  | neg X ih =>
    simp only [veval, vderiv]
    exact (ih hX).neg

/-- The derivative with respect to the base twist is linear in the direction. -/
theorem vderiv_twist_linear (st : KState J) (X : VExp J F) (hX : X.LinkTargets s.frames) :
    ∃ A : Spatial →ₗ[ℝ] Spatial, ∀ e, s.veval st (s.vderiv (.twist e) X) = A e := by
  induction X with
  | zero => exact ⟨0, fun e => rfl⟩
  | const x => exact ⟨0, fun e => rfl⟩
  | twist => exact ⟨LinearMap.id, fun e => rfl⟩
  | comb X ih =>
    choose A hA using fun k => ih k (hX k)
    exact ⟨∑ k, st.dq k • A k, fun e => by simp [veval, vderiv, hA]⟩
  | relVel a b => exact ⟨0, fun e => rfl⟩
  | absVel b =>
    by_cases h : b = s.baseFrame
    · exact ⟨LinearMap.id, fun e => by simp only [vderiv, if_pos h, veval, LinearMap.id_apply]⟩
    · obtain ⟨M, hM⟩ := s.eval_smooth st.q (.adj b s.baseFrame) ⟨_, rfl⟩
      exact ⟨M, fun e => by simp only [vderiv, if_neg h, veval, hM]; rfl⟩
  | app A X ih =>
    obtain ⟨B, hB⟩ := ih hX.2
    obtain ⟨M, hM⟩ := s.eval_smooth st.q A hX.1
    exact ⟨(M : Spatial →ₗ[ℝ] Spatial) ∘ₗ B, fun e => by simp [veval, vderiv, hB, hM]⟩
  | add X Y ihX ihY =>
    obtain ⟨A, hA⟩ := ihX hX.1; obtain ⟨B, hB⟩ := ihY hX.2
    exact ⟨A + B, fun e => by simp [veval, vderiv, hA, hB]⟩
  | sub X Y ihX ihY =>
    obtain ⟨A, hA⟩ := ihX hX.1; obtain ⟨B, hB⟩ := ihY hX.2
    exact ⟨A - B, fun e => by simp [veval, vderiv, hA, hB]⟩
  | neg X ih =>
    obtain ⟨A, hA⟩ := ih hX
    exact ⟨-A, fun e => by simp [veval, vderiv, hA]⟩

theorem vderiv_twist_sum (st : KState J) (X : VExp J F) (hX : X.LinkTargets s.frames) {ι : Type} (t : Finset ι) (k : ι → ℝ) (e : ι → Spatial) :
    s.veval st (s.vderiv (.twist (∑ i ∈ t, k i • e i)) X) = ∑ i ∈ t, k i • s.veval st (s.vderiv (.twist (e i)) X) := by
  obtain ⟨A, hA⟩ := s.vderiv_twist_linear st X hX
  simp [hA]

/-- The second derivatives of the absolute velocity with respect to the base twist and to a joint commute. -/
theorem absVel_comm (hm : m.Regular) (st : KState J) (b : F) (j : J) (e : Spatial) :
    s.veval st (s.vderiv (.twist e) (s.vderiv (.position j) (.absVel b))) = s.veval st (s.vderiv (.position j) (s.vderiv (.twist e) (.absVel b))) := by
  have lt : (VExp.absVel b : VExp J F).LinkTargets s.frames := trivial
  have hpos : ∀ w : Spatial, HasDerivAt (fun y => s.veval { st with q := update st.q j y, twist := w } (.absVel b))
      (s.veval { st with twist := w } (s.vderiv (.position j) (.absVel b))) (st.q j) := fun w => s.hasDerivAt_position hm { st with twist := w } j _ lt
  have hpos' := s.hasDerivAt_position hm st j _ (s.vderiv_linkTargets (.twist e) (.absVel b) lt)
  have hadd : ∀ (q : J → ℝ) (r : ℝ), s.veval { st with q := q, twist := st.twist + r • e } (.absVel b) =
      s.veval { st with q := q } (.absVel b) + r • s.veval { st with q := q } (s.vderiv (.twist e) (.absVel b)) := by
    intro q r
    by_cases h : b = s.baseFrame
    · simp only [veval, vderiv, if_pos h]
    · obtain ⟨M, hM⟩ := s.eval_smooth q (.adj b s.baseFrame) ⟨_, rfl⟩
      simp only [veval, vderiv, if_neg h, s.relativeVelocity_eq hm, hM, map_add, map_smul, add_assoc]
  have key : ∀ r : ℝ, s.veval { st with twist := st.twist + r • e } (s.vderiv (.position j) (.absVel b)) =
      s.veval st (s.vderiv (.position j) (.absVel b)) + r • s.veval st (s.vderiv (.position j) (s.vderiv (.twist e) (.absVel b))) := by
    intro r
    have h1 := hpos (st.twist + r • e)
    simp only [hadd] at h1
    have h2 : HasDerivAt (fun y => s.veval { st with q := update st.q j y } (.absVel b) + r • s.veval { st with q := update st.q j y } (s.vderiv (.twist e) (.absVel b)))
        (s.veval st (s.vderiv (.position j) (.absVel b)) + r • s.veval st (s.vderiv (.position j) (s.vderiv (.twist e) (.absVel b)))) (st.q j) :=
      (hpos st.twist).add (hpos'.const_smul r)
    exact h1.unique h2
  have h1 := s.hasDerivAt_twist hm st e _ (s.vderiv_linkTargets (.position j) (.absVel b) lt)
  simp only [key] at h1
  have h2 : HasDerivAt (fun r : ℝ => s.veval st (s.vderiv (.position j) (.absVel b)) + r • s.veval st (s.vderiv (.position j) (s.vderiv (.twist e) (.absVel b))))
      ((1 : ℝ) • s.veval st (s.vderiv (.position j) (s.vderiv (.twist e) (.absVel b)))) 0 :=
    (hasDerivAt_smul_const (hasDerivAt_id (0 : ℝ)) _).const_add _
  rw [h1.unique h2, one_smul]

end Verif.Rigid.Server
