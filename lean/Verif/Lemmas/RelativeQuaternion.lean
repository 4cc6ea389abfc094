import Verif.Spec.RelativeQuaternion
import Verif.Lemmas.VecExpr2
import Verif.Lemmas.FrameOrientation3
/- Lemmas for the expression of the relative quaternion. -/
namespace Verif.Rigid
open Matrix Verif.Quaternion
variable {L J F : Type} [DecidableEq L] [DecidableEq J] [DecidableEq F] {m : Model L J}

theorem gExpression_left (q : Quat ℝ) : (0.5 : ℝ) • (gExpression q)ᵀ = leftTrivializedDerivative q := by
  rw [NLP.Kin.left_gMat]
  congr 1
  ext i j
  fin_cases i <;> fin_cases j <;> simp [gExpression, NLP.Kin.gMat, im, skew, Fin.cases, Fin.induction, Fin.induction.go, Matrix.one_apply]

theorem hat_skew (w : Vec) : hat w = skew w := by
  ext i k
  fin_cases i <;> fin_cases k <;> simp [hat, skew]

theorem gExpression_entry (q : Quat ℝ) (w : Vec) : ((0.5 : ℝ) • (gExpression q)ᵀ) *ᵥ w =
    ![-(q 1 * w 0 + q 2 * w 1 + q 3 * w 2) / 2, (q 0 * w 0 - q 3 * w 1 + q 2 * w 2) / 2, (q 3 * w 0 + q 0 * w 1 - q 1 * w 2) / 2,
      (-q 2 * w 0 + q 1 * w 1 + q 0 * w 2) / 2] := by
  rw [gExpression_left, NLP.Kin.left_gMat]
  funext i
  fin_cases i <;> simp [NLP.Kin.gMat, mulVec, dotProduct, Fin.sum_univ_three] <;> ring

theorem hasDerivAt_map {q : ℝ → Quat ℝ} {w : ℝ → Vec} {q' : Quat ℝ} {w' : Vec} {t : ℝ} (hq : HasDerivAt q q' t) (hw : HasDerivAt w w' t) :
    HasDerivAt (fun x => ((0.5 : ℝ) • (gExpression (q x))ᵀ) *ᵥ w x)
      (((0.5 : ℝ) • (gExpression q')ᵀ) *ᵥ w t + ((0.5 : ℝ) • (gExpression (q t))ᵀ) *ᵥ w') t := by
  simp only [gExpression_entry]
  rw [hasDerivAt_pi] at hq hw ⊢
  intro i
  fin_cases i
  · exact (((((hq 1).mul (hw 0)).add ((hq 2).mul (hw 1))).add ((hq 3).mul (hw 2))).neg.div_const 2).congr_deriv (by simp; ring)
  · exact (((((hq 0).mul (hw 0)).sub ((hq 3).mul (hw 1))).add ((hq 2).mul (hw 2))).div_const 2).congr_deriv (by simp; ring)
  · exact (((((hq 3).mul (hw 0)).add ((hq 0).mul (hw 1))).sub ((hq 1).mul (hw 2))).div_const 2).congr_deriv (by simp; ring)
  · exact (((((hq 2).neg.mul (hw 0)).add ((hq 1).mul (hw 1))).add ((hq 0).mul (hw 2))).div_const 2).congr_deriv (by simp; ring)

namespace Server
variable (s : Server m F) {asQ : Matrix (Fin 3) (Fin 3) ℝ → Quat ℝ}

theorem transform_mem (q : J → ℝ) (a b : F) : (s.transform q a b).R ∈ Rotations := ⟨(s.transform q a b).orthogonal, (s.transform q a b).det⟩

/-- The quaternion of the moving transform. -/
theorem hasDerivAt_rho (hm : m.Regular) (q : J → ℝ) (a b : F) (j : J) (h : Verif.Quaternion.Steady asQ (s.transform q a b).R) :
    HasDerivAt (fun x => asQ (s.transform (Function.update q j x) a b).R)
      (((0.5 : ℝ) • (gExpression (asQ (s.transform q a b).R))ᵀ) *ᵥ (s.direction q a b j).2) (q j) := by
  have e : s.transform (Function.update q j (q j)) a b = s.transform q a b := by rw [Function.update_eq_self]
  have h1 := (hasTangent_iff.1 (s.hasTangent_transform hm q a b j)).1
  simp only [hat_skew] at h1
  have := hasDerivAt_asQuaternion (asQ := asQ) (fun x => s.transform_mem (Function.update q j x) a b) h1 (by rw [e]; exact h)
  rw [e] at this
  rw [gExpression_left]
  exact this

variable [Fintype J]

theorem hasDerivAt_qeval (hm : m.Regular) (st : KState J) (d : KVar J) (X : QExp J F) (hX : X.LinkTargets s.frames) (hs : X.Steady s asQ st.q) :
    HasDerivAt (fun x => s.qeval asQ (st.move d x) X) (s.qeval asQ st (s.qderiv d X)) 0 := by
  induction X with
  | zero => cases d <;> exact hasDerivAt_const _ _
  | const q => cases d <;> exact hasDerivAt_const _ _
  | rho a b =>
    cases d with
    | position j =>
      have h := s.hasDerivAt_rho hm st.q a b j hs
      rw [← add_zero (st.q j)] at h
      have := h.comp_const_add (st.q j) 0
      show HasDerivAt (fun x => asQ (s.transform (Function.update st.q j (st.q j + x)) a b).R) (((0.5 : ℝ) • (gExpression (asQ (s.transform st.q a b).R))ᵀ) *ᵥ
        (s.veval st (s.jacobianColumn a b j)).2) 0
      rw [s.veval_jacobianColumn]
      exact this
    | velocity j => exact hasDerivAt_const (0 : ℝ) (asQ (s.transform st.q a b).R)
    | twist e => exact hasDerivAt_const (0 : ℝ) (asQ (s.transform st.q a b).R)
  | map X V ih =>
    have h1 := ih hX.1 hs
    have h2 : HasDerivAt (fun x => (s.veval (st.move d x) V).2) (s.veval st (s.vderiv d V)).2 0 := (s.hasDerivAt_veval hm st d V hX.2).snd
    have e : st.move d 0 = st := by cases d <;> simp [KState.move]
    have h3 := hasDerivAt_map h1 h2
    rw [e] at h3
    cases d <;> exact h3
  | add X Y ih1 ih2 => cases d <;> exact (ih1 hX.1 hs.1).add (ih2 hX.2 hs.2)

theorem qderiv_linkTargets (d : KVar J) (X : QExp J F) (hX : X.LinkTargets s.frames) : (s.qderiv d X).LinkTargets s.frames := by
  induction X with
  | zero => cases d <;> trivial
  | const q => cases d <;> trivial
  | rho a b =>
    cases d with
    | position j => exact ⟨trivial, s.jacobianColumn_linkTargets a b j⟩
    | velocity j => trivial
    | twist e => trivial
  | map X V ih =>
    have h := s.vderiv_linkTargets d V hX.2
    cases d <;> exact ⟨⟨ih hX.1, hX.2⟩, hX.1, h⟩
  | add X Y ih1 ih2 => cases d <;> exact ⟨ih1 hX.1, ih2 hX.2⟩

theorem qderiv_steady (q : J → ℝ) (d : KVar J) (X : QExp J F) (hX : X.Steady s asQ q) : (s.qderiv d X).Steady s asQ q := by
  induction X with
  | zero => cases d <;> trivial
  | const q => cases d <;> trivial
  | rho a b =>
    cases d with
    | position j => exact hX
    | velocity j => trivial
    | twist e => trivial
  | map X V ih => cases d <;> exact ⟨ih hX, hX⟩
  | add X Y ih1 ih2 => cases d <;> exact ⟨ih1 hX.1, ih2 hX.2⟩

theorem qderivs_keep (q : J → ℝ) (ds : List (KVar J)) (X : QExp J F) (h1 : X.LinkTargets s.frames) (h2 : X.Steady s asQ q) :
    (s.qderivs X ds).LinkTargets s.frames ∧ (s.qderivs X ds).Steady s asQ q := by
  induction ds generalizing X with
  | nil => exact ⟨h1, h2⟩
  | cons d ds ih => exact ih _ (s.qderiv_linkTargets d X h1) (s.qderiv_steady q d X h2)

end Server
end Verif.Rigid
