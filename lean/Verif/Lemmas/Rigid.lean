import Verif.Spec.Rigid
import Verif.Tac
import Mathlib.Analysis.Calculus.Deriv.Mul
import Mathlib.Analysis.Calculus.MeanValue
/- Algebra and calculus of rigid motions. -/
namespace Verif.Rigid
open Matrix

theorem cross_mulVec {R : Matrix (Fin 3) (Fin 3) ℝ} (h : R * Rᵀ = 1) (hd : R.det = 1) (a b : Vec) :
    (R *ᵥ a) ⨯₃ (R *ᵥ b) = R *ᵥ (a ⨯₃ b) := by
  have key : Rᵀ *ᵥ ((R *ᵥ a) ⨯₃ (R *ᵥ b)) = R.det • (a ⨯₃ b) := by
    rw [det_fin_three]
    ext i
    fin_cases i <;> simp [mulVec, dotProduct, Fin.sum_univ_three, cross_apply] <;> ring
  rw [hd, one_smul] at key
  rw [← key, mulVec_mulVec, h, one_mulVec]

namespace SE3

@[simp] theorem one_R : (1 : SE3).R = 1 := rfl
@[simp] theorem one_p : (1 : SE3).p = 0 := rfl
@[simp] theorem mul_R (T U : SE3) : (T * U).R = T.R * U.R := rfl
@[simp] theorem mul_p (T U : SE3) : (T * U).p = T.p + T.R *ᵥ U.p := rfl
@[simp] theorem inv_R (T : SE3) : (T⁻¹).R = T.Rᵀ := rfl
@[simp] theorem inv_p (T : SE3) : (T⁻¹).p = -(T.Rᵀ *ᵥ T.p) := rfl

instance : Group SE3 where
  mul_assoc a b c := by ext1 <;> simp [Matrix.mul_assoc, mulVec_add, add_assoc]
  one_mul a := by ext1 <;> simp
  mul_one a := by ext1 <;> simp
  inv_mul_cancel a := by ext1 <;> simp [a.orthogonal']

theorem cross (T : SE3) (a b : Vec) : (T.R *ᵥ a) ⨯₃ (T.R *ᵥ b) = T.R *ᵥ (a ⨯₃ b) := cross_mulVec T.orthogonal T.det a b

@[simp] theorem act_one (m : Spatial) : act 1 m = m := by ext1 <;> simp [act]
@[simp] theorem actF_one (m : Spatial) : actF 1 m = m := by ext1 <;> simp [actF]

theorem act_mul (T U : SE3) (m : Spatial) : act (T * U) m = act T (act U m) := by
  ext1
  · simp only [act, mul_R, mul_p, mulVec_add, ← mulVec_mulVec, LinearMap.map_add, LinearMap.add_apply, ← T.cross]; abel
  · simp [act]

theorem actF_mul (T U : SE3) (m : Spatial) : actF (T * U) m = actF T (actF U m) := by
  ext1
  · simp [actF]
  · simp only [actF, mul_R, mul_p, mulVec_add, ← mulVec_mulVec, LinearMap.map_add, LinearMap.add_apply, ← T.cross]; abel

theorem act_add (T : SE3) (a b : Spatial) : act T (a + b) = act T a + act T b := by
  ext1 <;> simp [act, mulVec_add]; abel
theorem act_neg (T : SE3) (a : Spatial) : act T (-a) = -act T a := by
  ext1 <;> simp [act, mulVec_neg]; abel
theorem act_sub (T : SE3) (a b : Spatial) : act T (a - b) = act T a - act T b := by rw [sub_eq_add_neg, act_add, act_neg, ← sub_eq_add_neg]
theorem act_smul (T : SE3) (k : ℝ) (a : Spatial) : act T (k • a) = k • act T a := by
  ext1 <;> simp [act, mulVec_smul]
@[simp] theorem act_zero (T : SE3) : act T 0 = 0 := by ext1 <;> simp [act]
theorem actF_add (T : SE3) (a b : Spatial) : actF T (a + b) = actF T a + actF T b := by
  ext1 <;> simp [actF, mulVec_add]; abel
theorem actF_neg (T : SE3) (a : Spatial) : actF T (-a) = -actF T a := by
  ext1 <;> simp [actF, mulVec_neg]; abel
theorem actF_sub (T : SE3) (a b : Spatial) : actF T (a - b) = actF T a - actF T b := by rw [sub_eq_add_neg, actF_add, actF_neg, ← sub_eq_add_neg]
theorem actF_smul (T : SE3) (k : ℝ) (a : Spatial) : actF T (k • a) = k • actF T a := by
  ext1 <;> simp [actF, mulVec_smul]
@[simp] theorem actF_zero (T : SE3) : actF T 0 = 0 := by ext1 <;> simp [actF]

theorem act_inv_act (T : SE3) (m : Spatial) : act T⁻¹ (act T m) = m := by rw [← act_mul, inv_mul_cancel, act_one]
theorem act_act_inv (T : SE3) (m : Spatial) : act T (act T⁻¹ m) = m := by rw [← act_mul, mul_inv_cancel, act_one]

theorem act_crossM (T : SE3) (a b : Spatial) : act T (crossM a b) = crossM (act T a) (act T b) := by
  ext1
  · simp only [act, crossM, mulVec_add, LinearMap.map_add, LinearMap.add_apply, ← T.cross]
    rw [leibniz_cross]
    generalize T.R *ᵥ a.2 = x; generalize T.R *ᵥ b.2 = y; generalize T.R *ᵥ a.1 = u; generalize T.R *ᵥ b.1 = v
    rw [← cross_anticomm (x) (T.p)]
    simp only [map_neg, LinearMap.neg_apply]
    ext i; fin_cases i <;> simp [cross_apply] <;> ring
  · simp only [act, crossM, ← T.cross]

theorem actF_crossF (T : SE3) (a b : Spatial) : actF T (crossF a b) = crossF (act T a) (actF T b) := by
  ext1
  · simp only [act, actF, crossF, ← T.cross]
  · simp only [act, actF, crossF, mulVec_add, LinearMap.map_add, LinearMap.add_apply, ← T.cross]
    generalize T.R *ᵥ a.2 = x; generalize T.R *ᵥ b.2 = y; generalize T.R *ᵥ a.1 = u; generalize T.R *ᵥ b.1 = v
    ext i; fin_cases i <;> simp [cross_apply] <;> ring

theorem dot_mulVec (T : SE3) (a b : Vec) : (T.R *ᵥ a) ⬝ᵥ (T.R *ᵥ b) = a ⬝ᵥ b := by
  rw [dotProduct_mulVec, vecMul_mulVec, T.orthogonal', vecMul_one]

theorem power_act (T : SE3) (m f : Spatial) : power (act T m) (actF T f) = power m f := by
  have h1 := T.dot_mulVec m.1 f.1
  have h2 := T.dot_mulVec m.2 f.2
  simp only [power, act, actF, ← h1, ← h2]
  generalize T.R *ᵥ m.1 = x; generalize T.R *ᵥ m.2 = y; generalize T.R *ᵥ f.1 = u; generalize T.R *ᵥ f.2 = v
  simp [dotProduct, Fin.sum_univ_three, cross_apply]; ring

end SE3

@[simp] theorem crossM_self (a : Spatial) : crossM a a = 0 := by
  ext1 <;> simp [crossM]
theorem crossM_add (a b c : Spatial) : crossM a (b + c) = crossM a b + crossM a c := by
  ext1 <;> simp [crossM]; abel
theorem crossM_neg (a b : Spatial) : crossM a (-b) = -crossM a b := by
  ext1 <;> simp [crossM]; abel
theorem crossM_sub (a b c : Spatial) : crossM a (b - c) = crossM a b - crossM a c := by rw [sub_eq_add_neg, crossM_add, crossM_neg, ← sub_eq_add_neg]
theorem crossM_smul (k : ℝ) (a b : Spatial) : crossM a (k • b) = k • crossM a b := by
  ext1 <;> simp [crossM]
@[simp] theorem crossM_zero (a : Spatial) : crossM a 0 = 0 := by ext1 <;> simp [crossM]
theorem neg_crossM (a b : Spatial) : crossM (-a) b = -crossM a b := by
  ext1 <;> simp [crossM]; abel
theorem add_crossM (a b c : Spatial) : crossM (a + b) c = crossM a c + crossM b c := by
  ext1 <;> simp [crossM]; abel
@[simp] theorem zero_crossM (b : Spatial) : crossM 0 b = 0 := by ext1 <;> simp [crossM]
theorem crossF_add (a b c : Spatial) : crossF a (b + c) = crossF a b + crossF a c := by
  ext1 <;> simp [crossF]; abel
theorem crossF_neg (a b : Spatial) : crossF a (-b) = -crossF a b := by
  ext1 <;> simp [crossF]; abel
theorem neg_crossF (a b : Spatial) : crossF (-a) b = -crossF a b := by
  ext1 <;> simp [crossF]; abel
@[simp] theorem crossF_zero (a : Spatial) : crossF a 0 = 0 := by ext1 <;> simp [crossF]
@[simp] theorem zero_crossF (b : Spatial) : crossF 0 b = 0 := by ext1 <;> simp [crossF]
theorem crossM_anticomm (a b : Spatial) : crossM a b = -crossM b a := by
  ext1
  · simp only [crossM, Prod.fst_neg, neg_add, cross_anticomm]; abel
  · simp [crossM]
theorem power_crossF_self (a f : Spatial) : power a (crossF a f) = 0 := by
  simp [power, crossF, dotProduct, Fin.sum_univ_three, cross_apply]; ring
theorem power_add (a f g : Spatial) : power a (f + g) = power a f + power a g := by
  simp [power]; ring
theorem power_crossM (a b f : Spatial) : power (crossM a b) f = -power b (crossF a f) := by
  simp [power, crossF, crossM, dotProduct, Fin.sum_univ_three, cross_apply]; ring

theorem Inertia.mul_add (I : Inertia) (a b : Spatial) : I.mul (a + b) = I.mul a + I.mul b := by
  ext1 <;> simp [Inertia.mul, mulVec_add] <;> abel
theorem Inertia.mul_neg (I : Inertia) (a : Spatial) : I.mul (-a) = -I.mul a := by
  ext1 <;> simp only [Inertia.mul, mulVec_neg, Prod.fst_neg, Prod.snd_neg, map_neg, smul_neg] <;> abel
@[simp] theorem Inertia.mul_zero (I : Inertia) : I.mul 0 = 0 := by
  ext1 <;> simp [Inertia.mul]

/-! ### Derivatives -/

theorem hasDerivAt_cross {f g : ℝ → Vec} {f' g' : Vec} {x : ℝ} (hf : HasDerivAt f f' x) (hg : HasDerivAt g g' x) :
    HasDerivAt (fun t => f t ⨯₃ g t) (f' ⨯₃ g x + f x ⨯₃ g') x := by
  rw [hasDerivAt_pi] at hf hg ⊢
  intro i
  have F := fun k => hf k; have G := fun k => hg k
  fin_cases i <;> simp only [cross_apply, Pi.add_apply, cons_val', cons_val_zero, cons_val_one, cons_val, Fin.zero_eta, Fin.mk_one, Fin.reduceFinMk, Fin.isValue]
  · exact (((F 1).mul (G 2)).sub ((F 2).mul (G 1))).congr_deriv (by ring)
  · exact (((F 2).mul (G 0)).sub ((F 0).mul (G 2))).congr_deriv (by ring)
  · exact (((F 0).mul (G 1)).sub ((F 1).mul (G 0))).congr_deriv (by ring)

theorem hasDerivAt_mulVec {R : ℝ → Matrix (Fin 3) (Fin 3) ℝ} {R' : Matrix (Fin 3) (Fin 3) ℝ} {f : ℝ → Vec} {f' : Vec} {x : ℝ}
    (hR : ∀ i k, HasDerivAt (fun t => R t i k) (R' i k) x) (hf : HasDerivAt f f' x) :
    HasDerivAt (fun t => R t *ᵥ f t) (R' *ᵥ f x + R x *ᵥ f') x := by
  rw [hasDerivAt_pi] at hf ⊢
  intro i
  simp only [mulVec, dotProduct, Fin.sum_univ_three, Pi.add_apply]
  exact ((((hR i 0).mul (hf 0)).add ((hR i 1).mul (hf 1))).add ((hR i 2).mul (hf 2))).congr_deriv (by ring)

/-- The matrix of the vector product. -/
def hat (w : Vec) : Matrix (Fin 3) (Fin 3) ℝ := !![0, -w 2, w 1; w 2, 0, -w 0; -w 1, w 0, 0]

theorem hat_mulVec (w v : Vec) : hat w *ᵥ v = w ⨯₃ v := by
  ext i; fin_cases i <;> simp [hat, mulVec, dotProduct, Fin.sum_univ_three, cross_apply] <;> ring

theorem hasTangent_iff {T : ℝ → SE3} {s : Spatial} {x : ℝ} :
    HasTangent T s x ↔ (∀ i k, HasDerivAt (fun t => (T t).R i k) (((T x).R * hat s.2) i k) x) ∧
      HasDerivAt (fun t => (T t).p) ((T x).R *ᵥ s.1) x := by
  constructor
  · intro h
    have h0 := h 0
    simp only [SE3.point, mulVec_zero, add_zero, map_zero] at h0
    refine ⟨fun i k => ?_, h0⟩
    have hk := ((h (Pi.single k 1)).sub h0)
    rw [hasDerivAt_pi] at hk
    have := hk i
    have e : ∀ t, ((T t).point (Pi.single k 1) - (T t).p) i = (T t).R i k := by
      intro t; simp [SE3.point]
    simp only [Pi.sub_apply] at this e
    simp only [e] at this
    refine this.congr_deriv ?_
    rw [mulVec_add, ← hat_mulVec, mulVec_mulVec]
    simp
  · rintro ⟨hR, hp⟩ y
    have := hp.add (hasDerivAt_mulVec hR (hasDerivAt_const x y))
    refine this.congr_deriv ?_
    rw [mulVec_add, mulVec_zero, ← mulVec_mulVec, hat_mulVec, add_zero]

theorem HasTangent.act {T : ℝ → SE3} {s : Spatial} {x : ℝ} (h : HasTangent T s x) {m : ℝ → Spatial} {m' : Spatial} (hm : HasDerivAt m m' x) :
    HasDerivAt (fun t => (T t).act (m t)) ((T x).act (crossM s (m x) + m')) x := by
  obtain ⟨hR, hp⟩ := hasTangent_iff.1 h
  have h1 := hasDerivAt_mulVec hR hm.fst
  have h2 := hasDerivAt_mulVec hR hm.snd
  refine ((h1.add (hasDerivAt_cross hp h2)).prodMk h2).congr_deriv ?_
  ext1
  · simp only [SE3.act, crossM, Prod.fst_add, Prod.snd_add, mulVec_add, map_add, ← mulVec_mulVec, hat_mulVec, ← (T x).cross]; abel
  · simp only [SE3.act, crossM, Prod.snd_add, mulVec_add, ← mulVec_mulVec, hat_mulVec]

theorem HasTangent.actF {T : ℝ → SE3} {s : Spatial} {x : ℝ} (h : HasTangent T s x) {m : ℝ → Spatial} {m' : Spatial} (hm : HasDerivAt m m' x) :
    HasDerivAt (fun t => (T t).actF (m t)) ((T x).actF (crossF s (m x) + m')) x := by
  obtain ⟨hR, hp⟩ := hasTangent_iff.1 h
  have h1 := hasDerivAt_mulVec hR hm.fst
  have h2 := hasDerivAt_mulVec hR hm.snd
  refine (h1.prodMk (h2.add (hasDerivAt_cross hp h1))).congr_deriv ?_
  ext1
  · simp only [SE3.actF, crossF, Prod.fst_add, mulVec_add, ← mulVec_mulVec, hat_mulVec]
  · simp only [SE3.actF, crossF, Prod.fst_add, Prod.snd_add, mulVec_add, map_add, ← mulVec_mulVec, hat_mulVec, ← (T x).cross]; abel

theorem hasTangent_const (T : SE3) (x : ℝ) : HasTangent (fun _ => T) 0 x := by
  intro y
  simpa using hasDerivAt_const x (T.point y)

theorem HasTangent.mul {T U : ℝ → SE3} {s u : Spatial} {x : ℝ} (hT : HasTangent T s x) (hU : HasTangent U u x) :
    HasTangent (fun t => T t * U t) ((U x)⁻¹.act s + u) x := by
  obtain ⟨hR, hp⟩ := hasTangent_iff.1 hT
  intro y
  have hy := hU y
  have e : ∀ t, (T t * U t).point y = (T t).p + (T t).R *ᵥ (U t).point y := by
    intro t; simp [SE3.point, mulVec_add, add_assoc]
  simp only [e]
  refine (hp.add (hasDerivAt_mulVec hR hy)).congr_deriv ?_
  rw [SE3.mul_R, ← mulVec_mulVec, ← mulVec_mulVec, hat_mulVec, ← mulVec_add, ← mulVec_add]
  congr 1
  have hs : s = (U x).act ((U x)⁻¹.act s) := ((U x).act_act_inv s).symm
  generalize (U x)⁻¹.act s = z at hs ⊢
  rw [hs]
  simp only [SE3.act, SE3.point, Prod.fst_add, Prod.snd_add, map_add, mulVec_add, LinearMap.add_apply, ← (U x).cross]
  rw [← cross_anticomm ((U x).R *ᵥ z.2) (U x).p]
  abel

theorem HasTangent.inv {T : ℝ → SE3} {s : Spatial} {x : ℝ} (hT : HasTangent T s x) :
    HasTangent (fun t => (T t)⁻¹) (-(T x).act s) x := by
  obtain ⟨hR, hp⟩ := hasTangent_iff.1 hT
  intro y
  have hRt : ∀ i k, HasDerivAt (fun t => ((T t).R)ᵀ i k) ((((T x).R * hat s.2)ᵀ) i k) x := fun i k => hR k i
  have e : ∀ t, ((T t)⁻¹).point y = (T t).Rᵀ *ᵥ (y - (T t).p) := by
    intro t; simp [SE3.point, mulVec_sub]; abel
  simp only [e]
  refine (hasDerivAt_mulVec hRt ((hasDerivAt_const x y).sub hp)).congr_deriv ?_
  have ht : (hat s.2)ᵀ = -hat s.2 := by
    ext i k; fin_cases i <;> fin_cases k <;> simp [hat]
  have ho := (T x).orthogonal'
  have hy : y = (T x).point ((T x)⁻¹.point y) := by
    simp [SE3.point, mulVec_add, mulVec_neg, (T x).orthogonal]
  generalize (T x)⁻¹.point y = z at hy
  subst hy
  simp only [SE3.act, SE3.point, SE3.inv_R, transpose_mul, ht, zero_sub, Pi.sub_apply, mulVec_neg, neg_mulVec, Matrix.neg_mul, Prod.fst_neg, Prod.snd_neg,
    map_neg, LinearMap.neg_apply, mulVec_add, map_add, ← mulVec_mulVec, add_sub_cancel_left, (T x).cross]
  simp only [mulVec_mulVec, ho, one_mulVec, hat_mulVec]
  rw [← cross_anticomm ((T x).R *ᵥ s.2) (T x).p]
  simp only [mulVec_neg]; abel

end Verif.Rigid
