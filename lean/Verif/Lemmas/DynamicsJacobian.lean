import Verif.Lemmas.Dynamics
/- The Jacobians of the dynamics, entry by entry. -/
set_option linter.unusedSectionVars false
set_option linter.unusedSimpArgs false
namespace Verif.NLP.Dynamics
open Verif.NLP.Spec Verif.Smooth Matrix
open Verif.Quaternion (rotationFromQuaternion normalized normalizedDerivative rotatedVectorJacobian)
variable {n : Nat}

/-- `∂ basePos' / ∂ quaternion` as returned. -/
noncomputable def quatJac (x : SVec n) (u : CVec n) : Matrix (Fin 3) (Fin 4) ℝ :=
  rotatedVectorJacobian Real.sqrt (velOf u) (normalized Real.sqrt (quatOf x)) * normalizedDerivative Real.sqrt (quatOf x)

/-- Entries of the state Jacobian. -/
noncomputable def SJ (P : Params) (x : SVec n) (u : CVec n) : SBlk n → Nat → SBlk n → Nat → ℝ
  | .force s i, k, .force s' i', l => if (s, i) = (s', i') ∧ k = 2 ∧ l = 2 then P.dissipation * (P.δz.eval (x (.pos s i, 2)) - 1) else 0
  | .force s i, k, .pos s' i', l => if (s, i) = (s', i') ∧ k = 2 ∧ l = 2 then
      P.δz.evalDerivative (x (.pos s i, 2)) * (u (.forceCtl s i, 2) + P.dissipation * x (.force s i, 2)) else 0
  | .pos s i, k, .pos s' i', l => if (s, i) = (s', i') ∧ k < 2 ∧ l = 2 then P.δxy.evalDerivative (x (.pos s i, 2)) * u (.velCtl s i, k) else 0
  | .momentum, k, .force s i, l => if k < 3 ∧ l < 3 then eye k l else if 3 ≤ k ∧ k < 6 ∧ l < 3 then skew3 (distance x s i) (k - 3) l else 0
  | .momentum, k, .pos s i, l => if 3 ≤ k ∧ k < 6 ∧ l < 3 then -skew3 (vec3 x (.force s i)) (k - 3) l else 0
  | .momentum, k, .com, l => if 3 ≤ k ∧ k < 6 ∧ l < 3 then ∑ a : Pt n, skew3 (vec3 x (.force a.1 a.2)) (k - 3) l else 0
  | .com, k, .momentum, l => if k < 3 ∧ l < 3 then eye k l * (1 / P.mass) else 0
  | .basePos, k, .baseQuat, l => if k < 3 ∧ l < 4 then ent (quatJac x u) k l else 0
  | _, _, _, _ => 0

macro "jreduce" : tactic => `(tactic| (
  simp only [stateJac, footStateJac, loops, SJ]
  simp only [putBlock, scaleBlock, reduceCtorEq, false_and, and_false, if_false]))

macro "jnone" : tactic => `(tactic| (
  jreduce
  rw [m_none]
  · simp [putBlock]
  · rintro ⟨s, i⟩ J; wsimp))

theorem stateJac_entry (P : Params) (x : SVec n) (u : CVec n) (b c : SBlk n) (k l : Nat) :
    stateJac P x u (fun _ _ => 0) (b, k) (c, l) = SJ P x u b k c l := by
  rcases b with ⟨s, i⟩ | ⟨s, i⟩ | _ | _ | _ | _ | _ <;> rcases c with ⟨s', i'⟩ | ⟨s', i'⟩ | _ | _ | _ | _ | _
  all_goals try jnone
  · jreduce
    refine (m_once _ _ _ _ (s, i) (fun v => if (s, i) = (s', i') ∧ k = 2 ∧ l = 2 then P.dissipation * (P.δz.eval (x (.pos s i, 2)) - 1) else v) ?_ ?_).trans ?_
    · intro J; wsimp; simp [vec3, eq_comm, and_assoc, and_comm, and_left_comm]
    · rintro ⟨s2, i2⟩ h J
      have : ¬ (s = s2 ∧ i = i2) := fun h' => h (by rw [h'.1, h'.2])
      wsimp
      intro h1 h2; exact absurd ⟨h1, h2⟩ this
    · simp [putBlock]
  · jreduce
    refine (m_once _ _ _ _ (s, i) (fun v => if (s, i) = (s', i') ∧ k = 2 ∧ l = 2 then
      P.δz.evalDerivative (x (.pos s i, 2)) * (u (.forceCtl s i, 2) + P.dissipation * x (.force s i, 2)) else v) ?_ ?_).trans ?_
    · intro J; wsimp; simp [vec3, eq_comm, and_assoc, and_comm, and_left_comm]
    · rintro ⟨s2, i2⟩ h J
      have : ¬ (s = s2 ∧ i = i2) := fun h' => h (by rw [h'.1, h'.2])
      wsimp
      intro h1 h2; exact absurd ⟨h1, h2⟩ this
    · simp [putBlock]
  · -- pos, pos
    jreduce
    refine (m_once _ _ _ _ (s, i) (fun v => if (s, i) = (s', i') ∧ k < 2 ∧ l = 2 then
      P.δxy.evalDerivative (x (.pos s i, 2)) * u (.velCtl s i, k) else v) ?_ ?_).trans ?_
    · intro J; wsimp
      by_cases hk : k < 2
      · have : k = 0 ∨ k = 1 := by omega
        rcases this with rfl | rfl <;> simp [vec3, comp, eq_comm, and_assoc, and_comm, and_left_comm] <;> congr 1 <;> grind
      · grind
    · rintro ⟨s2, i2⟩ h J
      have : ¬ (s = s2 ∧ i = i2) := fun h' => h (by rw [h'.1, h'.2])
      wsimp
      intro h1 h2; exact absurd ⟨h1, h2⟩ this
    · simp [putBlock]
  · -- momentum, force
    jreduce
    refine (m_once _ _ _ _ (s', i') (fun v => if k < 3 ∧ l < 3 then eye k l else if 3 ≤ k ∧ k < 6 ∧ l < 3 then
      skew3 (distance x s' i') (k - 3) l else v) ?_ ?_).trans ?_
    · intro J; wsimp; grind
    · rintro ⟨s2, i2⟩ h J
      have : ¬ (s' = s2 ∧ i' = i2) := fun h' => h (by rw [h'.1, h'.2])
      wsimp; grind
    · simp [putBlock]
  · -- momentum, pos
    jreduce
    refine (m_once _ _ _ _ (s', i') (fun v => if 3 ≤ k ∧ k < 6 ∧ l < 3 then -skew3 (vec3 x (.force s' i')) (k - 3) l else v) ?_ ?_).trans ?_
    · intro J; wsimp
    · rintro ⟨s2, i2⟩ h J
      have : ¬ (s' = s2 ∧ i' = i2) := fun h' => h (by rw [h'.1, h'.2])
      wsimp; grind
    · simp [putBlock]
  · -- momentum, com
    jreduce
    refine (m_accum _ _ _ _ (fun a => if 3 ≤ k ∧ k < 6 ∧ l < 3 then skew3 (vec3 x (.force a.1 a.2)) (k - 3) l else 0) ?_).trans ?_
    · rintro ⟨s, i⟩ J; wsimp; grind
    · simp only [putBlock]; by_cases h : 3 ≤ k ∧ k < 6 ∧ l < 3 <;> simp [h]
  · jreduce
    rw [m_none]
    · by_cases h : k < 3 ∧ l < 3 <;> simp [putBlock, h]
    · rintro ⟨s, i⟩ J; wsimp
  · jreduce
    rw [m_none]
    · simp [putBlock, quatJac]
    · rintro ⟨s, i⟩ J; wsimp

/-- Entries of the control Jacobian. -/
noncomputable def CJ (P : Params) (x : SVec n) : SBlk n → Nat → CBlk n → Nat → ℝ
  | .force s i, k, .forceCtl s' i', l => if (s, i) = (s', i') ∧ k = l ∧ k < 3 then (if k < 2 then 1 else P.δz.eval (x (.pos s i, 2))) else 0
  | .pos s i, k, .velCtl s' i', l => if (s, i) = (s', i') ∧ k = l ∧ k < 3 then (if k < 2 then P.δxy.eval (x (.pos s i, 2)) else 1) else 0
  | .basePos, k, .baseVel, l => if k < 3 ∧ l < 3 then ent (baseRotation x) k l else 0
  | .baseQuat, k, .quatDer, l => if k = l ∧ k < 4 then 1 else 0
  | .joints, k, .jointVel, l => if k = l ∧ k < P.joints then 1 else 0
  | _, _, _, _ => 0

macro "creduce" : tactic => `(tactic| (
  simp only [ctrlJac, loops, CJ]
  simp only [putBlock, scaleBlock, reduceCtorEq, false_and, and_false, if_false]))

theorem ctrlJac_entry (P : Params) (x : SVec n) (b : SBlk n) (c : CBlk n) (k l : Nat) :
    ctrlJac P x (fun _ _ => 0) (b, k) (c, l) = CJ P x b k c l := by
  rcases b with ⟨s, i⟩ | ⟨s, i⟩ | _ | _ | _ | _ | _ <;> rcases c with ⟨s', i'⟩ | ⟨s', i'⟩ | _ | _ | _
  all_goals try (creduce; rw [m_none]; · (rintro ⟨s, i⟩ J; wsimp))
  · creduce
    refine (m_once _ _ _ _ (s, i) (fun v => if (s, i) = (s', i') ∧ k < 2 ∧ l < 2 then eye k l else
      if (s, i) = (s', i') ∧ k = 2 ∧ l = 2 then P.δz.eval (x (.pos s i, 2)) else v) ?_ ?_).trans ?_
    · intro J; wsimp; simp only [vec3, Nat.sub_zero]; grind
    · rintro ⟨s2, i2⟩ h J
      have : ¬ (s = s2 ∧ i = i2) := fun h' => h (by rw [h'.1, h'.2])
      wsimp; grind
    · simp only [eye]; grind
  · creduce
    refine (m_once _ _ _ _ (s, i) (fun v => if (s, i) = (s', i') ∧ k < 3 ∧ l < 3 then (if k < 2 ∧ l < 2 then eye k l * P.δxy.eval (x (.pos s i, 2)) else eye k l)
      else v) ?_ ?_).trans ?_
    · intro J; wsimp; simp only [vec3, Nat.sub_zero]; grind
    · rintro ⟨s2, i2⟩ h J
      have : ¬ (s = s2 ∧ i = i2) := fun h' => h (by rw [h'.1, h'.2])
      wsimp; grind
    · simp only [eye]; grind
  · creduce
    rw [m_none]
    · simp
    · rintro ⟨s, i⟩ J; wsimp
  · creduce
    rw [m_none]
    · simp [eye]; grind
    · rintro ⟨s, i⟩ J; wsimp
  · creduce
    rw [m_none]
    · simp [eye]; grind
    · rintro ⟨s, i⟩ J; wsimp

theorem rotated_normalized_isJacobian (v : Fin 3 → ℝ) (q : Fin 4 → ℝ) (h : q ≠ 0) :
    Quaternion.Spec.IsJacobian (fun q => rotationFromQuaternion (normalized Real.sqrt q) *ᵥ v) q
      (rotatedVectorJacobian Real.sqrt v (normalized Real.sqrt q) * normalizedDerivative Real.sqrt q) := by
  intro i j
  rw [Quaternion.rotatedVectorJacobian_eq, Quaternion.unscaled_entry]
  simp only [Quaternion.rotate_entry]
  have d := fun m => Quaternion.normalized_isJacobian q (Quaternion.quat_ne_zero h) m j
  have e : normalized Real.sqrt (Function.update q j (q j)) = normalized Real.sqrt q := by rw [Function.update_eq_self]
  generalize hc : (fun t => normalized Real.sqrt (Function.update q j t)) = c at *
  have hc' : ∀ t, normalized Real.sqrt (Function.update q j t) = c t := fun t => congrFun hc t
  simp only [hc'] at d e ⊢
  generalize hN : normalizedDerivative Real.sqrt q = N at *
  rw [← e]
  have row : ∀ (a0 a1 a2 a3 a4 a5 a6 : Fin 4) (i0 i1 i2 : Fin 3), HasDerivAt (fun t => v i0 + 2 * c t a0 * (c t a1 * v i2 - c t a2 * v i1) +
      2 * (c t a3 * (c t a4 * v i1 - c t a3 * v i0) - c t a5 * (c t a5 * v i0 - c t a6 * v i2)))
      (2 * N a0 j * (c (q j) a1 * v i2 - c (q j) a2 * v i1) + 2 * c (q j) a0 * (N a1 j * v i2 - N a2 j * v i1) +
       2 * (N a3 j * (c (q j) a4 * v i1 - c (q j) a3 * v i0) + c (q j) a3 * (N a4 j * v i1 - N a3 j * v i0) -
        (N a5 j * (c (q j) a5 * v i0 - c (q j) a6 * v i2) + c (q j) a5 * (N a5 j * v i0 - N a6 j * v i2)))) (q j) := by
    intro a0 a1 a2 a3 a4 a5 a6 i0 i1 i2
    refine HasDerivAt.congr_deriv ((((hasDerivAt_const _ (v i0)).add (((d a0).const_mul 2).mul (((d a1).mul_const (v i2)).sub ((d a2).mul_const (v i1))))).add
      ((((d a3).mul (((d a4).mul_const (v i1)).sub ((d a3).mul_const (v i0)))).sub
       ((d a5).mul (((d a5).mul_const (v i0)).sub ((d a6).mul_const (v i2))))).const_mul 2))) ?_
    simp only [Pi.sub_apply, Pi.mul_apply]
    ring
  fin_cases i
  · refine HasDerivAt.congr_deriv (row 0 2 3 2 1 3 1 0 1 2) ?_
    simp [Matrix.mul_apply, Fin.sum_univ_succ]; ring
  · refine HasDerivAt.congr_deriv (row 0 3 1 3 2 1 2 1 2 0) ?_
    simp [Matrix.mul_apply, Fin.sum_univ_succ]; ring
  · refine HasDerivAt.congr_deriv (row 0 1 2 1 3 2 3 2 0 1) ?_
    simp [Matrix.mul_apply, Fin.sum_univ_succ]; ring

end Verif.NLP.Dynamics
