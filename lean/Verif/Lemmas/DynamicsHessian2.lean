import Verif.Lemmas.DynamicsHessian
/- Entries of the second derivatives of the dynamics. -/
set_option linter.unusedSectionVars false
set_option linter.unusedSimpArgs false
namespace Verif.NLP.Dynamics
open Verif.NLP.Spec Verif.Smooth Matrix Function
open Verif.Levi Verif.Levi.Ex
variable {n : Nat}

theorem three : List.finRange 3 = [0, 1, 2] := rfl
theorem four : List.finRange 4 = [0, 1, 2, 3] := rfl

/-- Entries of the state Hessian. -/
noncomputable def SH (P : Params) (E : Exprs) (x : SVec n) (u : CVec n) (lam : SVec n) : SBlk n → Nat → SBlk n → Nat → ℝ
  | .com, k, .force _ _, l => if k < 3 ∧ l < 3 then skew3 (angular lam) k l else 0
  | .force _ _, k, .com, l => if k < 3 ∧ l < 3 then skew3 (angular lam) l k else 0
  | .pos s i, k, .force s' i', l => if (s, i) = (s', i') ∧ k < 3 ∧ l < 3 then
      -skew3 (angular lam) k l + (if k = 2 ∧ l = 2 then P.δz.evalDerivative (x (.pos s i, 2)) * P.dissipation * lam (.force s i, 2) else 0) else 0
  | .force s i, k, .pos s' i', l => if (s, i) = (s', i') ∧ k < 3 ∧ l < 3 then
      -skew3 (angular lam) l k + (if k = 2 ∧ l = 2 then P.δz.evalDerivative (x (.pos s i, 2)) * P.dissipation * lam (.force s i, 2) else 0) else 0
  | .pos s i, k, .pos s' i', l => if (s, i) = (s', i') ∧ k = 2 ∧ l = 2 then
      P.δxy.evalDoubleDerivative (x (.pos s i, 2)) * (lam (.pos s i, 0) * u (.velCtl s i, 0) + lam (.pos s i, 1) * u (.velCtl s i, 1)) +
      P.δz.evalDoubleDerivative (x (.pos s i, 2)) * lam (.force s i, 2) * (u (.forceCtl s i, 2) + P.dissipation * x (.force s i, 2)) else 0
  | .baseQuat, k, .baseQuat, l => if h : k < 4 ∧ l < 4 then times3 (vec3 lam .basePos) ((E.hess ⟨k, h.1⟩).ev rpow (env x u 0)).f l else 0
  | _, _, _, _ => 0

macro "hsimp" : tactic => `(tactic| simp [pointStateHess, pointForceHess, three, putBlock, put])
macro "hreduce" : tactic => `(tactic| (
  simp only [stateHess, loops, SH, four, List.foldl_cons, List.foldl_nil]))

macro "hnone" : tactic => `(tactic| (
  hreduce
  rw [m_none]
  · (simp [putBlock]; done)
  · (rintro ⟨s, i⟩ J; hsimp; done)))

variable {cfg : Cfg ℝ} (hs : Levi.Spec.Sound cfg) {E : Exprs} (hE : E.Made cfg)
include hs hE

theorem stateHess_entry (P : Params) (x : SVec n) (u : CVec n) (lam : SVec n) (b c : SBlk n) (k l : Nat) :
    stateHess P E x u lam (fun _ _ => 0) (b, k) (c, l) = SH P E x u lam b k c l := by
  have fh := fun (a : Pt n) (j : Fin 3) (l : Nat) (hl : l < 3) => forceHessian_value hs hE lam (env x u (vec3 x (.force a.1 a.2))) j l hl
  rcases b with ⟨s, i⟩ | ⟨s, i⟩ | _ | _ | _ | _ | _ <;> rcases c with ⟨s', i'⟩ | ⟨s', i'⟩ | _ | _ | _ | _ | _
  all_goals try hnone
  · -- force, pos
    hreduce
    refine (m_once _ _ _ _ (s, i) (fun v => if (s, i) = (s', i') ∧ k < 3 ∧ l < 3 then -skew3 (angular lam) l k + (if k = 2 ∧ l = 2 then P.δz.evalDerivative (x (.pos s i, 2)) * P.dissipation * lam (.force s i, 2) else 0) else v) ?_ ?_).trans ?_
    · intro J
      have f := fun j l hl => fh (s, i) j l hl
      dsimp only at f
      by_cases hsame : (s, i) = (s', i')
      · obtain ⟨rfl, rfl⟩ := Prod.mk.inj hsame
        by_cases hkl : k < 3 ∧ l < 3
        · have hk' : k = 0 ∨ k = 1 ∨ k = 2 := by omega
          have hl' : l = 0 ∨ l = 1 ∨ l = 2 := by omega
          rcases hk' with rfl | rfl | rfl <;> rcases hl' with rfl | rfl | rfl <;> hsimp <;> simp only [vec3] at f ⊢ <;> simp [f]
        · simp only [hkl, and_false, if_false]
          hsimp; grind
      · have : ¬ (s' = s ∧ i' = i) := fun h' => hsame (by rw [h'.1, h'.2])
        simp only [hsame, false_and, if_false]
        hsimp; grind
    · rintro ⟨s2, i2⟩ h J
      have : ¬ (s = s2 ∧ i = i2) := fun h' => h (by rw [h'.1, h'.2])
      hsimp; grind
    · simp [putBlock]
  · -- force, com
    hreduce
    refine (m_once _ _ _ _ (s, i) (fun v => if k < 3 ∧ l < 3 then skew3 (angular lam) l k else v) ?_ ?_).trans ?_
    · intro J
      have f := fun j l hl => fh (s, i) j l hl
      dsimp only at f
      by_cases hkl : k < 3 ∧ l < 3
      · have hk' : k = 0 ∨ k = 1 ∨ k = 2 := by omega
        have hl' : l = 0 ∨ l = 1 ∨ l = 2 := by omega
        rcases hk' with rfl | rfl | rfl <;> rcases hl' with rfl | rfl | rfl <;> hsimp <;> simp only [vec3] at f ⊢ <;> simp [f]
      · simp only [hkl, and_false, if_false]
        hsimp; grind
    · rintro ⟨s2, i2⟩ h J
      have : ¬ (s = s2 ∧ i = i2) := fun h' => h (by rw [h'.1, h'.2])
      hsimp; grind
    · simp [putBlock]
  · -- pos, force
    hreduce
    refine (m_once _ _ _ _ (s, i) (fun v => if (s, i) = (s', i') ∧ k < 3 ∧ l < 3 then -skew3 (angular lam) k l + (if k = 2 ∧ l = 2 then P.δz.evalDerivative (x (.pos s i, 2)) * P.dissipation * lam (.force s i, 2) else 0) else v) ?_ ?_).trans ?_
    · intro J
      have f := fun j l hl => fh (s, i) j l hl
      dsimp only at f
      by_cases hsame : (s, i) = (s', i')
      · obtain ⟨rfl, rfl⟩ := Prod.mk.inj hsame
        by_cases hkl : k < 3 ∧ l < 3
        · have hk' : k = 0 ∨ k = 1 ∨ k = 2 := by omega
          have hl' : l = 0 ∨ l = 1 ∨ l = 2 := by omega
          rcases hk' with rfl | rfl | rfl <;> rcases hl' with rfl | rfl | rfl <;> hsimp <;> simp only [vec3] at f ⊢ <;> simp [f]
        · simp only [hkl, and_false, if_false]
          hsimp; grind
      · have : ¬ (s' = s ∧ i' = i) := fun h' => hsame (by rw [h'.1, h'.2])
        simp only [hsame, false_and, if_false]
        hsimp; grind
    · rintro ⟨s2, i2⟩ h J
      have : ¬ (s = s2 ∧ i = i2) := fun h' => h (by rw [h'.1, h'.2])
      hsimp; grind
    · simp [putBlock]
  · -- pos, pos
    hreduce
    refine (m_once _ _ _ _ (s, i) (fun v => if (s, i) = (s', i') ∧ k = 2 ∧ l = 2 then
      P.δxy.evalDoubleDerivative (x (.pos s i, 2)) * (lam (.pos s i, 0) * u (.velCtl s i, 0) + lam (.pos s i, 1) * u (.velCtl s i, 1)) +
      P.δz.evalDoubleDerivative (x (.pos s i, 2)) * lam (.force s i, 2) * (u (.forceCtl s i, 2) + P.dissipation * x (.force s i, 2)) else v) ?_ ?_).trans ?_
    · intro J
      have f := fun j l hl => fh (s, i) j l hl
      dsimp only at f
      hsimp; simp [vec3]; grind
    · rintro ⟨s2, i2⟩ h J
      have : ¬ (s = s2 ∧ i = i2) := fun h' => h (by rw [h'.1, h'.2])
      hsimp; grind
    · simp [putBlock]
  · -- com, force
    hreduce
    refine (m_once _ _ _ _ (s', i') (fun v => if k < 3 ∧ l < 3 then skew3 (angular lam) k l else v) ?_ ?_).trans ?_
    · intro J
      have f := fun j l hl => fh (s', i') j l hl
      dsimp only at f
      by_cases hkl : k < 3 ∧ l < 3
      · have hk' : k = 0 ∨ k = 1 ∨ k = 2 := by omega
        have hl' : l = 0 ∨ l = 1 ∨ l = 2 := by omega
        rcases hk' with rfl | rfl | rfl <;> rcases hl' with rfl | rfl | rfl <;> hsimp <;> simp only [vec3] at f ⊢ <;> simp [f]
      · simp only [hkl, and_false, if_false]
        hsimp; grind
    · rintro ⟨s2, i2⟩ h J
      have : ¬ (s' = s2 ∧ i' = i2) := fun h' => h (by rw [h'.1, h'.2])
      hsimp; grind
    · simp [putBlock]
  · -- quaternion
    hreduce
    rw [m_none]
    · by_cases hkl : k < 4 ∧ l < 4
      · have hk' : k = 0 ∨ k = 1 ∨ k = 2 ∨ k = 3 := by omega
        obtain ⟨-, hl⟩ := hkl
        rcases hk' with rfl | rfl | rfl | rfl <;> simp [putBlock, hl]
      · simp only [hkl, dif_neg, not_false_iff]
        simp [putBlock]; grind
    · rintro ⟨s, i⟩ J; hsimp

end Verif.NLP.Dynamics
