import Verif.Lemmas.DynamicsHessian2
/- The Hessians of the dynamics are the second derivatives. -/
set_option linter.unusedSectionVars false
set_option linter.unusedSimpArgs false
namespace Verif.NLP.Dynamics
open Verif.NLP.Spec Verif.Smooth Matrix Function
open Verif.Levi Verif.Levi.Ex
variable {n : Nat}

/-- Entries of the mixed Hessian. -/
noncomputable def MH (P : Params) (E : Exprs) (x : SVec n) (u : CVec n) (lam : SVec n) : SBlk n → Nat → CBlk n → Nat → ℝ
  | .pos s i, k, .velCtl s' i', l => if (s, i) = (s', i') ∧ k = 2 ∧ l < 2 then P.δxy.evalDerivative (x (.pos s i, 2)) * lam (.pos s i, l) else 0
  | .pos s i, k, .forceCtl s' i', l => if (s, i) = (s', i') ∧ k = 2 ∧ l = 2 then P.δz.evalDerivative (x (.pos s i, 2)) * lam (.force s i, 2) else 0
  | .baseQuat, k, .baseVel, l => if h : k < 4 ∧ l < 3 then times3 (vec3 lam .basePos) ((E.rot ⟨l, h.2⟩).ev rpow (env x u 0)).f k else 0
  | _, _, _, _ => 0

macro "mreduce" : tactic => `(tactic| (
  simp only [mixedHess, loops, MH, three, List.foldl_cons, List.foldl_nil]))
macro "mnone" : tactic => `(tactic| (
  mreduce
  rw [m_none]
  · (simp [putBlock]; done)
  · (rintro ⟨s, i⟩ J; wsimp; done)))

theorem mixedHess_entry (P : Params) (E : Exprs) (x : SVec n) (u : CVec n) (lam : SVec n) (b : SBlk n) (c : CBlk n) (k l : Nat) :
    mixedHess P E x u lam (fun _ _ => 0) (b, k) (c, l) = MH P E x u lam b k c l := by
  rcases b with ⟨s, i⟩ | ⟨s, i⟩ | _ | _ | _ | _ | _ <;> rcases c with ⟨s', i'⟩ | ⟨s', i'⟩ | _ | _ | _
  all_goals try mnone
  · mreduce
    refine (m_once _ _ _ _ (s, i) (fun v => if (s, i) = (s', i') ∧ k = 2 ∧ l < 2 then P.δxy.evalDerivative (x (.pos s i, 2)) * lam (.pos s i, l) else v) ?_ ?_).trans ?_
    · intro J; wsimp; simp only [vec3]
      by_cases hl : l < 2
      · have : l = 0 ∨ l = 1 := by omega
        rcases this with rfl | rfl <;> simp <;> grind
      · grind
    · rintro ⟨s2, i2⟩ h J
      have : ¬ (s = s2 ∧ i = i2) := fun h' => h (by rw [h'.1, h'.2])
      wsimp; grind
    · simp [putBlock]
  · mreduce
    refine (m_once _ _ _ _ (s, i) (fun v => if (s, i) = (s', i') ∧ k = 2 ∧ l = 2 then P.δz.evalDerivative (x (.pos s i, 2)) * lam (.force s i, 2) else v) ?_ ?_).trans ?_
    · intro J; wsimp; simp only [vec3]; grind
    · rintro ⟨s2, i2⟩ h J
      have : ¬ (s = s2 ∧ i = i2) := fun h' => h (by rw [h'.1, h'.2])
      wsimp; grind
    · simp [putBlock]
  · mreduce
    rw [m_none]
    · by_cases hkl : k < 4 ∧ l < 3
      · have hl' : l = 0 ∨ l = 1 ∨ l = 2 := by omega
        obtain ⟨hk, -⟩ := hkl
        rcases hl' with rfl | rfl | rfl <;> simp [putBlock, hk]
      · simp only [hkl, dif_neg, not_false_iff]
        simp [putBlock]; grind
    · rintro ⟨s, i⟩ J; wsimp

section
variable {ι : Type} [DecidableEq ι]
theorem list_sum_grad {α : Type} (l : List α) {f : α → (ι → ℝ) → ℝ} {f' : α → ι → ℝ} {x : ι → ℝ} (h : ∀ a ∈ l, GradAt (f a) (f' a) x) :
    GradAt (fun y => (l.map fun a => f a y).sum) (fun j => (l.map fun a => f' a j).sum) x := by
  induction l with
  | nil => simpa using GradAt.const 0 x
  | cons a l ih =>
    simpa using GradAt.add (h a List.mem_cons_self) (ih fun b hb => h b (List.mem_cons_of_mem _ hb))
end

theorem weighted_state_grad (P : Params) (lam d : SVec n) (u : CVec n) {x : SVec n} (hx : quatOf x ≠ 0) :
    GradAt (fun y => weightedRows P.joints lam (dynamics P y u d)) (fun q => WC P lam x u q.1 q.2) x := by
  have h := list_sum_grad (stateEntries n P.joints) (x := x) fun p _ => GradAt.const_mul (lam p) (state_grad P x hx u d p)
  refine GradAt.congr h ?_
  rintro ⟨c, l⟩
  exact weighted_column P lam x u c l

theorem weighted_ctrl_grad (P : Params) (lam d : SVec n) (u : CVec n) (x : SVec n) :
    GradAt (fun v => weightedRows P.joints lam (dynamics P x v d)) (fun q => weightedRows P.joints lam fun p => ctrlJac P x (fun _ _ => 0) p q) u :=
  list_sum_grad (stateEntries n P.joints) (x := u) fun p _ => GradAt.const_mul (lam p) (ctrl_grad P x u d p)

variable {cfg : Cfg ℝ} (hs : Levi.Spec.Sound cfg) {E : Exprs} (hE : E.Made cfg)
include hs hE

theorem WC_state_grad (P : Params) (lam : SVec n) (u : CVec n) {x : SVec n} (hx : quatOf x ≠ 0) (b : SBlk n) (k : Nat) :
    GradAt (fun y => WC P lam y u b k) (fun q => SH P E x u lam b k q.1 q.2) x := by
  rcases b with ⟨s, i⟩ | ⟨s, i⟩ | _ | _ | _ | _ | _
  · simp only [WC]
    by_cases h : k < 3
    · have : k = 0 ∨ k = 1 ∨ k = 2 := by omega
      rcases this with rfl | rfl | rfl
      all_goals
        simp only [times3, skew3, distance, vec3, V3.sub_x, V3.sub_y, V3.sub_z, if_true, one_ne_zero, if_false, OfNat.ofNat_ne_zero,
          OfNat.ofNat_ne_one, zero_ne_one, OfNat.zero_ne_ofNat, OfNat.one_ne_ofNat, h, if_true]
        refine GradAt.congr (by sgrad) ?_
        rintro ⟨c, l⟩
        rcases c with ⟨s', i'⟩ | ⟨s', i'⟩ | _ | _ | _ | _ | _ <;> simp [SH, skew3, -mul_eq_zero, -neg_eq_zero]
        all_goals
          rcases l with _ | _ | _ | l <;> simp [-mul_eq_zero, -neg_eq_zero] <;> grind
    · simp only [h, if_false]
      refine GradAt.congr (GradAt.const _ _) ?_
      rintro ⟨c, l⟩
      rcases c with ⟨s', i'⟩ | ⟨s', i'⟩ | _ | _ | _ | _ | _ <;> simp [SH, h]
  · simp only [WC]
    by_cases h : k < 3
    · have : k = 0 ∨ k = 1 ∨ k = 2 := by omega
      rcases this with rfl | rfl | rfl
      all_goals
        simp only [times3, skew3, distance, vec3, V3.sub_x, V3.sub_y, V3.sub_z, if_true, one_ne_zero, if_false, OfNat.ofNat_ne_zero,
          OfNat.ofNat_ne_one, zero_ne_one, OfNat.zero_ne_ofNat, OfNat.one_ne_ofNat, h, if_true]
        refine GradAt.congr (by sgrad) ?_
        rintro ⟨c, l⟩
        rcases c with ⟨s', i'⟩ | ⟨s', i'⟩ | _ | _ | _ | _ | _ <;> simp [SH, skew3, -mul_eq_zero, -neg_eq_zero]
        all_goals
          rcases l with _ | _ | _ | l <;> simp [-mul_eq_zero, -neg_eq_zero] <;> grind
    · simp only [h, if_false]
      refine GradAt.congr (GradAt.const _ _) ?_
      rintro ⟨c, l⟩
      rcases c with ⟨s', i'⟩ | ⟨s', i'⟩ | _ | _ | _ | _ | _ <;> simp [SH, h, show ¬ k = 2 by omega]
  · simp only [WC]
    refine GradAt.congr (GradAt.const _ _) ?_
    rintro ⟨c, l⟩
    rcases c with ⟨s', i'⟩ | ⟨s', i'⟩ | _ | _ | _ | _ | _ <;> simp [SH]
  · simp only [WC]
    by_cases h : k < 3
    · simp only [h, if_true]
      have : ∀ a : Pt n, GradAt (fun y => times3 (angular lam) (skew3 (vec3 y (.force a.1 a.2))) k)
          (fun q => match q.1 with | .force s i => if (s, i) = a ∧ q.2 < 3 then skew3 (angular lam) k q.2 else 0 | _ => 0) x := by
        rintro ⟨s, i⟩
        have : k = 0 ∨ k = 1 ∨ k = 2 := by omega
        rcases this with rfl | rfl | rfl
        all_goals
          simp only [times3, skew3, vec3, if_true, one_ne_zero, if_false, OfNat.ofNat_ne_zero,
            OfNat.ofNat_ne_one, zero_ne_one, OfNat.zero_ne_ofNat, OfNat.one_ne_ofNat, h, if_true]
          refine GradAt.congr (by sgrad) ?_
          rintro ⟨c, l⟩
          rcases c with ⟨s', i'⟩ | ⟨s', i'⟩ | _ | _ | _ | _ | _ <;> simp [-mul_eq_zero, -neg_eq_zero]
          all_goals
            rcases l with _ | _ | _ | l <;> simp [-mul_eq_zero, -neg_eq_zero] <;> grind
      refine GradAt.congr (GradAt.sum Finset.univ fun a _ => this a) ?_
      rintro ⟨c, l⟩
      rcases c with ⟨s', i'⟩ | ⟨s', i'⟩ | _ | _ | _ | _ | _ <;> simp [SH, h]
      rw [sum_one (s', i') (by rintro ⟨s, i⟩ hne; grind)]
      simp
    · simp only [h, if_false]
      refine GradAt.congr (GradAt.const _ _) ?_
      rintro ⟨c, l⟩
      rcases c with ⟨s', i'⟩ | ⟨s', i'⟩ | _ | _ | _ | _ | _ <;> simp [SH, h]
  · simp only [WC]
    refine GradAt.congr (GradAt.const _ _) ?_
    rintro ⟨c, l⟩
    rcases c with ⟨s', i'⟩ | ⟨s', i'⟩ | _ | _ | _ | _ | _ <;> simp [SH]
  · simp only [WC]
    by_cases h : k < 4
    · simp only [h, if_true, times3]
      have e : ∀ (y : SVec n) (j : Fin 3), ent (quatJac y u) j k = quatJac y u j ⟨k, h⟩ := by intro y j; simp [ent, h]
      have e0 := fun y => e y 0
      have e1 := fun y => e y 1
      have e2 := fun y => e y 2
      simp only [Fin.isValue, Fin.val_zero, Fin.val_one, Fin.val_two] at e0 e1 e2
      simp only [e0, e1, e2]
      refine GradAt.congr (GradAt.add (GradAt.add (GradAt.const_mul _ (quatJac_grad hs hE hx u 0 ⟨k, h⟩)) (GradAt.const_mul _ (quatJac_grad hs hE hx u 1 ⟨k, h⟩)))
        (GradAt.const_mul _ (quatJac_grad hs hE hx u 2 ⟨k, h⟩))) ?_
      rintro ⟨c, l⟩
      rcases c with ⟨s', i'⟩ | ⟨s', i'⟩ | _ | _ | _ | _ | _ <;> simp [SH, h]
      by_cases hl : l < 4 <;> simp [hl, times3]
    · simp only [h, if_false]
      refine GradAt.congr (GradAt.const _ _) ?_
      rintro ⟨c, l⟩
      rcases c with ⟨s', i'⟩ | ⟨s', i'⟩ | _ | _ | _ | _ | _ <;> simp [SH, h]
  · simp only [WC]
    refine GradAt.congr (GradAt.const _ _) ?_
    rintro ⟨c, l⟩
    rcases c with ⟨s', i'⟩ | ⟨s', i'⟩ | _ | _ | _ | _ | _ <;> simp [SH]

theorem WC_ctrl_grad (P : Params) (lam : SVec n) (u : CVec n) {x : SVec n} (hx : quatOf x ≠ 0) (b : SBlk n) (k : Nat) :
    GradAt (fun v => WC P lam x v b k) (fun q => MH P E x u lam b k q.1 q.2) u := by
  rcases b with ⟨s, i⟩ | ⟨s, i⟩ | _ | _ | _ | _ | _
  · simp only [WC]
    refine GradAt.congr (GradAt.const _ _) ?_
    rintro ⟨c, l⟩
    rcases c with ⟨s', i'⟩ | ⟨s', i'⟩ | _ | _ | _ <;> simp [MH]
  · simp only [WC]
    by_cases h : k = 2
    · subst h
      simp only [show (2 : Nat) < 3 by omega, if_true]
      refine GradAt.congr (by sgrad) ?_
      rintro ⟨c, l⟩
      rcases c with ⟨s', i'⟩ | ⟨s', i'⟩ | _ | _ | _ <;> simp [MH]
      · rcases l with _ | _ | _ | l <;> simp <;> grind
      · grind
    · simp only [h, if_false]
      refine GradAt.congr (GradAt.const _ _) ?_
      rintro ⟨c, l⟩
      rcases c with ⟨s', i'⟩ | ⟨s', i'⟩ | _ | _ | _ <;> simp [MH, h]
  · simp only [WC]
    refine GradAt.congr (GradAt.const _ _) ?_
    rintro ⟨c, l⟩
    rcases c with ⟨s', i'⟩ | ⟨s', i'⟩ | _ | _ | _ <;> simp [MH]
  · simp only [WC]
    refine GradAt.congr (GradAt.const _ _) ?_
    rintro ⟨c, l⟩
    rcases c with ⟨s', i'⟩ | ⟨s', i'⟩ | _ | _ | _ <;> simp [MH]
  · simp only [WC]
    refine GradAt.congr (GradAt.const _ _) ?_
    rintro ⟨c, l⟩
    rcases c with ⟨s', i'⟩ | ⟨s', i'⟩ | _ | _ | _ <;> simp [MH]
  · simp only [WC]
    by_cases h : k < 4
    · simp only [h, if_true, times3]
      have e : ∀ (v : CVec n) (j : Fin 3), ent (quatJac x v) j k = ∑ c : Fin 3, ((E.rot c).ev rpow (env x u 0)).f j k * velOf v c := by
        intro v j; simp only [ent, h, j.2, and_self, dif_pos]; exact quatJac_columns hs hE hx u v j ⟨k, h⟩
      have e0 := fun y => e y 0
      have e1 := fun y => e y 1
      have e2 := fun y => e y 2
      simp only [Fin.isValue, Fin.val_zero, Fin.val_one, Fin.val_two, Fin.sum_univ_three, velOf] at e0 e1 e2
      simp only [e0, e1, e2]
      refine GradAt.congr (by sgrad) ?_
      rintro ⟨c, l⟩
      rcases c with ⟨s', i'⟩ | ⟨s', i'⟩ | _ | _ | _ <;> simp [MH, h]
      rcases l with _ | _ | _ | l <;> simp [times3]
    · simp only [h, if_false]
      refine GradAt.congr (GradAt.const _ _) ?_
      rintro ⟨c, l⟩
      rcases c with ⟨s', i'⟩ | ⟨s', i'⟩ | _ | _ | _ <;> simp [MH, h]
  · simp only [WC]
    refine GradAt.congr (GradAt.const _ _) ?_
    rintro ⟨c, l⟩
    rcases c with ⟨s', i'⟩ | ⟨s', i'⟩ | _ | _ | _ <;> simp [MH]

end Verif.NLP.Dynamics
