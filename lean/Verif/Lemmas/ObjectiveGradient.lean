import Verif.Model.ObjectiveGradient
import Verif.Lemmas.Objective
import Verif.Props.Packing
/- Derivatives of functions of the labelled variables, seen in the vectors of the optimiser. -/
set_option linter.unusedSectionVars false
set_option linter.unusedSimpArgs false
namespace Verif.Plan
open NLP NLP.Kin SolverM Function
open NLP.Spec (GradAt)
open Labeller (Range)
noncomputable section
variable {n nj : ℕ}

theorem statePlace_iff (p : Idx (SBlk n)) (i : ℕ) : StatePlace (rangesAt nj n) p i ↔ p.2 < SolverM.stateSize nj p.1 ∧ ∃ rg, stateRange (rangesAt nj n) p.1 = some rg ∧ rg.offset + p.2 = i := by
  have key : ∀ b : SBlk n, ∃ off, stateRange (rangesAt nj n) b = some ⟨off, SolverM.stateSize nj b⟩ := by
    intro b
    rcases b with ⟨_ | _, i⟩ | ⟨_ | _, i⟩ | _ | _ | _ | _ | _ <;> exact ⟨_, by simp [stateRange, rangesAt, footAt, SolverM.stateSize]; rfl⟩
  obtain ⟨off, ho⟩ := key p.1
  unfold StatePlace
  constructor
  · rintro ⟨rg, h1, h2, h3⟩
    rw [ho] at h1
    obtain rfl := Option.some.inj h1
    exact ⟨h2, _, ho, h3⟩
  · rintro ⟨h2, rg, h1, h3⟩
    rw [ho] at h1
    obtain rfl := Option.some.inj h1
    exact ⟨_, ho, h2, h3⟩

theorem controlPlace_iff (p : Idx (CBlk n)) (i : ℕ) :
    ControlPlace (rangesAt nj n) p i ↔ p.2 < SolverM.controlSize nj p.1 ∧ ∃ rg, controlRange (rangesAt nj n) p.1 = some rg ∧ rg.offset + p.2 = i := by
  have key : ∀ b : CBlk n, ∃ off, controlRange (rangesAt nj n) b = some ⟨off, SolverM.controlSize nj b⟩ := by
    intro b
    rcases b with ⟨_ | _, i⟩ | ⟨_ | _, i⟩ | _ | _ | _ <;> exact ⟨_, by simp [controlRange, rangesAt, footAt, SolverM.controlSize]; rfl⟩
  obtain ⟨off, ho⟩ := key p.1
  unfold ControlPlace
  constructor
  · rintro ⟨rg, h1, h2, h3⟩
    rw [ho] at h1
    obtain rfl := Option.some.inj h1
    exact ⟨h2, _, ho, h3⟩
  · rintro ⟨h2, rg, h1, h3⟩
    rw [ho] at h1
    obtain rfl := Option.some.inj h1
    exact ⟨_, ho, h2, h3⟩

/-- The label of an entry. -/
def Labels (r : Ranges) (n nj : ℕ) : Prop :=
  (∀ i < 12 * n + 16 + nj, ∃! p : Idx (SBlk n), StatePlace r p i) ∧ ∀ i < 12 * n + 7 + nj, ∃! p : Idx (CBlk n), ControlPlace r p i

theorem labels {ls lc ls' lc' : Labeller.Labeller ℝ} {r : Ranges} (h : setVariablesStructure ls lc nj n = some (ls', lc', r)) : Labels r n nj := by
  have hs := C29_state_positions h
  have hc := C29_control_positions h
  obtain rfl := ranges_eq h
  refine ⟨fun i hi => ?_, fun i hi => ?_⟩
  · obtain ⟨p, hp, hu⟩ := hs.2 i hi
    exact ⟨p, (statePlace_iff p i).2 hp, fun p' hp' => hu p' ((statePlace_iff p' i).1 hp')⟩
  · obtain ⟨p, hp, hu⟩ := hc.2 i hi
    exact ⟨p, (controlPlace_iff p i).2 hp, fun p' hp' => hu p' ((controlPlace_iff p' i).1 hp')⟩

theorem readState_at {r : Ranges} {p : Idx (SBlk n)} {i : ℕ} (hp : StatePlace r p i) (v : List ℝ) : readState r v p = v.getD i 0 := by
  obtain ⟨rg, h1, h2, rfl⟩ := hp
  simp [readState, h1, h2]

theorem readState_set {r : Ranges} (hL : Labels r n nj) {p : Idx (SBlk n)} {i : ℕ} (hi : i < 12 * n + 16 + nj) (hp : StatePlace r p i) (v : List ℝ) (hv : v.length = 12 * n + 16 + nj) (a : ℝ) :
    readState r (v.set i a) = update (readState (n := n) r v) p a := by
  funext p'
  by_cases e : p' = p
  · subst e
    rw [update_self, readState_at hp, List.getD_eq_getElem?_getD, List.getElem?_set_self (by omega)]
    rfl
  · rw [update_of_ne e]
    unfold readState
    cases hr : stateRange r p'.1 with
    | none => rfl
    | some rg =>
      dsimp only
      by_cases hk : p'.2 < rg.size
      · rw [if_pos hk, if_pos hk, List.getD_eq_getElem?_getD, List.getD_eq_getElem?_getD, List.getElem?_set_ne]
        intro h
        obtain ⟨_, _, hu⟩ := hL.1 i hi
        exact e ((hu p' ⟨rg, hr, hk, h.symm⟩).trans (hu p hp).symm)
      · rw [if_neg hk, if_neg hk]

theorem readControl_at {r : Ranges} {p : Idx (CBlk n)} {i : ℕ} (hp : ControlPlace r p i) (v : List ℝ) : readControl r v p = v.getD i 0 := by
  obtain ⟨rg, h1, h2, rfl⟩ := hp
  simp [readControl, h1, h2]

theorem readControl_set {r : Ranges} (hL : Labels r n nj) {p : Idx (CBlk n)} {i : ℕ} (hi : i < 12 * n + 7 + nj) (hp : ControlPlace r p i) (v : List ℝ) (hv : v.length = 12 * n + 7 + nj) (a : ℝ) :
    readControl r (v.set i a) = update (readControl (n := n) r v) p a := by
  funext p'
  by_cases e : p' = p
  · subst e
    rw [update_self, readControl_at hp, List.getD_eq_getElem?_getD, List.getElem?_set_self (by omega)]
    rfl
  · rw [update_of_ne e]
    unfold readControl
    cases hr : controlRange r p'.1 with
    | none => rfl
    | some rg =>
      dsimp only
      by_cases hk : p'.2 < rg.size
      · rw [if_pos hk, if_pos hk, List.getD_eq_getElem?_getD, List.getD_eq_getElem?_getD, List.getElem?_set_ne]
        intro h
        obtain ⟨_, _, hu⟩ := hL.2 i hi
        exact e ((hu p' ⟨rg, hr, hk, h.symm⟩).trans (hu p hp).symm)
      · rw [if_neg hk, if_neg hk]

theorem stateVectorOf_at {r : Ranges} (hL : Labels r n nj) {p : Idx (SBlk n)} {i : ℕ} (hi : i < 12 * n + 16 + nj) (hp : StatePlace r p i) (g : SVec n) : stateVectorOf r g i = g p := by
  have h : ∃ p : Idx (SBlk n), StatePlace r p i := ⟨p, hp⟩
  unfold stateVectorOf
  rw [dif_pos h]
  obtain ⟨_, _, hu⟩ := hL.1 i hi
  rw [hu _ h.choose_spec, hu p hp]

theorem controlVectorOf_at {r : Ranges} (hL : Labels r n nj) {p : Idx (CBlk n)} {i : ℕ} (hi : i < 12 * n + 7 + nj) (hp : ControlPlace r p i) (g : CVec n) : controlVectorOf r g i = g p := by
  have h : ∃ p : Idx (CBlk n), ControlPlace r p i := ⟨p, hp⟩
  unfold controlVectorOf
  rw [dif_pos h]
  obtain ⟨_, _, hu⟩ := hL.2 i hi
  rw [hu _ h.choose_spec, hu p hp]

/-- A function of the labelled state with gradient `g`, in the vector. -/
theorem deriv_state {r : Ranges} (hL : Labels r n nj) (v : List ℝ) (hv : v.length = 12 * n + 16 + nj) (f : SVec n → ℝ) (g : SVec n) (hg : GradAt f g (readState r v)) (i : ℕ)
    (hi : i < 12 * n + 16 + nj) : HasDerivAt (fun a => f (readState r (v.set i a))) (stateVectorOf r g i) (v.getD i 0) := by
  obtain ⟨p, hp, -⟩ := hL.1 i hi
  rw [stateVectorOf_at hL hi hp, ← readState_at hp v]
  simp only [readState_set hL hi hp v hv]
  exact hg p

theorem deriv_control {r : Ranges} (hL : Labels r n nj) (v : List ℝ) (hv : v.length = 12 * n + 7 + nj) (f : CVec n → ℝ) (g : CVec n) (hg : GradAt f g (readControl r v)) (i : ℕ)
    (hi : i < 12 * n + 7 + nj) : HasDerivAt (fun a => f (readControl r (v.set i a))) (controlVectorOf r g i) (v.getD i 0) := by
  obtain ⟨p, hp, -⟩ := hL.2 i hi
  rw [controlVectorOf_at hL hi hp, ← readControl_at hp v]
  simp only [readControl_set hL hi hp v hv]
  exact hg p

/-! ### The norms -/

theorem half_deriv (w x r : List ℝ) (h : x.length = r.length) (k : ℕ) (hk : k < x.length) :
    HasDerivAt (fun a => Spec.halfDistance w (x.set k a) r) ((normGradient w x r).getD k 0) (x.getD k 0) := by
  induction w generalizing x r k with
  | nil =>
    simp only [Spec.halfDistance, List.zipWith_nil_left, List.sum_nil, normGradient, List.getD_nil]
    exact hasDerivAt_const _ _
  | cons c w ih =>
    match x, r, h with
    | [], [], _ => simp at hk
    | b :: x, d :: r, h =>
      have h : x.length = r.length := by simpa using h
      cases k with
      | zero =>
        simp only [List.set_cons_zero, Spec.halfDistance, List.zip_cons_cons, List.zipWith_cons_cons, List.sum_cons, normGradient, List.getD_cons_zero]
        have := ((((hasDerivAt_id b).sub_const d).pow 2).const_mul (1 / 2 * c)).add_const (List.zipWith (fun a (b : ℝ × ℝ) => 1 / 2 * a * (b.1 - b.2) ^ 2) w (List.zip x r)).sum
        refine (this.congr_deriv ?_)
        simp
        ring
      | succ k =>
        have := ih x r h k (by simpa using hk)
        simp only [List.set_cons_succ, Spec.halfDistance, List.zip_cons_cons, List.zipWith_cons_cons, List.sum_cons, normGradient, List.getD_cons_succ] at this ⊢
        exact this.const_add _

theorem norm_deriv (cp : Bool) (w x r : List ℝ) (h : x.length = r.length) (k : ℕ) (hk : k < x.length) :
    HasDerivAt (fun a => normValue cp w (x.set k a) r) ((normGradient w x r).getD k 0) (x.getD k 0) := by
  have e : (fun a => normValue cp w (x.set k a) r) = fun a => Spec.halfDistance w (x.set k a) r - (if cp then 0 else normOffset w r) := by
    funext a
    exact norm_eq cp w _ r (by rw [List.length_set]; exact h)
  rw [e]
  exact (half_deriv w x r h k hk).sub_const _

theorem segment_set_in (rg : Range) (v : List ℝ) (i : ℕ) (a : ℝ) (h1 : rg.offset ≤ i) : segmentOf rg (v.set i a) = (segmentOf rg v).set (i - rg.offset) a := by
  unfold segmentOf
  rw [List.drop_set, if_neg (by omega), List.take_set]

theorem segment_set_out (rg : Range) (v : List ℝ) (i : ℕ) (a : ℝ) (h : ¬ (rg.offset ≤ i ∧ i < rg.offset + rg.size)) : segmentOf rg (v.set i a) = segmentOf rg v := by
  unfold segmentOf
  refine List.ext_getElem? fun k => ?_
  rw [List.getElem?_take, List.getElem?_take]
  split
  · rw [List.getElem?_drop, List.getElem?_drop, List.getElem?_set_ne (by omega)]
  · rfl

theorem segment_deriv (cp : Bool) (w : List ℝ) (rg : Range) (v r : List ℝ) (hr : r.length = rg.size) (hv : rg.offset + rg.size ≤ v.length) (i : ℕ) :
    HasDerivAt (fun a => normValue cp w (segmentOf rg (v.set i a)) r) (segmentGradient rg (normGradient w (segmentOf rg v) r) i) (v.getD i 0) := by
  have hlen : (segmentOf rg v).length = rg.size := by unfold segmentOf; rw [List.length_take, List.length_drop]; omega
  unfold segmentGradient
  by_cases h : rg.offset ≤ i ∧ i < rg.offset + rg.size
  · rw [if_pos h]
    simp only [segment_set_in rg v i _ h.1]
    have := norm_deriv cp w (segmentOf rg v) r (by rw [hlen, hr]) (i - rg.offset) (by omega)
    have e : (segmentOf rg v).getD (i - rg.offset) 0 = v.getD i 0 := by
      unfold segmentOf
      rw [List.getD_eq_getElem?_getD, List.getElem?_take_of_lt (by omega), List.getElem?_drop, List.getD_eq_getElem?_getD, Nat.add_sub_cancel' h.1]
    rw [e] at this
    exact this
  · rw [if_neg h]
    simp only [segment_set_out rg v i _ h]
    exact hasDerivAt_const _ _

end
end Verif.Plan
