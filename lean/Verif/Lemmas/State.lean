import Verif.Spec.State
import Verif.Tac
import Mathlib.Tactic.Abel
/- Lemmas about states and controls. -/
set_option linter.unusedSectionVars false
namespace Verif.StateM
open Spec
variable {K : Type}

theorem resizeList_length {α : Type} (l : List α) (n : Nat) (j : α) : (resizeList l n j).length = n := by
  simp [resizeList]; omega

theorem resizeList_take {α : Type} (l : List α) (n : Nat) (j : α) : (resizeList l n j).take l.length = l.take n := by
  simp only [resizeList, List.take_append, List.take_take, List.length_take, List.take_replicate]
  by_cases h : l.length ≤ n
  · rw [Nat.min_eq_left h, Nat.min_eq_right h]; simp [List.take_of_length_le h]
  · rw [show n - l.length = 0 by omega, show min l.length n = n by omega]; simp

theorem accumulate_eq [AddCommMonoid K] (acc : V3 K) (ps : List (PointState K)) :
    accumulate acc ps = acc + (ps.map PointState.position).sum := by
  induction ps generalizing acc with
  | nil => simp [accumulate]
  | cons p ps ih => simp [accumulate, ih, add_assoc]

theorem sum_x [AddCommMonoid K] (l : List (V3 K)) : l.sum.x = (l.map V3.x).sum := by
  induction l with
  | nil => rfl
  | cons a l ih => simp [ih]
theorem sum_y [AddCommMonoid K] (l : List (V3 K)) : l.sum.y = (l.map V3.y).sum := by
  induction l with
  | nil => rfl
  | cons a l ih => simp [ih]
theorem sum_z [AddCommMonoid K] (l : List (V3 K)) : l.sum.z = (l.map V3.z).sum := by
  induction l with
  | nil => rfl
  | cons a l ih => simp [ih]

theorem sum_sub_const [Field K] {α : Type} (l : List α) (f : α → K) (c : K) :
    (l.map fun a => f a - c).sum = (l.map f).sum - l.length * c := by
  induction l with
  | nil => simp
  | cons a l ih => simp [ih]; ring

theorem sum_add_const [Field K] {α : Type} (l : List α) (f : α → K) (c : K) :
    (l.map fun a => f a + c).sum = (l.map f).sum + l.length * c := by
  induction l with
  | nil => simp
  | cons a l ih => simp [ih]; ring

theorem isMean_iff [Field K] [CharZero K] (ps : List (PointState K)) (hne : ps ≠ []) (c : V3 K) :
    IsMean ps c ↔ c = divBy (ps.map PointState.position).sum ps.length := by
  have hn : (ps.length : K) ≠ 0 := by
    rw [Nat.cast_ne_zero]; simpa using hne
  unfold IsMean divBy
  rw [V3.ext_iff, V3.ext_iff]
  simp only [sum_x, sum_y, sum_z, List.map_map, V3.zero_x, V3.zero_y, V3.zero_z]
  have hx := sum_sub_const ps (fun p => p.position.x) c.x
  have hy := sum_sub_const ps (fun p => p.position.y) c.y
  have hz := sum_sub_const ps (fun p => p.position.z) c.z
  have ex : (V3.x ∘ fun p : PointState K => p.position - c) = fun p => p.position.x - c.x := rfl
  have ey : (V3.y ∘ fun p : PointState K => p.position - c) = fun p => p.position.y - c.y := rfl
  have ez : (V3.z ∘ fun p : PointState K => p.position - c) = fun p => p.position.z - c.z := rfl
  rw [ex, ey, ez, hx, hy, hz]
  have fx : (V3.x ∘ PointState.position : PointState K → K) = fun p => p.position.x := rfl
  have fy : (V3.y ∘ PointState.position : PointState K → K) = fun p => p.position.y := rfl
  have fz : (V3.z ∘ PointState.position : PointState K → K) = fun p => p.position.z := rfl
  rw [fx, fy, fz, sub_eq_zero, sub_eq_zero, sub_eq_zero]
  constructor
  · rintro ⟨a, b, d⟩
    exact ⟨by rw [a]; field_simp, by rw [b]; field_simp, by rw [d]; field_simp⟩
  · rintro ⟨a, b, d⟩
    exact ⟨by rw [a]; field_simp, by rw [b]; field_simp, by rw [d]; field_simp⟩

theorem centroid_isMean [Field K] [CharZero K] (s : State K) : IsMean (allPoints s) s.computeFeetCentroid := by
  by_cases h : allPoints s = []
  · simp [h, IsMean]
  · rw [isMean_iff _ h]
    unfold State.computeFeetCentroid
    have : ¬ (s.left.length + s.right.length = 0) := by
      intro hc
      apply h
      rw [← List.length_eq_zero_iff, allPoints, List.length_append, hc]
    rw [if_neg this, accumulate_eq, accumulate_eq, allPoints, List.map_append, List.sum_append, List.length_append,
      zero_add]

theorem minLoop_le [LinearOrder K] (norm : V3 K → K) (m : K) (ps : List (PointState K)) :
    minLoop norm m ps ≤ m ∧ ∀ p ∈ ps, minLoop norm m ps ≤ norm p.force := by
  induction ps generalizing m with
  | nil => simp [minLoop]
  | cons p ps ih =>
    have h := ih (if norm p.force < m then norm p.force else m)
    simp only [minLoop, List.mem_cons, forall_eq_or_imp]
    by_cases hc : norm p.force < m
    · rw [if_pos hc] at h ⊢
      exact ⟨h.1.trans hc.le, h.1, h.2⟩
    · rw [if_neg hc] at h ⊢
      exact ⟨h.1, h.1.trans (not_lt.1 hc), h.2⟩

theorem minLoop_mem [LinearOrder K] (norm : V3 K → K) (m : K) (ps : List (PointState K)) :
    minLoop norm m ps = m ∨ ∃ p ∈ ps, minLoop norm m ps = norm p.force := by
  induction ps generalizing m with
  | nil => simp [minLoop]
  | cons p ps ih =>
    simp only [minLoop]
    rcases ih (if norm p.force < m then norm p.force else m) with h | ⟨q, hq, h⟩
    · by_cases hc : norm p.force < m
      · right; exact ⟨p, by simp, by rw [if_pos hc] at h ⊢; exact h⟩
      · left; rw [if_neg hc] at h ⊢; exact h
    · right; exact ⟨q, by simp [hq], h⟩

theorem minForce_spec [LinearOrder K] (norm : V3 K → K) (ps : List (PointState K)) (m : K)
    (h : minForce norm ps = some m) : (∀ p ∈ ps, m ≤ norm p.force) ∧ ∃ p ∈ ps, m = norm p.force := by
  cases ps with
  | nil => cases h
  | cons p ps =>
    simp only [minForce, Option.some.injEq] at h
    subst h
    have h1 := minLoop_le norm (norm p.force) ps
    refine ⟨?_, ?_⟩
    · intro q hq
      rcases List.mem_cons.1 hq with rfl | hq
      · exact h1.1
      · exact h1.2 q hq
    · rcases minLoop_mem norm (norm p.force) ps with h | ⟨q, hq, h⟩
      · exact ⟨p, by simp, h⟩
      · exact ⟨q, by simp [hq], h⟩

theorem minForce_none [LinearOrder K] (norm : V3 K → K) (ps : List (PointState K)) :
    minForce norm ps = none ↔ ps = [] := by cases ps <;> simp [minForce]

end Verif.StateM
