import Verif.Model.Timely
import Verif.Spec.Timely
import Mathlib.Tactic.Linarith
import Mathlib.Tactic.Ring
/- Helper lemmas for the time lookup. -/
set_option linter.unusedSectionVars false
namespace Verif.Timely
open Spec
variable {K : Type} [Field K] [LinearOrder K] [IsStrictOrderedRing K]

theorem sorted_lt {ts : List K} (hs : ts.Pairwise (· < ·)) {a b : Nat} (ha : a < ts.length) (hb : b < ts.length)
    (h : a < b) : ts[a] < ts[b] := List.pairwise_iff_getElem.1 hs a b ha hb h

theorem sorted_le {ts : List K} (hs : ts.Pairwise (· < ·)) {a b : Nat} (ha : a < ts.length) (hb : b < ts.length)
    (h : a ≤ b) : ts[a] ≤ ts[b] := by
  rcases Nat.lt_or_eq_of_le h with h | h
  · exact le_of_lt (sorted_lt hs ha hb h)
  · subst h; exact le_refl _

theorem abs_of_le' {a b : K} (h : a ≤ b) : |b - a| = b - a := abs_of_nonneg (by linarith)
theorem abs_of_ge' {a b : K} (h : b ≤ a) : |b - a| = a - b := by rw [abs_of_nonpos (by linarith)]; ring

/-- The closest of two neighbouring grid points bracketing `t` is nearest (ties late). -/
theorem bracket_nearest {ts : List K} (hs : ts.Pairwise (· < ·)) {p : Nat} (hp : p + 1 < ts.length) {t : K}
    (h1 : ts[p] ≤ t) (h2 : t ≤ ts[p + 1]) :
    NearestLate ts t (if t - ts[p] ≥ ts[p + 1] - t then p + 1 else p) := by
  have hp' : p < ts.length := by omega
  split
  · rename_i hc
    refine ⟨hp, fun m hm => ?_⟩
    rw [abs_of_ge' h2]
    by_cases hmp : m ≤ p
    · have hle := sorted_le hs hm hp' hmp
      rw [abs_of_le' (le_trans hle h1)]
      rcases lt_or_eq_of_le (show ts[p+1] - t ≤ t - ts[m] by linarith) with h | h
      · exact Or.inl h
      · exact Or.inr ⟨h, by omega⟩
    · rcases Nat.lt_or_eq_of_le (show p + 1 ≤ m by omega) with h | h
      · have := sorted_lt hs hp hm h
        rw [abs_of_ge' (by linarith)]; left; linarith
      · subst h; right; exact ⟨(abs_of_ge' h2).symm, le_refl _⟩
  · rename_i hc
    refine ⟨hp', fun m hm => ?_⟩
    rw [abs_of_le' h1]
    push Not at hc
    by_cases hmp : m ≤ p
    · have hle := sorted_le hs hm hp' hmp
      rw [abs_of_le' (le_trans hle h1)]
      rcases lt_or_eq_of_le (show t - ts[p] ≤ t - ts[m] by linarith) with h | h
      · exact Or.inl h
      · exact Or.inr ⟨h, hmp⟩
    · have hle := sorted_le hs hp hm (by omega)
      rw [abs_of_ge' (le_trans h2 hle)]
      left; linarith

theorem nearestLate_nearest {ts : List K} {t : K} {k : Nat} (h : NearestLate ts t k) : Nearest ts t k := by
  obtain ⟨hk, h⟩ := h
  refine ⟨hk, fun m hm => ?_⟩
  rcases h m hm with h | h
  · exact le_of_lt h
  · exact le_of_eq h.1

theorem nearestLate_unique {ts : List K} {t : K} {k k' : Nat} (h : NearestLate ts t k) (h' : NearestLate ts t k') :
    k = k' := by
  obtain ⟨hk, h⟩ := h
  obtain ⟨hk', h'⟩ := h'
  rcases h k' hk' with a | ⟨a, b⟩ <;> rcases h' k hk with a' | ⟨a', b'⟩
  · exact absurd a (not_lt.2 (le_of_lt a'))
  · exact absurd a' (ne_of_gt a)
  · exact absurd a (ne_of_gt a')
  · omega

/-- Result specification: nearest with late ties, or within tolerance. -/
def Good (ts : List K) (tol t : K) (k : Nat) : Prop :=
  NearestLate ts t k ∨ ∃ hk : k < ts.length, |t - ts[k]| < tol

theorem search_spec {ts : List K} (hs : ts.Pairwise (· < ·)) (tol t : K) (hne : 0 < ts.length)
    (h0 : ts[0] < t) (hl : t < ts[ts.length - 1]) :
    ∀ (i j mid : Nat), i < j → j ≤ ts.length → (∀ hi : i < ts.length, ts[i] ≤ t) →
      (∀ hj : j < ts.length, t < ts[j]) →
      ∃ k, search ts tol t i j mid = some k ∧ Good ts tol t k := by
  intro i j
  induction hn : j - i using Nat.strongRecOn generalizing i j with
  | ind n ih =>
    intro mid hij hj hi hjt
    rw [search]
    simp only [hij, dite_true]
    have hm1 : i ≤ (i + j) / 2 := by omega
    have hm2 : (i + j) / 2 < j := by omega
    generalize hmid : (i + j) / 2 = m at hm1 hm2
    have hm : m < ts.length := by omega
    rw [List.getElem?_eq_getElem hm]
    simp only
    by_cases he : eqTol tol t ts[m]
    · simp only [he, if_true]
      exact ⟨m, rfl, Or.inr ⟨hm, by simpa [eqTol] using he⟩⟩
    · simp only [he, Bool.false_eq_true, if_false]
      by_cases hlt : t < ts[m]
      · have hm0 : m ≠ 0 := by
          intro h; subst h
          exact absurd hlt (not_lt.2 (le_of_lt h0))
        have hmm : m - 1 < ts.length := by omega
        simp only [hlt, if_true, hm0, if_false]
        rw [List.getElem?_eq_getElem hmm]
        simp only
        by_cases hg : t > ts[m - 1]
        · simp only [hg, if_true]
          refine ⟨_, rfl, Or.inl ?_⟩
          obtain ⟨p, rfl⟩ : ∃ p, m = p + 1 := ⟨m - 1, by omega⟩
          simp only [Nat.add_sub_cancel] at hg ⊢
          exact bracket_nearest hs hm (le_of_lt hg) (le_of_lt hlt)
        · simp only [hg, if_false]
          have him : i < m := by
            rcases Nat.lt_or_eq_of_le hm1 with h | h
            · exact h
            · subst h; exact absurd hlt (not_lt.2 (hi hm))
          exact ih (m - i) (by omega) i m rfl m him (by omega) hi (fun _ => hlt)
      · simp only [hlt, if_false]
        push Not at hlt
        have hmn : m + 1 < ts.length := by
          by_contra hcon
          have : m = ts.length - 1 := by omega
          subst this
          exact absurd hl (not_lt.2 hlt)
        rw [List.getElem?_eq_getElem hmn]
        simp only
        by_cases hg : t < ts[m + 1]
        · simp only [hg, if_true]
          exact ⟨_, rfl, Or.inl (bracket_nearest hs hmn hlt (le_of_lt hg))⟩
        · simp only [hg, if_false]
          push Not at hg
          rcases Nat.lt_or_eq_of_le (show m + 1 ≤ j by omega) with h | h
          · exact ih (j - (m + 1)) (by omega) (m + 1) j rfl m h hj (fun _ => hg) hjt
          · subst h
            exact absurd (hjt hmn) (not_lt.2 hg)

theorem getClosestIndex_good {ts : List K} (hs : ts.Pairwise (· < ·)) (hne : 0 < ts.length) (tol : K) (prev : Nat)
    (hprev : prev < ts.length) (t : K) :
    ∃ k, getClosestIndex ts tol prev t = some k ∧ Good ts tol t k := by
  unfold getClosestIndex
  have hl : ts.length - 1 < ts.length := by omega
  rw [List.getElem?_eq_getElem hne, List.getElem?_eq_getElem hl]
  simp only
  by_cases h0 : t ≤ ts[0]
  · simp only [h0, if_true]
    refine ⟨0, rfl, Or.inl ⟨hne, fun m hm => ?_⟩⟩
    have hle := sorted_le hs hne hm (Nat.zero_le _)
    rw [abs_of_ge' h0, abs_of_ge' (le_trans h0 hle)]
    rcases Nat.eq_zero_or_pos m with h | h
    · subst h; exact Or.inr ⟨rfl, le_refl _⟩
    · have := sorted_lt hs hne hm h
      left; linarith
  · simp only [h0, if_false]
    push Not at h0
    by_cases h1 : t ≥ ts[ts.length - 1]
    · simp only [h1, if_true]
      refine ⟨_, rfl, Or.inl ⟨hl, fun m hm => ?_⟩⟩
      have hle := sorted_le hs hm hl (by omega)
      rw [abs_of_le' h1, abs_of_le' (le_trans hle h1)]
      rcases lt_or_eq_of_le (show t - ts[ts.length - 1] ≤ t - ts[m] by linarith) with h | h
      · exact Or.inl h
      · exact Or.inr ⟨h, by omega⟩
    · simp only [h1, if_false]
      push Not at h1
      rw [List.getElem?_eq_getElem hprev]
      simp only
      by_cases he : eqTol tol t ts[prev]
      · simp only [he, if_true]
        exact ⟨prev, rfl, Or.inr ⟨hprev, by simpa [eqTol] using he⟩⟩
      · simp only [he, Bool.false_eq_true, if_false]
        have hsearch := search_spec hs tol t hne h0 h1 0 ts.length 0 hne (le_refl _)
          (fun _ => le_of_lt h0) (fun h => absurd h (Nat.lt_irrefl _))
        by_cases hp1 : prev + 1 < ts.length
        · rw [List.getElem?_eq_getElem hp1]
          simp only
          by_cases he1 : eqTol tol t ts[prev + 1]
          · simp only [he1, if_true]
            exact ⟨prev + 1, rfl, Or.inr ⟨hp1, by simpa [eqTol] using he1⟩⟩
          · simp only [he1, Bool.false_eq_true, if_false]
            exact hsearch
        · rw [List.getElem?_eq_none (by omega)]
          simp only [Bool.false_eq_true, if_false]
          exact hsearch

theorem Good.lt {ts : List K} {tol t : K} {k : Nat} (h : Good ts tol t k) : k < ts.length := by
  rcases h with ⟨hk, _⟩ | ⟨hk, _⟩ <;> exact hk

/-- If grid points are at least `2*tol` apart, a point within `tol` is the strictly nearest one. -/
theorem Good.late {ts : List K} {tol t : K} {k : Nat}
    (hsp : ∀ a b (ha : a < ts.length) (hb : b < ts.length), a < b → 2 * tol ≤ ts[b] - ts[a])
    (h : Good ts tol t k) : NearestLate ts t k := by
  rcases h with h | ⟨hk, h⟩
  · exact h
  · refine ⟨hk, fun m hm => ?_⟩
    rcases Nat.lt_trichotomy m k with hmk | hmk | hmk
    · left
      have := hsp m k hm hk hmk
      rw [abs_lt] at h
      have h2 : t - ts[m] ≤ |t - ts[m]| := le_abs_self _
      have h3 : |t - ts[k]| < tol := abs_lt.2 h
      linarith [h.1]
    · subst hmk; exact Or.inr ⟨rfl, le_refl _⟩
    · left
      have := hsp k m hk hm hmk
      rw [abs_lt] at h
      have h2 : -(t - ts[m]) ≤ |t - ts[m]| := neg_le_abs _
      have h3 : |t - ts[k]| < tol := abs_lt.2 h
      linarith [h.2]

theorem mergeTimes_nil (l : List K) : mergeTimes [] l = l := by cases l <;> rfl

theorem mergeTimes_of_le : ∀ (old new : List K), old.length ≤ new.length → mergeTimes old new = new
  | old, [], h => by cases old with
    | nil => rfl
    | cons => simp at h
  | [], _ :: _, _ => rfl
  | _ :: old, t :: new, h => by
    simp only [mergeTimes]
    rw [mergeTimes_of_le old new (by simpa using h)]

theorem mergeTimes_length (old new : List K) : (mergeTimes old new).length = max old.length new.length := by
  fun_induction mergeTimes old new with
  | case1 => simp
  | case2 => simp
  | case3 a old t new ih => simp [ih]

/-- Every index that the search can return is in bounds. -/
theorem search_lt (ts : List K) (tol t : K) :
    ∀ (i j mid k : Nat), mid < ts.length → search ts tol t i j mid = some k → k < ts.length := by
  intro i j
  induction hn : j - i using Nat.strongRecOn generalizing i j with
  | ind n ih =>
    intro mid k hmid h
    rw [search] at h
    by_cases hij : i < j
    · simp only [hij, dite_true] at h
      generalize hme : (i + j) / 2 = m at h
      have hm1 : i ≤ m := by omega
      have hm2 : m < j := by omega
      cases hg : ts[m]? with
      | none => rw [hg] at h; simp at h
      | some tm =>
        have hm : m < ts.length := (List.getElem?_eq_some_iff.1 hg).1
        rw [hg] at h
        simp only at h
        split at h
        · cases h; exact hm
        · split at h
          · split at h
            · cases h
            · split at h
              · cases h
              · rename_i hp
                have := (List.getElem?_eq_some_iff.1 hp).1
                split at h
                · cases h; split <;> assumption
                · exact ih (m - i) (by omega) i m rfl m k hm h
          · split at h
            · cases h
            · rename_i hp
              have := (List.getElem?_eq_some_iff.1 hp).1
              split at h
              · cases h; split <;> assumption
              · exact ih (j - (m + 1)) (by omega) (m + 1) j rfl m k hm h
    · simp only [hij, dite_false, Option.some.injEq] at h
      subst h; exact hmid

theorem getClosestIndex_lt (ts : List K) (tol t : K) (prev k : Nat) (h : getClosestIndex ts tol prev t = some k) :
    k < ts.length := by
  unfold getClosestIndex at h
  split at h
  · rename_i h0 h1
    have hlen := (List.getElem?_eq_some_iff.1 h0).1
    have hlen1 := (List.getElem?_eq_some_iff.1 h1).1
    split at h
    · cases h; exact hlen
    · split at h
      · cases h; exact hlen1
      · split at h
        · cases h
        · rename_i hp
          have := (List.getElem?_eq_some_iff.1 hp).1
          split at h
          · cases h; assumption
          · by_cases hc : prev + 1 < ts.length
            · rw [List.getElem?_eq_getElem hc] at h
              simp only at h
              split at h
              · cases h; exact hc
              · exact search_lt ts tol t 0 ts.length 0 k hlen h
            · rw [List.getElem?_eq_none (by omega)] at h
              simp only [Bool.false_eq_true, if_false] at h
              exact search_lt ts tol t 0 ts.length 0 k hlen h
  · cases h

/-- In every reachable object the cached index is in bounds (or zero before any timing is set). -/
theorem run_prev (tol : K) (ops : List (Op K)) : ∀ (s s' : Timely K),
    (s.prev = 0 ∨ s.prev < s.times.length) → run s tol ops = some s' →
    (s'.prev = 0 ∨ s'.prev < s'.times.length) ∧ s'.valid = s.valid := by
  induction ops with
  | nil => intro s s' h hr; simp only [run, Option.some.injEq] at hr; subst hr; exact ⟨h, rfl⟩
  | cons op ops ih =>
    intro s s' h hr
    cases op with
    | setTimings l =>
      simp only [run] at hr
      have hv : (setTimings s l).1.valid = s.valid := by unfold setTimings; split <;> rfl
      rw [← hv]
      apply ih _ _ _ hr
      unfold setTimings
      split
      · rcases h with h | h
        · exact Or.inl h
        · right; simp only [mergeTimes_length]; omega
      · exact h
    | get t =>
      simp only [run] at hr
      split at hr
      · rename_i s1 hd hg
        unfold get at hg
        split at hg
        · split at hg
          · split at hg
            · rename_i k hk
              simp only [Option.some.injEq, Prod.mk.injEq] at hg
              obtain ⟨rfl, _⟩ := hg
              exact ih { s with prev := k } _ (Or.inr (getClosestIndex_lt _ _ _ _ _ hk)) hr
            · cases hg
          · simp only [Option.some.injEq, Prod.mk.injEq] at hg
            obtain ⟨rfl, _⟩ := hg
            exact ih _ _ h hr
        · cases hg
      · cases hr

end Verif.Timely
