import Verif.Lemmas.Timely
import Mathlib.Algebra.Order.Ring.Rat
import Mathlib.Tactic.NormNum
import Mathlib.Tactic.Push
/- Properties C03 and C04: lookup of the kinematics object nearest to a time. -/
set_option linter.unusedSectionVars false
namespace Verif.Timely
open Spec
variable {K : Type} [Field K] [LinearOrder K] [IsStrictOrderedRing K]

/-- The object after the first successful `setTimings grid` and any sequence of lookups `qs`. -/
def afterQueries (grid : List K) (tol : K) (qs : List K) : Option (Timely K) :=
  gets (setTimings (init K true) grid).1 tol qs

theorem afterQueries_state (grid : List K) (tol : K) (hne : grid ≠ []) (hs : grid.Pairwise (· < ·)) (qs : List K) :
    ∃ s, afterQueries grid tol qs = some s ∧ s.times = grid ∧ s.valid = true ∧ s.timingsSet = true
      ∧ s.prev < grid.length := by
  have hpos : 0 < grid.length := List.length_pos_iff.2 hne
  have key : ∀ (qs : List K) (s : Timely K), s.times = grid → s.valid = true → s.timingsSet = true →
      s.prev < grid.length → ∃ s', gets s tol qs = some s' ∧ s'.times = grid ∧ s'.valid = true ∧
        s'.timingsSet = true ∧ s'.prev < grid.length := by
    intro qs
    induction qs with
    | nil => intro s h1 h2 h3 h4; exact ⟨s, rfl, h1, h2, h3, h4⟩
    | cons q qs ih =>
      intro s h1 h2 h3 h4
      obtain ⟨k, hk, hg⟩ := getClosestIndex_good hs hpos tol s.prev h4 q
      have hget : get s tol q = some ({ s with prev := k }, .entry k) := by
        simp only [get, h2, h3, if_true, h1, hk]
      simp only [gets, hget]
      exact ih _ h1 h2 h3 hg.lt
  unfold afterQueries
  apply key
  · simp [setTimings, init, mergeTimes_nil]
  · rfl
  · rfl
  · simpa [setTimings, init] using hpos

/-- C03.  Once a strictly increasing non-empty grid is set, then after any history of lookups the next lookup
succeeds and hands out an entry whose time is nearest to the request, or within the equality tolerance of it. -/
theorem C03_nearest (grid : List K) (tol : K) (hne : grid ≠ []) (hs : grid.Pairwise (· < ·)) (qs : List K) (t : K) :
    ∃ s s' k, afterQueries grid tol qs = some s ∧ get s tol t = some (s', .entry k)
      ∧ NearestUpTo tol grid t k := by
  obtain ⟨s, h, h1, h2, h3, h4⟩ := afterQueries_state grid tol hne hs qs
  obtain ⟨k, hk, hg⟩ := getClosestIndex_good hs (List.length_pos_iff.2 hne) tol s.prev h4 t
  refine ⟨s, { s with prev := k }, k, h, ?_, ?_⟩
  · simp only [get, h2, h3, if_true, h1, hk]
  · rcases hg with hg | ⟨hk, hg⟩
    · exact ⟨hg.1, Or.inl (nearestLate_nearest hg)⟩
    · exact ⟨hk, Or.inr hg⟩

/-- C03 (history independence).  When grid points are at least twice the tolerance apart, the lookup returns the
nearest entry (later one on ties) and the answer does not depend on the earlier lookups. -/
theorem C03_history_independent (grid : List K) (tol : K) (hne : grid ≠ [])
    (htol : 0 < tol)
    (hsp : ∀ a b (ha : a < grid.length) (hb : b < grid.length), a < b → 2 * tol ≤ grid[b] - grid[a])
    (t : K) :
    ∃ k, NearestLate grid t k ∧ ∀ qs, ∃ s s', afterQueries grid tol qs = some s
      ∧ get s tol t = some (s', .entry k) := by
  have hs : grid.Pairwise (· < ·) := by
    rw [List.pairwise_iff_getElem]
    intro i j hi hj hij
    have := hsp i j hi hj hij
    linarith
  have hpos := List.length_pos_iff.2 hne
  obtain ⟨k, hk, hg⟩ := getClosestIndex_good hs hpos tol 0 hpos t
  refine ⟨k, hg.late hsp, fun qs => ?_⟩
  obtain ⟨s, h, h1, h2, h3, h4⟩ := afterQueries_state grid tol hne hs qs
  obtain ⟨k', hk', hg'⟩ := getClosestIndex_good hs hpos tol s.prev h4 t
  have : k' = k := nearestLate_unique (hg'.late hsp) (hg.late hsp)
  subst this
  exact ⟨s, { s with prev := k' }, h, by simp only [get, h2, h3, if_true, h1, hk']⟩

/-- Non-vacuity of C03: a concrete grid, history and request. -/
example : ([0, 1, 2, 3] : List ℚ) ≠ [] ∧ ([0, 1, 2, 3] : List ℚ).Pairwise (· < ·)
    ∧ getClosestIndex ([0, 1, 2, 3] : List ℚ) (1/10) 3 (6/5) = some 1 := by
  refine ⟨by simp, by norm_num, ?_⟩
  decide +kernel

/-- C04 fails on the pinned code: after re-setting the timings with a shorter list the lookup still answers with an
entry of the old list (entry 3 of a grid that now has two entries), although the request is nearest to entry 1. -/
theorem C04_negation_stale_grid :
    ∃ (g1 g2 : List ℚ) (tol t : ℚ), g1.Pairwise (· < ·) ∧ g2.Pairwise (· < ·) ∧ g2 ≠ [] ∧
      (let s := (setTimings (setTimings (init ℚ true) g1).1 g2).1
       ∃ s' k, get s tol t = some (s', .entry k) ∧ ¬ (k < g2.length)) := by
  refine ⟨[0, 1, 2, 3], [0, 1], 1/10, 3, by norm_num, by norm_num, by simp, ?_⟩
  refine ⟨_, 3, by simp [get, setTimings, init, mergeTimes, getClosestIndex]; rfl, by simp⟩

/-- C04 (the part that holds).  After any history of `setTimings` and lookups, re-setting the timings with a
strictly increasing list at least as long as the grid stored so far makes the next lookup (and, by `C03_nearest`'s
argument, all following ones) answer with respect to the list just passed.  Missing: shorter lists (refuted by
`C04_negation_stale_grid`). -/
theorem C04_regrid_partial (tol : K) (ops : List (Op K)) (s : Timely K) (hr : run (init K true) tol ops = some s)
    (grid : List K) (t : K) (hne : grid ≠ []) (hs : grid.Pairwise (· < ·))
    (hlen : s.times.length ≤ grid.length) :
    ∃ s' k, get (setTimings s grid).1 tol t = some (s', .entry k) ∧ NearestUpTo tol grid t k := by
  obtain ⟨hp, hv⟩ := run_prev tol ops (init K true) s (Or.inl rfl) hr
  have hv : s.valid = true := hv
  have hpos := List.length_pos_iff.2 hne
  have hprev : s.prev < grid.length := by omega
  obtain ⟨k, hk, hg⟩ := getClosestIndex_good hs (List.length_pos_iff.2 hne) tol s.prev hprev t
  have hst : (setTimings s grid).1 = { s with times := grid, timingsSet := true } := by
    simp only [setTimings, hv, if_true, mergeTimes_of_le _ _ hlen]
  refine ⟨{ s with times := grid, timingsSet := true, prev := k }, k, ?_, ?_⟩
  · rw [hst]; simp only [get, hv, if_true, hk]
  · rcases hg with hg | ⟨hk, hg⟩
    · exact ⟨hg.1, Or.inl (nearestLate_nearest hg)⟩
    · exact ⟨hk, Or.inr hg⟩

/-- What is stored after `setTimings`: the new list followed by what sticks out of the old one. -/
theorem mergeTimes_eq (old new : List K) : mergeTimes old new = new ++ old.drop new.length := by
  fun_induction mergeTimes old new with
  | case1 => simp
  | case2 => simp
  | case3 a old t new ih => simp [ih]

/-- C04 (any length, also shorter).  After any history, re-setting the timings leaves the list just passed followed
by the leftover entries of the old one; as long as this is still increasing, the next lookup succeeds and is nearest
with respect to it.  Missing: the leftover entries should not be there (`C04_negation_stale_grid`). -/
theorem C04_stored_grid_partial (tol : K) (ops : List (Op K)) (s : Timely K)
    (hr : run (init K true) tol ops = some s) (grid : List K) (t : K) (hne : grid ≠ [])
    (hs : (grid ++ s.times.drop grid.length).Pairwise (· < ·)) :
    ∃ s' k, get (setTimings s grid).1 tol t = some (s', .entry k)
      ∧ NearestUpTo tol (grid ++ s.times.drop grid.length) t k := by
  obtain ⟨hp, hv⟩ := run_prev tol ops (init K true) s (Or.inl rfl) hr
  have hv : s.valid = true := hv
  have hpos := List.length_pos_iff.2 hne
  have hprev : s.prev < (grid ++ s.times.drop grid.length).length := by
    simp only [List.length_append, List.length_drop]; omega
  obtain ⟨k, hk, hg⟩ := getClosestIndex_good hs (by omega) tol s.prev hprev t
  refine ⟨{ s with times := grid ++ s.times.drop grid.length, timingsSet := true, prev := k }, k, ?_, ?_⟩
  · simp only [get, setTimings, hv, if_true, mergeTimes_eq, hk]
  · rcases hg with hg | ⟨hk, hg⟩
    · exact ⟨hg.1, Or.inl (nearestLate_nearest hg)⟩
    · exact ⟨hk, Or.inr hg⟩

/-- C04 (a shorter list, requests inside it).  If the leftover entries of the old grid all come after the list just
passed, by at least the tolerance, then a request that does not exceed the end of this list is answered as it should:
with respect to the list just passed. -/
theorem C04_inside_partial (tol : K) (ops : List (Op K)) (s : Timely K)
    (hr : run (init K true) tol ops = some s) (grid : List K) (t : K) (hne : grid ≠ [])
    (hs : grid.Pairwise (· < ·)) (ho : (s.times.drop grid.length).Pairwise (· < ·))
    (htol : 0 < tol) (hl : ∀ x ∈ s.times.drop grid.length, grid.getLast hne + tol ≤ x)
    (ht : t ≤ grid.getLast hne) :
    ∃ s' k, get (setTimings s grid).1 tol t = some (s', .entry k) ∧ NearestUpTo tol grid t k := by
  have hle : ∀ a ∈ grid, a ≤ grid.getLast hne := by
    intro a ha
    obtain ⟨i, hi, rfl⟩ := List.mem_iff_getElem.1 ha
    rw [List.getLast_eq_getElem]
    exact sorted_le hs hi (by omega) (by omega)
  have hp : (grid ++ s.times.drop grid.length).Pairwise (· < ·) := by
    rw [List.pairwise_append]
    refine ⟨hs, ho, fun a ha b hb => ?_⟩
    have := hl b hb; have := hle a ha; linarith
  obtain ⟨s', k, h1, hk, h2⟩ := C04_stored_grid_partial tol ops s hr grid t hne hp
  have hpos := List.length_pos_iff.2 hne
  have stale : ∀ (m : Nat) (hm : m < (grid ++ s.times.drop grid.length).length), grid.length ≤ m →
      tol ≤ |t - (grid ++ s.times.drop grid.length)[m]| ∧
      |t - grid.getLast hne| < |t - (grid ++ s.times.drop grid.length)[m]| := by
    intro m hm hgm
    have hmem : (grid ++ s.times.drop grid.length)[m] ∈ s.times.drop grid.length := by
      rw [List.getElem_append_right hgm]; exact List.getElem_mem _
    have hb := hl _ hmem
    rw [abs_of_nonpos (a := t - grid.getLast hne) (by linarith), abs_of_nonpos (by linarith)]
    constructor <;> linarith
  have hkl : k < grid.length := by
    by_contra hcon
    obtain ⟨h3, h4⟩ := stale k hk (by omega)
    rcases h2 with h2 | h2
    · obtain ⟨_, h2⟩ := h2
      have h5 := h2 (grid.length - 1) (by simp only [List.length_append]; omega)
      have e : (grid ++ s.times.drop grid.length)[grid.length - 1]'(by simp only [List.length_append]; omega)
          = grid.getLast hne := by
        rw [List.getElem_append_left (by omega), List.getLast_eq_getElem]
      rw [e] at h5
      rw [abs_sub_comm] at h4
      simp only [abs_sub_comm t] at h4 h5
      linarith
    · linarith
  refine ⟨s', k, h1, hkl, ?_⟩
  rcases h2 with h2 | h2
  · refine Or.inl ⟨hkl, fun m hm => ?_⟩
    obtain ⟨_, h2⟩ := h2
    have h5 := h2 m (by simp only [List.length_append]; omega)
    rw [List.getElem_append_left hkl, List.getElem_append_left hm] at h5
    exact h5
  · rw [List.getElem_append_left hkl] at h2
    exact Or.inr h2

/-- Non-vacuity of `C04_stored_grid_partial` and `C04_inside_partial`: a history after which the grid shrinks. -/
example : ∃ s, run (init ℚ true) (1/10) [.setTimings [0, 1, 2, 3], .get 3] = some s
    ∧ (([1/2, 3/2] : List ℚ) ++ s.times.drop 2).Pairwise (· < ·)
    ∧ (∀ x ∈ s.times.drop 2, (3/2 : ℚ) + 1/10 ≤ x) ∧ s.prev = 3 := by
  refine ⟨_, by simp [run, get, setTimings, init, mergeTimes, getClosestIndex]; rfl, ?_, ?_, rfl⟩
  · simp [mergeTimes]; norm_num
  · simp [mergeTimes]; norm_num

/-- Whatever the history (also with unsorted or shrinking lists), an index handed out by a lookup is in bounds of the
stored grid. -/
theorem C03_in_bounds (tol : K) (s s' : Timely K) (t : K) (k : Nat)
    (h : get s tol t = some (s', .entry k)) : k < s.times.length := by
  unfold get at h
  split at h
  · split at h
    · split at h
      · rename_i k' hk
        simp only [Option.some.injEq, Prod.mk.injEq, Handle.entry.injEq] at h
        obtain ⟨_, rfl⟩ := h
        exact getClosestIndex_lt _ _ _ _ _ hk
      · cases h
    · simp at h
  · cases h

/-- Non-vacuity of `C04_regrid_partial`: a history that regrows the grid. -/
example : ∃ s, run (init ℚ true) (1/10) [.setTimings [0, 1], .get 1, .setTimings [0, 1, 2]] = some s
    ∧ s.times.length ≤ ([0, 1/2, 1, 3/2] : List ℚ).length ∧ s.prev = 1 := by
  refine ⟨_, by simp [run, get, setTimings, init, mergeTimes, getClosestIndex]; rfl, by simp [mergeTimes], rfl⟩

/-- An object whose robot model is not loaded refuses timings. -/
theorem C04_invalid_refused (s : Timely K) (hv : s.valid = false) (grid : List K) :
    setTimings s grid = (s, false) := by simp [setTimings, hv]

/-- Before any timings are set the template object is handed out, whatever the time. -/
theorem C03_template_before_timings (s : Timely K) (hv : s.valid = true) (h : s.timingsSet = false) (tol t : K) :
    get s tol t = some (s, .template) := by simp [get, hv, h]

/-- Setting an empty list and then asking is an out-of-bounds access in the pinned code. -/
theorem C03_empty_grid_out_of_bounds (tol t : K) :
    get (setTimings (init K true) []).1 tol t = none := by
  simp [get, setTimings, init, mergeTimes, getClosestIndex]

end Verif.Timely
