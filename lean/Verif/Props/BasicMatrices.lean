import Verif.Model.BasicMatrices
import Mathlib.Tactic.IntervalCases
/- C102: rows, columns and elements of the constant matrices with few entries. -/
namespace Verif.Levi.Basic
variable {S K : Type} [Field K]

/-- The entry is in the matrix and its expression is a constant. -/
def Proper (r c : Nat) (t : Triplet S K) : Prop := t.row < r ∧ t.col < c ∧ ∀ s s', t.value s = t.value s'

/-- What a user can make: constants with different places. -/
inductive Made : Matrix S K → Prop
  | null (r c : Nat) : Made (newNull r c)
  | identity (r c : Nat) : Made (newIdentity r c)
  | single {s : S} {r c : Nat} {t : Triplet S K} {m : Matrix S K} : Proper r c t → newSingle s r c t = some m → Made m
  | two {s : S} {r c : Nat} {t u : Triplet S K} {m : Matrix S K} : Proper r c t → Proper r c u → ¬(t.row = u.row ∧ t.col = u.col) → newTwo s r c t u = some m → Made m

theorem single_some (s : S) {r c : Nat} {t : Triplet S K} (h : Proper r c t) : newSingle s r c t = some ⟨r, c, .single t, fun k l => if k = t.row ∧ l = t.col then t.value s else 0⟩ := by
  simp [newSingle, write, h.1, h.2.1]

theorem two_some (s : S) {r c : Nat} {t u : Triplet S K} (h : Proper r c t) (h' : Proper r c u) : newTwo s r c t u =
    some ⟨r, c, .two t u, fun k l => if k = u.row ∧ l = u.col then u.value s else if k = t.row ∧ l = t.col then t.value s else 0⟩ := by
  simp [newTwo, write, h.1, h.2.1, h'.1, h'.2.1]

/-- C102: the row exists, with its size, and has the values of the row; rows, columns and elements can be taken from it again. -/
theorem C102_row_partial {m : Matrix S K} (h : Made m) (s : S) (i : Nat) (hi : i < m.rows) (hid : m.kind = .identity → m.rows ≠ 1 → i < m.cols) :
    ∃ x, row s m i = some x ∧ Made x ∧ x.rows = 1 ∧ x.cols = m.cols ∧ ∀ j, j < m.cols → x.buffer 0 j = m.buffer i j := by
  by_cases h1 : m.rows = 1
  · refine ⟨m, by simp [row, hi, h1]; omega, h, h1, rfl, fun j _ => ?_⟩
    rw [show i = 0 by omega]
  · unfold row
    rw [if_pos hi, if_neg h1]
    cases h with
    | null r c => exact ⟨_, rfl, .null 1 c, rfl, rfl, fun j _ => rfl⟩
    | identity r c =>
      have hp : Proper 1 c (⟨0, i, fun _ => 1⟩ : Triplet S K) := ⟨Nat.one_pos, hid rfl h1, fun _ _ => rfl⟩
      refine ⟨_, single_some s hp, .single hp (single_some s hp), rfl, rfl, fun j _ => ?_⟩
      simp [newIdentity, eq_comm]
    | @single s0 r c t m ht hm =>
      rw [single_some s0 ht] at hm
      cases hm
      dsimp only
      split_ifs with e
      · have hp : Proper 1 c (⟨0, t.col, t.value⟩ : Triplet S K) := ⟨Nat.one_pos, ht.2.1, ht.2.2⟩
        refine ⟨_, single_some s hp, .single hp (single_some s hp), rfl, rfl, fun j _ => ?_⟩
        simp [e, ht.2.2 s s0]
      · exact ⟨_, rfl, .null 1 c, rfl, rfl, fun j _ => by simp [newNull, e]⟩
    | @two s0 r c t u m ht hu hd hm =>
      rw [two_some s0 ht hu] at hm
      cases hm
      have hpt : Proper 1 c (⟨0, t.col, t.value⟩ : Triplet S K) := ⟨Nat.one_pos, ht.2.1, ht.2.2⟩
      have hpu : Proper 1 c (⟨0, u.col, u.value⟩ : Triplet S K) := ⟨Nat.one_pos, hu.2.1, hu.2.2⟩
      dsimp only
      split_ifs with e1 e2 e3
      · refine ⟨_, two_some s hpt hpu, .two hpt hpu (fun hh => hd ⟨by omega, hh.2⟩) (two_some s hpt hpu), rfl, rfl, fun j _ => ?_⟩
        simp [← e1.1, ← e1.2, ht.2.2 s s0, hu.2.2 s s0]
      · refine ⟨_, single_some s hpt, .single hpt (single_some s hpt), rfl, rfl, fun j _ => ?_⟩
        have e3 : ¬i = u.row := fun h => e1 ⟨e2, h⟩
        simp [e3, e2, ht.2.2 s s0]
        simp [← e2, e3]
      · refine ⟨_, single_some s hpu, .single hpu (single_some s hpu), rfl, rfl, fun j _ => ?_⟩
        simp [e2, e3, hu.2.2 s s0]
        simp [← e3, e2]
      · exact ⟨_, rfl, .null 1 c, rfl, rfl, fun j _ => by simp [newNull, e2, e3]⟩

/-- C102: the same for the column. -/
theorem C102_column_partial {m : Matrix S K} (h : Made m) (s : S) (j : Nat) (hj : j < m.cols) (hid : m.kind = .identity → m.cols ≠ 1 → j < m.rows) :
    ∃ x, col s m j = some x ∧ Made x ∧ x.rows = m.rows ∧ x.cols = 1 ∧ ∀ i, i < m.rows → x.buffer i 0 = m.buffer i j := by
  by_cases h1 : m.cols = 1
  · refine ⟨m, by simp [col, hj, h1]; omega, h, rfl, h1, fun i _ => ?_⟩
    rw [show j = 0 by omega]
  · unfold col
    rw [if_pos hj, if_neg h1]
    cases h with
    | null r c => exact ⟨_, rfl, .null r 1, rfl, rfl, fun i _ => rfl⟩
    | identity r c =>
      have hp : Proper r 1 (⟨j, 0, fun _ => 1⟩ : Triplet S K) := ⟨hid rfl h1, Nat.one_pos, fun _ _ => rfl⟩
      refine ⟨_, single_some s hp, .single hp (single_some s hp), rfl, rfl, fun i _ => ?_⟩
      simp [newIdentity]
    | @single s0 r c t m ht hm =>
      rw [single_some s0 ht] at hm
      cases hm
      dsimp only
      split_ifs with e
      · have hp : Proper r 1 (⟨t.row, 0, t.value⟩ : Triplet S K) := ⟨ht.1, Nat.one_pos, ht.2.2⟩
        refine ⟨_, single_some s hp, .single hp (single_some s hp), rfl, rfl, fun i _ => ?_⟩
        simp [e, ht.2.2 s s0]
      · exact ⟨_, rfl, .null r 1, rfl, rfl, fun i _ => by simp [newNull, e]⟩
    | @two s0 r c t u m ht hu hd hm =>
      rw [two_some s0 ht hu] at hm
      cases hm
      have hpt : Proper r 1 (⟨t.row, 0, t.value⟩ : Triplet S K) := ⟨ht.1, Nat.one_pos, ht.2.2⟩
      have hpu : Proper r 1 (⟨u.row, 0, u.value⟩ : Triplet S K) := ⟨hu.1, Nat.one_pos, hu.2.2⟩
      dsimp only
      split_ifs with e1 e2 e3
      · refine ⟨_, two_some s hpt hpu, .two hpt hpu (fun hh => hd ⟨hh.1, by omega⟩) (two_some s hpt hpu), rfl, rfl, fun i _ => ?_⟩
        simp [← e1.1, ← e1.2, ht.2.2 s s0, hu.2.2 s s0]
      · refine ⟨_, single_some s hpt, .single hpt (single_some s hpt), rfl, rfl, fun i _ => ?_⟩
        have e3 : ¬j = u.col := fun h => e1 ⟨e2, h⟩
        simp [e3, e2, ht.2.2 s s0]
        simp [← e2, e3]
      · refine ⟨_, single_some s hpu, .single hpu (single_some s hpu), rfl, rfl, fun i _ => ?_⟩
        simp [e2, e3, hu.2.2 s s0]
        simp [← e3, e2]
      · exact ⟨_, rfl, .null r 1, rfl, rfl, fun i _ => by simp [newNull, e2, e3]⟩

/-- C102: the element exists and has, at any time, the value in the matrix. -/
theorem C102_element_partial {m : Matrix S K} (h : Made m) (i j : Nat) (hi : i < m.rows) (hj : j < m.cols) : ∃ x, element m i j = some x ∧ ∀ s, x s = m.buffer i j := by
  unfold element
  rw [if_pos ⟨hi, hj⟩]
  by_cases h1 : m.cols = 1 ∧ m.rows = 1
  · rw [if_pos h1]
    exact ⟨_, rfl, fun s => by rw [show i = 0 by omega, show j = 0 by omega]⟩
  · rw [if_neg h1]
    cases h with
    | null r c => exact ⟨_, rfl, fun _ => rfl⟩
    | identity r c => exact ⟨_, rfl, fun _ => rfl⟩
    | @single s0 r c t m ht hm =>
      rw [single_some s0 ht] at hm
      cases hm
      dsimp only
      split_ifs with e
      · exact ⟨_, rfl, fun s => ht.2.2 s s0⟩
      · exact ⟨_, rfl, fun _ => rfl⟩
    | @two s0 r c t u m ht hu hd hm =>
      rw [two_some s0 ht hu] at hm
      cases hm
      dsimp only
      by_cases e1 : i = t.row ∧ j = t.col
      · have e2 : ¬(i = u.row ∧ j = u.col) := fun h => hd ⟨by omega, by omega⟩
        simp only [if_pos e1, if_neg e2]
        exact ⟨_, rfl, fun s => ht.2.2 s s0⟩
      · simp only [if_neg e1]
        by_cases e2 : i = u.row ∧ j = u.col
        · simp only [if_pos e2]
          exact ⟨_, rfl, fun s => hu.2.2 s s0⟩
        · simp only [if_neg e2]
          exact ⟨_, rfl, fun _ => rfl⟩

/-- The accesses stay in the matrix: rows `r`, columns `c`. -/
def inRange : Nat → Nat → List (Access S) → Prop
  | _, _, [] => True
  | r, c, .row _ i :: l => i < r ∧ inRange 1 c l
  | r, c, .col _ j :: l => j < c ∧ inRange r 1 l

/-- The place reached: the row and the column of the first element. -/
def place : Nat → Nat → List (Access S) → Nat × Nat
  | i, j, [] => (i, j)
  | i, j, .row _ k :: l => place (i + k) j l
  | i, j, .col _ k :: l => place i (j + k) l

/-- An identity is square. -/
def Good (m : Matrix S K) : Prop := Made m ∧ (m.kind = .identity → m.rows = m.cols)

theorem not_identity {s : S} {m x : Matrix S K} {i : Nat} (h1 : m.rows ≠ 1) (h : row s m i = some x) : x.kind ≠ .identity := by
  unfold row at h
  split_ifs at h with hi
  have hs : ∀ {r c : Nat} {t : Triplet S K}, newSingle s r c t = some x → x.kind ≠ .identity := by
    intro r c t h
    simp only [newSingle, write, Option.bind_eq_bind] at h
    split_ifs at h <;> simp at h
    subst h
    nofun
  have ht : ∀ {r c : Nat} {t u : Triplet S K}, newTwo s r c t u = some x → x.kind ≠ .identity := by
    intro r c t u h
    simp only [newTwo, write, Option.bind_eq_bind] at h
    split_ifs at h <;> simp at h
    subst h
    nofun
  have hn : ∀ {r c : Nat}, some (newNull r c) = some x → x.kind ≠ .identity := by
    intro r c h
    cases h
    nofun
  split at h
  · exact hn h
  · exact hs h
  · split_ifs at h
    · exact hs h
    · exact hn h
  · split_ifs at h
    · exact ht h
    · exact hs h
    · exact hs h
    · exact hn h

theorem not_identity' {s : S} {m x : Matrix S K} {i : Nat} (h1 : m.cols ≠ 1) (h : col s m i = some x) : x.kind ≠ .identity := by
  unfold col at h
  split_ifs at h with hi
  have hs : ∀ {r c : Nat} {t : Triplet S K}, newSingle s r c t = some x → x.kind ≠ .identity := by
    intro r c t h
    simp only [newSingle, write, Option.bind_eq_bind] at h
    split_ifs at h <;> simp at h
    subst h
    nofun
  have ht : ∀ {r c : Nat} {t u : Triplet S K}, newTwo s r c t u = some x → x.kind ≠ .identity := by
    intro r c t u h
    simp only [newTwo, write, Option.bind_eq_bind] at h
    split_ifs at h <;> simp at h
    subst h
    nofun
  have hn : ∀ {r c : Nat}, some (newNull r c) = some x → x.kind ≠ .identity := by
    intro r c h
    cases h
    nofun
  split at h
  · exact hn h
  · exact hs h
  · split_ifs at h
    · exact hs h
    · exact hn h
  · split_ifs at h
    · exact ht h
    · exact hs h
    · exact hs h
    · exact hn h

theorem good_row {m : Matrix S K} (h : Good m) (s : S) (i : Nat) (hi : i < m.rows) :
    ∃ x, row s m i = some x ∧ Good x ∧ x.rows = 1 ∧ x.cols = m.cols ∧ ∀ j, j < m.cols → x.buffer 0 j = m.buffer i j := by
  obtain ⟨x, e, hx, hr, hc, hv⟩ := C102_row_partial h.1 s i hi (fun hk _ => h.2 hk ▸ hi)
  refine ⟨x, e, ⟨hx, fun hk => ?_⟩, hr, hc, hv⟩
  by_cases h1 : m.rows = 1
  · have e' : x = m := by
      simp only [row, if_pos hi, if_pos h1, Option.some.injEq] at e
      exact e.symm
    subst e'
    exact h.2 hk
  · exact absurd hk (not_identity h1 e)

theorem good_col {m : Matrix S K} (h : Good m) (s : S) (j : Nat) (hj : j < m.cols) :
    ∃ x, col s m j = some x ∧ Good x ∧ x.rows = m.rows ∧ x.cols = 1 ∧ ∀ i, i < m.rows → x.buffer i 0 = m.buffer i j := by
  obtain ⟨x, e, hx, hr, hc, hv⟩ := C102_column_partial h.1 s j hj (fun hk _ => (h.2 hk).symm ▸ hj)
  refine ⟨x, e, ⟨hx, fun hk => ?_⟩, hr, hc, hv⟩
  by_cases h1 : m.cols = 1
  · have e' : x = m := by
      simp only [col, if_pos hj, if_pos h1, Option.some.injEq] at e
      exact e.symm
    subst e'
    exact h.2 hk
  · exact absurd hk (not_identity' h1 e)

theorem place_shift (l : List (Access S)) (i j : Nat) : place i j l = (i + (place 0 0 l).1, j + (place 0 0 l).2) := by
  induction l generalizing i j with
  | nil => rfl
  | cons a l ih =>
    cases a with
    | row s k => simp only [place]; rw [ih (i + k) j, ih (0 + k) 0]; simp; omega
    | col s k => simp only [place]; rw [ih i (j + k), ih 0 (0 + k)]; simp; omega

/-- C102: any rows and columns one after the other, each in the range of the matrix it is taken from, exist and are the part of the first matrix which they name, element by element, whenever each is taken. -/
theorem C102_accesses_partial {m : Matrix S K} (h : Good m) (l : List (Access S)) (hl : inRange m.rows m.cols l) :
    ∃ x, accesses m l = some x ∧ ∀ k j, k < x.rows → j < x.cols → x.buffer k j = m.buffer ((place 0 0 l).1 + k) ((place 0 0 l).2 + j) ∧
      ∃ y, element x k j = some y ∧ ∀ s, y s = m.buffer ((place 0 0 l).1 + k) ((place 0 0 l).2 + j) := by
  have key : ∃ x, accesses m l = some x ∧ Good x ∧ ∀ k j, k < x.rows → j < x.cols → (place 0 0 l).1 + k < m.rows ∧ (place 0 0 l).2 + j < m.cols ∧
      x.buffer k j = m.buffer ((place 0 0 l).1 + k) ((place 0 0 l).2 + j) := by
    induction l generalizing m with
    | nil => exact ⟨m, rfl, h, fun k j hk hj => by simp [place, hk, hj]⟩
    | cons a l ih =>
      cases a with
      | row s i =>
        obtain ⟨x, e, hx, hr, hc, hv⟩ := good_row h s i hl.1
        obtain ⟨y, e', hy, hw⟩ := ih hx (by rw [hr, hc]; exact hl.2)
        refine ⟨y, by simp only [accesses, e]; exact e', hy, fun k j hk hj => ?_⟩
        obtain ⟨w1, w2, w3⟩ := hw k j hk hj
        rw [hr] at w1
        rw [hc] at w2
        have z : (place 0 0 l).1 + k = 0 := by omega
        simp only [place]
        rw [place_shift l (0 + i) 0]
        dsimp only
        have p1 : 0 + i + (place 0 0 l).1 + k = i := by omega
        rw [p1, Nat.zero_add]
        refine ⟨hl.1, w2, ?_⟩
        rw [w3, z]
        exact hv _ w2
      | col s i =>
        obtain ⟨x, e, hx, hr, hc, hv⟩ := good_col h s i hl.1
        obtain ⟨y, e', hy, hw⟩ := ih hx (by rw [hr, hc]; exact hl.2)
        refine ⟨y, by simp only [accesses, e]; exact e', hy, fun k j hk hj => ?_⟩
        obtain ⟨w1, w2, w3⟩ := hw k j hk hj
        rw [hr] at w1
        rw [hc] at w2
        have z : (place 0 0 l).2 + j = 0 := by omega
        simp only [place]
        rw [place_shift l 0 (0 + i)]
        dsimp only
        have p1 : 0 + i + (place 0 0 l).2 + j = i := by omega
        rw [p1, Nat.zero_add]
        refine ⟨w1, hl.1, ?_⟩
        rw [w3, z]
        exact hv _ w1
  obtain ⟨x, e, hx, hv⟩ := key
  refine ⟨x, e, fun k j hk hj => ⟨(hv k j hk hj).2.2, ?_⟩⟩
  obtain ⟨y, ey, hy⟩ := C102_element_partial hx.1 k j hk hj
  exact ⟨y, ey, fun s => (hy s).trans (hv k j hk hj).2.2⟩

/-- C102: what can be made is what was given: zeros, ones on the diagonal, the values of the entries at their places. -/
theorem C102_values (s : S) (r c : Nat) (t u : Triplet S K) (ht : Proper r c t) (hu : Proper r c u) (hd : ¬(t.row = u.row ∧ t.col = u.col)) :
    (∀ i j, (newNull r c : Matrix S K).buffer i j = 0) ∧ (∀ i j, (newIdentity r c : Matrix S K).buffer i j = if i = j then 1 else 0) ∧
      (∃ m, newSingle s r c t = some m ∧ Made m ∧ m.rows = r ∧ m.cols = c ∧ m.buffer t.row t.col = t.value s ∧ ∀ i j, ¬(i = t.row ∧ j = t.col) → m.buffer i j = 0) ∧
      ∃ m, newTwo s r c t u = some m ∧ Made m ∧ m.rows = r ∧ m.cols = c ∧ m.buffer t.row t.col = t.value s ∧ m.buffer u.row u.col = u.value s ∧
        ∀ i j, ¬(i = t.row ∧ j = t.col) → ¬(i = u.row ∧ j = u.col) → m.buffer i j = 0 := by
  refine ⟨fun _ _ => rfl, fun _ _ => rfl, ⟨_, single_some s ht, .single ht (single_some s ht), rfl, rfl, by simp, fun i j h => if_neg h⟩,
    ⟨_, two_some s ht hu, .two ht hu hd (two_some s ht hu), rfl, rfl, ?_, by simp, fun i j h h' => ?_⟩⟩
  · dsimp only
    rw [if_neg hd, if_pos ⟨rfl, rfl⟩]
  · dsimp only
    rw [if_neg h', if_neg h]

/-- Finding: a row of an identity with more rows than columns, below the square, is written out of its range; nothing checks it. -/
theorem C102_wide_rows (s : S) (r c i : Nat) (hr : r ≠ 1) (hi : i < r) (hc : c ≤ i) : row s (newIdentity r c : Matrix S K) i = none := by
  have h : ¬ i < c := by omega
  simp [row, newIdentity, hi, hr, newSingle, write, h]

/-- Finding: the same for a column of an identity with more columns than rows. -/
theorem C102_wide_columns (s : S) (r c j : Nat) (hc : c ≠ 1) (hj : j < c) (hr : r ≤ j) : col s (newIdentity r c : Matrix S K) j = none := by
  have h : ¬ j < r := by omega
  simp [col, newIdentity, hj, hc, newSingle, write, h]

/-- Finding: two entries at the same place: the value of the matrix there is the second, the element is the first. -/
theorem C102_same_place (s : S) (r c : Nat) (t u : Triplet S K) (ht : t.row < r ∧ t.col < c) (hu : u.row = t.row ∧ u.col = t.col) (h1 : ¬(c = 1 ∧ r = 1)) :
    ∃ m, newTwo s r c t u = some m ∧ m.buffer t.row t.col = u.value s ∧ element m t.row t.col = some t.value := by
  refine ⟨⟨r, c, .two t u, fun k l => if k = u.row ∧ l = u.col then u.value s else if k = t.row ∧ l = t.col then t.value s else 0⟩, ?_, ?_, ?_⟩
  · simp [newTwo, write, ht.1, ht.2, hu.1, hu.2]
  · simp [hu.1, hu.2]
  · simp [element, ht.1, ht.2, h1]

/-- Finding: an entry that is not a constant: the matrix keeps the value it had when it was made, the element follows the entry. -/
theorem C102_not_constant (s s' : S) (r c : Nat) (t : Triplet S K) (ht : t.row < r ∧ t.col < c) (h1 : ¬(c = 1 ∧ r = 1)) (hne : t.value s' ≠ t.value s) :
    ∃ m x, newSingle s r c t = some m ∧ element m t.row t.col = some x ∧ x s' ≠ m.buffer t.row t.col := by
  refine ⟨⟨r, c, .single t, fun k l => if k = t.row ∧ l = t.col then t.value s else 0⟩, t.value, ?_, ?_, ?_⟩
  · simp [newSingle, write, ht.1, ht.2]
  · simp [element, ht.1, ht.2, h1]
  · simpa using hne

/-- A case: the derivative of the cross product matrix with respect to the first component. -/
def skew : Triplet Nat Rat × Triplet Nat Rat := (⟨1, 2, fun _ => -1⟩, ⟨2, 1, fun _ => 1⟩)
example : Proper 3 3 skew.1 ∧ Proper 3 3 skew.2 ∧ ¬(skew.1.row = skew.2.row ∧ skew.1.col = skew.2.col) := by simp [Proper, skew]
example : ∃ m, newTwo 0 3 3 skew.1 skew.2 = some m ∧ Good m ∧ inRange m.rows m.cols [.row 5 1, .col 7 2] ∧ (accesses m [.row 5 1, .col 7 2]).map (fun x => x.buffer 0 0) = some (-1) ∧
    (accesses m [.col 5 1, .row 7 0]).map (fun x => x.buffer 0 0) = some 0 := by
  refine ⟨⟨3, 3, .two skew.1 skew.2, _⟩, rfl, ⟨.two (s := 0) (r := 3) (c := 3) (t := skew.1) (u := skew.2) (by simp [Proper, skew]) (by simp [Proper, skew]) (by simp [skew]) rfl, nofun⟩, ?_, ?_, ?_⟩
  · simp [inRange]
  · simp [accesses, row, col, skew, newSingle, write]
  · simp [accesses, row, col, skew, newSingle, write, newNull]
/-- Cases of the findings. -/
example : Good (newIdentity 3 3 : Matrix Nat Rat) := ⟨.identity 3 3, fun _ => rfl⟩
example : row 0 (newIdentity 3 2 : Matrix Nat Rat) 2 = none := C102_wide_rows 0 3 2 2 (by omega) (by omega) (by omega)
example : ∃ m, newTwo 0 2 2 (⟨1, 1, fun _ => 4⟩ : Triplet Nat Rat) ⟨1, 1, fun _ => 7⟩ = some m ∧ m.buffer 1 1 = 7 ∧ (element m 1 1).map (· 0) = some 4 := by
  obtain ⟨m, e, h, h'⟩ := C102_same_place 0 2 2 (⟨1, 1, fun _ => 4⟩ : Triplet Nat Rat) ⟨1, 1, fun _ => 7⟩ (by simp) (by simp) (by simp)
  exact ⟨m, e, h, by simp only at h'; rw [h']; rfl⟩
example : (1 : Rat) ≠ 0 → ∃ m x, newSingle 0 2 2 (⟨1, 1, fun s => (s : Rat)⟩ : Triplet Nat Rat) = some m ∧ element m 1 1 = some x ∧ x 1 ≠ m.buffer 1 1 :=
  fun _ => C102_not_constant 0 1 2 2 (⟨1, 1, fun s => (s : Rat)⟩ : Triplet Nat Rat) (by simp) (by simp) (by simp)

end Verif.Levi.Basic
