import Verif.Lemmas.LeviAdd
import Mathlib.Tactic.IntervalCases
/- Rows, columns and elements of levi expressions. -/
set_option linter.unusedSectionVars false
namespace Verif.Levi
open Spec Ex

namespace SM
variable {K : Type} [Field K]

theorem row_add {A B : SM K} (hr : B.r = A.r) (hc : B.c = A.c) (i : Nat) : row (add A B) i = add (row A i) (row B i) :=
  ext' rfl rfl fun k j hk hj => by
    obtain rfl : k = 0 := by simpa using hk
    rw [row_f, add_f hr hc, add_f (by simp) (by simpa using hc), row_f, row_f]
theorem row_sub {A B : SM K} (hr : B.r = A.r) (hc : B.c = A.c) (i : Nat) : row (sub A B) i = sub (row A i) (row B i) :=
  ext' rfl rfl fun k j hk hj => by
    obtain rfl : k = 0 := by simpa using hk
    rw [row_f, sub_f hr hc, sub_f (by simp) (by simpa using hc), row_f, row_f]
theorem row_smul (k : K) (A : SM K) (i : Nat) : row (smul k A) i = smul k (row A i) :=
  ext' rfl rfl fun l j hl hj => by
    obtain rfl : l = 0 := by simpa using hl
    rw [row_f, smul_f, smul_f, row_f]
theorem row_neg (A : SM K) (i : Nat) : row (neg A) i = neg (row A i) := by simp only [neg_eq_smul, row_smul]
theorem col_add {A B : SM K} (hr : B.r = A.r) (hc : B.c = A.c) (j : Nat) : col (add A B) j = add (col A j) (col B j) :=
  ext' rfl rfl fun i k hi hk => by
    obtain rfl : k = 0 := by simpa using hk
    rw [col_f, add_f hr hc, add_f (by simpa using hr) (by simp), col_f, col_f]
theorem col_sub {A B : SM K} (hr : B.r = A.r) (hc : B.c = A.c) (j : Nat) : col (sub A B) j = sub (col A j) (col B j) :=
  ext' rfl rfl fun i k hi hk => by
    obtain rfl : k = 0 := by simpa using hk
    rw [col_f, sub_f hr hc, sub_f (by simpa using hr) (by simp), col_f, col_f]
theorem col_smul (k : K) (A : SM K) (j : Nat) : col (smul k A) j = smul k (col A j) :=
  ext' rfl rfl fun i l hi hl => by
    obtain rfl : l = 0 := by simpa using hl
    rw [col_f, smul_f, smul_f, col_f]
theorem col_neg (A : SM K) (j : Nat) : col (neg A) j = neg (col A j) := by simp only [neg_eq_smul, col_smul]
/-- Equality of 1×1 matrices. -/
theorem ext1 {A B : SM K} (ha : A.IsScalar) (hb : B.IsScalar) (h : A.f 0 0 = B.f 0 0) : A = B := by
  rw [scalar_eq ha, scalar_eq hb, h]
theorem elem_isScalar (A : SM K) (i j : Nat) : (elem A i j).IsScalar := ⟨rfl, rfl⟩
theorem elem_add {A B : SM K} (hr : B.r = A.r) (hc : B.c = A.c) (i j : Nat) :
    elem (add A B) i j = add (elem A i j) (elem B i j) :=
  ext1 ⟨rfl, rfl⟩ ⟨rfl, rfl⟩ (by
    rw [elem_f, add_f hr hc, add_f (A := elem A i j) (B := elem B i j) rfl rfl, elem_f, elem_f])
theorem elem_sub {A B : SM K} (hr : B.r = A.r) (hc : B.c = A.c) (i j : Nat) :
    elem (sub A B) i j = sub (elem A i j) (elem B i j) :=
  ext1 ⟨rfl, rfl⟩ ⟨rfl, rfl⟩ (by
    rw [elem_f, sub_f hr hc, sub_f (A := elem A i j) (B := elem B i j) rfl rfl, elem_f, elem_f])
theorem elem_smul (k : K) (A : SM K) (i j : Nat) : elem (smul k A) i j = smul k (elem A i j) :=
  ext1 ⟨rfl, rfl⟩ ⟨rfl, rfl⟩ (by rw [elem_f, smul_f, smul_f, elem_f])
theorem elem_neg (A : SM K) (i j : Nat) : elem (neg A) i j = neg (elem A i j) := by simp only [neg_eq_smul, elem_smul]

theorem row_mul_std {A B : SM K} (h : A.c = B.r) (i : Nat) : row (mul A B) i = mul (row A i) B :=
  ext' (by rw [mul_std_r (by simpa using h)]; rfl) (by rw [mul_std_c (by simpa using h), row_c, mul_std_c h])
    fun k j hk hj => by
      obtain rfl : k = 0 := by simpa using hk
      rw [row_f, mul_std_f h, mul_std_f (by simpa using h), row_c]
      simp only [row_f]
theorem col_mul_std {A B : SM K} (h : A.c = B.r) (j : Nat) : col (mul A B) j = mul A (col B j) :=
  ext' (by rw [mul_std_r (by simpa using h), col_r, mul_std_r h]) (by rw [mul_std_c (by simpa using h)]; rfl)
    fun i k hi hk => by
      obtain rfl : k = 0 := by simpa using hk
      rw [col_f, mul_std_f h, mul_std_f (by simpa using h)]
      simp only [col_f]
theorem elem_mul_std {A B : SM K} (h : A.c = B.r) (i j : Nat) : elem (mul A B) i j = mul (row A i) (col B j) := by
  have h' : (row A i).c = (col B j).r := by simpa using h
  refine ext1 ⟨rfl, rfl⟩ ⟨by rw [mul_std_r h']; rfl, by rw [mul_std_c h']; rfl⟩ ?_
  rw [elem_f, mul_std_f h, mul_std_f h', row_c]
  simp only [row_f, col_f]

theorem row_self {A : SM K} (h : A.r = 1) : row A 0 = A :=
  ext' h.symm rfl fun k j hk _ => by
    obtain rfl : k = 0 := by simpa using hk
    rw [row_f]
theorem col_self {A : SM K} (h : A.c = 1) : col A 0 = A :=
  ext' rfl h.symm fun i k _ hk => by
    obtain rfl : k = 0 := by simpa using hk
    rw [col_f]
theorem elem_self {A : SM K} (h : A.IsScalar) : elem A 0 0 = A := ext1 ⟨rfl, rfl⟩ h (elem_f _ _ _)
theorem tr_self {A : SM K} (h : A.IsScalar) : tr A = A := ext1 ⟨h.2, h.1⟩ h (by simp)
theorem row_tr (A : SM K) (i : Nat) : row (tr A) i = tr (col A i) :=
  ext' rfl rfl fun k j hk _ => by
    obtain rfl : k = 0 := by simpa using hk
    rw [row_f, tr_f, tr_f, col_f]
theorem col_tr (A : SM K) (j : Nat) : col (tr A) j = tr (row A j) :=
  ext' rfl rfl fun i k _ hk => by
    obtain rfl : k = 0 := by simpa using hk
    rw [col_f, tr_f, tr_f, row_f]
theorem block_f (A : SM K) (i0 j0 r c : Nat) {i j : Nat} (hi : i < r) (hj : j < c) :
    (block A i0 j0 r c).f i j = A.f (i0 + i) (j0 + j) := f_in _ _ _ hi hj
theorem hcat_f (A B : SM K) {i j : Nat} (hi : i < A.r) :
    (hcat A B).f i j = if j < A.c then A.f i j else B.f i (j - A.c) := by
  simp only [hcat, of_f]
  by_cases hj : j < A.c + B.c
  · rw [if_pos ⟨hi, hj⟩]
  · rw [if_neg (by tauto), if_neg (by omega), B.out _ _ (by omega)]
theorem vcat_f (A B : SM K) {i j : Nat} (hj : j < A.c) :
    (vcat A B).f i j = if i < A.r then A.f i j else B.f (i - A.r) j := by
  simp only [vcat, of_f]
  by_cases hi : i < A.r + B.r
  · rw [if_pos ⟨hi, hj⟩]
  · rw [if_neg (by tauto), if_neg (by omega), B.out _ _ (by omega)]
end SM

variable {K : Type} [Field K] [LinearOrder K] {P : Ex K → K → Prop} {cfg : Cfg K}

theorem val_row_self {e : Ex K} (h : Kept P e) (hr : e.rows = 1) {i : Nat} (hi : i < e.rows) :
    Val P e fun pw ρ => SM.row (e.ev pw ρ) i := by
  obtain rfl : i = 0 := by omega
  exact ⟨h, fun pw ρ => (SM.row_self (by rw [(dimsK h pw ρ).1, hr])).symm⟩
theorem val_col_self {e : Ex K} (h : Kept P e) (hr : e.cols = 1) {j : Nat} (hj : j < e.cols) :
    Val P e fun pw ρ => SM.col (e.ev pw ρ) j := by
  obtain rfl : j = 0 := by omega
  exact ⟨h, fun pw ρ => (SM.col_self (by rw [(dimsK h pw ρ).2, hr])).symm⟩
theorem val_elem_self {e : Ex K} (h : Kept P e) (hr : e.isScalar = true) {i j : Nat} (hi : i < e.rows) (hj : j < e.cols) :
    Val P e fun pw ρ => SM.elem (e.ev pw ρ) i j := by
  have := (isScalar_iff e).1 hr
  rw [rows, this] at hi; rw [cols, this] at hj
  obtain rfl : i = 0 := by simpa using hi
  obtain rfl : j = 0 := by simpa using hj
  exact ⟨h, fun pw ρ => (SM.elem_self ((isScalar_ev h pw ρ).1 hr)).symm⟩

theorem val_transposeOp {a : Ex K} {A} (ha : Val P a A) : Val P (transposeOp a) fun pw ρ => SM.tr (A pw ρ) := by
  unfold transposeOp
  split_ifs with hs
  · refine ⟨ha.1, fun pw ρ => ?_⟩
    dsimp only; rw [SM.tr_self, ha.2]
    rw [← ha.2]; exact (isScalar_ev ha.1 pw ρ).1 hs
  · exact ⟨ha.1, fun pw ρ => by rw [ev, ha.2]⟩

theorem val_blockOp {a : Ex K} {A} (ha : Val P a A) {i j r c : Nat} (hr : 0 < r) (hc : 0 < c) (hi : i + r ≤ a.rows)
    (hj : j + c ≤ a.cols) : Val P (blockOp a i j r c) fun pw ρ => SM.block (A pw ρ) i j r c := by
  unfold blockOp
  split_ifs with hs
  · refine ⟨⟨hr, hc⟩, fun pw ρ => ?_⟩
    dsimp only; rw [← ha.2]
    obtain ⟨r', c', rfl⟩ := isNull_ev hs
    refine SM.ext' rfl rfl fun k l hk hl => ?_
    rw [ev, SM.block_f _ _ _ r c hk hl]
    simp [ev]
  · exact ⟨⟨ha.1, hr, hc, hi, hj⟩, fun pw ρ => by rw [ev, ha.2]⟩

/-- Value of an entry of a matrix with few entries. -/
def sparseVal (l : List (Nat × Nat × Bool)) (i j : Nat) : K :=
  match l.find? fun t => t.1 == i && t.2.1 == j with
  | none => 0
  | some t => if t.2.2 then -1 else 1

theorem ev_sparse (r c : Nat) (l : List (Nat × Nat × Bool)) (pw : K → K → K) (ρ : Env K) :
    ev pw ρ (sparse r c l) = SM.of r c (sparseVal l) := rfl

theorem find_filter_row (l : List (Nat × Nat × Bool)) (i j : Nat) :
    (sparseVal ((l.filter fun t => t.1 == i).map fun t => (0, t.2)) 0 j : K) = sparseVal l i j := by
  unfold sparseVal
  induction l with
  | nil => rfl
  | cons t l ih =>
    by_cases h : t.1 = i
    · rw [List.filter_cons_of_pos (by simp [h]), List.map_cons, List.find?_cons, List.find?_cons]
      by_cases h2 : t.2.1 = j
      · simp [h, h2]
      · simp only [h, h2, beq_self_eq_true, Bool.true_and, beq_eq_false_iff_ne.2 h2]
        exact ih
    · rw [List.filter_cons_of_neg (by simp [h]), List.find?_cons]
      simp only [beq_eq_false_iff_ne.2 h, Bool.false_and]
      exact ih

theorem find_filter_col (l : List (Nat × Nat × Bool)) (i j : Nat) :
    (sparseVal ((l.filter fun t => t.2.1 == j).map fun t => (t.1, 0, t.2.2)) i 0 : K) = sparseVal l i j := by
  unfold sparseVal
  induction l with
  | nil => rfl
  | cons t l ih =>
    by_cases h : t.2.1 = j
    · rw [List.filter_cons_of_pos (by simp [h]), List.map_cons, List.find?_cons, List.find?_cons]
      by_cases h2 : t.1 = i
      · simp [h, h2]
      · simp only [h, beq_self_eq_true, Bool.and_true, beq_eq_false_iff_ne.2 h2]
        exact ih
    · rw [List.filter_cons_of_neg (by simp [h]), List.find?_cons]
      simp only [beq_eq_false_iff_ne.2 h, Bool.and_false]
      exact ih

theorem val_sparseRow {r c : Nat} {l : List (Nat × Nat × Bool)} (h : Kept P (sparse r c l)) {i : Nat} (hi : i < r) :
    Val P (sparseRow c l i : Ex K) fun pw ρ => SM.row (ev pw ρ (sparse r c l)) i := by
  have e : ∀ pw ρ, SM.row (ev pw ρ (sparse r c l : Ex K)) i
      = SM.of 1 c (sparseVal ((l.filter fun t => t.1 == i).map fun t => (0, t.2))) := by
    intro pw ρ
    refine SM.ext' rfl rfl fun k j hk hj => ?_
    obtain rfl : k = 0 := by simpa using hk
    have hj : j < c := hj
    rw [SM.row_f, ev_sparse, SM.f_in _ _ _ hi hj, SM.f_in _ _ _ Nat.one_pos hj, find_filter_row]
  unfold sparseRow
  split
  · rename_i hf
    refine ⟨⟨Nat.one_pos, h.2.1⟩, fun pw ρ => ?_⟩
    dsimp only; rw [e, hf]
    rfl
  · refine ⟨⟨Nat.one_pos, h.2.1, ?_⟩, fun pw ρ => ?_⟩
    · intro t ht
      obtain ⟨s, hs, rfl⟩ := List.mem_map.1 ht
      exact ⟨Nat.one_pos, (h.2.2 s (List.mem_filter.1 hs).1).2⟩
    · dsimp only; rw [e, ev_sparse]

theorem val_sparseCol {r c : Nat} {l : List (Nat × Nat × Bool)} (h : Kept P (sparse r c l)) {j : Nat} (hj : j < c) :
    Val P (sparseCol r l j : Ex K) fun pw ρ => SM.col (ev pw ρ (sparse r c l)) j := by
  have e : ∀ pw ρ, SM.col (ev pw ρ (sparse r c l : Ex K)) j
      = SM.of r 1 (sparseVal ((l.filter fun t => t.2.1 == j).map fun t => (t.1, 0, t.2.2))) := by
    intro pw ρ
    refine SM.ext' rfl rfl fun i k hi hk => ?_
    obtain rfl : k = 0 := by simpa using hk
    have hi : i < r := hi
    rw [SM.col_f, ev_sparse, SM.f_in _ _ _ hi hj, SM.f_in _ _ _ hi Nat.one_pos, find_filter_col]
  unfold sparseCol
  split
  · rename_i hf
    refine ⟨⟨h.1, Nat.one_pos⟩, fun pw ρ => ?_⟩
    dsimp only; rw [e, hf]
    rfl
  · refine ⟨⟨h.1, Nat.one_pos, ?_⟩, fun pw ρ => ?_⟩
    · intro t ht
      obtain ⟨s, hs, rfl⟩ := List.mem_map.1 ht
      exact ⟨(h.2.2 s (List.mem_filter.1 hs).1).1, Nat.one_pos⟩
    · dsimp only; rw [e, ev_sparse]

theorem val_sparseElem {r c : Nat} {l : List (Nat × Nat × Bool)} {i j : Nat} (hi : i < r) (hj : j < c) :
    Val P (sparseElem l i j : Ex K) fun pw ρ => SM.elem (ev pw ρ (sparse r c l)) i j := by
  have e : ∀ pw ρ, (SM.elem (ev pw ρ (sparse r c l : Ex K)) i j).f 0 0 = sparseVal l i j := by
    intro pw ρ
    rw [SM.elem_f, ev_sparse, SM.f_in _ _ _ hi hj]
  unfold sparseElem
  split
  · rename_i hf
    refine ⟨⟨Nat.one_pos, Nat.one_pos⟩, fun pw ρ => SM.ext1 ⟨rfl, rfl⟩ ⟨rfl, rfl⟩ ?_⟩
    dsimp only; rw [e, sparseVal, hf]; simp [ev]
  · rename_i t hf
    split_ifs with hp
    · refine ⟨Nat.one_pos, fun pw ρ => SM.ext1 ⟨rfl, rfl⟩ ⟨rfl, rfl⟩ ?_⟩
      dsimp only; rw [e, sparseVal, hf]; simp [ev, hp, SM.one, SM.of_f]
    · refine ⟨Nat.one_pos, fun pw ρ => SM.ext1 ⟨rfl, rfl⟩ ⟨rfl, rfl⟩ ?_⟩
      dsimp only; rw [e, sparseVal, hf]; simp [ev, hp, SM.one, SM.of_f]

theorem kept_leviCivita (k : Nat) : Kept P (sparse 3 3 (leviCivita k) : Ex K) := by
  refine ⟨by decide, by decide, ?_⟩
  match k with
  | 0 => decide
  | 1 => decide
  | _ + 2 => simp [leviCivita]

/-- The three terms of a part of a skew matrix. -/
theorem val_skewAcc (hs : Sound cfg) {g x : Nat → Ex K} {G X : Nat → (K → K → K) → Env K → SM K} (s : Nat × Nat)
    (hg : ∀ k, Val P (g k) (G k) ∧ (g k).size = s) (hx : ∀ k, k < 3 → Val P (x k) (X k) ∧ (x k).size = (1, 1)) :
    Val P (skewAcc cfg g x) fun pw ρ => SM.sub (SM.sub (SM.mul (SM.neg (G 0 pw ρ)) (X 0 pw ρ))
      (SM.mul (G 1 pw ρ) (X 1 pw ρ))) (SM.mul (G 2 pw ρ) (X 2 pw ρ)) := by
  have sc : ∀ k, k < 3 → ∀ pw ρ, (X k pw ρ).IsScalar := by
    intro k hk pw ρ
    have := (hx k hk).1.size pw ρ
    rw [(hx k hk).2] at this
    exact ⟨(congrArg Prod.fst this).symm, (congrArg Prod.snd this).symm⟩
  have v0 := val_mulOp cfg (val_neg (hg 0).1) (hx 0 (by decide)).1 fun pw ρ => Or.inr (Or.inr (sc 0 (by decide) pw ρ))
  have v1 := val_mulOp cfg (hg 1).1 (hx 1 (by decide)).1 fun pw ρ => Or.inr (Or.inr (sc 1 (by decide) pw ρ))
  have v2 := val_mulOp cfg (hg 2).1 (hx 2 (by decide)).1 fun pw ρ => Or.inr (Or.inr (sc 2 (by decide) pw ρ))
  have gs : ∀ k, ((G k pw0 ρ0).r, (G k pw0 ρ0).c) = s := fun k => by rw [← (hg k).2, (hg k).1.size pw0 ρ0]
  have s0 : (mulOp cfg (negOp (g 0)) (x 0)).size = s := by
    rw [v0.size pw0 ρ0, SM.mul_scalar_right _ (sc 0 (by decide) _ _)]; exact gs 0
  have s1 : (mulOp cfg (g 1) (x 1)).size = s := by
    rw [v1.size pw0 ρ0, SM.mul_scalar_right _ (sc 1 (by decide) _ _)]; exact gs 1
  have s2 : (mulOp cfg (g 2) (x 2)).size = s := by
    rw [v2.size pw0 ρ0, SM.mul_scalar_right _ (sc 2 (by decide) _ _)]; exact gs 2
  have w := val_subOp hs v0 v1 (by rw [s0, s1])
  have ws : (subOp cfg (mulOp cfg (negOp (g 0)) (x 0)) (mulOp cfg (g 1) (x 1))).size = s := by
    rw [w.size pw0 ρ0, SM.sub_r, SM.sub_c, ← s0, v0.size pw0 ρ0]
  exact val_subOp hs w v2 (by rw [s2, ws])

theorem skew_parts (A : SM K) (pw : K → K → K) (ρ : Env K) (i j : Nat) (hi : i < 3) (hj : j < 3) :
    (SM.skew A).f i j = -((ev pw ρ (sparse 3 3 (leviCivita 0))).f i j) * A.f 0 0
      - (ev pw ρ (sparse 3 3 (leviCivita 1))).f i j * A.f 1 0 - (ev pw ρ (sparse 3 3 (leviCivita 2))).f i j * A.f 2 0 := by
  interval_cases i <;> interval_cases j <;> simp [SM.skew, ev, SM.of_f, leviCivita]

set_option hygiene false in
/-- The generic row of a node, and the shortcut for single rows. -/
macro "row_default" : tactic => `(tactic| (
  rw [rowAcc]
  · split_ifs with h1
    · exact val_row_self h h1 hi
    · exact ⟨⟨h, hi⟩, fun _ _ => rfl⟩
  all_goals simp))
set_option hygiene false in
macro "col_default" : tactic => `(tactic| (
  rw [colAcc]
  · split_ifs with h1
    · exact val_col_self h h1 hj
    · exact ⟨⟨h, hj⟩, fun _ _ => rfl⟩
  all_goals simp))
set_option hygiene false in
macro "elem_default" : tactic => `(tactic| (
  rw [elemAcc]
  · split_ifs with h1
    · exact val_elem_self h h1 hi hj
    · exact ⟨⟨h, hi, hj⟩, fun _ _ => rfl⟩
  all_goals simp))
theorem val_row_ite {e x : Ex K} (h : Kept P e) {i : Nat} (hi : i < e.rows)
    (hx : e.rows ≠ 1 → Val P x fun pw ρ => SM.row (e.ev pw ρ) i) :
    Val P (if e.rows = 1 then e else x) fun pw ρ => SM.row (e.ev pw ρ) i := by
  split_ifs with h1
  · exact val_row_self h h1 hi
  · exact hx h1
theorem val_col_ite {e x : Ex K} (h : Kept P e) {j : Nat} (hj : j < e.cols)
    (hx : e.cols ≠ 1 → Val P x fun pw ρ => SM.col (e.ev pw ρ) j) :
    Val P (if e.cols = 1 then e else x) fun pw ρ => SM.col (e.ev pw ρ) j := by
  split_ifs with h1
  · exact val_col_self h h1 hj
  · exact hx h1
theorem val_elem_ite {e x : Ex K} (h : Kept P e) {i j : Nat} (hi : i < e.rows) (hj : j < e.cols)
    (hx : ¬e.isScalar = true → Val P x fun pw ρ => SM.elem (e.ev pw ρ) i j) :
    Val P (if e.isScalar = true then e else x) fun pw ρ => SM.elem (e.ev pw ρ) i j := by
  split_ifs with h1
  · exact val_elem_self h h1 hi hj
  · exact hx h1

set_option hygiene false in
macro "row_case" : tactic => `(tactic| (rw [rowAcc]; refine val_row_ite h hi fun h1 => ?_))
set_option hygiene false in
macro "col_case" : tactic => `(tactic| (rw [colAcc]; refine val_col_ite h hj fun h1 => ?_))
set_option hygiene false in
macro "elem_case" : tactic => `(tactic| (rw [elemAcc]; refine val_elem_ite h hi hj fun h1 => ?_))

/-- A column of a matrix derivative times a vector, computed column by column. -/
theorem val_mpd_col {n : Nat} {ds : Nat → Ex K} {x : Ex K} (h : Kept P (mpd n ds x)) {j : Nat} (hj : j < (ds 0).cols)
    (vd : ∀ k, k < n → Val P (colAcc cfg (ds k) j) fun pw ρ => SM.col ((ds k).ev pw ρ) j) :
    Val P (mulOp cfg (byCols n fun k => colAcc cfg (ds k) j) x) fun pw ρ => SM.col ((mpd n ds x).ev pw ρ) j := by
  obtain ⟨hn, hd, hx, hxs⟩ := id h
  have dr : ∀ i, i < n → (ds i).rows = (ds 0).rows := fun i hi => congrArg Prod.fst (hd i hi).2
  have vs : ∀ k, k < n → (colAcc cfg (ds k) j).size = ((ds 0).rows, 1) := fun k hk => by
    rw [(vd k hk).size pw0 ρ0, SM.col_r, SM.col_c, (dimsK (hd k hk).1 _ _).1, dr k hk]
  have kb : Kept P (byCols n fun k => colAcc cfg (ds k) j) :=
    ⟨hn, fun k hk => ⟨(vd k hk).1, by rw [rows, vs k hk, vs 0 hn]⟩⟩
  have hxr : ∀ pw ρ, (x.ev pw ρ).r = n ∧ (x.ev pw ρ).c = 1 := fun pw ρ => by
    rw [(dimsK hx pw ρ).1, (dimsK hx pw ρ).2, rows, cols, hxs]; exact ⟨rfl, rfl⟩
  have hcf : ∀ pw ρ, ((byCols n fun k => colAcc cfg (ds k) j).ev pw ρ).c = (x.ev pw ρ).r := fun pw ρ => by
    rw [(hxr pw ρ).1]; rfl
  refine (val_mulOp cfg (Val.self kb) (Val.self hx) fun pw ρ => Or.inl (hcf pw ρ)).congr fun pw ρ => ?_
  have hrow : ((byCols n fun k => colAcc cfg (ds k) j).ev pw ρ).r = (ds 0).rows := by
    rw [(dimsK kb pw ρ).1, rows, size, rows, vs 0 hn]
  refine SM.ext' ?_ ?_ fun i k hi hk => ?_
  · rw [SM.mul_std_r (hcf pw ρ), hrow, SM.col_r, (dimsK h pw ρ).1]; rfl
  · rw [SM.mul_std_c (hcf pw ρ), (hxr pw ρ).2]; rfl
  · rw [SM.mul_std_c (hcf pw ρ), (hxr pw ρ).2] at hk
    rw [SM.mul_std_r (hcf pw ρ), hrow] at hi
    obtain rfl : k = 0 := Nat.lt_one_iff.1 hk
    have hi' : i < ((ds 0).ev pw ρ).r := by rw [(dimsK (hd 0 hn).1 pw ρ).1]; exact hi
    have hj' : j < ((ds 0).ev pw ρ).c := by rw [(dimsK (hd 0 hn).1 pw ρ).2]; exact hj
    rw [SM.mul_std_f (hcf pw ρ), SM.col_f, ev.eq_def pw ρ (mpd n ds x), SM.f_in _ _ _ hi' hj', ev, SM.of_c]
    refine Finset.sum_congr rfl fun k hk => ?_
    have hk := Finset.mem_range.1 hk
    rw [SM.f_in _ _ _ (by rw [(vd 0 hn).2]; exact hi') hk, (vd k hk).2, SM.col_f, mul_comm]

/-- Rows, columns and elements have the values one expects. -/
theorem access (hs : Sound cfg) {e : Ex K} (h : Kept P e) :
    (∀ i, i < e.rows → Val P (rowAcc cfg e i) fun pw ρ => SM.row (e.ev pw ρ) i) ∧
    (∀ j, j < e.cols → Val P (colAcc cfg e j) fun pw ρ => SM.col (e.ev pw ρ) j) ∧
    (∀ i j, i < e.rows → j < e.cols → Val P (elemAcc cfg e i j) fun pw ρ => SM.elem (e.ev pw ρ) i j) := by
  have rowSize : ∀ (a : Ex K) (i : Nat), Kept P a → Val P (rowAcc cfg a i) (fun pw ρ => SM.row (a.ev pw ρ) i) →
      (rowAcc cfg a i).size = (1, a.cols) := by
    intro a i ha v; rw [v.size pw0 ρ0, SM.row_r, SM.row_c, (dimsK ha _ _).2]
  have colSize : ∀ (a : Ex K) (i : Nat), Kept P a → Val P (colAcc cfg a i) (fun pw ρ => SM.col (a.ev pw ρ) i) →
      (colAcc cfg a i).size = (a.rows, 1) := by
    intro a i ha v; rw [v.size pw0 ρ0, SM.col_r, SM.col_c, (dimsK ha _ _).1]
  have elemSize : ∀ (a : Ex K) (i j : Nat), Val P (elemAcc cfg a i j) (fun pw ρ => SM.elem (a.ev pw ρ) i j) →
      (elemAcc cfg a i j).size = (1, 1) := by
    intro a i j v; rw [v.size pw0 ρ0, SM.elem_r, SM.elem_c]
  induction e with
  | const r c M =>
    refine ⟨fun i hi => ?_, fun j hj => ?_, fun i j hi hj => ?_⟩
    · row_default
    · col_default
    · elem_default
  | null r c =>
    refine ⟨fun i hi => ?_, fun j hj => ?_, fun i j hi hj => ?_⟩
    · row_case
      refine ⟨⟨Nat.one_pos, h.2⟩, fun pw ρ => SM.ext' rfl rfl fun k j hk _ => ?_⟩
      obtain rfl : k = 0 := Nat.lt_one_iff.1 hk
      rw [SM.row_f]; simp [ev]
    · col_case
      refine ⟨⟨h.1, Nat.one_pos⟩, fun pw ρ => SM.ext' rfl rfl fun i k _ hk => ?_⟩
      obtain rfl : k = 0 := Nat.lt_one_iff.1 hk
      rw [SM.col_f]; simp [ev]
    · elem_case
      refine ⟨⟨Nat.one_pos, Nat.one_pos⟩, fun pw ρ => SM.ext1 ⟨rfl, rfl⟩ ⟨rfl, rfl⟩ ?_⟩
      dsimp only; rw [SM.elem_f]; simp [ev]
  | ident n =>
    refine ⟨fun i hi => ?_, fun j hj => ?_, fun i j hi hj => ?_⟩
    · row_case
      have hi : i < n := hi
      refine ⟨⟨Nat.one_pos, h, by simpa using hi⟩, fun pw ρ => SM.ext' rfl rfl fun k j hk hj => ?_⟩
      have hj : j < n := hj
      obtain rfl : k = 0 := Nat.lt_one_iff.1 hk
      rw [SM.row_f, ev_sparse, SM.f_in _ _ _ Nat.one_pos hj, ev, SM.one, SM.f_in _ _ _ hi hj]
      by_cases e : i = j <;> simp [sparseVal, e]
    · col_case
      have hj : j < n := hj
      refine ⟨⟨h, Nat.one_pos, by simpa using hj⟩, fun pw ρ => SM.ext' rfl rfl fun i k hi hk => ?_⟩
      have hi : i < n := hi
      obtain rfl : k = 0 := Nat.lt_one_iff.1 hk
      rw [SM.col_f, ev_sparse, SM.f_in _ _ _ hi Nat.one_pos, ev, SM.one, SM.f_in _ _ _ hi hj]
      by_cases e : i = j
      · simp [sparseVal, e]
      · simp [sparseVal, e, Ne.symm e]
    · elem_case
      have hi : i < n := hi
      have hj : j < n := hj
      split_ifs with e
      · refine ⟨Nat.one_pos, fun pw ρ => SM.ext1 ⟨rfl, rfl⟩ ⟨rfl, rfl⟩ ?_⟩
        dsimp only; rw [SM.elem_f, ev, ev, SM.one, SM.one, SM.f_in _ _ _ hi hj]; simp [SM.of_f, e]
      · refine ⟨⟨Nat.one_pos, Nat.one_pos⟩, fun pw ρ => SM.ext1 ⟨rfl, rfl⟩ ⟨rfl, rfl⟩ ?_⟩
        dsimp only; rw [SM.elem_f, ev, ev, SM.one, SM.f_in _ _ _ hi hj]; simp [e]
  | sparse r c l =>
    refine ⟨fun i hi => ?_, fun j hj => ?_, fun i j hi hj => ?_⟩
    · row_case
      exact val_sparseRow h hi
    · col_case
      exact val_sparseCol h hj
    · elem_case
      exact val_sparseElem hi hj
  | var v =>
    refine ⟨fun i hi => ?_, fun j hj => ?_, fun i j hi hj => ?_⟩
    · row_default
    · col_default
    · elem_default
  | add a b iha ihb =>
    obtain ⟨ha, hb, hsz⟩ := id h
    have hr : b.rows = a.rows := congrArg Prod.fst hsz
    have hc : b.cols = a.cols := congrArg Prod.snd hsz
    have er : ∀ pw ρ, (b.ev pw ρ).r = (a.ev pw ρ).r := fun pw ρ => by rw [(dimsK ha pw ρ).1, (dimsK hb pw ρ).1, hr]
    have ec : ∀ pw ρ, (b.ev pw ρ).c = (a.ev pw ρ).c := fun pw ρ => by rw [(dimsK ha pw ρ).2, (dimsK hb pw ρ).2, hc]
    refine ⟨fun i hi => ?_, fun j hj => ?_, fun i j hi hj => ?_⟩
    · row_case
      have va := (iha ha).1 i hi
      have vb := (ihb hb).1 i (by rw [hr]; exact hi)
      refine (val_addOp hs va vb (by rw [rowSize a i ha va, rowSize b i hb vb, hc])).congr fun pw ρ => ?_
      exact (SM.row_add (er pw ρ) (ec pw ρ) i).symm
    · col_case
      have va := (iha ha).2.1 j hj
      have vb := (ihb hb).2.1 j (by rw [hc]; exact hj)
      refine (val_addOp hs va vb (by rw [colSize a j ha va, colSize b j hb vb, hr])).congr fun pw ρ => ?_
      exact (SM.col_add (er pw ρ) (ec pw ρ) j).symm
    · elem_case
      have va := (iha ha).2.2 i j hi hj
      have vb := (ihb hb).2.2 i j (by rw [hr]; exact hi) (by rw [hc]; exact hj)
      refine (val_addOp hs va vb (by rw [elemSize a i j va, elemSize b i j vb])).congr fun pw ρ => ?_
      exact (SM.elem_add (er pw ρ) (ec pw ρ) i j).symm
  | sub a b iha ihb =>
    obtain ⟨ha, hb, hsz⟩ := id h
    have hr : b.rows = a.rows := congrArg Prod.fst hsz
    have hc : b.cols = a.cols := congrArg Prod.snd hsz
    have er : ∀ pw ρ, (b.ev pw ρ).r = (a.ev pw ρ).r := fun pw ρ => by rw [(dimsK ha pw ρ).1, (dimsK hb pw ρ).1, hr]
    have ec : ∀ pw ρ, (b.ev pw ρ).c = (a.ev pw ρ).c := fun pw ρ => by rw [(dimsK ha pw ρ).2, (dimsK hb pw ρ).2, hc]
    refine ⟨fun i hi => ?_, fun j hj => ?_, fun i j hi hj => ?_⟩
    · row_case
      have va := (iha ha).1 i hi
      have vb := (ihb hb).1 i (by rw [hr]; exact hi)
      refine (val_subOp hs va vb (by rw [rowSize a i ha va, rowSize b i hb vb, hc])).congr fun pw ρ => ?_
      exact (SM.row_sub (er pw ρ) (ec pw ρ) i).symm
    · col_case
      have va := (iha ha).2.1 j hj
      have vb := (ihb hb).2.1 j (by rw [hc]; exact hj)
      refine (val_subOp hs va vb (by rw [colSize a j ha va, colSize b j hb vb, hr])).congr fun pw ρ => ?_
      exact (SM.col_sub (er pw ρ) (ec pw ρ) j).symm
    · elem_case
      have va := (iha ha).2.2 i j hi hj
      have vb := (ihb hb).2.2 i j (by rw [hr]; exact hi) (by rw [hc]; exact hj)
      refine (val_subOp hs va vb (by rw [elemSize a i j va, elemSize b i j vb])).congr fun pw ρ => ?_
      exact (SM.elem_sub (er pw ρ) (ec pw ρ) i j).symm
  | neg a iha =>
    have ha : Kept P a := h
    refine ⟨fun i hi => ?_, fun j hj => ?_, fun i j hi hj => ?_⟩
    · row_case
      exact (val_neg ((iha ha).1 i hi)).congr fun pw ρ => (SM.row_neg _ i).symm
    · col_case
      exact (val_neg ((iha ha).2.1 j hj)).congr fun pw ρ => (SM.col_neg _ j).symm
    · elem_case
      exact (val_neg ((iha ha).2.2 i j hi hj)).congr fun pw ρ => (SM.elem_neg _ i j).symm
  | mul a b iha ihb =>
    obtain ⟨ha, hb, hf⟩ := id h
    have sc := fun pw ρ => sconf_of_kept h pw ρ
    have dr : ∀ pw ρ, (SM.mul (a.ev pw ρ) (b.ev pw ρ)).r = (mul a b).rows := fun pw ρ => (dimsK h pw ρ).1
    have dc : ∀ pw ρ, (SM.mul (a.ev pw ρ) (b.ev pw ρ)).c = (mul a b).cols := fun pw ρ => (dimsK h pw ρ).2
    refine ⟨fun i hi => ?_, fun j hj => ?_, fun i j hi hj => ?_⟩
    · row_case
      split_ifs with s
      · have s' := fun pw ρ => (isScalar_ev ha pw ρ).1 s
        have hib : i < b.rows := by
          rw [← dr pw0 ρ0, SM.mul_scalar_left (s' _ _), SM.smul_r, (dimsK hb _ _).1] at hi; exact hi
        refine (val_mulOp cfg (Val.self ha) ((ihb hb).1 i hib) fun pw ρ => Or.inr (Or.inl (s' pw ρ))).congr
          fun pw ρ => ?_
        rw [SM.mul_scalar_left (s' pw ρ), ev, SM.mul_scalar_left (s' pw ρ), SM.row_smul]
      · have hst : ∀ pw ρ, (a.ev pw ρ).c = (b.ev pw ρ).r := fun pw ρ =>
          (sc pw ρ).resolve_right ((isScalar_ev ha pw ρ).not.1 s)
        have hia : i < a.rows := by
          rw [← dr pw0 ρ0, SM.mul_std_r (hst _ _), (dimsK ha _ _).1] at hi; exact hi
        refine (val_mulOp cfg ((iha ha).1 i hia) (Val.self hb) fun pw ρ => Or.inl (hst pw ρ)).congr fun pw ρ => ?_
        rw [ev, SM.row_mul_std (hst pw ρ)]
    · col_case
      split_ifs with s
      · have s' := fun pw ρ => (isScalar_ev hb pw ρ).1 s
        have hja : j < a.cols := by
          rw [← dc pw0 ρ0, SM.mul_scalar_right _ (s' _ _), SM.smul_c, (dimsK ha _ _).2] at hj; exact hj
        refine (val_mulOp cfg ((iha ha).2.1 j hja) (Val.self hb) fun pw ρ => Or.inr (Or.inr (s' pw ρ))).congr
          fun pw ρ => ?_
        rw [SM.mul_scalar_right _ (s' pw ρ), ev, SM.mul_scalar_right _ (s' pw ρ), SM.col_smul]
      · rcases hf with hf | hf
        · have hst : ∀ pw ρ, (a.ev pw ρ).c = (b.ev pw ρ).r := fun pw ρ => by
            rw [(dimsK ha pw ρ).2, (dimsK hb pw ρ).1, hf]
          have hjb : j < b.cols := by
            rw [← dc pw0 ρ0, SM.mul_std_c (hst _ _), (dimsK hb _ _).2] at hj; exact hj
          refine (val_mulOp cfg (Val.self ha) ((ihb hb).2.1 j hjb) fun pw ρ => Or.inl (hst pw ρ)).congr fun pw ρ => ?_
          rw [ev, SM.col_mul_std (hst pw ρ)]
        · have s' := fun pw ρ => (isScalar_ev ha pw ρ).1 hf
          have hjb : j < b.cols := by
            rw [← dc pw0 ρ0, SM.mul_scalar_left (s' _ _), SM.smul_c, (dimsK hb _ _).2] at hj; exact hj
          refine (val_mulOp cfg (Val.self ha) ((ihb hb).2.1 j hjb) fun pw ρ => Or.inr (Or.inl (s' pw ρ))).congr
            fun pw ρ => ?_
          rw [SM.mul_scalar_left (s' pw ρ), ev, SM.mul_scalar_left (s' pw ρ), SM.col_smul]
    · elem_case
      split_ifs with s s2
      · have s' := fun pw ρ => (isScalar_ev ha pw ρ).1 s
        have hib : i < b.rows := by
          rw [← dr pw0 ρ0, SM.mul_scalar_left (s' _ _), SM.smul_r, (dimsK hb _ _).1] at hi; exact hi
        have hjb : j < b.cols := by
          rw [← dc pw0 ρ0, SM.mul_scalar_left (s' _ _), SM.smul_c, (dimsK hb _ _).2] at hj; exact hj
        refine (val_mulOp cfg (Val.self ha) ((ihb hb).2.2 i j hib hjb) fun pw ρ => Or.inr (Or.inl (s' pw ρ))).congr
          fun pw ρ => ?_
        rw [SM.mul_scalar_left (s' pw ρ), ev, SM.mul_scalar_left (s' pw ρ), SM.elem_smul]
      · have s' := fun pw ρ => (isScalar_ev hb pw ρ).1 s2
        have hia : i < a.rows := by
          rw [← dr pw0 ρ0, SM.mul_scalar_right _ (s' _ _), SM.smul_r, (dimsK ha _ _).1] at hi; exact hi
        have hja : j < a.cols := by
          rw [← dc pw0 ρ0, SM.mul_scalar_right _ (s' _ _), SM.smul_c, (dimsK ha _ _).2] at hj; exact hj
        refine (val_mulOp cfg ((iha ha).2.2 i j hia hja) (Val.self hb) fun pw ρ => Or.inr (Or.inr (s' pw ρ))).congr
          fun pw ρ => ?_
        rw [SM.mul_scalar_right _ (s' pw ρ), ev, SM.mul_scalar_right _ (s' pw ρ), SM.elem_smul]
      · have hst : ∀ pw ρ, (a.ev pw ρ).c = (b.ev pw ρ).r := fun pw ρ =>
          (sc pw ρ).resolve_right ((isScalar_ev ha pw ρ).not.1 s)
        have hia : i < a.rows := by
          rw [← dr pw0 ρ0, SM.mul_std_r (hst _ _), (dimsK ha _ _).1] at hi; exact hi
        have hjb : j < b.cols := by
          rw [← dc pw0 ρ0, SM.mul_std_c (hst _ _), (dimsK hb _ _).2] at hj; exact hj
        refine (val_mulOp cfg ((iha ha).1 i hia) ((ihb hb).2.1 j hjb) fun pw ρ => Or.inl (hst pw ρ)).congr fun pw ρ => ?_
        rw [ev, SM.elem_mul_std (hst pw ρ)]
  | pow a e iha =>
    refine ⟨fun i hi => ?_, fun j hj => ?_, fun i j hi hj => ?_⟩
    · row_default
    · col_default
    · elem_default
  | div a b iha ihb =>
    obtain ⟨ha, hb, h1c, hbs, hP⟩ := id h
    have cd : ∀ (x : Ex K) X, Val P x X → x.cols = 1 → Val P (div x b) fun pw ρ => SM.div (X pw ρ) (b.ev pw ρ) :=
      fun x X hx hx1 => ⟨⟨hx.1, hb, hx1, hbs, hP⟩, fun pw ρ => by rw [ev, hx.2]⟩
    have hjc : ∀ j, j < (div a b).cols → j < a.cols := by
      intro j hj; rw [h1c]; have : (div a b).cols = 1 := congrArg Prod.snd hbs
      rw [this] at hj; exact hj
    refine ⟨fun i hi => ?_, fun j hj => ?_, fun i j hi hj => ?_⟩
    · row_case
      have va := (iha ha).1 i hi
      refine (cd _ _ va (by rw [cols, rowSize a i ha va]; exact h1c)).congr fun pw ρ => ?_
      refine SM.ext' rfl rfl fun k j hk _ => ?_
      obtain rfl : k = 0 := Nat.lt_one_iff.1 hk
      rw [SM.div_f, SM.row_f, SM.row_f, ev, SM.div_f]
    · col_case
      have va := (iha ha).2.1 j (hjc j hj)
      refine (cd _ _ va (by rw [cols, colSize a j ha va])).congr fun pw ρ => ?_
      refine SM.ext' rfl rfl fun i k _ hk => ?_
      obtain rfl : k = 0 := Nat.lt_one_iff.1 hk
      rw [SM.div_f, SM.col_f, SM.col_f, ev, SM.div_f]
    · elem_case
      have va := (iha ha).2.2 i j hi (hjc j hj)
      refine (cd _ _ va (by rw [cols, elemSize a i j va])).congr fun pw ρ => SM.ext1 ⟨rfl, rfl⟩ ⟨rfl, rfl⟩ ?_
      rw [SM.div_f, SM.elem_f, SM.elem_f, ev, SM.div_f]
  | skew a iha =>
    obtain ⟨ha, has⟩ := id h
    have hx : ∀ k, k < 3 → Val P (elemAcc cfg a k 0) (fun pw ρ => SM.elem (a.ev pw ρ) k 0) ∧
        (elemAcc cfg a k 0).size = (1, 1) := by
      intro k hk
      have v := (iha ha).2.2 k 0 (by rw [rows, has]; exact hk) (by rw [cols, has]; exact Nat.one_pos)
      exact ⟨v, elemSize a k 0 v⟩
    have key : ∀ (G : Nat → SM K) (A : SM K), ∀ i j,
        (∀ k, (G k).r = (G 0).r ∧ (G k).c = (G 0).c) →
        (SM.sub (SM.sub (SM.mul (SM.neg (G 0)) (SM.elem A 0 0)) (SM.mul (G 1) (SM.elem A 1 0)))
          (SM.mul (G 2) (SM.elem A 2 0))).f i j
        = -((G 0).f i j) * A.f 0 0 - (G 1).f i j * A.f 1 0 - (G 2).f i j * A.f 2 0 := by
      intro G A i j hG
      simp only [SM.mul_scalar_right _ (SM.elem_isScalar _ _ _)]
      rw [SM.sub_f (by simp [(hG 2).1]) (by simp [(hG 2).2]), SM.sub_f (by simp [(hG 1).1]) (by simp [(hG 1).2])]
      simp only [SM.smul_f, SM.elem_f, SM.neg_f]
      ring
    refine ⟨fun i hi => ?_, fun j hj => ?_, fun i j hi hj => ?_⟩
    · row_case
      have hi : i < 3 := hi
      refine (val_skewAcc hs (1, 3) (fun k => ⟨val_sparseRow (kept_leviCivita k) hi,
        by rw [(val_sparseRow (P := P) (kept_leviCivita k) hi).size pw0 ρ0]; rfl⟩) hx).congr fun pw ρ => ?_
      refine SM.ext' (by simp [SM.mul_scalar_right _ (SM.elem_isScalar _ _ _)])
        (by simp [SM.mul_scalar_right _ (SM.elem_isScalar _ _ _), ev]) fun k j hk hj => ?_
      obtain rfl : k = 0 := by simpa [SM.mul_scalar_right _ (SM.elem_isScalar _ _ _)] using hk
      have hj : j < 3 := by simpa [SM.mul_scalar_right _ (SM.elem_isScalar _ _ _), ev] using hj
      rw [key (fun k => SM.row (ev pw ρ (sparse 3 3 (leviCivita k))) i) _ _ _ (fun k => ⟨rfl, rfl⟩)]
      simp only [SM.row_f]
      exact (skew_parts (a.ev pw ρ) pw ρ i j hi hj).symm
    · col_case
      have hj : j < 3 := hj
      refine (val_skewAcc hs (3, 1) (fun k => ⟨val_sparseCol (kept_leviCivita k) hj,
        by rw [(val_sparseCol (P := P) (kept_leviCivita k) hj).size pw0 ρ0]; rfl⟩) hx).congr fun pw ρ => ?_
      refine SM.ext' (by simp [SM.mul_scalar_right _ (SM.elem_isScalar _ _ _), ev])
        (by simp [SM.mul_scalar_right _ (SM.elem_isScalar _ _ _)]) fun i k hi hk => ?_
      obtain rfl : k = 0 := by simpa [SM.mul_scalar_right _ (SM.elem_isScalar _ _ _)] using hk
      have hi : i < 3 := by simpa [SM.mul_scalar_right _ (SM.elem_isScalar _ _ _), ev] using hi
      rw [key (fun k => SM.col (ev pw ρ (sparse 3 3 (leviCivita k))) j) _ _ _ (fun k => ⟨rfl, rfl⟩)]
      simp only [SM.col_f]
      exact (skew_parts (a.ev pw ρ) pw ρ i j hi hj).symm
    · elem_case
      have hi : i < 3 := hi
      have hj : j < 3 := hj
      refine (val_skewAcc hs (1, 1) (fun k => ⟨val_sparseElem hi hj,
        by rw [(val_sparseElem (P := P) (l := leviCivita k) hi hj).size pw0 ρ0]; rfl⟩) hx).congr fun pw ρ => ?_
      refine SM.ext1 ⟨by simp [SM.mul_scalar_right _ (SM.elem_isScalar _ _ _)],
        by simp [SM.mul_scalar_right _ (SM.elem_isScalar _ _ _)]⟩ ⟨rfl, rfl⟩ ?_
      rw [key (fun k => SM.elem (ev pw ρ (sparse 3 3 (leviCivita k))) i j) _ _ _ (fun k => ⟨rfl, rfl⟩)]
      simp only [SM.elem_f]
      exact (skew_parts (a.ev pw ρ) pw ρ i j hi hj).symm
  | transpose a iha =>
    have ha : Kept P a := h
    refine ⟨fun i hi => ?_, fun j hj => ?_, fun i j hi hj => ?_⟩
    · row_case
      exact (val_transposeOp ((iha ha).2.1 i hi)).congr fun pw ρ => (SM.row_tr _ i).symm
    · col_case
      exact (val_transposeOp ((iha ha).1 j hj)).congr fun pw ρ => (SM.col_tr _ j).symm
    · elem_case
      refine ((iha ha).2.2 j i hj hi).congr fun pw ρ => SM.ext1 ⟨rfl, rfl⟩ ⟨rfl, rfl⟩ ?_
      rw [SM.elem_f, SM.elem_f, ev, SM.tr_f]
  | vee a iha =>
    obtain ⟨ha, has⟩ := id h
    have hr : a.rows = 3 := congrArg Prod.fst has
    have hc : a.cols = 3 := congrArg Prod.snd has
    refine ⟨fun i hi => ?_, fun j hj => ?_, fun i j hi hj => ?_⟩
    · row_default
    · col_default
    · obtain rfl : j = 0 := Nat.lt_one_iff.1 hj
      have hi3 : i < 3 := hi
      obtain rfl | rfl | rfl : i = 0 ∨ i = 1 ∨ i = 2 := by omega
      · elem_case
        refine Val.congr ((iha ha).2.2 2 1 (by omega) (by omega)) fun pw ρ => SM.ext1 ⟨rfl, rfl⟩ ⟨rfl, rfl⟩ ?_
        rw [SM.elem_f, SM.elem_f, ev]; simp [SM.vee, SM.of_f]
      · elem_case
        refine Val.congr ((iha ha).2.2 0 2 (by omega) (by omega)) fun pw ρ => SM.ext1 ⟨rfl, rfl⟩ ⟨rfl, rfl⟩ ?_
        rw [SM.elem_f, SM.elem_f, ev]; simp [SM.vee, SM.of_f]
      · rw [elemAcc]
        · refine val_elem_ite h hi hj fun h1 => ?_
          refine Val.congr ((iha ha).2.2 1 0 (by omega) (by omega)) fun pw ρ => SM.ext1 ⟨rfl, rfl⟩ ⟨rfl, rfl⟩ ?_
          rw [SM.elem_f, SM.elem_f, ev]; simp [SM.vee, SM.of_f]
        all_goals simp
  | row a i0 iha =>
    obtain ⟨ha, hi0⟩ := id h
    refine ⟨fun i hi => ?_, fun j hj => ?_, fun i j hi hj => ?_⟩
    · row_default
    · col_case
      refine ((iha ha).2.2 i0 j hi0 hj).congr fun pw ρ => SM.ext1 ⟨rfl, rfl⟩ ⟨rfl, rfl⟩ ?_
      rw [SM.elem_f, SM.col_f, ev, SM.row_f]
    · elem_case
      refine ((iha ha).2.2 i0 j hi0 hj).congr fun pw ρ => SM.ext1 ⟨rfl, rfl⟩ ⟨rfl, rfl⟩ ?_
      obtain rfl : i = 0 := Nat.lt_one_iff.1 hi
      rw [SM.elem_f, SM.elem_f, ev, SM.row_f]
  | col a j0 iha =>
    obtain ⟨ha, hj0⟩ := id h
    refine ⟨fun i hi => ?_, fun j hj => ?_, fun i j hi hj => ?_⟩
    · row_case
      refine ((iha ha).2.2 i j0 hi hj0).congr fun pw ρ => SM.ext1 ⟨rfl, rfl⟩ ⟨rfl, rfl⟩ ?_
      rw [SM.elem_f, SM.row_f, ev, SM.col_f]
    · col_default
    · elem_case
      refine ((iha ha).2.2 i j0 hi hj0).congr fun pw ρ => SM.ext1 ⟨rfl, rfl⟩ ⟨rfl, rfl⟩ ?_
      obtain rfl : j = 0 := Nat.lt_one_iff.1 hj
      rw [SM.elem_f, SM.elem_f, ev, SM.col_f]
  | elem a i0 j0 iha =>
    refine ⟨fun i hi => ?_, fun j hj => ?_, fun i j hi hj => ?_⟩
    · row_default
    · col_default
    · elem_default
  | block a i0 j0 r c iha =>
    obtain ⟨ha, hr, hc, hbr, hbc⟩ := id h
    refine ⟨fun i hi => ?_, fun j hj => ?_, fun i j hi hj => ?_⟩
    · row_case
      have hi : i < r := hi
      have va := (iha ha).1 (i0 + i) (by omega)
      refine (val_blockOp va Nat.one_pos hc (by rw [rows, rowSize a _ ha va])
        (by rw [cols, rowSize a _ ha va]; exact hbc)).congr fun pw ρ => ?_
      refine SM.ext' rfl rfl fun k j hk hj => ?_
      obtain rfl : k = 0 := Nat.lt_one_iff.1 hk
      have hj : j < c := hj
      rw [SM.block_f _ _ _ 1 c Nat.one_pos hj, SM.row_f, SM.row_f, ev, SM.block_f _ _ _ _ _ hi hj]
    · col_case
      have hj : j < c := hj
      have va := (iha ha).2.1 (j0 + j) (by omega)
      refine (val_blockOp va hr Nat.one_pos (by rw [rows, colSize a _ ha va]; exact hbr)
        (by rw [cols, colSize a _ ha va])).congr fun pw ρ => ?_
      refine SM.ext' rfl rfl fun i k hi hk => ?_
      obtain rfl : k = 0 := Nat.lt_one_iff.1 hk
      have hi : i < r := hi
      rw [SM.block_f _ _ _ r 1 hi Nat.one_pos, SM.col_f, SM.col_f, ev, SM.block_f _ _ _ _ _ hi hj]
    · elem_case
      have hi : i < r := hi
      have hj : j < c := hj
      refine ((iha ha).2.2 (i0 + i) (j0 + j) (by omega) (by omega)).congr fun pw ρ =>
        SM.ext1 ⟨rfl, rfl⟩ ⟨rfl, rfl⟩ ?_
      rw [SM.elem_f, SM.elem_f, ev, SM.block_f _ _ _ _ _ hi hj]
  | byRows n f ihf =>
    obtain ⟨hn, hf⟩ := id h
    have fr : ∀ i, i < n → (f i).rows = 1 := fun i hi => congrArg Prod.fst (hf i hi).2
    have fc : ∀ i, i < n → (f i).cols = (f 0).cols := fun i hi => by rw [cols, (hf i hi).2]
    have ent : ∀ pw ρ i j, i < n → ((byRows n f).ev pw ρ).f i j = ((f i).ev pw ρ).f 0 j := by
      intro pw ρ i j hi
      rw [ev]
      by_cases hj : j < ((f 0).ev pw ρ).c
      · rw [SM.f_in _ _ _ hi hj]
      · rw [SM.of_f, if_neg (by tauto), SM.out]
        rw [(dimsK (hf i hi).1 pw ρ).2, fc i hi, ← (dimsK (hf 0 hn).1 pw ρ).2]; tauto
    refine ⟨fun i hi => ?_, fun j hj => ?_, fun i j hi hj => ?_⟩
    · row_case
      have hi : i < n := hi
      refine ⟨(hf i hi).1, fun pw ρ => SM.ext' ?_ ?_ fun k j hk hj => ?_⟩
      · rw [(dimsK (hf i hi).1 pw ρ).1, fr i hi]; rfl
      · rw [(dimsK (hf i hi).1 pw ρ).2, fc i hi, SM.row_c, (dimsK h pw ρ).2]; rfl
      · rw [(dimsK (hf i hi).1 pw ρ).1, fr i hi] at hk
        obtain rfl : k = 0 := Nat.lt_one_iff.1 hk
        rw [SM.row_f, ent pw ρ i j hi]
    · col_default
    · elem_case
      have hi : i < n := hi
      refine ((ihf i (hf i hi).1).2.2 0 j (by rw [fr i hi]; exact Nat.one_pos) (by rw [fc i hi]; exact hj)).congr
        fun pw ρ => SM.ext1 ⟨rfl, rfl⟩ ⟨rfl, rfl⟩ ?_
      rw [SM.elem_f, SM.elem_f, ent pw ρ i j hi]
  | byCols n f ihf =>
    obtain ⟨hn, hf⟩ := id h
    have fr : ∀ i, i < n → (f i).rows = (f 0).rows := fun i hi => by rw [rows, (hf i hi).2]
    have fc : ∀ i, i < n → (f i).cols = 1 := fun i hi => congrArg Prod.snd (hf i hi).2
    have ent : ∀ pw ρ i j, j < n → ((byCols n f).ev pw ρ).f i j = ((f j).ev pw ρ).f i 0 := by
      intro pw ρ i j hj
      rw [ev]
      by_cases hi : i < ((f 0).ev pw ρ).r
      · rw [SM.f_in _ _ _ hi hj]
      · rw [SM.of_f, if_neg (by tauto), SM.out]
        rw [(dimsK (hf j hj).1 pw ρ).1, fr j hj, ← (dimsK (hf 0 hn).1 pw ρ).1]; tauto
    refine ⟨fun i hi => ?_, fun j hj => ?_, fun i j hi hj => ?_⟩
    · row_default
    · col_case
      have hj : j < n := hj
      refine ⟨(hf j hj).1, fun pw ρ => SM.ext' ?_ ?_ fun i k hi hk => ?_⟩
      · rw [(dimsK (hf j hj).1 pw ρ).1, fr j hj, SM.col_r, (dimsK h pw ρ).1]; rfl
      · rw [(dimsK (hf j hj).1 pw ρ).2, fc j hj]; rfl
      · rw [(dimsK (hf j hj).1 pw ρ).2, fc j hj] at hk
        obtain rfl : k = 0 := Nat.lt_one_iff.1 hk
        rw [SM.col_f, ent pw ρ i j hj]
    · elem_case
      have hj : j < n := hj
      refine ((ihf j (hf j hj).1).2.2 i 0 (by rw [fr j hj]; exact hi) (by rw [fc j hj]; exact Nat.one_pos)).congr
        fun pw ρ => SM.ext1 ⟨rfl, rfl⟩ ⟨rfl, rfl⟩ ?_
      rw [SM.elem_f, SM.elem_f, ent pw ρ i j hj]
  | hcat a b iha ihb =>
    obtain ⟨ha, hb, hr⟩ := id h
    have da := fun pw ρ => dimsK ha pw ρ
    have db := fun pw ρ => dimsK hb pw ρ
    have ee : ∀ pw ρ, ev pw ρ (hcat a b) = SM.hcat (ev pw ρ a) (ev pw ρ b) := fun _ _ => rfl
    refine ⟨fun i hi => ?_, fun j hj => ?_, fun i j hi hj => ?_⟩
    · row_case
      have hi : i < a.rows := hi
      have va := (iha ha).1 i hi
      have vb := (ihb hb).1 i (by rw [hr]; exact hi)
      refine ⟨⟨va.1, vb.1, by rw [rows, rows, rowSize a i ha va, rowSize b i hb vb]⟩, fun pw ρ => ?_⟩
      rw [ev, va.2, vb.2]
      dsimp only
      refine SM.ext' rfl rfl fun k j hk hj => ?_
      obtain rfl : k = 0 := Nat.lt_one_iff.1 hk
      rw [SM.hcat_f _ _ (by simp), SM.row_f, SM.row_f, SM.row_f, ee, SM.hcat_f _ _ (by rw [(da pw ρ).1]; exact hi), SM.row_c]
    · col_case
      split_ifs with hja
      · refine ((iha ha).2.1 j hja).congr fun pw ρ => SM.ext' rfl rfl fun i k hi hk => ?_
        obtain rfl : k = 0 := Nat.lt_one_iff.1 hk
        rw [SM.col_f, SM.col_f, ee, SM.hcat_f _ _ (by exact hi), if_pos (by rw [(da pw ρ).2]; exact hja)]
      · have hjb : j - a.cols < b.cols := by simp only [cols, size] at *; omega
        refine ((ihb hb).2.1 (j - a.cols) hjb).congr fun pw ρ => SM.ext' ?_ rfl fun i k hi hk => ?_
        · rw [SM.col_r, SM.col_r, ev, SM.hcat_r, (da pw ρ).1, (db pw ρ).1, hr]
        · obtain rfl : k = 0 := Nat.lt_one_iff.1 hk
          rw [SM.col_r, (db pw ρ).1, hr, ← (da pw ρ).1] at hi
          rw [SM.col_f, SM.col_f, ee, SM.hcat_f _ _ (by exact hi), (da pw ρ).2, if_neg hja]
    · elem_case
      have hi : i < a.rows := hi
      split_ifs with hja
      · refine ((iha ha).2.2 i j hi hja).congr fun pw ρ => SM.ext1 ⟨rfl, rfl⟩ ⟨rfl, rfl⟩ ?_
        rw [SM.elem_f, SM.elem_f, ee, SM.hcat_f _ _ (by rw [(da pw ρ).1]; exact hi), if_pos (by rw [(da pw ρ).2]; exact hja)]
      · have hjb : j - a.cols < b.cols := by simp only [cols, size] at *; omega
        refine ((ihb hb).2.2 i (j - a.cols) (by rw [hr]; exact hi) hjb).congr fun pw ρ =>
          SM.ext1 ⟨rfl, rfl⟩ ⟨rfl, rfl⟩ ?_
        rw [SM.elem_f, SM.elem_f, ee, SM.hcat_f _ _ (by rw [(da pw ρ).1]; exact hi), (da pw ρ).2, if_neg hja]
  | vcat a b iha ihb =>
    obtain ⟨ha, hb, hc⟩ := id h
    have da := fun pw ρ => dimsK ha pw ρ
    have db := fun pw ρ => dimsK hb pw ρ
    have ee : ∀ pw ρ, ev pw ρ (vcat a b) = SM.vcat (ev pw ρ a) (ev pw ρ b) := fun _ _ => rfl
    refine ⟨fun i hi => ?_, fun j hj => ?_, fun i j hi hj => ?_⟩
    · row_case
      split_ifs with hia
      · refine ((iha ha).1 i hia).congr fun pw ρ => SM.ext' rfl rfl fun k j hk hj => ?_
        obtain rfl : k = 0 := Nat.lt_one_iff.1 hk
        rw [SM.row_f, SM.row_f, ee, SM.vcat_f _ _ (by exact hj), if_pos (by rw [(da pw ρ).1]; exact hia)]
      · have hib : i - a.rows < b.rows := by simp only [rows, size] at *; omega
        refine ((ihb hb).1 (i - a.rows) hib).congr fun pw ρ => SM.ext' rfl ?_ fun k j hk hj => ?_
        · rw [SM.row_c, SM.row_c, ev, SM.vcat_c, (da pw ρ).2, (db pw ρ).2, hc]
        · obtain rfl : k = 0 := Nat.lt_one_iff.1 hk
          rw [SM.row_c, (db pw ρ).2, hc, ← (da pw ρ).2] at hj
          rw [SM.row_f, SM.row_f, ee, SM.vcat_f _ _ (by exact hj), (da pw ρ).1, if_neg hia]
    · col_case
      have hj : j < a.cols := hj
      have va := (iha ha).2.1 j hj
      have vb := (ihb hb).2.1 j (by rw [hc]; exact hj)
      refine ⟨⟨va.1, vb.1, by rw [cols, cols, colSize a j ha va, colSize b j hb vb]⟩, fun pw ρ => ?_⟩
      rw [ev, va.2, vb.2]
      dsimp only
      refine SM.ext' rfl rfl fun i k hi hk => ?_
      obtain rfl : k = 0 := Nat.lt_one_iff.1 hk
      rw [SM.vcat_f _ _ (by simp), SM.col_f, SM.col_f, SM.col_f, ee, SM.vcat_f _ _ (by rw [(da pw ρ).2]; exact hj), SM.col_r]
    · elem_case
      have hj : j < a.cols := hj
      split_ifs with hia
      · refine ((iha ha).2.2 i j hia hj).congr fun pw ρ => SM.ext1 ⟨rfl, rfl⟩ ⟨rfl, rfl⟩ ?_
        rw [SM.elem_f, SM.elem_f, ee, SM.vcat_f _ _ (by rw [(da pw ρ).2]; exact hj), if_pos (by rw [(da pw ρ).1]; exact hia)]
      · have hib : i - a.rows < b.rows := by simp only [rows, size] at *; omega
        refine ((ihb hb).2.2 (i - a.rows) j hib (by rw [hc]; exact hj)).congr fun pw ρ =>
          SM.ext1 ⟨rfl, rfl⟩ ⟨rfl, rfl⟩ ?_
        rw [SM.elem_f, SM.elem_f, ee, SM.vcat_f _ _ (by rw [(da pw ρ).2]; exact hj), (da pw ρ).1, if_neg hia]
  | mpd n ds x ihd ihx =>
    obtain ⟨hn, hd, hx, hxs⟩ := id h
    have dr : ∀ i, i < n → (ds i).rows = (ds 0).rows := fun i hi => congrArg Prod.fst (hd i hi).2
    have dc : ∀ i, i < n → (ds i).cols = (ds 0).cols := fun i hi => congrArg Prod.snd (hd i hi).2
    refine ⟨fun i hi => ?_, fun j hj => ?_, fun i j hi hj => ?_⟩
    · row_default
    · col_case
      have hj : j < (ds 0).cols := hj
      have vd : ∀ k, k < n → Val P (colAcc cfg (ds k) j) fun pw ρ => SM.col ((ds k).ev pw ρ) j :=
        fun k hk => (ihd k (hd k hk).1).2.1 j (by rw [dc k hk]; exact hj)
      exact val_mpd_col (cfg := cfg) h hj vd
    · elem_default

end Verif.Levi
