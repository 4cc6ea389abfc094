import Verif.Lemmas.Levi
/- Sums and differences of levi expressions: comparison, collection of common right factors. -/
set_option linter.unusedSectionVars false
namespace Verif.Levi
open Spec Ex
variable {K : Type} [Field K] [LinearOrder K] {P : Ex K → K → Prop}

theorem eqv_sound {cfg : Cfg K} (hs : Sound cfg) {a b : Ex K} (ha : Kept P a) (hb : Kept P b)
    (h : a.eqv cfg b = true) (pw : K → K → K) (ρ : Env K) : a.ev pw ρ = b.ev pw ρ := by
  induction a generalizing b with
  | const r c M => rw [hs _ _ h]
  | sparse r c l => rw [hs _ _ h]
  | var v => rw [hs _ _ h]
  | skew a => rw [hs _ _ h]
  | vee a => rw [hs _ _ h]
  | byRows n f ihf => rw [hs _ _ h]
  | byCols n f ihf => rw [hs _ _ h]
  | mpd n ds x ihd ihx => rw [hs _ _ h]
  | null r c =>
    simp only [eqv, Bool.or_eq_true] at h
    rcases h with h | h
    · rw [hs _ _ h]
    · cases b <;> simp at h
      rw [h.1, h.2]
  | ident n =>
    simp only [eqv, Bool.or_eq_true] at h
    rcases h with h | h
    · rw [hs _ _ h]
    · cases b <;> simp at h
      rw [h]
  | add a b iha ihb =>
    simp only [eqv, Bool.or_eq_true] at h
    rcases h with h | h
    · rw [hs _ _ h]
    · split at h
      · rename_i a' b'
        simp only [Bool.or_eq_true, Bool.and_eq_true] at h
        simp only [ev]
        rcases h with h | h
        · rw [iha ha.1 hb.1 h.1, ihb ha.2.1 hb.2.1 h.2]
        · rw [iha ha.1 hb.2.1 h.1, ihb ha.2.1 hb.1 h.2]
          apply SM.add_comm'
          · rw [(dimsK hb.1 pw ρ).1, (dimsK hb.2.1 pw ρ).1]; exact (congrArg Prod.fst hb.2.2).symm
          · rw [(dimsK hb.1 pw ρ).2, (dimsK hb.2.1 pw ρ).2]; exact (congrArg Prod.snd hb.2.2).symm
      · cases h
  | sub a b iha ihb =>
    simp only [eqv, Bool.or_eq_true] at h
    rcases h with h | h
    · rw [hs _ _ h]
    · split at h
      · simp only [Bool.and_eq_true] at h
        simp only [ev]
        rw [iha ha.1 hb.1 h.1, ihb ha.2.1 hb.2.1 h.2]
      · cases h
  | mul a b iha ihb =>
    simp only [eqv, Bool.or_eq_true] at h
    rcases h with h | h
    · rw [hs _ _ h]
    · split at h
      · simp only [Bool.and_eq_true] at h
        simp only [ev]
        rw [iha ha.1 hb.1 h.1, ihb ha.2.1 hb.2.1 h.2]
      · cases h
  | div a b iha ihb =>
    simp only [eqv, Bool.or_eq_true] at h
    rcases h with h | h
    · rw [hs _ _ h]
    · split at h
      · simp only [Bool.and_eq_true] at h
        simp only [ev]
        rw [iha ha.1 hb.1 h.1, ihb ha.2.1 hb.2.1 h.2]
      · cases h
  | hcat a b iha ihb =>
    simp only [eqv, Bool.or_eq_true] at h
    rcases h with h | h
    · rw [hs _ _ h]
    · split at h
      · simp only [Bool.and_eq_true] at h
        simp only [ev]
        rw [iha ha.1 hb.1 h.1, ihb ha.2.1 hb.2.1 h.2]
      · cases h
  | vcat a b iha ihb =>
    simp only [eqv, Bool.or_eq_true] at h
    rcases h with h | h
    · rw [hs _ _ h]
    · split at h
      · simp only [Bool.and_eq_true] at h
        simp only [ev]
        rw [iha ha.1 hb.1 h.1, ihb ha.2.1 hb.2.1 h.2]
      · cases h
  | neg a iha =>
    simp only [eqv, Bool.or_eq_true] at h
    rcases h with h | h
    · rw [hs _ _ h]
    · split at h
      · simp only [ev]
        rename_i a'; rw [iha (b := a') ha hb h]
      · cases h
  | transpose a iha =>
    simp only [eqv, Bool.or_eq_true] at h
    rcases h with h | h
    · rw [hs _ _ h]
    · split at h
      · simp only [ev]
        rename_i a'; rw [iha (b := a') ha hb h]
      · cases h
  | pow a e iha =>
    simp only [eqv, Bool.or_eq_true] at h
    rcases h with h | h
    · rw [hs _ _ h]
    · split at h
      · simp only [Bool.and_eq_true, decide_eq_true_eq] at h
        simp only [ev]
        rw [iha ha.1 hb.1 h.1, h.2]
      · cases h
  | row a i iha =>
    simp only [eqv, Bool.or_eq_true] at h
    rcases h with h | h
    · rw [hs _ _ h]
    · split at h
      · simp only [Bool.and_eq_true, beq_iff_eq] at h
        simp only [ev]
        rw [iha ha.1 hb.1 h.1, h.2]
      · cases h
  | col a i iha =>
    simp only [eqv, Bool.or_eq_true] at h
    rcases h with h | h
    · rw [hs _ _ h]
    · split at h
      · simp only [Bool.and_eq_true, beq_iff_eq] at h
        simp only [ev]
        rw [iha ha.1 hb.1 h.1, h.2]
      · cases h
  | elem a i j iha =>
    simp only [eqv, Bool.or_eq_true] at h
    rcases h with h | h
    · rw [hs _ _ h]
    · split at h
      · simp only [Bool.and_eq_true, beq_iff_eq] at h
        simp only [ev]
        rw [iha ha.1 hb.1 h.1.1, h.1.2, h.2]
      · cases h
  | block a i j r c iha =>
    simp only [eqv, Bool.or_eq_true] at h
    rcases h with h | h
    · rw [hs _ _ h]
    · split at h
      · simp only [Bool.and_eq_true, beq_iff_eq] at h
        simp only [ev]
        rw [iha ha.1 hb.1 h.1.1.1.1, h.1.1.1.2, h.1.1.2, h.1.2, h.2]
      · cases h

/-- Sum or difference of two values. -/
def SM.pm (minus : Bool) (A B : SM K) : SM K := if minus then SM.sub A B else SM.add A B

/-- The sign carried by an addend. -/
def sgn (positive : Bool) : K := if positive then 1 else -1

theorem SM.pm_r (m : Bool) (A B : SM K) : (SM.pm m A B).r = A.r := by cases m <;> rfl
theorem SM.pm_c (m : Bool) (A B : SM K) : (SM.pm m A B).c = A.c := by cases m <;> rfl
theorem SM.pm_f (m : Bool) {A B : SM K} (hr : B.r = A.r) (hc : B.c = A.c) (i j : Nat) :
    (SM.pm m A B).f i j = A.f i j + sgn (!m) * B.f i j := by
  cases m
  · simp [SM.pm, sgn, SM.add_f hr hc]
  · simp [SM.pm, sgn, SM.sub_f hr hc, sub_eq_add_neg]

/-- An addend of an expression of size `s`. -/
structure GoodAddend (P : Ex K → K → Prop) (s : Nat × Nat) (x : Addend K) : Prop where
  lhs : Kept P x.lhs
  rhs : Kept P x.rhs
  init : Kept P x.initial
  size : x.initial.size = s
  fits : x.lhs.cols = x.rhs.rows ∨ x.lhs.isScalar = true
  value : ∀ pw ρ, x.initial.ev pw ρ = SM.mul (x.lhs.ev pw ρ) (x.rhs.ev pw ρ)

theorem splitRight_spec (cfg : Cfg K) {l r : Ex K} (h : Kept P (mul l r)) :
    Kept P (mul (splitRight cfg l r).1 (splitRight cfg l r).2) ∧ ∀ pw ρ,
      SM.mul ((splitRight cfg l r).1.ev pw ρ) ((splitRight cfg l r).2.ev pw ρ) = SM.mul (l.ev pw ρ) (r.ev pw ρ) := by
  induction r generalizing l with
  | mul r1 r2 _ ih2 =>
    have h1 := fun pw ρ => sconf_of_kept h pw ρ
    have h2 := fun pw ρ => sconf_of_kept h.2.1 pw ρ
    have h3 := fun pw ρ => SM.assoc_left (h2 pw ρ) (h1 pw ρ)
    have v := val_mulOp (P := P) cfg (Val.self h.1) (Val.self h.2.1.1) fun pw ρ => (h3 pw ρ).2.1
    have k : Kept P (mul (mulOp cfg l r1) r2) :=
      kept_mul v.1 h.2.1.2.1 pw0 ρ0 (by rw [v.2]; exact (h3 _ _).1)
    refine ⟨(ih2 k).1, fun pw ρ => ?_⟩
    rw [splitRight, (ih2 k).2 pw ρ, v.2, (h3 pw ρ).2.2, ev]
  | _ => exact ⟨h, fun _ _ => rfl⟩

/-- Value of a list of addends. -/
def total (L : List (Addend K)) (pw : K → K → K) (ρ : Env K) (i j : Nat) : K :=
  (L.map fun x => sgn x.positive * (x.initial.ev pw ρ).f i j).sum

theorem sgn_not (b : Bool) : (sgn (!b) : K) = -sgn b := by cases b <;> simp [sgn]

theorem expand_atom {e : Ex K} (he : Kept P e) (p : Bool) :
    (∀ x ∈ [(⟨p, ident 1, e, e⟩ : Addend K)], GoodAddend P e.size x) ∧
      ∀ pw ρ i j, total [(⟨p, ident 1, e, e⟩ : Addend K)] pw ρ i j = sgn p * (e.ev pw ρ).f i j := by
  refine ⟨fun x hx => ?_, fun pw ρ i j => by simp [total]⟩
  rw [List.mem_singleton] at hx; subst hx
  refine ⟨Nat.one_pos, he, he, rfl, Or.inr rfl, fun pw ρ => ?_⟩
  simp only [ev]
  rw [SM.one_mul _ (Or.inl rfl)]

theorem expandAddends_spec (cfg : Cfg K) {e : Ex K} (h : Kept P e) (p : Bool) :
    (∀ x ∈ expandAddends cfg p e, GoodAddend P e.size x) ∧
    ∀ pw ρ i j, total (expandAddends cfg p e) pw ρ i j = sgn p * (e.ev pw ρ).f i j := by
  induction e generalizing p with
  | add a b iha ihb =>
    have A := iha h.1 p
    have B := ihb h.2.1 p
    refine ⟨fun x hx => ?_, fun pw ρ i j => ?_⟩
    · rw [expandAddends, List.mem_append] at hx
      rcases hx with hx | hx
      · exact A.1 x hx
      · have := B.1 x hx; rw [h.2.2] at this; exact this
    · have := A.2 pw ρ i j
      have := B.2 pw ρ i j
      rw [ev, SM.add_f]
      · simp_all [total, expandAddends, mul_add]
      · rw [(dimsK h.1 pw ρ).1, (dimsK h.2.1 pw ρ).1]; exact congrArg Prod.fst h.2.2
      · rw [(dimsK h.1 pw ρ).2, (dimsK h.2.1 pw ρ).2]; exact congrArg Prod.snd h.2.2
  | sub a b iha ihb =>
    have A := iha h.1 p
    have B := ihb h.2.1 (!p)
    refine ⟨fun x hx => ?_, fun pw ρ i j => ?_⟩
    · rw [expandAddends, List.mem_append] at hx
      rcases hx with hx | hx
      · exact A.1 x hx
      · have := B.1 x hx; rw [h.2.2] at this; exact this
    · have := A.2 pw ρ i j
      have := B.2 pw ρ i j
      rw [sgn_not] at this
      rw [ev, SM.sub_f]
      · simp_all [total, expandAddends, mul_sub, sub_eq_add_neg]; ring
      · rw [(dimsK h.1 pw ρ).1, (dimsK h.2.1 pw ρ).1]; exact congrArg Prod.fst h.2.2
      · rw [(dimsK h.1 pw ρ).2, (dimsK h.2.1 pw ρ).2]; exact congrArg Prod.snd h.2.2
  | neg a iha =>
    have A := iha h (!p)
    refine ⟨A.1, fun pw ρ i j => ?_⟩
    rw [expandAddends, A.2, sgn_not, ev, SM.neg_f]; ring
  | mul a b _ _ =>
    refine ⟨fun x hx => ?_, fun pw ρ i j => by simp [total, expandAddends]⟩
    rw [expandAddends, List.mem_singleton] at hx; subst hx
    obtain ⟨k, v⟩ := splitRight_spec (P := P) cfg h
    exact ⟨k.1, k.2.1, h, rfl, k.2.2, fun pw ρ => by rw [v, ev]⟩
  | _ => exact expand_atom h p

/-- Sizes of the left factors of addends that share their right factor. -/
def LhsSize (R p : Nat) (s : Nat × Nat) : Prop := s = (R, p) ∨ s = (1, 1) ∧ p = R

theorem lhsSize_of {s : Nat × Nat} {x : Addend K} (h : GoodAddend P s x) {p q : Nat} (hr : x.rhs.size = (p, q)) :
    LhsSize s.1 p x.lhs.size := by
  have e := size_of_ev (P := P) h.init (Kept.written (P := P) (e := mul x.lhs x.rhs) ⟨h.lhs, h.rhs, h.fits⟩)
    (fun pw ρ => by rw [h.value, ev])
  rw [h.size] at e
  have e1 : s.1 = _ := congrArg Prod.fst e
  simp only [size, hr] at e1
  by_cases hs : x.lhs.size = (1, 1)
  · rw [hs] at e1
    simp at e1
    refine Or.inr ⟨hs, ?_⟩
    split_ifs at e1 <;> omega
  · rcases h.fits with f | f
    · refine Or.inl (Prod.ext ?_ ?_)
      · simp only [e1]
        rw [if_neg]
        rintro ⟨a, b, _⟩
        exact hs (Prod.ext a b)
      · simpa [rows, cols, hr] using f
    · exact absurd ((isScalar_iff _).1 f) hs

theorem max_lhs {R p : Nat} (hR : 0 < R) (hp : 0 < p) (L : List (Addend K)) (m : Nat × Nat) (hm : LhsSize R p m)
    (hL : ∀ x ∈ L, LhsSize R p x.lhs.size) :
    let t := L.foldl (fun m a => (max m.1 a.lhs.rows, max m.2 a.lhs.cols)) m
    LhsSize R p t ∧ (t = (1, 1) → m = (1, 1) ∧ ∀ x ∈ L, x.lhs.size = (1, 1)) := by
  induction L generalizing m with
  | nil => exact ⟨hm, fun h => ⟨h, by simp⟩⟩
  | cons x L ih =>
    have hx := hL x (by simp)
    have hm' : LhsSize R p (max m.1 x.lhs.rows, max m.2 x.lhs.cols) ∧
        ((max m.1 x.lhs.rows, max m.2 x.lhs.cols) = (1, 1) → m = (1, 1) ∧ x.lhs.size = (1, 1)) := by
      unfold LhsSize at *
      simp only [Prod.ext_iff, rows, cols] at *
      rcases hx with ⟨h1, h2⟩ | ⟨⟨h1, h2⟩, h3⟩ <;> rcases hm with ⟨g1, g2⟩ | ⟨⟨g1, g2⟩, g3⟩ <;>
        simp only [h1, h2, g1, g2] <;> simp <;> omega
    obtain ⟨i1, i2⟩ := ih _ hm'.1 (fun y hy => hL y (by simp [hy]))
    refine ⟨i1, fun h => ?_⟩
    obtain ⟨j1, j2⟩ := i2 h
    obtain ⟨k1, k2⟩ := hm'.2 j1
    refine ⟨k1, fun y hy => ?_⟩
    rcases List.mem_cons.1 hy with rfl | hy
    · exact k2
    · exact j2 y hy

theorem SM.pm_mul (m : Bool) {A B C : SM K} (hr : B.r = A.r) (hc : B.c = A.c) (h : SM.Conf A C) :
    SM.mul (SM.pm m A B) C = SM.pm m (SM.mul A C) (SM.mul B C) := by
  cases m
  · exact SM.add_mul' hr hc h
  · have hB : SM.Conf B C := by
      rcases h with h | h | h
      · exact Or.inl (by rw [hc, h])
      · exact Or.inr (Or.inl ⟨by rw [hr, h.1], by rw [hc, h.2]⟩)
      · exact Or.inr (Or.inr h)
    simp only [SM.pm, if_true]
    rw [SM.sub_eq_add_neg', SM.sub_eq_add_neg', SM.add_mul' (by simpa using hr) (by simpa using hc) h, SM.neg_mul hB]

/-- What is proved about `operator+` and `operator-` for a given recursion depth. -/
def AddOk (P : Ex K → K → Prop) (cfg : Cfg K) (n : Nat) : Prop := ∀ (minus : Bool) (a b : Ex K), Kept P a → Kept P b →
  b.size = a.size → Val P (addF cfg n minus a b) fun pw ρ => SM.pm minus (a.ev pw ρ) (b.ev pw ρ)

theorem fold_addF {cfg : Cfg K} {n : Nat} (ih : AddOk P cfg n) (s : Nat × Nat) (g : Addend K → Ex K)
    (L : List (Addend K)) (start : Ex K) (h0 : Kept P start) (hs0 : start.size = s)
    (hL : ∀ x ∈ L, Kept P (g x) ∧ (g x).size = s) :
    let e := L.foldl (fun e x => addF cfg n (!x.positive) e (g x)) start
    Kept P e ∧ e.size = s ∧ ∀ pw ρ, ∀ φ : SM K → K,
      (∀ m A B, A.r = s.1 → A.c = s.2 → B.r = s.1 → B.c = s.2 → φ (SM.pm m A B) = φ A + sgn (!m) * φ B) →
      φ (e.ev pw ρ) = φ (start.ev pw ρ) + (L.map fun x => sgn x.positive * φ ((g x).ev pw ρ)).sum := by
  induction L generalizing start with
  | nil => exact ⟨h0, hs0, fun pw ρ φ _ => by simp⟩
  | cons x L ihL =>
    obtain ⟨gx, gs⟩ := hL x (by simp)
    have v := ih (!x.positive) start (g x) h0 gx (by rw [gs, hs0])
    have vs : (addF cfg n (!x.positive) start (g x)).size = s := by
      rw [v.size pw0 ρ0, SM.pm_r, SM.pm_c, (dimsK h0 _ _).1, (dimsK h0 _ _).2, ← hs0]
    obtain ⟨a, b, c⟩ := ihL _ v.1 vs (fun y hy => hL y (by simp [hy]))
    refine ⟨a, b, fun pw ρ φ hφ => ?_⟩
    rw [List.foldl_cons, c pw ρ φ hφ, v.2, hφ]
    · simp [add_assoc]
    · rw [(dimsK h0 pw ρ).1, ← hs0]
    · rw [(dimsK h0 pw ρ).2, ← hs0]
    · rw [(dimsK gx pw ρ).1, ← gs]
    · rw [(dimsK gx pw ρ).2, ← gs]

theorem signed_start {e : Ex K} (he : Kept P e) (p : Bool) :
    Kept P (if p then e else negOp e) ∧ (if p then e else negOp e).size = e.size ∧
    ∀ pw ρ, (if p then e else negOp e).ev pw ρ = SM.smul (sgn p) (e.ev pw ρ) := by
  cases p
  · have v := val_neg (Val.self he)
    refine ⟨v.1, ?_, fun pw ρ => ?_⟩
    · rw [if_neg Bool.false_ne_true, v.size pw0 ρ0, SM.neg_r, SM.neg_c, (dimsK he _ _).1, (dimsK he _ _).2]
    · rw [if_neg Bool.false_ne_true, v.2]; dsimp only; rw [SM.neg_eq_smul]; rfl
  · refine ⟨he, rfl, fun pw ρ => ?_⟩
    rw [if_pos rfl]
    exact SM.ext' rfl rfl fun i j _ _ => by simp [sgn]

theorem sum_filter_split (L : List (Addend K)) (q : Addend K → Bool) (φ : Addend K → K) :
    (L.map φ).sum = ((L.filter q).map φ).sum + ((L.filter fun x => !q x).map φ).sum := by
  induction L with
  | nil => simp
  | cons x L ih =>
    rw [List.map_cons, List.sum_cons, ih]
    cases h : q x
    · rw [List.filter_cons_of_neg (by simp [h]), List.filter_cons_of_pos (by simp [h])]
      simp; ring
    · rw [List.filter_cons_of_pos (by simp [h]), List.filter_cons_of_neg (by simp [h])]
      simp [add_assoc]

/-- The collection of a common right factor. -/
theorem factor_spec {cfg : Cfg K} (hs : Sound cfg) {n : Nat} (ih : AddOk P cfg n) (s : Nat × Nat) (first : Addend K)
    (similar : List (Addend K)) (h0 : GoodAddend P s first) (hL : ∀ x ∈ similar, GoodAddend P s x)
    (heq : ∀ x ∈ similar, x.rhs.eqv cfg first.rhs = true) :
    let size := maximumSizeLhs first similar
    let start := if first.positive then getLhs cfg first size else negOp (getLhs cfg first size)
    let factor := similar.foldl (fun e x => addF cfg n (!x.positive) e (getLhs cfg x size)) start
    Kept P (mulOp cfg factor first.rhs) ∧ (mulOp cfg factor first.rhs).size = s ∧
    ∀ pw ρ i j, ((mulOp cfg factor first.rhs).ev pw ρ).f i j = total (first :: similar) pw ρ i j := by
  intro size start factor
  obtain ⟨p, q, hpq⟩ : ∃ p q, first.rhs.size = (p, q) := ⟨_, _, rfl⟩
  have hrhs : ∀ x ∈ first :: similar, ∀ pw ρ, x.rhs.ev pw ρ = first.rhs.ev pw ρ := by
    intro x hx pw ρ
    rcases List.mem_cons.1 hx with rfl | hx
    · rfl
    · exact eqv_sound hs (hL x hx).rhs h0.rhs (heq x hx) pw ρ
  have good : ∀ x ∈ first :: similar, GoodAddend P s x := by
    intro x hx
    rcases List.mem_cons.1 hx with rfl | hx
    · exact h0
    · exact hL x hx
  have hsz : ∀ x ∈ first :: similar, x.rhs.size = (p, q) := by
    intro x hx
    rw [← hpq]
    exact size_of_ev (good x hx).rhs (Kept.written h0.rhs) (hrhs x hx)
  have hl : ∀ x ∈ first :: similar, LhsSize s.1 p x.lhs.size := fun x hx => lhsSize_of (good x hx) (hsz x hx)
  have hR : 0 < s.1 := by rw [← h0.size]; exact (pos h0.init).1
  have hp : 0 < p := by have := (pos h0.rhs).1; simpa [rows, hpq] using this
  obtain ⟨m1, m2⟩ := max_lhs hR hp similar _ (hl first (by simp)) (fun x hx => hl x (by simp [hx]))
  change LhsSize s.1 p size at m1
  change size = (1, 1) → _ at m2
  have allone : size = (1, 1) → ∀ x ∈ first :: similar, x.lhs.size = (1, 1) := by
    intro h x hx
    rcases List.mem_cons.1 hx with rfl | hx
    · exact (m2 h).1
    · exact (m2 h).2 x hx
  -- the left factors, brought to the common size
  have lhsSpec : ∀ x ∈ first :: similar, Kept P (getLhs cfg x size) ∧ (getLhs cfg x size).size = size ∧
      ∀ pw ρ, SM.mul ((getLhs cfg x size).ev pw ρ) (first.rhs.ev pw ρ) = x.initial.ev pw ρ := by
    intro x hx
    have gx := good x hx
    unfold getLhs
    split_ifs with hc
    · exact ⟨gx.lhs, Prod.ext hc.1 hc.2, fun pw ρ => by rw [gx.value, hrhs x hx]⟩
    · have hne : x.lhs.size ≠ size := fun h => hc ⟨congrArg Prod.fst h, congrArg Prod.snd h⟩
      have hsize : size = (s.1, p) := by
        rcases m1 with h | h
        · exact h
        · exact absurd ((allone h.1 x hx).trans h.1.symm) hne
      have hx1 : x.lhs.size = (1, 1) ∧ p = s.1 := by
        rcases hl x hx with h | h
        · exact absurd (h.trans hsize.symm) hne
        · exact h
      have sc := fun pw ρ => (isScalar_ev gx.lhs pw ρ).1 ((isScalar_iff _).2 hx1.1)
      have v := val_mulOp (P := P) cfg (Val.self gx.lhs)
        (Val.self (x := ident size.1) (by rw [hsize]; exact hR)) (fun pw ρ => Or.inr (Or.inl (sc pw ρ)))
      refine ⟨v.1, ?_, fun pw ρ => ?_⟩
      · rw [v.size pw0 ρ0, SM.mul_scalar_left (sc _ _)]
        simp [ev, hsize, hx1.2]
      · rw [v.2]; dsimp only; rw [SM.mul_scalar_left (sc _ _), gx.value, hrhs x hx, SM.mul_scalar_left (sc _ _)]
        have hrr : (first.rhs.ev pw ρ).r = s.1 := by rw [(dimsK h0.rhs pw ρ).1, rows, hpq, ← hx1.2]
        rw [SM.smul_mul _ (Or.inl (by simp [ev, hsize, hrr])), ev, SM.one_mul]
        exact Or.inr (by rw [hrr, hsize])
  have fs := lhsSpec first (by simp)
  obtain ⟨s1, s2, s3⟩ := signed_start fs.1 first.positive
  change Kept P start at s1
  change start.size = _ at s2
  change ∀ pw ρ, start.ev pw ρ = _ at s3
  obtain ⟨f1, f2, f3⟩ := fold_addF ih size (fun x => getLhs cfg x size) similar start s1 (s2.trans fs.2.1)
    (fun x hx => ⟨(lhsSpec x (by simp [hx])).1, (lhsSpec x (by simp [hx])).2.1⟩)
  change Kept P factor at f1
  change factor.size = _ at f2
  have conf : ∀ pw ρ (A : SM K), A.r = size.1 → A.c = size.2 → SM.Conf A (first.rhs.ev pw ρ) := by
    intro pw ρ A h1 h2
    rcases m1 with h | h
    · exact Or.inl (by rw [h2, h, (dimsK h0.rhs pw ρ).1, rows, hpq])
    · exact Or.inr (Or.inl ⟨by rw [h1, h.1], by rw [h2, h.1]⟩)
  have cf := fun pw ρ => conf pw ρ (factor.ev pw ρ) (by rw [(dimsK f1 pw ρ).1, rows, f2])
    (by rw [(dimsK f1 pw ρ).2, cols, f2])
  have v := val_mulOp (P := P) cfg (Val.self f1) (Val.self h0.rhs) cf
  have hst := fun pw ρ => conf pw ρ ((getLhs cfg first size).ev pw ρ) (by rw [(dimsK fs.1 pw ρ).1, rows, fs.2.1])
    (by rw [(dimsK fs.1 pw ρ).2, cols, fs.2.1])
  refine ⟨v.1, ?_, fun pw ρ i j => ?_⟩
  · -- the size is that of the first addend
    have e1 : (SM.mul (factor.ev pw0 ρ0) (first.rhs.ev pw0 ρ0)).r = (first.initial.ev pw0 ρ0).r := by
      rw [← fs.2.2, SM.mul_r (cf _ _), SM.mul_r (hst _ _), (dimsK f1 _ _).1, (dimsK f1 _ _).2, (dimsK fs.1 _ _).1,
        (dimsK fs.1 _ _).2, rows, cols, rows, cols, f2, fs.2.1]
    have e2 : (SM.mul (factor.ev pw0 ρ0) (first.rhs.ev pw0 ρ0)).c = (first.initial.ev pw0 ρ0).c := by
      rw [← fs.2.2, SM.mul_c (cf _ _), SM.mul_c (hst _ _), (dimsK f1 _ _).2, (dimsK fs.1 _ _).2, cols, cols, f2, fs.2.1]
    rw [v.size pw0 ρ0, e1, e2, (dimsK h0.init _ _).1, (dimsK h0.init _ _).2, ← h0.size]
  · rw [v.2]
    have := f3 pw ρ (fun A => (SM.mul A (first.rhs.ev pw ρ)).f i j) (by
      intro m A B h1 h2 h3 h4
      have cA := conf pw ρ A h1 h2
      have cB := conf pw ρ B h3 h4
      show (SM.mul (SM.pm m A B) _).f i j = _
      rw [SM.pm_mul m (by rw [h1, h3]) (by rw [h2, h4]) cA, SM.pm_f]
      · rw [SM.mul_r cA, SM.mul_r cB, h1, h2, h3, h4]
      · rw [SM.mul_c cA, SM.mul_c cB, h2, h4])
    change (SM.mul (factor.ev pw ρ) (first.rhs.ev pw ρ)).f i j = _ at this
    rw [this, s3, SM.smul_mul _ (hst pw ρ), fs.2.2, SM.smul_f, total, List.map_cons, List.sum_cons]
    congr 1
    congr 1
    apply List.map_congr_left
    intro x hx
    rw [(lhsSpec x (by simp [hx])).2.2]

/-- `operator+` and `operator-`: whatever the rewriting does, the value is the sum or the difference. -/
theorem val_addF {cfg : Cfg K} (hs : Sound cfg) (n : Nat) : AddOk P cfg n := by
  induction n with
  | zero =>
    intro minus a b ha hb hsz
    cases minus
    · exact ⟨⟨ha, hb, hsz⟩, fun _ _ => rfl⟩
    · exact ⟨⟨ha, hb, hsz⟩, fun _ _ => rfl⟩
  | succ n ih =>
    intro minus a b ha hb hsz
    have plain : Val P (if minus then sub a b else add a b) fun pw ρ => SM.pm minus (a.ev pw ρ) (b.ev pw ρ) := by
      cases minus
      · exact ⟨⟨ha, hb, hsz⟩, fun _ _ => rfl⟩
      · exact ⟨⟨ha, hb, hsz⟩, fun _ _ => rfl⟩
    have hr : ∀ pw ρ, (b.ev pw ρ).r = (a.ev pw ρ).r := fun pw ρ => by
      rw [(dimsK ha pw ρ).1, (dimsK hb pw ρ).1, rows, rows, hsz]
    have hc : ∀ pw ρ, (b.ev pw ρ).c = (a.ev pw ρ).c := fun pw ρ => by
      rw [(dimsK ha pw ρ).2, (dimsK hb pw ρ).2, cols, cols, hsz]
    have entry := fun pw ρ i j => SM.pm_f minus (hr pw ρ) (hc pw ρ) i j
    -- reduces a value to its entries
    have byEntries : ∀ x : Ex K, Kept P x → x.size = a.size →
        (∀ pw ρ i j, (x.ev pw ρ).f i j = (a.ev pw ρ).f i j + sgn (!minus) * (b.ev pw ρ).f i j) →
        Val P x fun pw ρ => SM.pm minus (a.ev pw ρ) (b.ev pw ρ) := by
      intro x hx hxs h
      refine ⟨hx, fun pw ρ => SM.ext' ?_ ?_ fun i j _ _ => by rw [h, entry]⟩
      · rw [SM.pm_r, (dimsK hx pw ρ).1, (dimsK ha pw ρ).1, rows, rows, hxs]
      · rw [SM.pm_c, (dimsK hx pw ρ).2, (dimsK ha pw ρ).2, cols, cols, hxs]
    have negSize : ∀ x : Ex K, Kept P x → (negOp x).size = x.size := by
      intro x hx
      have v := val_neg (Val.self hx)
      rw [v.size pw0 ρ0, SM.neg_r, SM.neg_c, (dimsK hx _ _).1, (dimsK hx _ _).2]
    rw [addF]
    by_cases h1 : a.isNull = true
    · rw [if_pos h1]
      obtain ⟨r, c, rfl⟩ := isNull_ev h1
      cases minus
      · rw [if_neg Bool.false_ne_true]
        exact byEntries _ hb hsz fun pw ρ i j => by simp [ev, sgn]
      · rw [if_pos rfl]
        have v := val_neg (Val.self hb)
        exact byEntries _ v.1 ((negSize b hb).trans hsz) fun pw ρ i j => by rw [v.2]; simp [ev, sgn]
    rw [if_neg h1]
    by_cases h2 : b.isNull = true
    · rw [if_pos h2]
      obtain ⟨r, c, rfl⟩ := isNull_ev h2
      exact byEntries _ ha rfl fun pw ρ i j => by simp [ev]
    rw [if_neg h2]
    by_cases h3 : ((a.isIdentity && b.isIdentity) || a.eqv cfg b) = true
    · rw [if_pos h3]
      have e : ∀ pw ρ, a.ev pw ρ = b.ev pw ρ := by
        rw [Bool.or_eq_true, Bool.and_eq_true] at h3
        rcases h3 with ⟨i1, i2⟩ | h3
        · obtain ⟨m, rfl⟩ := isIdentity_ev i1
          obtain ⟨k, rfl⟩ := isIdentity_ev i2
          have : k = m := congrArg Prod.fst hsz
          intro pw ρ; rw [this]
        · exact eqv_sound hs ha hb h3
      cases minus
      · rw [if_neg Bool.false_ne_true]
        have sc : ∀ pw ρ, (ev pw ρ (const 1 1 fun _ _ => 2 : Ex K)).IsScalar := fun _ _ => ⟨rfl, rfl⟩
        have v := val_mulOp (P := P) cfg (Val.self (x := const 1 1 fun _ _ => 2) ⟨Nat.one_pos, Nat.one_pos⟩)
          (Val.self hb) (fun pw ρ => Or.inr (Or.inl (sc pw ρ)))
        refine byEntries _ v.1 ?_ fun pw ρ i j => ?_
        · rw [v.size pw0 ρ0, SM.mul_scalar_left (sc _ _), SM.smul_r, SM.smul_c, (dimsK hb _ _).1, (dimsK hb _ _).2, ← hsz]
        · rw [v.2]; dsimp only; rw [SM.mul_scalar_left (sc _ _), SM.smul_f, e]
          simp [ev, SM.of_f, sgn, two_mul]
      · rw [if_pos rfl]
        exact byEntries _ (pos ha) rfl fun pw ρ i j => by rw [e]; simp [ev, sgn]
    rw [if_neg h3]
    split
    · rename_i a' e
      obtain rfl := asNeg_some e
      cases minus
      · rw [if_neg Bool.false_ne_true]
        have v := ih true b a' hb ha hsz.symm
        refine byEntries _ v.1 ?_ fun pw ρ i j => ?_
        · rw [v.size pw0 ρ0, SM.pm_r, SM.pm_c, (dimsK hb _ _).1, (dimsK hb _ _).2, ← hsz]
        · rw [v.2]; dsimp only; rw [SM.pm_f (A := b.ev pw ρ) (B := a'.ev pw ρ) true (hr pw ρ).symm (hc pw ρ).symm]
          simp [ev, sgn]; ring
      · rw [if_pos rfl]
        have v := ih false a' b ha hb hsz
        have w := val_neg v
        refine byEntries _ w.1 ?_ fun pw ρ i j => ?_
        · rw [w.size pw0 ρ0, SM.neg_r, SM.neg_c, SM.pm_r, SM.pm_c, (dimsK (e := a') ha _ _).1,
            (dimsK (e := a') ha _ _).2]; rfl
        · rw [w.2]; dsimp only; rw [SM.neg_f, SM.pm_f (A := a'.ev pw ρ) (B := b.ev pw ρ) false (hr pw ρ) (hc pw ρ)]
          simp [ev, sgn]; ring
    split
    · rename_i b' e
      obtain rfl := asNeg_some e
      have v := ih (!minus) a b' ha hb hsz
      refine byEntries _ v.1 ?_ fun pw ρ i j => ?_
      · rw [v.size pw0 ρ0, SM.pm_r, SM.pm_c, (dimsK ha _ _).1, (dimsK ha _ _).2]
      · rw [v.2]; dsimp only; rw [SM.pm_f (A := a.ev pw ρ) (B := b'.ev pw ρ) (!minus) (hr pw ρ) (hc pw ρ), ev, SM.neg_f, sgn_not]; ring
    -- collection of the common factors
    obtain ⟨ga, ta⟩ := expandAddends_spec (P := P) cfg ha true
    obtain ⟨gb, tb⟩ := expandAddends_spec (P := P) cfg hb (!minus)
    have gall : ∀ x ∈ expandAddends cfg true a ++ expandAddends cfg (!minus) b, GoodAddend P a.size x := by
      intro x hx
      rcases List.mem_append.1 hx with hx | hx
      · exact ga x hx
      · have := gb x hx; rw [hsz] at this; exact this
    have tall : ∀ pw ρ i j, total (expandAddends cfg true a ++ expandAddends cfg (!minus) b) pw ρ i j
        = (a.ev pw ρ).f i j + sgn (!minus) * (b.ev pw ρ).f i j := by
      intro pw ρ i j
      rw [← tb pw ρ i j, ← one_mul ((a.ev pw ρ).f i j)]
      have := ta pw ρ i j
      simp only [total, sgn, if_true] at this
      simp only [total, List.map_append, List.sum_append]
      rw [← this]; rfl
    generalize expandAddends cfg true a ++ expandAddends cfg (!minus) b = L at gall tall
    cases L with
    | nil => exact plain
    | cons first others =>
      dsimp only
      split
      · exact plain
      · set similar := others.filter fun x => x.rhs.eqv cfg first.rhs with hsim
        set different := others.filter fun x => !(x.rhs.eqv cfg first.rhs) with hdif
        obtain ⟨c1, c2, c3⟩ := factor_spec hs ih a.size first similar (gall _ (by simp))
          (fun x hx => gall x (by rw [hsim, List.mem_filter] at hx; simp [hx.1]))
          (fun x hx => by rw [hsim, List.mem_filter] at hx; exact hx.2)
        have gdif : ∀ x ∈ different, GoodAddend P a.size x :=
          fun x hx => gall x (by rw [hdif, List.mem_filter] at hx; simp [hx.1])
        have split_total : ∀ pw ρ i j, (a.ev pw ρ).f i j + sgn (!minus) * (b.ev pw ρ).f i j
            = total (first :: similar) pw ρ i j + total different pw ρ i j := by
          intro pw ρ i j
          rw [← tall]
          simp only [total, List.map_cons, List.sum_cons]
          rw [sum_filter_split others (fun x => x.rhs.eqv cfg first.rhs)]
          ring
        clear_value different
        clear hdif
        rcases different with _ | ⟨d, ds⟩
        · refine byEntries _ c1 c2 fun pw ρ i j => ?_
          rw [c3, split_total]
          simp [total]
        · have gd := gdif
          have hd := gd d (by simp)
          obtain ⟨s1, s2, s3⟩ := signed_start hd.init d.positive
          obtain ⟨f1, f2, f3⟩ := fold_addF ih a.size (fun x => x.initial) ds _ s1 (s2.trans hd.size)
            (fun x hx => ⟨(gd x (by simp [hx])).init, (gd x (by simp [hx])).size⟩)
          refine byEntries _ ⟨c1, f1, by rw [f2, c2]⟩ (by rw [size, c2]) fun pw ρ i j => ?_
          rw [ev, SM.add_f, c3, split_total]
          · congr 1
            have := f3 pw ρ (fun A => A.f i j) (fun m A B h1 h2 h3 h4 => SM.pm_f m (by rw [h1, h3]) (by rw [h2, h4]) i j)
            rw [this, s3]
            simp [total]
          · rw [(dimsK c1 _ _).1, (dimsK f1 _ _).1, rows, rows, f2, c2]
          · rw [(dimsK c1 _ _).2, (dimsK f1 _ _).2, cols, cols, f2, c2]

theorem val_addOp {cfg : Cfg K} (hs : Sound cfg) {a b : Ex K} {A B} (ha : Val P a A) (hb : Val P b B)
    (hsz : b.size = a.size) : Val P (addOp cfg a b) fun pw ρ => SM.add (A pw ρ) (B pw ρ) := by
  refine (val_addF hs cfg.depth false a b ha.1 hb.1 hsz).congr fun pw ρ => ?_
  rw [ha.2, hb.2]; rfl

theorem val_subOp {cfg : Cfg K} (hs : Sound cfg) {a b : Ex K} {A B} (ha : Val P a A) (hb : Val P b B)
    (hsz : b.size = a.size) : Val P (subOp cfg a b) fun pw ρ => SM.sub (A pw ρ) (B pw ρ) := by
  refine (val_addF hs cfg.depth true a b ha.1 hb.1 hsz).congr fun pw ρ => ?_
  rw [ha.2, hb.2]; rfl

end Verif.Levi
