import Verif.Lemmas.CodeGen8
/- The names introduced for repeated texts. -/
set_option linter.unusedSectionVars false
set_option linter.unusedSimpArgs false
set_option linter.unusedVariables false
namespace Verif.Levi.Code
open Ex Spec Squeeze Levi.Spec
variable {K : Type} [Field K] [LinearOrder K]
variable {shown : K → K} {t : Squeeze.Tree K}

/-- What the names stand for. -/
def meaning (H C : Nat → List (Tok K)) : Tok K → List (Tok K)
  | .helper m => H m
  | .common m => C m
  | τ => [τ]

theorem meaning_plain (H C : Nat → List (Tok K)) (τ : Tok K) (h : ¬ IsName τ) : meaning H C τ = [τ] := by
  cases τ <;> first | rfl | exact absurd trivial h

theorem unfold_plain (d : Tok K → List (Tok K)) (hd : ∀ τ, ¬ IsName τ → d τ = [τ]) (s : List (Tok K)) (h : ∀ τ ∈ s, ¬ IsName τ) : s.flatMap d = s := by
  induction s with
  | nil => rfl
  | cons τ s ih => rw [List.flatMap_cons, hd τ (h τ (by simp)), ih fun τ hτ => h τ (by simp [hτ])]; rfl

theorem wrap_wrap (e : Ex K) (l : Lit K) : wrap e (wrap e l) = wrap e l := by
  unfold wrap
  split_ifs with h h'
  · simp at h'
  · rfl
  · rfl

/-- A further expansion, from texts with the right meaning. -/
theorem expanded_like (G : GoodC shown t) {d : Tok K → List (Tok K)} (hd : ∀ τ, ¬ IsName τ → d τ = [τ]) (ls : Nat → Lit K) (A : Tok K → Prop)
    (h : ∀ j < t.n, (ls j).compressed = true ∨ opLeft (t.comp j).e = none → Like d (ls j) (firstTexts shown t j) ∧ ∀ τ ∈ (ls j).text, IsName τ → A τ)
    (j : Nat) (hj : j < t.n) :
    Like d (expanded shown t ls t.n j) (firstTexts shown t j) ∧ ∀ τ ∈ (expanded shown t ls t.n j).text, IsName τ → A τ := by
  induction j using Nat.strong_induction_on with
  | _ j ih =>
    have F := G.fine j hj
    have e := (expandAll G ls t.n le_rfl).2 j hj
    rw [show expanded shown t ls t.n j = _ from e]
    by_cases hc : (ls j).compressed = true
    · rw [if_pos hc]
      exact h j hj (Or.inl hc)
    · rw [if_neg hc]
      by_cases hop : opLeft (t.comp j).e = none
      · obtain ⟨L, N⟩ := h j hj (Or.inr hop)
        rw [compose_generic hop]
        refine ⟨?_, fun τ hτ hn => N τ (wrap_names _ _ τ hn hτ) hn⟩
        have := wrap_like hd (t.comp j).e L
        rw [first_eq G j hj, wrap_wrap, ← first_eq G j hj] at this
        exact this
      · have hl : ∀ {x}, opLeft (t.comp j).e = some x → (t.comp j).lhs < j := fun hx => (F.lhs _ hx).1
        have hr : ∀ {x}, opRight (t.comp j).e = some x → (t.comp j).rhs < j := fun hx => (F.rhs _ hx).1
        constructor
        · rw [first_eq G j hj]
          apply wrap_like hd
          apply compose_like hd
          · exact fun h => absurd h hop
          · intro h
            obtain ⟨a, ha⟩ := Option.ne_none_iff_exists'.1 h
            exact (ih _ (hl ha) (by have := hl ha; omega)).1
          · intro h
            obtain ⟨a, ha⟩ := Option.ne_none_iff_exists'.1 h
            exact (ih _ (hr ha) (by have := hr ha; omega)).1
        · intro τ hτ hn
          rcases compose_names _ _ _ _ τ hn (wrap_names _ _ τ hn hτ) with ⟨h1, h2⟩ | ⟨h1, h2⟩ | ⟨h1, h2⟩
          · exact absurd h1 hop
          · obtain ⟨a, ha⟩ := Option.ne_none_iff_exists'.1 h1
            exact (ih _ (hl ha) (by have := hl ha; omega)).2 τ h2 hn
          · obtain ⟨a, ha⟩ := Option.ne_none_iff_exists'.1 h1
            exact (ih _ (hr ha) (by have := hr ha; omega)).2 τ h2 hn

theorem expanded_compressed (G : GoodC shown t) (ls : Nat → Lit K) (j : Nat) :
    (expanded shown t ls t.n j).compressed = (ls j).compressed ∧ ((ls j).compressed = true → expanded shown t ls t.n j = ls j) := by
  obtain ⟨h1, h2⟩ := expandAll G ls t.n le_rfl
  by_cases hj : j < t.n
  · rw [show expanded shown t ls t.n j = _ from h2 j hj]
    split_ifs with h
    · exact ⟨rfl, fun _ => rfl⟩
    · exact ⟨by rw [wrap_compressed, compose_compressed], fun h' => absurd h' h⟩
  · rw [show expanded shown t ls t.n j = _ from h1 j (by omega)]
    exact ⟨rfl, fun _ => rfl⟩

theorem expanded_generic (G : GoodC shown t) (ls : Nat → Lit K) (j : Nat) (hj : j < t.n) (hop : opLeft (t.comp j).e = none)
    (hl : ls j = firstTexts shown t j) : expanded shown t ls t.n j = firstTexts shown t j := by
  have h2 := (expandAll G ls t.n le_rfl).2 j hj
  rw [show expanded shown t ls t.n j = _ from h2, compose_generic hop, hl, first_uncompressed G j, first_eq G j hj, wrap_wrap]
  simp

/-- Repeated texts, while they are cleaned: those from `i` on have been considered. -/
structure Clean (nm : Nat → Tok K) (d : Tok K → List (Tok K)) (base : Nat → Sub K) (A : Tok K → Prop) (n i : Nat) (subs : Nat → Sub K) : Prop where
  before : ∀ m < i, subs m = base m
  size : ∀ m < n, (subs m).rows = (base m).rows ∧ (subs m).cols = (base m).cols
  unfold : ∀ m < n, (subs m).expression.flatMap d = (base m).expression.flatMap d
  names : ∀ m < n, (subs m).active = true → ∀ τ ∈ (subs m).expression, IsName τ →
    A τ ∨ ∃ m', i ≤ m' ∧ m' < m ∧ (subs m').active = true ∧ τ = nm m'

section clean
variable {nm : Nat → Tok K} {d : Tok K → List (Tok K)} {base subs : Nat → Sub K} {A : Tok K → Prop} {n i : Nat}

theorem Clean.init (hA : ∀ m < n, ∀ τ ∈ (base m).expression, IsName τ → A τ) : Clean nm d base A n n base :=
  ⟨fun _ _ => rfl, fun _ _ => ⟨rfl, rfl⟩, fun _ _ => rfl, fun m hm _ τ hτ hn => Or.inl (hA m hm τ hτ hn)⟩

theorem Clean.deactivate (C : Clean nm d base A n (i + 1) subs) (hi : i < n) :
    Clean nm d base A n i (Function.update subs i { subs i with active := false }) := by
  constructor
  · intro m hm
    rw [Function.update_of_ne (by omega)]
    exact C.before m (by omega)
  · intro m hm
    by_cases h : m = i
    · subst h; rw [Function.update_self]; exact C.size m hm
    · rw [Function.update_of_ne h]; exact C.size m hm
  · intro m hm
    by_cases h : m = i
    · subst h; rw [Function.update_self]; exact C.unfold m hm
    · rw [Function.update_of_ne h]; exact C.unfold m hm
  · intro m hm ha τ hτ hn
    by_cases h : m = i
    · subst h; rw [Function.update_self] at ha; simp at ha
    · rw [Function.update_of_ne h] at ha hτ
      rcases C.names m hm ha τ hτ hn with h1 | ⟨m', h1, h2, h3, h4⟩
      · exact Or.inl h1
      · refine Or.inr ⟨m', by omega, h2, ?_, h4⟩
        rw [Function.update_of_ne (by omega)]
        exact h3

theorem Clean.replaceIn (width : Tok K → Nat) (C : Clean nm d base A n (i + 1) subs) (hi : i < n) (hact : (base i).active = true)
    (hd : d (nm i) = (base i).expression.flatMap d) :
    Clean nm d base A n i (replaceIn (nm i) i (inclusions width subs n i) subs) := by
  obtain ⟨hnd, hinc⟩ := inclusions_ok width subs n i
  have hni : i ∉ (inclusions width subs n i).map Prod.fst := by
    intro h
    obtain ⟨p, hp, e⟩ := List.mem_map.1 h
    have := (hinc p hp).1
    omega
  have spec := fun m => replaceIn_ok (nm i) i _ subs hnd hni m
  have hbi := C.before i (by omega)
  set new := Code.replaceIn (nm i) i (inclusions width subs n i) subs with hnew
  clear_value new
  have cases' : ∀ m, new m = subs m ∨ ∃ off, i < m ∧ find (subs i).expression (subs m).expression = some off ∧ new m = { subs m with
      expression := replace off (subs i).expression.length (nm i) (subs m).expression } := by
    intro m
    by_cases h : m ∈ (inclusions width subs n i).map Prod.fst
    · obtain ⟨p, hp, e⟩ := List.mem_map.1 h
      subst e
      exact Or.inr ⟨p.2, (hinc p hp).1, (hinc p hp).2.2.2, (spec p.1).1 p.2 hp⟩
    · exact Or.inl ((spec m).2 h)
  have hactive : ∀ m, (new m).active = (subs m).active := by
    intro m
    rcases cases' m with h | ⟨off, _, _, h⟩ <;> rw [h]
  constructor
  · intro m hm
    rcases cases' m with h | ⟨off, h', _, h⟩
    · rw [h]; exact C.before m (by omega)
    · omega
  · intro m hm
    rcases cases' m with h | ⟨off, _, _, h⟩ <;> rw [h] <;> exact C.size m hm
  · intro m hm
    rw [← C.unfold m hm]
    rcases cases' m with h | ⟨off, _, hf, h⟩
    · rw [h]
    · rw [h]
      exact replace_unfold d hf (by rw [hd, hbi])
  · intro m hm ha τ hτ hn
    rw [hactive] at ha
    have old : τ ∈ (subs m).expression → A τ ∨ ∃ m', i ≤ m' ∧ m' < m ∧ (new m').active = true ∧ τ = nm m' := by
      intro hτ
      rcases C.names m hm ha τ hτ hn with h1 | ⟨m', h1, h2, h3, h4⟩
      · exact Or.inl h1
      · exact Or.inr ⟨m', by omega, h2, by rw [hactive]; exact h3, h4⟩
    rcases cases' m with h | ⟨off, hlt, _, h⟩
    · rw [h] at hτ; exact old hτ
    · rw [h] at hτ
      rcases replace_mem hτ with h' | h'
      · refine Or.inr ⟨i, le_rfl, hlt, ?_, h'⟩
        rw [hactive, hbi]
        exact hact
      · exact old h'

end clean

/-- The members while the helpers are cleaned: those from `i` on have been considered. -/
structure Helpers (F : Nat → Lit K) (t : Squeeze.Tree K) (C : Nat → List (Tok K)) (s0 : State K) (i : Nat) (s : State K) : Prop where
  map : s.helpersMap = withText F t.n
  number : s.nHelpers = s0.nHelpers
  clean : Clean .helper (meaning (fun m => (s0.helpers m).expression) C) s0.helpers (fun _ => False) s0.nHelpers i s.helpers
  flags : ∀ j < t.n, (s.lits j).compressed = (s0.lits j).compressed
  lits : ∀ j < t.n, (s.lits j).compressed = true ∨ opLeft (t.comp j).e = none →
    (s.lits j).isScalar = (F j).isScalar ∧ (s.lits j).simple = (F j).simple ∧
      ((∃ m < s0.nHelpers, (i ≤ m → (s.helpers m).active = true) ∧ (s.lits j).text = [.helper m] ∧ (F j).text = (s0.helpers m).expression) ∨
        (s.lits j).text = (F j).text)
  commons : s.commonsMap = s0.commonsMap ∧ s.nCommons = s0.nCommons

theorem restore_eq (x : List (Tok K)) (is : List Nat) (ls : Nat → Lit K) (j : Nat) :
    (is.foldl (fun ls j => Function.update ls j { ls j with text := x }) ls) j = if j ∈ is then { ls j with text := x } else ls j := by
  induction is generalizing ls with
  | nil => simp
  | cons i is ih =>
    rw [List.foldl_cons, ih]
    by_cases h1 : j = i
    · subst h1
      by_cases h2 : j ∈ is <;> simp [h2]
    · rw [Function.update_of_ne h1]
      simp [h1]

theorem cleanHelper_ok {F : Nat → Lit K} {C : Nat → List (Tok K)} {s0 : State K} (width : Tok K → Nat) (finals : List Nat)
    (hact : ∀ m < s0.nHelpers, (s0.helpers m).active = true) (hplain : ∀ m < s0.nHelpers, ∀ τ ∈ (s0.helpers m).expression, ¬ IsName τ)
    (i : Nat) (hi : i < s0.nHelpers) (s : State K) (I : Helpers F t C s0 (i + 1) s) : Helpers F t C s0 i (cleanHelper width finals s i) := by
  have hbi := I.clean.before i (by omega)
  unfold cleanHelper
  dsimp only
  by_cases hc : (finals.any (fun f => decide (Tok.helper i ∈ (s.lits f).text)) || decide (1 < (inclusions width s.helpers s.nHelpers i).length)) = true
  · rw [if_pos hc]
    have Cn := Clean.replaceIn width I.clean hi (hact i hi) (by
      rw [unfold_plain _ (meaning_plain _ _) _ (hplain i hi)]; rfl)
    rw [I.number]
    refine ⟨I.map, rfl, Cn, I.flags, ?_, I.commons⟩
    intro j hj h
    obtain ⟨a, b, c⟩ := I.lits j hj h
    refine ⟨a, b, ?_⟩
    rcases c with ⟨m, hm, h1, h2, h3⟩ | c
    · refine Or.inl ⟨m, hm, ?_, h2, h3⟩
      intro him
      obtain ⟨hnd, hinc⟩ := inclusions_ok width s.helpers s0.nHelpers i
      have hni : i ∉ (inclusions width s.helpers s0.nHelpers i).map Prod.fst := by
        intro h
        obtain ⟨p, hp, e⟩ := List.mem_map.1 h
        have := (hinc p hp).1
        omega
      obtain ⟨r1, r2⟩ := replaceIn_ok (.helper i) i _ s.helpers hnd hni m
      have hold : (s.helpers m).active = true := by
        by_cases hmi : m = i
        · rw [hmi, hbi]; exact hact i hi
        · exact h1 (by omega)
      dsimp only
      by_cases hmem : m ∈ (inclusions width s.helpers s0.nHelpers i).map Prod.fst
      · obtain ⟨p, hp, e⟩ := List.mem_map.1 hmem
        rw [r1 p.2 (by rw [← e]; exact hp)]
        exact hold
      · rw [r2 hmem]; exact hold
    · exact Or.inr c
  · rw [if_neg hc]
    refine ⟨I.map, I.number, I.clean.deactivate hi, ?_, ?_, I.commons⟩
    · intro j hj
      dsimp only
      rw [restore_eq]
      split_ifs <;> exact I.flags j hj
    · intro j hj h
      dsimp only at h ⊢
      rw [restore_eq] at h ⊢
      rw [I.map] at h ⊢
      by_cases hmem : j ∈ withText F t.n (s.helpers i).expression
      · rw [if_pos hmem] at h ⊢
        obtain ⟨a, b, c⟩ := I.lits j hj h
        exact ⟨a, b, Or.inr (mem_withText.1 hmem).2.symm⟩
      · rw [if_neg hmem] at h ⊢
        obtain ⟨a, b, c⟩ := I.lits j hj h
        refine ⟨a, b, ?_⟩
        rcases c with ⟨m, hm, h1, h2, h3⟩ | c
        · have hmi : m ≠ i := by
            rintro rfl
            exact hmem (mem_withText.2 ⟨hj, by rw [hbi]; exact h3⟩)
          refine Or.inl ⟨m, hm, ?_, h2, h3⟩
          intro him
          rw [Function.update_of_ne hmi]
          exact h1 (by omega)
        · exact Or.inr c

theorem descending {α : Type} (P : Nat → α → Prop) (f : α → Nat → α) (n : Nat) (hf : ∀ i < n, ∀ s, P (i + 1) s → P i (f s i)) (s : α) (h : P n s) :
    P 0 ((List.range n).reverse.foldl f s) := by
  induction n generalizing s with
  | zero => exact h
  | succ n ih =>
    rw [List.range_succ, List.reverse_append, List.reverse_singleton, List.singleton_append, List.foldl_cons]
    exact ih (fun i hi => hf i (by omega)) _ (hf n (by omega) s h)

end Verif.Levi.Code
