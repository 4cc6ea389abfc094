import Verif.Lemmas.CodeGen7
/- The helper variables. -/
set_option linter.unusedSectionVars false
set_option linter.unusedSimpArgs false
set_option linter.unusedVariables false
namespace Verif.Levi.Code
open Ex Spec Squeeze Levi.Spec
variable {K : Type} [Field K] [LinearOrder K]
variable {shown : K → K} {t : Squeeze.Tree K}

/-- The first components expanded. -/
def expanded (shown : K → K) (t : Squeeze.Tree K) (ls : Nat → Lit K) (k : Nat) : Nat → Lit K := (List.range k).foldl (expandElement shown t) ls

theorem expanded_succ (ls : Nat → Lit K) (k : Nat) : expanded shown t ls (k + 1) = expandElement shown t (expanded shown t ls k) k := by
  simp only [expanded, List.range_succ, List.foldl_append, List.foldl_cons, List.foldl_nil]

theorem expanded_stable (ls : Nat → Lit K) (k m : Nat) (h : k < m) : expanded shown t ls m k = expanded shown t ls (k + 1) k := by
  induction m with
  | zero => omega
  | succ m ih =>
    by_cases hkm : k = m
    · rw [hkm]
    · rw [expanded_succ, ← ih (by omega)]
      unfold expandElement
      split_ifs
      · rfl
      · rw [Function.update_of_ne hkm]

/-- Positions of the components with a given text. -/
def withText (ls : Nat → Lit K) (n : Nat) (x : List (Tok K)) : List Nat := (List.range n).filter fun i => decide ((ls i).text = x)

theorem mem_withText {ls : Nat → Lit K} {n : Nat} {x : List (Tok K)} {j : Nat} : j ∈ withText ls n x ↔ j < n ∧ (ls j).text = x := by
  simp [withText]

theorem firstExpansion_eq (s : State K) (hs : ∀ x, s.helpersMap x = []) : firstExpansion shown t s =
    { s with
      lits := expanded shown t s.lits t.n
      helpersMap := withText (expanded shown t s.lits t.n) t.n } := by
  have key : ∀ k ≤ t.n, (List.range k).foldl (fun s i =>
      let ls := expandElement shown t s.lits i
      { s with
        lits := ls
        helpersMap := Function.update s.helpersMap (ls i).text (s.helpersMap (ls i).text ++ [i]) }) s =
      { s with
        lits := expanded shown t s.lits k
        helpersMap := withText (expanded shown t s.lits t.n) k } := by
    intro k hk
    induction k with
    | zero =>
      have : s.helpersMap = withText (expanded shown t s.lits t.n) 0 := by funext x; rw [hs]; rfl
      rw [← this]
      rfl
    | succ k ih =>
      rw [List.range_succ, List.foldl_append, ih (by omega), List.foldl_cons, List.foldl_nil]
      dsimp only
      rw [← expanded_succ]
      congr 1
      funext x
      rw [← expanded_stable s.lits k t.n (by omega)]
      unfold withText
      rw [List.range_succ, List.filter_append]
      by_cases hx : x = (expanded shown t s.lits t.n k).text
      · subst hx
        rw [Function.update_self]
        simp
      · rw [Function.update_of_ne hx]
        have : ¬ (expanded shown t s.lits t.n k).text = x := fun h => hx h.symm
        simp [this]
  exact key t.n le_rfl

theorem thirdExpansion_eq (s : State K) (hs : ∀ x, s.commonsMap x = []) : thirdExpansion shown t s =
    { s with
      lits := expanded shown t s.lits t.n
      commonsMap := withText (expanded shown t s.lits t.n) t.n } := by
  have key : ∀ k ≤ t.n, (List.range k).foldl (fun s i =>
      let ls := expandElement shown t s.lits i
      { s with
        lits := ls
        commonsMap := Function.update s.commonsMap (ls i).text (s.commonsMap (ls i).text ++ [i]) }) s =
      { s with
        lits := expanded shown t s.lits k
        commonsMap := withText (expanded shown t s.lits t.n) k } := by
    intro k hk
    induction k with
    | zero =>
      have : s.commonsMap = withText (expanded shown t s.lits t.n) 0 := by funext x; rw [hs]; rfl
      rw [← this]
      rfl
    | succ k ih =>
      rw [List.range_succ, List.foldl_append, ih (by omega), List.foldl_cons, List.foldl_nil]
      dsimp only
      rw [← expanded_succ]
      congr 1
      funext x
      rw [← expanded_stable s.lits k t.n (by omega)]
      unfold withText
      rw [List.range_succ, List.filter_append]
      by_cases hx : x = (expanded shown t s.lits t.n k).text
      · subst hx
        rw [Function.update_self]
        simp
      · rw [Function.update_of_ne hx]
        have : ¬ (expanded shown t s.lits t.n k).text = x := fun h => hx h.symm
        simp [this]
  exact key t.n le_rfl

theorem compress_eq (name : Tok K) (is : List Nat) (ls : Nat → Lit K) (j : Nat) : compress name is ls j =
    if j ∈ is then { ls j with
      text := [name]
      compressed := true }
    else ls j := by
  unfold compress
  induction is generalizing ls with
  | nil => simp
  | cons i is ih =>
    rw [List.foldl_cons, ih]
    by_cases h1 : j = i
    · subst h1
      by_cases h2 : j ∈ is
      · simp [h2]
      · simp [h2]
    · rw [Function.update_of_ne h1]
      simp [h1]

/-- After `getScalarVariables` (its first `k` steps). -/
structure Scalars (F : Nat → Lit K) (n k : Nat) (s : State K) : Prop where
  map : s.helpersMap = withText F n
  lits : ∀ j < n, (∃ m < s.nHelpers, s.lits j = { F j with
      text := [.helper m]
      compressed := true } ∧ (F j).text = (s.helpers m).expression) ∨ s.lits j = F j
  helpers : ∀ m < s.nHelpers, ∃ i < n, s.helpers m = ⟨(F i).text, 1, 1, true⟩ ∧ (F i).isScalar = true
  rest : ∀ i < k, (F i).isScalar = true → (F i).simple = false → (s.lits i).compressed = false → (withText F n (F i).text).length ≤ 1

theorem getScalarVariables_ok (F : Nat → Lit K) (hF : ∀ i, (F i).compressed = false) (s : State K) (hl : s.lits = F) (hm : s.helpersMap = withText F t.n)
    (hn : s.nHelpers = 0) : Scalars F t.n t.n (getScalarVariables t s) ∧
      (getScalarVariables t s).commonsMap = s.commonsMap ∧ (getScalarVariables t s).nCommons = s.nCommons := by
  have key : ∀ k ≤ t.n, ∀ s', s' = (List.range k).foldl (fun s i =>
      if !(s.lits i).isScalar || (s.lits i).compressed || (s.lits i).simple then s
      else if 1 < (s.helpersMap (s.lits i).text).length then { s with
        lits := compress (.helper s.nHelpers) (s.helpersMap (s.lits i).text) s.lits
        helpers := Function.update s.helpers s.nHelpers ⟨(s.lits i).text, 1, 1, true⟩
        nHelpers := s.nHelpers + 1 }
      else s) s → Scalars F t.n k s' ∧ s'.commonsMap = s.commonsMap ∧ s'.nCommons = s.nCommons := by
    intro k hk
    induction k with
    | zero =>
      intro s' hs'
      have hs' : s' = s := hs'
      rw [hs']
      refine ⟨⟨hm, fun j _ => Or.inr (by rw [← hl]), fun m h => ?_, fun i hi => absurd hi (by omega)⟩, rfl, rfl⟩
      omega
    | succ k ih =>
      intro s' hs'
      rw [List.range_succ, List.foldl_append, List.foldl_cons, List.foldl_nil] at hs'
      obtain ⟨I, hc, hnc⟩ := ih (by omega) _ rfl
      set s0 := (List.range k).foldl (fun s i =>
        if !(s.lits i).isScalar || (s.lits i).compressed || (s.lits i).simple then s
        else if 1 < (s.helpersMap (s.lits i).text).length then { s with
          lits := compress (.helper s.nHelpers) (s.helpersMap (s.lits i).text) s.lits
          helpers := Function.update s.helpers s.nHelpers ⟨(s.lits i).text, 1, 1, true⟩
          nHelpers := s.nHelpers + 1 }
        else s) s with hs0
      clear_value s0
      by_cases h1 : (!(s0.lits k).isScalar || (s0.lits k).compressed || (s0.lits k).simple) = true
      · rw [if_pos h1] at hs'
        subst hs'
        refine ⟨⟨I.map, I.lits, I.helpers, ?_⟩, hc, hnc⟩
        intro i hi a b c
        by_cases hik : i = k
        · subst hik
          rcases I.lits i (by omega) with ⟨m, _, e, _⟩ | e
          · rw [e] at c; simp at c
          · rw [e] at h1; simp [a, b, hF] at h1
        · exact I.rest i (by omega) a b c
      · rw [if_neg h1] at hs'
        simp only [Bool.or_eq_true, Bool.not_eq_true', not_or, Bool.not_eq_false, Bool.not_eq_true] at h1
        obtain ⟨⟨h1a, h1b⟩, h1c⟩ := h1
        have e : s0.lits k = F k := by
          rcases I.lits k (by omega) with ⟨m, _, e, _⟩ | e
          · rw [e] at h1b; simp at h1b
          · exact e
        rw [e] at hs' h1a h1b h1c
        by_cases h2 : 1 < (s0.helpersMap (F k).text).length
        · rw [if_pos h2] at hs'
          subst hs'
          refine ⟨⟨I.map, ?_, ?_, ?_⟩, hc, hnc⟩
          · intro j hj
            dsimp only
            rw [compress_eq, I.map]
            by_cases hmem : j ∈ withText F t.n (F k).text
            · rw [if_pos hmem]
              refine Or.inl ⟨s0.nHelpers, by omega, ?_, ?_⟩
              · rcases I.lits j hj with ⟨m, _, e, _⟩ | e <;> rw [e]
              · rw [Function.update_self]
                exact (mem_withText.1 hmem).2
            · rw [if_neg hmem]
              rcases I.lits j hj with ⟨m, hm', e, e'⟩ | e
              · refine Or.inl ⟨m, by omega, e, ?_⟩
                rw [Function.update_of_ne (by omega)]
                exact e'
              · exact Or.inr e
          · intro m hm'
            dsimp only at hm' ⊢
            by_cases hmn : m = s0.nHelpers
            · subst hmn
              rw [Function.update_self]
              exact ⟨k, by omega, rfl, h1a⟩
            · rw [Function.update_of_ne hmn]
              exact I.helpers m (by omega)
          · intro i hi a b c
            dsimp only at c
            rw [compress_eq] at c
            by_cases hmem : i ∈ s0.helpersMap (F k).text
            · rw [if_pos hmem] at c; simp at c
            · rw [if_neg hmem] at c
              by_cases hik : i = k
              · subst hik
                rw [I.map] at hmem
                exact absurd (mem_withText.2 ⟨by omega, rfl⟩) hmem
              · exact I.rest i (by omega) a b c
        · rw [if_neg h2] at hs'
          subst hs'
          refine ⟨⟨I.map, I.lits, I.helpers, ?_⟩, hc, hnc⟩
          intro i hi a b c
          by_cases hik : i = k
          · subst hik
            rw [I.map] at h2
            omega
          · exact I.rest i (by omega) a b c
  exact key t.n le_rfl _ rfl

/-- Where a text is found. -/
theorem find_some {p s : List (Tok K)} {off : Nat} (h : find p s = some off) : s = s.take off ++ p ++ s.drop (off + p.length) := by
  induction s generalizing off with
  | nil =>
    unfold find at h
    split_ifs at h with hp
    simp [hp]
  | cons x s ih =>
    unfold find at h
    split_ifs at h with hp
    · obtain rfl := Option.some.inj h
      obtain ⟨r, hr⟩ := List.isPrefixOf_iff_prefix.1 hp
      rw [← hr]
      simp
    · obtain ⟨o, ho, rfl⟩ := Option.map_eq_some_iff.1 h
      have := ih ho
      rw [show o + 1 + p.length = o + p.length + 1 by omega, List.take_succ_cons, List.drop_succ_cons]
      simpa using this

theorem replace_unfold (d : Tok K → List (Tok K)) {p s : List (Tok K)} {off : Nat} {name : Tok K} (h : find p s = some off) (hd : d name = p.flatMap d) :
    (replace off p.length name s).flatMap d = s.flatMap d := by
  conv_rhs => rw [find_some h]
  unfold replace
  simp [hd]

theorem replace_mem {off len : Nat} {name τ : Tok K} {s : List (Tok K)} (h : τ ∈ replace off len name s) : τ = name ∨ τ ∈ s := by
  unfold replace at h
  rcases List.mem_append.1 h with h | h
  · exact Or.inr (List.mem_of_mem_take h)
  · rcases List.mem_cons.1 h with h | h
    · exact Or.inl h
    · exact Or.inr (List.mem_of_mem_drop h)

theorem replaceIn_ok (name : Tok K) (i : Nat) (incs : List (Nat × Nat)) (subs : Nat → Sub K) (hn : (incs.map Prod.fst).Nodup) (hi : i ∉ incs.map Prod.fst) (m : Nat) :
    (∀ off, (m, off) ∈ incs → replaceIn name i incs subs m = { subs m with
      expression := replace off (subs i).expression.length name (subs m).expression }) ∧
    (m ∉ incs.map Prod.fst → replaceIn name i incs subs m = subs m) := by
  unfold replaceIn
  induction incs generalizing subs with
  | nil => exact ⟨by simp, fun _ => rfl⟩
  | cons p incs ih =>
    rw [List.map_cons, List.nodup_cons] at hn
    rw [List.map_cons, List.mem_cons, not_or] at hi
    rw [List.foldl_cons]
    obtain ⟨a, b⟩ := ih (Function.update subs p.1 { subs p.1 with
      expression := replace p.2 (subs i).expression.length name (subs p.1).expression }) hn.2 hi.2
    rw [Function.update_of_ne hi.1] at a
    constructor
    · intro off h
      rcases List.mem_cons.1 h with h | h
      · have h1 : p.1 = m := by rw [← h]
        have h2 : p.2 = off := by rw [← h]
        rw [b (by rw [← h1]; exact hn.1), ← h1, Function.update_self, h2]
      · have hne : m ≠ p.1 := by
          rintro rfl
          exact hn.1 (List.mem_map.2 ⟨_, h, rfl⟩)
        rw [a off h, Function.update_of_ne hne]
    · intro h
      rw [List.map_cons, List.mem_cons, not_or] at h
      rw [b h.2, Function.update_of_ne h.1]

theorem inclusions_ok (width : Tok K → Nat) (subs : Nat → Sub K) (n i : Nat) :
    ((inclusions width subs n i).map Prod.fst).Nodup ∧ ∀ p ∈ inclusions width subs n i, i < p.1 ∧ p.1 < n ∧ (subs p.1).active = true ∧
      find (subs i).expression (subs p.1).expression = some p.2 := by
  constructor
  · have : ((inclusions width subs n i).map Prod.fst).Sublist (List.range n) := by
      unfold inclusions
      induction n with
      | zero => simp
      | succ n ih =>
        rw [List.range_succ, List.filterMap_append, List.map_append]
        refine List.Sublist.append ih ?_
        simp only [List.filterMap_cons, List.filterMap_nil]
        split_ifs
        · cases find (subs i).expression (subs n).expression <;> simp
        · simp
    exact this.nodup List.nodup_range
  · intro p hp
    unfold inclusions at hp
    obtain ⟨o, ho, h⟩ := List.mem_filterMap.1 hp
    split_ifs at h with hc
    obtain ⟨off, hoff, rfl⟩ := Option.map_eq_some_iff.1 h
    exact ⟨hc.1, List.mem_range.1 ho, hc.2.1, hoff⟩

end Verif.Levi.Code
