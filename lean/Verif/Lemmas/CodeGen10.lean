import Verif.Lemmas.CodeGen9
/- The generated function computes the expressions. -/
set_option linter.unusedSectionVars false
set_option linter.unusedSimpArgs false
set_option linter.unusedVariables false
namespace Verif.Levi.Code
open Ex Spec Squeeze Levi.Spec
variable {K : Type} [Field K] [LinearOrder K]
variable {shown : K → K} {t : Squeeze.Tree K}

/-- After `getCommonSubExpression` (its first `k` steps). -/
structure Commons (T : Nat → Lit K) (t : Squeeze.Tree K) (s0 s : State K) : Prop where
  map : s.commonsMap = withText T t.n
  lits : ∀ j < t.n, (∃ m < s.nCommons, s.lits j = { T j with
      text := [.common m]
      compressed := true } ∧ (T j).text = (s.commons m).expression) ∨ s.lits j = T j
  commons : ∀ m < s.nCommons, ∃ i < t.n, s.commons m = ⟨(T i).text, (t.comp i).e.rows, (t.comp i).e.cols, true⟩ ∧
    (T i).compressed = false ∧ (T i).simple = false ∧ 1 < (withText T t.n (T i).text).length
  helpers : s.helpers = s0.helpers ∧ s.nHelpers = s0.nHelpers

theorem getCommonSubExpression_ok (T : Nat → Lit K) (s : State K) (hl : s.lits = T) (hm : s.commonsMap = withText T t.n) (hn : s.nCommons = 0) :
    Commons T t s (getCommonSubExpression t s) := by
  have key : ∀ k ≤ t.n, ∀ s', s' = (List.range k).foldl (fun s i =>
      if (s.lits i).compressed || (s.lits i).simple then s
      else if 1 < (s.commonsMap (s.lits i).text).length then { s with
        lits := compress (.common s.nCommons) (s.commonsMap (s.lits i).text) s.lits
        commons := Function.update s.commons s.nCommons ⟨(s.lits i).text, (t.comp i).e.rows, (t.comp i).e.cols, true⟩
        nCommons := s.nCommons + 1 }
      else s) s → Commons T t s s' := by
    intro k hk
    induction k with
    | zero =>
      intro s' hs'
      have hs' : s' = s := hs'
      rw [hs']
      refine ⟨hm, fun j _ => Or.inr (by rw [← hl]), fun m h => ?_, rfl, rfl⟩
      omega
    | succ k ih =>
      intro s' hs'
      rw [List.range_succ, List.foldl_append, List.foldl_cons, List.foldl_nil] at hs'
      have I := ih (by omega) _ rfl
      set s0 := (List.range k).foldl (fun s i =>
        if (s.lits i).compressed || (s.lits i).simple then s
        else if 1 < (s.commonsMap (s.lits i).text).length then { s with
          lits := compress (.common s.nCommons) (s.commonsMap (s.lits i).text) s.lits
          commons := Function.update s.commons s.nCommons ⟨(s.lits i).text, (t.comp i).e.rows, (t.comp i).e.cols, true⟩
          nCommons := s.nCommons + 1 }
        else s) s with hs0
      clear_value s0
      by_cases h1 : ((s0.lits k).compressed || (s0.lits k).simple) = true
      · rw [if_pos h1] at hs'
        subst hs'
        exact I
      · rw [if_neg h1] at hs'
        simp only [Bool.or_eq_true, not_or, Bool.not_eq_true] at h1
        obtain ⟨h1b, h1c⟩ := h1
        have e : s0.lits k = T k := by
          rcases I.lits k (by omega) with ⟨m, _, e, _⟩ | e
          · rw [e] at h1b; simp at h1b
          · exact e
        rw [e] at hs' h1b h1c
        by_cases h2 : 1 < (s0.commonsMap (T k).text).length
        · rw [if_pos h2] at hs'
          subst hs'
          refine ⟨I.map, ?_, ?_, I.helpers⟩
          · intro j hj
            dsimp only
            rw [compress_eq, I.map]
            by_cases hmem : j ∈ withText T t.n (T k).text
            · rw [if_pos hmem]
              refine Or.inl ⟨s0.nCommons, by omega, ?_, ?_⟩
              · rcases I.lits j hj with ⟨m, _, e, _⟩ | e <;> rw [e]
              · rw [Function.update_self]
                exact (mem_withText.1 hmem).2
            · rw [if_neg hmem]
              rcases I.lits j hj with ⟨m, hm', e, e'⟩ | e
              · refine Or.inl ⟨m, by omega, e, ?_⟩
                rw [Function.update_of_ne (by omega)]
                exact e'
              · exact Or.inr e
          · intro m hm'
            dsimp only at hm' ⊢
            by_cases hmn : m = s0.nCommons
            · subst hmn
              rw [Function.update_self]
              rw [I.map] at h2
              exact ⟨k, by omega, rfl, h1b, h1c, h2⟩
            · rw [Function.update_of_ne hmn]
              exact I.commons m (by omega)
        · rw [if_neg h2] at hs'
          subst hs'
          exact I
  exact key t.n le_rfl _ rfl

/-- The members while the commons are cleaned: those from `i` on have been considered. -/
structure Cleaned (d : Tok K → List (Tok K)) (A : Tok K → Prop) (finals : List Nat) (s0 : State K) (i : Nat) (s : State K) : Prop where
  same : s.lits = s0.lits ∧ s.helpers = s0.helpers ∧ s.nHelpers = s0.nHelpers ∧ s.nCommons = s0.nCommons
  clean : Clean .common d s0.commons A s0.nCommons i s.commons
  used : ∀ f ∈ finals, ∀ m, i ≤ m → m < s0.nCommons → Tok.common m ∈ (s0.lits f).text → (s.commons m).active = true

theorem cleanCommon_ok {d : Tok K → List (Tok K)} {A : Tok K → Prop} {s0 : State K} (width : Tok K → Nat) (finals : List Nat)
    (hact : ∀ m < s0.nCommons, (s0.commons m).active = true) (hd : ∀ m < s0.nCommons, d (.common m) = (s0.commons m).expression.flatMap d)
    (i : Nat) (hi : i < s0.nCommons) (s : State K) (I : Cleaned d A finals s0 (i + 1) s) : Cleaned d A finals s0 i (cleanCommon width finals s i) := by
  have hbi := I.clean.before i (by omega)
  obtain ⟨e1, e2, e3, e4⟩ := I.same
  unfold cleanCommon
  dsimp only
  rw [e1, e4]
  by_cases hc : (finals.any (fun f => decide (Tok.common i ∈ (s0.lits f).text)) || decide (1 < (inclusions width s.commons s0.nCommons i).length)) = true
  · rw [if_pos hc]
    refine ⟨⟨rfl, e2, e3, rfl⟩, Clean.replaceIn width I.clean hi (hact i hi) (hd i hi), ?_⟩
    intro f hf m him hm hmem
    obtain ⟨hnd, hinc⟩ := inclusions_ok width s.commons s0.nCommons i
    have hni : i ∉ (inclusions width s.commons s0.nCommons i).map Prod.fst := by
      intro h
      obtain ⟨p, hp, e⟩ := List.mem_map.1 h
      have := (hinc p hp).1
      omega
    obtain ⟨r1, r2⟩ := replaceIn_ok (.common i) i _ s.commons hnd hni m
    have hold : (s.commons m).active = true := by
      by_cases hmi : m = i
      · rw [hmi, hbi]; exact hact i hi
      · exact I.used f hf m (by omega) hm hmem
    dsimp only
    by_cases hin : m ∈ (inclusions width s.commons s0.nCommons i).map Prod.fst
    · obtain ⟨p, hp, e⟩ := List.mem_map.1 hin
      rw [r1 p.2 (by rw [← e]; exact hp)]
      exact hold
    · rw [r2 hin]; exact hold
  · rw [if_neg hc]
    refine ⟨⟨rfl, e2, e3, rfl⟩, I.clean.deactivate hi, ?_⟩
    intro f hf m him hm hmem
    have hmi : m ≠ i := by
      rintro rfl
      apply hc
      simp only [Bool.or_eq_true, List.any_eq_true, decide_eq_true_eq]
      exact Or.inl ⟨f, hf, hmem⟩
    dsimp only
    rw [Function.update_of_ne hmi]
    exact I.used f hf m (by omega) hm hmem

/-- What has been generated. -/
structure Generated (shown : K → K) (t : Squeeze.Tree K) (finals : List Nat) (H C : Nat → List (Tok K)) (s : State K) : Prop where
  helper : ∀ m < s.nHelpers, ∃ i < t.n, H m = (firstTexts shown t i).text ∧ (firstTexts shown t i).isScalar = true
  common : ∀ m < s.nCommons, ∃ i < t.n, C m = (firstTexts shown t i).text ∧ (firstTexts shown t i).isScalar = false ∧
    (s.commons m).rows = (t.comp i).e.rows ∧ (s.commons m).cols = (t.comp i).e.cols
  helpers : ∀ m < s.nHelpers, (s.helpers m).active = true → (s.helpers m).expression.flatMap (meaning H C) = H m ∧
    ∀ τ ∈ (s.helpers m).expression, IsName τ → ∃ m' < m, (s.helpers m').active = true ∧ τ = .helper m'
  commons : ∀ m < s.nCommons, (s.commons m).active = true → (s.commons m).expression.flatMap (meaning H C) = C m ∧
    ∀ τ ∈ (s.commons m).expression, IsName τ → (∃ m' < s.nHelpers, (s.helpers m').active = true ∧ τ = .helper m') ∨
      ∃ m' < m, (s.commons m').active = true ∧ τ = .common m'
  lits : ∀ f ∈ finals, (s.lits f).text.flatMap (meaning H C) = (firstTexts shown t f).text ∧
    ∀ τ ∈ (s.lits f).text, IsName τ → (∃ m' < s.nHelpers, (s.helpers m').active = true ∧ τ = .helper m') ∨
      ∃ m' < s.nCommons, (s.commons m').active = true ∧ τ = .common m'

theorem unfold_commons (H C C' : Nat → List (Tok K)) (x : List (Tok K)) (h : ∀ τ ∈ x, IsName τ → ∃ m, τ = .helper m) :
    x.flatMap (meaning H C) = x.flatMap (meaning H C') := by
  apply List.flatMap_congr
  intro τ hτ
  by_cases hn : IsName τ
  · obtain ⟨m, rfl⟩ := h τ hτ hn
    rfl
  · rw [meaning_plain H C τ hn, meaning_plain H C' τ hn]

theorem getLiteralExpression_ok (G : GoodC shown t) (width : Tok K → Nat) (finals : List Nat) (hf : ∀ f ∈ finals, f < t.n) :
    ∃ H C, Generated shown t finals H C (getLiteralExpression shown width t finals) := by
  unfold getLiteralExpression
  dsimp only
  set F := firstTexts shown t with hF
  have hFu : ∀ i, (F i).compressed = false := first_uncompressed G
  -- first expansion and scalar variables
  have e1 := firstExpansion_eq (shown := shown) (t := t) (start t) (fun _ => rfl)
  have eF : expanded shown t (start t).lits t.n = F := rfl
  rw [eF] at e1
  obtain ⟨S, c2, n2⟩ := getScalarVariables_ok (t := t) F hFu (firstExpansion shown t (start t)) (by rw [e1]) (by rw [e1]) (by rw [e1]; rfl)
  replace c2 : (getScalarVariables t (firstExpansion shown t (start t))).commonsMap = fun _ => [] := c2.trans (by rw [e1]; rfl)
  replace n2 : (getScalarVariables t (firstExpansion shown t (start t))).nCommons = 0 := n2.trans (by rw [e1]; rfl)
  set s2 := getScalarVariables t (firstExpansion shown t (start t)) with hs2
  clear_value s2
  -- second expansion
  set s3 := expandAgain shown t s2 with hs3
  have l3 : s3.lits = expanded shown t s2.lits t.n := rfl
  have h3 : s3.helpers = s2.helpers ∧ s3.nHelpers = s2.nHelpers ∧ s3.helpersMap = s2.helpersMap ∧ s3.commonsMap = s2.commonsMap ∧ s3.nCommons = s2.nCommons :=
    ⟨rfl, rfl, rfl, rfl, rfl⟩
  clear_value s3
  obtain ⟨h3a, h3b, h3c, h3d, h3e⟩ := h3
  have hact : ∀ m < s3.nHelpers, (s3.helpers m).active = true := by
    intro m hm
    obtain ⟨i, _, e, _⟩ := S.helpers m (by omega)
    rw [h3a, e]
  have hplain : ∀ m < s3.nHelpers, ∀ τ ∈ (s3.helpers m).expression, ¬ IsName τ := by
    intro m hm τ hτ
    obtain ⟨i, hi, e, _⟩ := S.helpers m (by omega)
    rw [h3a, e] at hτ
    exact first_plain G i hi τ hτ
  -- the helpers are cleaned
  have I3 : ∀ C, Helpers F t C s3 s3.nHelpers s3 := by
    intro C
    refine ⟨by rw [h3c]; exact S.map, rfl, Clean.init fun m hm τ hτ hn => hplain m hm τ hτ hn, fun _ _ => rfl, ?_, rfl, rfl⟩
    intro j hj h
    rw [l3] at h ⊢
    obtain ⟨k1, k2⟩ := expanded_compressed G s2.lits j
    rcases S.lits j hj with ⟨m, hm, e, e'⟩ | e
    · rw [k2 (by rw [e]), e]
      exact ⟨rfl, rfl, Or.inl ⟨m, by omega, fun h => absurd h (by omega), rfl, by rw [h3a]; exact e'⟩⟩
    · rw [k1, e, hFu] at h
      have hop := h.resolve_left (by simp)
      rw [expanded_generic G s2.lits j hj hop e]
      exact ⟨rfl, rfl, Or.inr rfl⟩
  have I4 : ∀ C, Helpers F t C s3 0 (cleanHelpers width finals s3) := by
    intro C
    unfold cleanHelpers
    exact descending (fun i s => Helpers F t C s3 i s) (cleanHelper width finals) s3.nHelpers
      (fun i hi s I => cleanHelper_ok width finals hact hplain i hi s I) s3 (I3 C)
  set s4 := cleanHelpers width finals s3 with hs4
  clear_value s4
  have c4 : s4.commonsMap = fun _ => [] := by rw [(I4 fun _ => []).commons.1, h3d, c2]
  have n4 : s4.nCommons = 0 := by rw [(I4 fun _ => []).commons.2, h3e, n2]
  have hn4 : s4.nHelpers = s3.nHelpers := (I4 fun _ => []).number
  set H : Nat → List (Tok K) := fun m => (s3.helpers m).expression with hH
  -- third expansion
  set T := expanded shown t s4.lits t.n with hT
  have like3 : ∀ C, ∀ j < t.n, Like (meaning H C) (T j) (F j) ∧
      ∀ τ ∈ (T j).text, IsName τ → ∃ m < s4.nHelpers, (s4.helpers m).active = true ∧ τ = .helper m := by
    intro C
    refine expanded_like G (meaning_plain H C) s4.lits (fun τ => ∃ m < s4.nHelpers, (s4.helpers m).active = true ∧ τ = .helper m) ?_
    intro j hj h
    obtain ⟨a, b, c⟩ := (I4 C).lits j hj h
    rcases c with ⟨m, hm, h1, h2, h3⟩ | c
    · refine ⟨⟨?_, a, b⟩, ?_⟩
      · rw [h2]
        show (List.flatMap _ [Tok.helper m]) = (F j).text
        rw [h3]
        simp [meaning, hH]
      · intro τ hτ hn
        rw [h2] at hτ
        exact ⟨m, by omega, h1 (by omega), by simpa using hτ⟩
    · refine ⟨⟨?_, a, b⟩, ?_⟩
      · rw [c]
        exact unfold_plain _ (meaning_plain H C) _ (first_plain G j hj)
      · intro τ hτ hn
        rw [c] at hτ
        exact absurd hn (first_plain G j hj τ hτ)
  have flags3 : ∀ j < t.n, (T j).compressed = (s2.lits j).compressed := by
    intro j hj
    rw [(expanded_compressed G s4.lits j).1, (I4 fun _ => []).flags j hj, l3, (expanded_compressed G s2.lits j).1]
  have e5 := thirdExpansion_eq (shown := shown) (t := t) s4 (fun x => by rw [c4])
  set s5 := thirdExpansion shown t s4 with hs5
  have Q := getCommonSubExpression_ok (t := t) T s5 (by rw [e5]) (by rw [e5]) (by rw [e5]; exact n4)
  have h5 : s5.helpers = s4.helpers ∧ s5.nHelpers = s4.nHelpers := by rw [e5]; exact ⟨rfl, rfl⟩
  clear_value s5
  set s6 := getCommonSubExpression t s5 with hs6
  clear_value s6
  set C : Nat → List (Tok K) := fun m => (s6.commons m).expression.flatMap (meaning H fun _ => []) with hC
  -- fourth expansion
  have like4 : ∀ j < t.n, Like (meaning H C) (expanded shown t s6.lits t.n j) (F j) ∧
      ∀ τ ∈ (expanded shown t s6.lits t.n j).text, IsName τ →
        (∃ m < s4.nHelpers, (s4.helpers m).active = true ∧ τ = .helper m) ∨ ∃ m < s6.nCommons, τ = .common m := by
    refine expanded_like G (meaning_plain H C) s6.lits (fun τ => (∃ m < s4.nHelpers, (s4.helpers m).active = true ∧ τ = .helper m) ∨
      ∃ m < s6.nCommons, τ = .common m) ?_
    intro j hj h
    rcases Q.lits j hj with ⟨m, hm, e, e'⟩ | e
    · rw [e]
      obtain ⟨L, N⟩ := like3 (fun _ => []) j hj
      refine ⟨⟨?_, L.isScalar, L.simple⟩, ?_⟩
      · show (List.flatMap _ [Tok.common m]) = (F j).text
        rw [← L.text, e']
        simp [meaning, hC]
      · intro τ hτ hn
        exact Or.inr ⟨m, hm, by simpa using hτ⟩
    · rw [e]
      obtain ⟨L, N⟩ := like3 C j hj
      exact ⟨L, fun τ hτ hn => Or.inl (N τ hτ hn)⟩
  set s7 := expandAgain shown t s6 with hs7
  have l7 : s7.lits = expanded shown t s6.lits t.n := rfl
  have h7 : s7.helpers = s6.helpers ∧ s7.nHelpers = s6.nHelpers ∧ s7.commons = s6.commons ∧ s7.nCommons = s6.nCommons := ⟨rfl, rfl, rfl, rfl⟩
  clear_value s7
  obtain ⟨h7a, h7b, h7c, h7d⟩ := h7
  have cactive : ∀ m < s7.nCommons, (s7.commons m).active = true := by
    intro m hm
    obtain ⟨i, _, e, _⟩ := Q.commons m (by omega)
    rw [h7c, e]
  have cnames : ∀ m < s7.nCommons, ∀ τ ∈ (s7.commons m).expression, IsName τ → ∃ m < s4.nHelpers, (s4.helpers m).active = true ∧ τ = .helper m := by
    intro m hm τ hτ hn
    obtain ⟨i, hi, e, _⟩ := Q.commons m (by omega)
    rw [h7c, e] at hτ
    exact (like3 C i hi).2 τ hτ hn
  have cmean : ∀ m < s7.nCommons, (s7.commons m).expression.flatMap (meaning H C) = C m := by
    intro m hm
    rw [unfold_commons H C (fun _ => []) _ fun τ hτ hn => by obtain ⟨m, _, _, h⟩ := cnames m hm τ hτ hn; exact ⟨m, h⟩, h7c]
  have I7 : Cleaned (meaning H C) (fun τ => ∃ m < s4.nHelpers, (s4.helpers m).active = true ∧ τ = .helper m) finals s7 s7.nCommons s7 :=
    ⟨⟨rfl, rfl, rfl, rfl⟩, Clean.init cnames, fun f hf m h1 h2 => absurd h1 (by omega)⟩
  have I8 : Cleaned (meaning H C) (fun τ => ∃ m < s4.nHelpers, (s4.helpers m).active = true ∧ τ = .helper m) finals s7 0 (cleanCommons width finals s7) := by
    unfold cleanCommons
    exact descending (fun i s => Cleaned (meaning H C) (fun τ => ∃ m < s4.nHelpers, (s4.helpers m).active = true ∧ τ = .helper m) finals s7 i s)
      (cleanCommon width finals) s7.nCommons (fun i hi s I => cleanCommon_ok width finals cactive (fun m hm => (cmean m hm).symm) i hi s I) s7 I7
  set s8 := cleanCommons width finals s7 with hs8
  clear_value s8
  obtain ⟨e8a, e8b, e8c, e8d⟩ := I8.same
  have hh8 : s8.helpers = s4.helpers := by rw [e8b, h7a, Q.helpers.1, h5.1]
  have hn8 : s8.nHelpers = s4.nHelpers := by rw [e8c, h7b, Q.helpers.2, h5.2]
  refine ⟨H, C, ?_, ?_, ?_, ?_, ?_⟩
  · intro m hm
    obtain ⟨i, hi, e, e'⟩ := S.helpers m (by omega)
    exact ⟨i, hi, by simp only [hH]; rw [h3a, e], e'⟩
  · intro m hm
    obtain ⟨i, hi, e, q1, q2, q3⟩ := Q.commons m (by omega)
    have hsz := I8.clean.size m (by omega)
    rw [h7c, e] at hsz
    refine ⟨i, hi, ?_, ?_, hsz⟩
    · simp only [hC]
      rw [e]
      exact (like3 (fun _ => []) i hi).1.text
    · obtain ⟨L, -⟩ := like3 (fun _ => []) i hi
      rw [← Bool.not_eq_true]
      intro hsc
      have hle := S.rest i hi hsc (by rw [← L.simple]; exact q2) (by rw [← flags3 i hi]; exact q1)
      have : (withText T t.n (T i).text).length ≤ (withText F t.n (F i).text).length := by
        unfold withText
        rw [← List.countP_eq_length_filter, ← List.countP_eq_length_filter]
        apply List.countP_mono_left
        intro j hj hx
        simp only [decide_eq_true_eq] at hx ⊢
        rw [← L.text, ← (like3 (fun _ => []) j (List.mem_range.1 hj)).1.text, hx]
      omega
  · intro m hm ha
    rw [hh8] at ha ⊢
    have Cl := (I4 C).clean
    constructor
    · rw [Cl.unfold m (by omega), unfold_plain _ (meaning_plain H C) _ (hplain m (by omega))]
    · intro τ hτ hn
      rcases Cl.names m (by omega) ha τ hτ hn with h | ⟨m', _, h1, h2, h3⟩
      · exact absurd h id
      · exact ⟨m', h1, h2, h3⟩
  · intro m hm ha
    have Cl := I8.clean
    constructor
    · rw [Cl.unfold m (by omega)]
      exact cmean m (by omega)
    · intro τ hτ hn
      rcases Cl.names m (by omega) ha τ hτ hn with h | ⟨m', _, h1, h2, h3⟩
      · rw [hn8, hh8]; exact Or.inl h
      · exact Or.inr ⟨m', h1, h2, h3⟩
  · intro f hff
    obtain ⟨L, N⟩ := like4 f (hf f hff)
    rw [e8a, l7]
    refine ⟨L.text, ?_⟩
    intro τ hτ hn
    rw [hn8, hh8]
    rcases N τ hτ hn with h | ⟨m, hm, rfl⟩
    · exact Or.inl h
    · exact Or.inr ⟨m, by omega, I8.used f hff m (by omega) (by omega) (by rw [l7]; exact hτ), rfl⟩

end Verif.Levi.Code
