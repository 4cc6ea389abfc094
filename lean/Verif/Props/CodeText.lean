import Verif.Model.CodeText
import Verif.Spec.CodeText
import Mathlib.Tactic.Linarith
/- Layout of the generated text (C80) and name of the generated class (C81). -/
namespace Verif.Levi.CodeText
open Spec

theorem isStop_iff (c : Char) : isStop c = true ↔ Operator c := by
  simp [isStop, Operator, or_assoc]

/-- What holds after the characters before `i` have been read. -/
structure Inv (e : List Char) (i : Nat) (s : Split) : Prop where
  le : s.offset ≤ i
  written : ∃ lines : List (List Char), e.take s.offset = lines.flatten ∧
    s.output = (lines.flatMap fun l => l ++ '\n' :: List.replicate 7 ' ') ∧
    (∀ l ∈ lines, ∃ l' c, l = l' ++ [c] ∧ Operator c) ∧ (∀ l ∈ lines, NotTooLong l) ∧ Filled e lines
  last : (s.last = -1 ∧ ∀ k, s.offset ≤ k → k < i → ∀ c, e[k]? = some c → ¬Operator c) ∨
    ∃ p : Nat, s.last = p ∧ s.offset ≤ p ∧ p < i ∧ (∃ c, e[p]? = some c ∧ Operator c) ∧
      (∀ k, p < k → k < i → ∀ c, e[k]? = some c → ¬Operator c)
  short : 0 < s.last → i - s.offset ≤ 151

theorem inv_step (e : List Char) (i : Nat) (hi : i < e.length) (s : Split) (h : Inv e i s) : Inv e (i + 1) (splitStep e s i) := by
  obtain ⟨le, ⟨lines, w1, w2, w3, w4, w5⟩, hl, hs⟩ := h
  have hget : e.getD i 'a' = e[i] := by rw [List.getD_eq_getElem?_getD, List.getElem?_eq_getElem hi]; rfl
  have hgi : e[i]? = some e[i] := List.getElem?_eq_getElem hi
  set last : Int := if isStop (e.getD i 'a') then (i : Int) else s.last with hlast
  -- the last operator read
  have key : (last = -1 ∧ ∀ k, s.offset ≤ k → k < i + 1 → ∀ c, e[k]? = some c → ¬Operator c) ∨
    ∃ p : Nat, last = p ∧ s.offset ≤ p ∧ p < i + 1 ∧ (∃ c, e[p]? = some c ∧ Operator c) ∧
      (∀ k, p < k → k < i + 1 → ∀ c, e[k]? = some c → ¬Operator c) := by
    by_cases hc : isStop (e.getD i 'a') = true
    · rw [hlast, if_pos hc]
      refine Or.inr ⟨i, rfl, le, by omega, ⟨e[i], hgi, ?_⟩, fun k hk hk' => by omega⟩
      rw [← isStop_iff, ← hget]; exact hc
    · rw [hlast, if_neg hc]
      have hn : ∀ c, e[i]? = some c → ¬Operator c := by
        intro c hh ho
        rw [hgi] at hh
        rw [← isStop_iff, ← Option.some.inj hh, ← hget] at ho
        exact hc ho
      rcases hl with ⟨a, b⟩ | ⟨p, a, b, c, d, f⟩
      · refine Or.inl ⟨a, fun k h1 h2 => ?_⟩
        rcases Nat.lt_or_ge k i with h | h
        · exact b k h1 h
        · obtain rfl : k = i := by omega
          exact hn
      · refine Or.inr ⟨p, a, b, by omega, d, fun k h1 h2 => ?_⟩
        rcases Nat.lt_or_ge k i with h | h
        · exact f k h1 h
        · obtain rfl : k = i := by omega
          exact hn
  unfold splitStep
  dsimp only
  rw [← hlast]
  split_ifs with hb
  · obtain ⟨hb1, hb2⟩ := hb
    rcases key with ⟨a, -⟩ | ⟨p, a, b, c, ⟨ch, hch, hop⟩, hafter⟩
    · omega
    have hp : last.toNat = p := by omega
    have hpl : p < e.length := by omega
    have htake : e.take (p + 1) = e.take s.offset ++ (e.drop s.offset).take (p - s.offset + 1) := by
      rw [show p + 1 = s.offset + (p - s.offset + 1) by omega, List.take_add]
    refine ⟨by dsimp only; omega, ⟨lines ++ [(e.drop s.offset).take (p - s.offset + 1)], ?_, ?_, ?_, ?_, ?_⟩, ?_, ?_⟩
    · dsimp only
      rw [hp, htake, w1]; simp
    · dsimp only
      rw [hp, w2]; simp [separator]
    · intro l hl'
      rcases List.mem_append.1 hl' with h | h
      · exact w3 l h
      · rw [List.mem_singleton.1 h]
        refine ⟨(e.drop s.offset).take (p - s.offset), ch, ?_, hop⟩
        rw [List.take_add_one, List.getElem?_drop, show s.offset + (p - s.offset) = p by omega, hch]
        rfl
    · intro l hl'
      rcases List.mem_append.1 hl' with h | h
      · exact w4 l h
      · rw [List.mem_singleton.1 h]
        by_cases hlen : p - s.offset + 1 ≤ 152
        · left
          rw [List.length_take]; omega
        · right
          -- the line is longer: the operator has just been read, and there was none before
          have hnew : s.last ≤ 0 := by
            by_contra hh
            have := hs (by omega)
            omega
          have hno : ∀ k, s.offset < k → k < i → ∀ c, e[k]? = some c → ¬Operator c := by
            rcases hl with ⟨-, q⟩ | ⟨p', a', b', -, -, q⟩
            · intro k h1 h2; exact q k (by omega) h2
            · have : p' = 0 := by omega
              intro k h1 h2; exact q k (by omega) h2
          have hpi : p = i := by
            rcases Nat.lt_or_ge p i with h | h
            · exact absurd hop (hno p (by omega) h ch hch)
            · omega
          intro c hc
          rw [List.mem_iff_getElem?] at hc
          obtain ⟨k, hk⟩ := hc
          have hklen : k < ((e.drop s.offset).take (p - s.offset + 1)).tail.dropLast.length := by
            rcases List.getElem?_eq_some_iff.1 hk with ⟨h, -⟩; exact h
          simp only [List.length_dropLast, List.length_tail, List.length_take, List.length_drop] at hklen
          rw [List.getElem?_dropLast, if_pos (by simp only [List.length_tail, List.length_take, List.length_drop]; omega),
            List.getElem?_tail, List.getElem?_take, if_pos (by omega), List.getElem?_drop] at hk
          exact hno _ (by omega) (by omega) c hk
    · have hlen : lines.flatten.length = s.offset := by rw [← w1, List.length_take]; omega
      intro j line hj
      rcases Nat.lt_or_ge j lines.length with h | h
      · rw [List.getElem?_append_left h] at hj
        rw [List.take_append_of_le_length (by omega)]
        exact w5 j line hj
      · rw [List.getElem?_append_right h] at hj
        obtain ⟨hj1, hj2⟩ := List.getElem?_eq_some_iff.1 hj
        simp only [List.length_singleton] at hj1
        obtain rfl : j = lines.length := by omega
        simp only [Nat.sub_self, List.getElem_singleton] at hj2
        subst hj2
        rw [List.take_left, hlen]
        refine ⟨by omega, fun k h1 h2 c' hc' => hafter _ ?_ (by omega) c' hc'⟩
        rw [List.length_take, List.length_drop] at h1
        omega
    · left
      refine ⟨rfl, fun k h1 h2 c' hc' ho => ?_⟩
      dsimp only at h1
      rw [hp] at h1
      exact hafter k (by omega) h2 c' hc' ho
    · intro h; dsimp only at h; omega
  · refine ⟨by dsimp only; omega, ⟨lines, w1, w2, w3, w4, w5⟩, key, ?_⟩
    intro h
    dsimp only at h ⊢
    omega

theorem inv_all (e : List Char) (i : Nat) (hi : i ≤ e.length) : Inv e i ((List.range i).foldl (splitStep e) ⟨[], 0, -1⟩) := by
  induction i with
  | zero =>
    exact ⟨le_rfl, ⟨[], by simp [Filled]⟩, Or.inl ⟨rfl, fun k _ h => absurd h (by omega)⟩, fun h => absurd h (by simp)⟩
  | succ i ih =>
    rw [List.range_succ, List.foldl_append, List.foldl_cons, List.foldl_nil]
    exact inv_step e i (by omega) _ (ih (by omega))

/-- **C80.** The text of an output is broken into lines after operators, and is otherwise unchanged; a line is longer than 152 characters
only when it has no operator at which to break it, and a line is broken only at the last operator among its first 152 characters (or at the first one
after them). -/
theorem C80_lines (text : List Char) : BrokenInto text (splitExpression text) := by
  obtain ⟨le, ⟨lines, w1, w2, w3, w4, w5⟩, hl, hs⟩ := inv_all text text.length le_rfl
  unfold splitExpression
  dsimp only
  set s := (List.range text.length).foldl (splitStep text) ⟨[], 0, -1⟩
  refine ⟨lines, text.drop s.offset, ?_, by rw [w2], w3, w4, w5, ?_⟩
  · rw [← w1, List.take_append_drop]
  · by_cases hlen : (text.drop s.offset).length ≤ 152
    · exact Or.inl hlen
    · right
      rw [List.length_drop] at hlen
      have hnew : s.last ≤ 0 := by
        by_contra hh
        have := hs (by omega)
        omega
      have hno : ∀ k, s.offset < k → k < text.length → ∀ c, text[k]? = some c → ¬Operator c := by
        rcases hl with ⟨-, q⟩ | ⟨p', a', b', -, -, q⟩
        · intro k h1 h2; exact q k (by omega) h2
        · intro k h1 h2; exact q k (by omega) h2
      intro c hc
      have hc := List.dropLast_subset _ hc
      rw [List.mem_iff_getElem?] at hc
      obtain ⟨k, hk⟩ := hc
      rw [List.getElem?_tail, List.getElem?_drop] at hk
      obtain ⟨h, -⟩ := List.getElem?_eq_some_iff.1 hk
      exact hno _ (by omega) h c hk

theorem same_of_broken {text out : List Char} (h : BrokenInto text out) : (out.filter fun c => c ≠ ' ' ∧ c ≠ '\n') = text.filter fun c => c ≠ ' ' ∧ c ≠ '\n' := by
  obtain ⟨lines, final, rfl, rfl, -⟩ := h
  rw [List.filter_append, List.filter_append, List.filter_flatMap, List.filter_flatten, List.flatMap_def]
  congr 3
  funext l
  rw [List.filter_append]
  simp

/-- **C80**, consequence: without blanks and new lines the text is the same. -/
theorem C80_same_text (text : List Char) :
    ((splitExpression text).filter fun c => c ≠ ' ' ∧ c ≠ '\n') = text.filter fun c => c ≠ ' ' ∧ c ≠ '\n' := same_of_broken (C80_lines text)

/-- A sum of sixty addends is broken. -/
example : splitExpression (List.flatten (List.replicate 60 "abc + ".toList)) ≠ List.flatten (List.replicate 60 "abc + ".toList) := by
  decide +kernel

theorem alphanumeric_iff (c : Char) : isAlphanumeric c = true ↔ Letter c ∨ Digit c := by
  simp only [isAlphanumeric, Letter, Digit, Bool.or_eq_true, Bool.and_eq_true, decide_eq_true_eq, Char.le_def, UInt32.le_iff_toNat_le]
  exact Iff.rfl

/-- **C81** (for names with letters, digits and spaces only, whose first character is not a digit): the name of the generated class is
an identifier. -/
theorem C81_identifier_partial (name : List Char) (h : ∀ c ∈ name, Letter c ∨ Digit c ∨ c = ' ')
    (h0 : ∃ c rest, name = c :: rest ∧ ¬Digit c) : Identifier (cleanName name) := by
  have key : ∀ c ∈ name, cleanLetter c = c ∧ (Letter c ∨ Digit c) ∨ c = ' ' ∧ cleanLetter c = '_' := by
    intro c hc
    unfold cleanLetter
    by_cases hs : c = ' '
    · exact Or.inr ⟨hs, if_pos hs⟩
    · have ha : Letter c ∨ Digit c := by rcases h c hc with h | h | h <;> simp_all
      rw [if_neg hs, if_pos ((alphanumeric_iff c).2 ha)]
      exact Or.inl ⟨rfl, ha⟩
  constructor
  · obtain ⟨c, rest, rfl, hd⟩ := h0
    refine ⟨cleanLetter c, cleanName rest, rfl, ?_⟩
    rcases key c (by simp) with ⟨e, a⟩ | ⟨-, e⟩
    · rw [e]
      exact Or.inl (a.resolve_right hd)
    · exact Or.inr e
  · intro c hc
    obtain ⟨c', hc', rfl⟩ := List.mem_map.1 hc
    rcases key c' hc' with ⟨e, a⟩ | ⟨-, e⟩
    · rw [e]; tauto
    · exact Or.inr (Or.inr e)

/-- **C81**, continued: different such names give different classes (hence directories and libraries). -/
theorem C81_distinct_partial (name name' : List Char) (h : ∀ c ∈ name, Letter c ∨ Digit c ∨ c = ' ')
    (h' : ∀ c ∈ name', Letter c ∨ Digit c ∨ c = ' ') (he : cleanName name = cleanName name') : name = name' := by
  have inj : ∀ c c', (Letter c ∨ Digit c ∨ c = ' ') → (Letter c' ∨ Digit c' ∨ c' = ' ') → cleanLetter c = cleanLetter c' → c = c' := by
    intro c c' hc hc' e
    have key : ∀ c, (Letter c ∨ Digit c ∨ c = ' ') → c = ' ' ∧ cleanLetter c = '_' ∨ (Letter c ∨ Digit c) ∧ cleanLetter c = c := by
      intro c hc
      unfold cleanLetter
      by_cases hs : c = ' '
      · exact Or.inl ⟨hs, if_pos hs⟩
      · have ha : Letter c ∨ Digit c := by rcases hc with h | h | h <;> simp_all
        rw [if_neg hs, if_pos ((alphanumeric_iff c).2 ha)]
        exact Or.inr ⟨ha, rfl⟩
    have nu : ¬(Letter '_' ∨ Digit '_') := by simp [Letter, Digit]
    rcases key c hc with ⟨a, b⟩ | ⟨a, b⟩ <;> rcases key c' hc' with ⟨a', b'⟩ | ⟨a', b'⟩
    · rw [a, a']
    · rw [b, b'] at e; rw [← e] at a'; exact absurd a' nu
    · rw [b, b'] at e; rw [e] at a; exact absurd a nu
    · rw [b, b'] at e; exact e
  induction name generalizing name' with
  | nil => cases name' with
    | nil => rfl
    | cons c l => simp [cleanName] at he
  | cons c l ih => cases name' with
    | nil => simp [cleanName] at he
    | cons c' l' =>
      simp only [cleanName, List.map_cons, List.cons.injEq] at he
      rw [inj c c' (h c (by simp)) (h' c' (by simp)) he.1,
        ih l' (fun c hc => h c (by simp [hc])) (fun c hc => h' c (by simp [hc])) he.2]

/-- The hypotheses are met. -/
example : Identifier (cleanName "left foot 2".toList) := by
  refine C81_identifier_partial _ ?_ ⟨'l', "eft foot 2".toList, rfl, by simp [Digit]⟩
  intro c hc
  simp at hc
  rcases hc with rfl | rfl | rfl | rfl | rfl | rfl | rfl | rfl | rfl | rfl | rfl <;> simp [Letter, Digit]

/-- **Finding.** An underscore becomes a minus sign, also when the name was already an identifier: the class cannot be compiled. -/
theorem C81_finding_underscore : Identifier "left_foot".toList ∧ cleanName "left_foot".toList = "left-foot".toList ∧
    ¬Identifier (cleanName "left_foot".toList) := by
  have e : cleanName "left_foot".toList = "left-foot".toList := by decide
  refine ⟨⟨⟨'l', "eft_foot".toList, rfl, by simp [Letter]⟩, ?_⟩, e, ?_⟩
  · intro c hc
    simp at hc
    rcases hc with rfl | rfl | rfl | rfl | rfl | rfl | rfl | rfl | rfl <;> simp [Letter, Digit]
  · rw [e]
    intro h
    have := h.2 '-' (by decide)
    simp [Letter, Digit] at this

/-- **Finding.** A name that starts with a digit is left as it is; an empty name too. -/
theorem C81_finding_digit : ¬Identifier (cleanName "2 feet".toList) ∧ ¬Identifier (cleanName []) := by
  refine ⟨?_, ?_⟩
  · rintro ⟨⟨c, s, h, hc⟩, -⟩
    have e : cleanName "2 feet".toList = '2' :: "_feet".toList := by decide
    rw [e] at h
    injection h with h _
    subst h
    simp [Letter] at hc
  · rintro ⟨⟨c, s, h, -⟩, -⟩
    simp [cleanName] at h

/-- **Finding.** Two names that differ by a punctuation mark share class, directory and library. -/
theorem C81_finding_collision : cleanName "left.foot".toList = cleanName "left-foot".toList := by decide

end Verif.Levi.CodeText
