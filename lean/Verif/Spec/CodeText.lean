import Mathlib.Data.List.Basic
/- Layout of a text, and identifiers of C++. -/
namespace Verif.Levi.CodeText.Spec

/-- A character after which a blank changes nothing. -/
def Operator (c : Char) : Prop := c = '+' ∨ c = '-' ∨ c = '*'

/-- A line is long only when there is nowhere to break it: no operator between its first and its last character. -/
def NotTooLong (line : List Char) : Prop := line.length ≤ 152 ∨ ∀ c ∈ line.tail.dropLast, ¬Operator c

/-- No line is shorter than needed: where a line is broken, more than 151 characters remain to be written, and among the first 152 of them there is no operator
after the end of the line. -/
def Filled (text : List Char) (lines : List (List Char)) : Prop :=
  ∀ i line, lines[i]? = some line →
    152 ≤ text.length - (lines.take i).flatten.length ∧
    ∀ k, line.length ≤ k → k < 152 → ∀ c, text[(lines.take i).flatten.length + k]? = some c → ¬Operator c

/-- `out` is `text` broken into lines: a new line and seven blanks are added after some operators, and nothing else changes. -/
def BrokenInto (text out : List Char) : Prop :=
  ∃ (lines : List (List Char)) (final : List Char),
    text = lines.flatten ++ final ∧ out = (lines.flatMap fun l => l ++ '\n' :: List.replicate 7 ' ') ++ final ∧
    (∀ l ∈ lines, ∃ l' c, l = l' ++ [c] ∧ Operator c) ∧ (∀ l ∈ lines, NotTooLong l) ∧ Filled text lines ∧ NotTooLong final

/-- Letters, in ASCII. -/
def Letter (c : Char) : Prop := (97 ≤ c.toNat ∧ c.toNat ≤ 122) ∨ (65 ≤ c.toNat ∧ c.toNat ≤ 90)
/-- Digits. -/
def Digit (c : Char) : Prop := 48 ≤ c.toNat ∧ c.toNat ≤ 57

/-- An identifier of C++ (it may be a reserved word): letters, digits and underscores, the first is not a digit. -/
def Identifier (s : List Char) : Prop :=
  (∃ c s', s = c :: s' ∧ (Letter c ∨ c = '_')) ∧ ∀ c ∈ s, Letter c ∨ Digit c ∨ c = '_'

end Verif.Levi.CodeText.Spec
