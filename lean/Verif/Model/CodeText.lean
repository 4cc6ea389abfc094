import Mathlib.Data.List.Basic
import Mathlib.Data.Int.Notation
/- Layout of the generated text, and the name of the generated class: extern/levi/include/levi/AutogeneratedHelper.h. -/
namespace Verif.Levi.CodeText

/-- The condition at AutogeneratedHelper.h:428. -/
def isStop (c : Char) : Bool := c == '+' || c == '-' || c == '*'

/-- `std::endl` and the blanks after it, AutogeneratedHelper.h:433. -/
def separator : List Char := '\n' :: List.replicate 7 ' '

/-- The text written so far, `offset` and `lastStopCharachter` of `splitExpression`. -/
structure Split where
  output : List Char
  offset : Nat
  last : Int

/-- AutogeneratedHelper.h:428-436: body of the loop.  Subtractions are on natural numbers: they never wrap around because
`offset ≤ currentindex` and `offset ≤ lastStopCharachter` where they are used (part of the invariant proved). -/
def splitStep (expression : List Char) (s : Split) (currentindex : Nat) : Split :=
  let last := if isStop (expression.getD currentindex 'a') then (currentindex : Int) else s.last
  if 0 < last ∧ 150 < currentindex - s.offset then
    { output := s.output ++ (expression.drop s.offset).take (last.toNat - s.offset + 1) ++ separator
      offset := last.toNat + 1
      last := -1 }
  else { s with last := last }

/-- `splitExpression`, AutogeneratedHelper.h:421-443. -/
def splitExpression (expression : List Char) : List Char :=
  let s := (List.range expression.length).foldl (splitStep expression) ⟨[], 0, -1⟩
  s.output ++ expression.drop s.offset

/-- The condition at AutogeneratedHelper.h:557. -/
def isAlphanumeric (c : Char) : Bool :=
  ('a' ≤ c && c ≤ 'z') || ('A' ≤ c && c ≤ 'Z') || ('0' ≤ c && c ≤ '9')

/-- AutogeneratedHelper.h:555-559: a letter of the name. -/
def cleanLetter (c : Char) : Char := if c = ' ' then '_' else if isAlphanumeric c then c else '-'

/-- AutogeneratedHelper.h:552-560: the name of the class, of its directory and of its library. -/
def cleanName (name : List Char) : List Char := name.map cleanLetter

end Verif.Levi.CodeText
