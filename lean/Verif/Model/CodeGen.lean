import Verif.Model.Squeeze
/- Generation of C++ text from expressions: extern/levi/include/levi/AutogeneratedHelper.h, AutogeneratedEvaluable.h and
MultipleCompiledExpressions.h.

Simplifications, for the whole file:
* text is a list of tokens.  A token stands for the characters given beside it, blanks included, so that texts are equal when their
  tokens are, and (as the first and the last token of a printed expression can only match whole tokens) one text is found in another
  when its tokens are;
* `std::vector`s that are only written at existing positions are functions with a length, as in the model of the trees;
* the commands that write the files, compile them and load the library, and the messages on the console, are not modelled. -/
namespace Verif.Levi.Code
open Ex Squeeze
variable {K : Type} [Field K] [LinearOrder K]

/-- Pieces of text. -/
inductive Tok (K : Type)
  /-- `generics[k](0,0)` when flagged, `generics[k]` otherwise. -/
  | gen (k : Nat) (scalar : Bool)
  /-- `m_helper<k>_`. -/
  | helper (k : Nat)
  /-- `m_common<k>_`. -/
  | common (k : Nat)
  /-- `(` -/
  | lpar
  /-- `)` -/
  | rpar
  /-- ` + ` -/
  | plus
  /-- ` - ` -/
  | minus
  /-- ` * ` -/
  | times
  /-- ` / ` -/
  | slash
  /-- `-`, without blanks. -/
  | sign
  /-- `std::pow(` -/
  | powOpen
  /-- `, <x>)` -/
  | powClose (x : K)
  /-- `.transpose()` -/
  | transpose
  /-- `.row(<i>)` -/
  | row (i : Nat)
  /-- `.col(<j>)` -/
  | col (j : Nat)
  /-- `(<i>, <j>)` -/
  | entry (i j : Nat)
  /-- `(0,0)`, without blank. -/
  | entry00
  /-- `.block<r, c>(<i>, <j>)` -/
  | block (r c i j : Nat)
deriving DecidableEq

/-- `LiteralComponent`, AutogeneratedHelper.h:120-125. -/
structure Lit (K : Type) where
  text : List (Tok K)
  isScalar : Bool
  compressed : Bool
  simple : Bool

/-- `CommonSubExp`, AutogeneratedHelper.h:127-132: its name is its position, the declaration is determined by the sizes. -/
structure Sub (K : Type) where
  expression : List (Tok K)
  rows : Nat
  cols : Nat
  active : Bool

/-- TreeExpander.h:107-209 (`expandTree` with `expandForSqueeze` false): as `Squeeze.expand`, but constants and concatenations are
generic expressions (lines 65-67). -/
def expand (cfg : Cfg K) (u : Nat → Nat → K) : Ex K → Tree K → Nat × Tree K
  | add a b, t =>
    let l := expand cfg u a t
    let r := expand cfg u b l.2
    addOperator cfg u (add a b) (decide (l.1 < t.n) && decide (r.1 < t.n)) l.1 r.1 r.2
  | sub a b, t =>
    let l := expand cfg u a t
    let r := expand cfg u b l.2
    addOperator cfg u (sub a b) (decide (l.1 < t.n) && decide (r.1 < t.n)) l.1 r.1 r.2
  | mul a b, t =>
    let l := expand cfg u a t
    let r := expand cfg u b l.2
    addOperator cfg u (mul a b) (decide (l.1 < t.n) && decide (r.1 < t.n)) l.1 r.1 r.2
  | div a b, t =>
    let l := expand cfg u a t
    let r := expand cfg u b l.2
    addOperator cfg u (div a b) (decide (l.1 < t.n) && decide (r.1 < t.n)) l.1 r.1 r.2
  | neg a, t =>
    let l := expand cfg u a t
    addOperator cfg u (neg a) (decide (l.1 < t.n)) l.1 0 l.2
  | pow a x, t =>
    let l := expand cfg u a t
    addOperator cfg u (pow a x) (decide (l.1 < t.n)) l.1 0 l.2
  | transpose a, t =>
    let l := expand cfg u a t
    addOperator cfg u (transpose a) (decide (l.1 < t.n)) l.1 0 l.2
  | row a i, t =>
    let l := expand cfg u a t
    addOperator cfg u (row a i) (decide (l.1 < t.n)) l.1 0 l.2
  | col a j, t =>
    let l := expand cfg u a t
    addOperator cfg u (col a j) (decide (l.1 < t.n)) l.1 0 l.2
  | elem a i j, t =>
    let l := expand cfg u a t
    addOperator cfg u (elem a i j) (decide (l.1 < t.n)) l.1 0 l.2
  | block a i j r c, t =>
    let l := expand cfg u a t
    addOperator cfg u (block a i j r c) (decide (l.1 < t.n)) l.1 0 l.2
  | const r c M, t => addGeneric cfg u (const r c M) t
  | sparse r c l, t => addGeneric cfg u (sparse r c l) t
  | null r c, t => addGeneric cfg u (null r c) t
  | ident n, t => addGeneric cfg u (ident n) t
  | vcat a b, t => addGeneric cfg u (vcat a b) t
  | hcat a b, t => addGeneric cfg u (hcat a b) t
  | var v, t => addGeneric cfg u (var v) t
  | skew a, t => addGeneric cfg u (skew a) t
  | vee a, t => addGeneric cfg u (vee a) t
  | byRows n f, t => addGeneric cfg u (byRows n f) t
  | byCols n f, t => addGeneric cfg u (byCols n f) t
  | mpd n ds x, t => addGeneric cfg u (mpd n ds x) t

/-- `setExpressions`, AutogeneratedHelper.h:543-548: the shared vector, and the positions of the expressions. -/
def expandExpressions (cfg : Cfg K) (u : Nat → Nat → K) (es : List (Ex K)) : Tree K × List Nat :=
  es.foldl (fun s e =>
    let r := expand cfg u e { s.1 with added := fun _ => [] }
    (r.2, s.2 ++ [r.1])) (empty, [])

/-- `expandElement`, AutogeneratedHelper.h:163-260: the text of a component from those of its operands.  `shown x` is the number
printed by `std::to_string(x)`.  A row or a column that is 1×1 becomes an access to an element (lines 218-223, 232-237), which at the
next expansion is printed in the same way (line 247). -/
def compose (shown : K → K) (e : Ex K) (own lhs rhs : Lit K) : Lit K :=
  match e with
  | add _ _ => { own with
      text := .lpar :: lhs.text ++ .plus :: rhs.text ++ [.rpar]
      isScalar := lhs.isScalar && rhs.isScalar
      simple := false }
  | sub _ _ => { own with
      text := .lpar :: lhs.text ++ .minus :: rhs.text ++ [.rpar]
      isScalar := lhs.isScalar && rhs.isScalar
      simple := false }
  | mul _ _ => { own with
      text := lhs.text ++ .times :: rhs.text
      isScalar := lhs.isScalar && rhs.isScalar
      simple := false }
  | div _ _ => { own with
      text := lhs.text ++ .slash :: rhs.text
      isScalar := lhs.isScalar
      simple := false }
  | neg _ => { own with
      text := .sign :: lhs.text
      isScalar := lhs.isScalar
      simple := false }
  | pow _ x => { own with
      text := .powOpen :: lhs.text ++ [.powClose (shown x)]
      isScalar := true
      simple := false }
  | transpose _ => { own with
      text := .lpar :: lhs.text ++ [.rpar, .transpose]
      isScalar := false
      simple := true }
  | row _ i =>
    if e.rows = 1 ∧ e.cols = 1 then { own with
      text := .lpar :: lhs.text ++ [.rpar, .entry i 0]
      isScalar := true
      simple := true }
    else { own with
      text := .lpar :: lhs.text ++ [.rpar, .row i]
      isScalar := false
      simple := true }
  | col _ j =>
    if e.rows = 1 ∧ e.cols = 1 then { own with
      text := .lpar :: lhs.text ++ [.rpar, .entry 0 j]
      isScalar := true
      simple := true }
    else { own with
      text := .lpar :: lhs.text ++ [.rpar, .col j]
      isScalar := false
      simple := true }
  | elem _ i j => { own with
      text := .lpar :: lhs.text ++ [.rpar, .entry i j]
      isScalar := true
      simple := true }
  | block _ i j r c => { own with
      text := .lpar :: lhs.text ++ [.rpar, .block r c i j]
      isScalar := false
      simple := true }
  | _ => own

/-- AutogeneratedHelper.h:262-265: an Eigen object of size 1×1 is turned into a number. -/
def wrap (e : Ex K) (l : Lit K) : Lit K :=
  if !l.isScalar && decide (e.rows = 1) && decide (e.cols = 1) then
    { l with
      text := .lpar :: l.text ++ [.rpar, .entry00]
      isScalar := true }
  else l

/-- `expandElement`, AutogeneratedHelper.h:151-266: all the texts. -/
def expandElement (shown : K → K) (t : Tree K) (ls : Nat → Lit K) (i : Nat) : Nat → Lit K :=
  if (ls i).compressed then ls
  else Function.update ls i (wrap (t.comp i).e (compose shown (t.comp i).e (ls i) (ls (t.comp i).lhs) (ls (t.comp i).rhs)))

/-- The members filled by `getLiteralExpression`, AutogeneratedHelper.h:134-149. -/
structure State (K : Type) where
  lits : Nat → Lit K
  helpersMap : List (Tok K) → List Nat
  helpers : Nat → Sub K
  nHelpers : Nat
  commonsMap : List (Tok K) → List Nat
  commons : Nat → Sub K
  nCommons : Nat

/-- AutogeneratedHelper.h:447 and 453-462: the texts of the generic components. -/
def genericTexts (t : Tree K) : Nat → Lit K :=
  (List.range t.generics.length).foldl (fun ls k =>
    let g := t.generics.getD k 0
    Function.update ls g
      (if (t.comp g).e.rows = 1 ∧ (t.comp g).e.cols = 1 then { ls g with
        text := [.gen k true]
        isScalar := true
        simple := true }
      else { ls g with
        text := [.gen k false]
        isScalar := false }))
    fun _ => ⟨[], false, false, false⟩

/-- AutogeneratedHelper.h:447-448: the members at the beginning (the maps and the vectors are empty). -/
def start (t : Tree K) : State K :=
  ⟨genericTexts t, fun _ => [], fun _ => ⟨[], 0, 0, false⟩, 0, fun _ => [], fun _ => ⟨[], 0, 0, false⟩, 0⟩

/-- AutogeneratedHelper.h:466-473: first expansion, filling the map of the texts. -/
def firstExpansion (shown : K → K) (t : Tree K) (s : State K) : State K :=
  (List.range t.n).foldl (fun s i =>
    let ls := expandElement shown t s.lits i
    { s with
      lits := ls
      helpersMap := Function.update s.helpersMap (ls i).text (s.helpersMap (ls i).text ++ [i]) }) s

/-- AutogeneratedHelper.h:481-483 and 506-508: second and fourth expansion. -/
def expandAgain (shown : K → K) (t : Tree K) (s : State K) : State K :=
  { s with lits := (List.range t.n).foldl (expandElement shown t) s.lits }

/-- AutogeneratedHelper.h:491-498: third expansion, filling the map of the common texts. -/
def thirdExpansion (shown : K → K) (t : Tree K) (s : State K) : State K :=
  (List.range t.n).foldl (fun s i =>
    let ls := expandElement shown t s.lits i
    { s with
      lits := ls
      commonsMap := Function.update s.commonsMap (ls i).text (s.commonsMap (ls i).text ++ [i]) }) s

/-- Loops at AutogeneratedHelper.h:288-291 and 319-322: the components are replaced by a name. -/
def compress (name : Tok K) (is : List Nat) (ls : Nat → Lit K) : Nat → Lit K :=
  is.foldl (fun ls j => Function.update ls j { ls j with
    text := [name]
    compressed := true }) ls

/-- `getScalarVariables`, AutogeneratedHelper.h:269-296. -/
def getScalarVariables (t : Tree K) (s : State K) : State K :=
  (List.range t.n).foldl (fun s i =>
    if !(s.lits i).isScalar || (s.lits i).compressed || (s.lits i).simple then s
    else if 1 < (s.helpersMap (s.lits i).text).length then { s with
      lits := compress (.helper s.nHelpers) (s.helpersMap (s.lits i).text) s.lits
      helpers := Function.update s.helpers s.nHelpers ⟨(s.lits i).text, 1, 1, true⟩
      nHelpers := s.nHelpers + 1 }
    else s) s

/-- `getCommonSubExpression`, AutogeneratedHelper.h:298-327. -/
def getCommonSubExpression (t : Tree K) (s : State K) : State K :=
  (List.range t.n).foldl (fun s i =>
    if (s.lits i).compressed || (s.lits i).simple then s
    else if 1 < (s.commonsMap (s.lits i).text).length then { s with
      lits := compress (.common s.nCommons) (s.commonsMap (s.lits i).text) s.lits
      commons := Function.update s.commons s.nCommons ⟨(s.lits i).text, (t.comp i).e.rows, (t.comp i).e.cols, true⟩
      nCommons := s.nCommons + 1 }
    else s) s

/-- `std::string::find`: the first position at which `p` is found. -/
def find (p : List (Tok K)) : List (Tok K) → Option Nat
  | [] => if p = [] then some 0 else none
  | x :: s => if p.isPrefixOf (x :: s) then some 0 else (find p s).map (· + 1)

/-- `std::string::replace`: `len` tokens from `off` become `name`. -/
def replace (off len : Nat) (name : Tok K) (s : List (Tok K)) : List (Tok K) := s.take off ++ name :: s.drop (off + len)

/-- AutogeneratedHelper.h:339-348 and 386-395: later active entries in which the expression of entry `i` is found, and where.
`width` is the number of characters of a token. -/
def inclusions (width : Tok K → Nat) (subs : Nat → Sub K) (n i : Nat) : List (Nat × Nat) :=
  (List.range n).filterMap fun other =>
    if i < other ∧ (subs other).active = true ∧
        ((subs i).expression.map width).sum < ((subs other).expression.map width).sum then
      (find (subs i).expression (subs other).expression).map fun off => (other, off)
    else none

/-- Loops at AutogeneratedHelper.h:351-353, 356-358, 398-400 and 403-405. -/
def replaceIn (name : Tok K) (i : Nat) (incs : List (Nat × Nat)) (subs : Nat → Sub K) : Nat → Sub K :=
  incs.foldl (fun subs p => Function.update subs p.1 { subs p.1 with
    expression := replace p.2 (subs i).expression.length name (subs p.1).expression }) subs

/-- AutogeneratedHelper.h:333-365: body of the loop of `cleanHelpers`. -/
def cleanHelper (width : Tok K → Nat) (finals : List Nat) (s : State K) (i : Nat) : State K :=
  let incs := inclusions width s.helpers s.nHelpers i
  if finals.any (fun f => decide (Tok.helper i ∈ (s.lits f).text)) || decide (1 < incs.length) then
    { s with helpers := replaceIn (.helper i) i incs s.helpers }
  else
    { s with
      lits := (s.helpersMap (s.helpers i).expression).foldl (fun ls j => Function.update ls j { ls j with text := (s.helpers i).expression }) s.lits
      helpers := Function.update s.helpers i { s.helpers i with active := false } }

/-- `cleanHelpers`, AutogeneratedHelper.h:329-366. -/
def cleanHelpers (width : Tok K → Nat) (finals : List Nat) (s : State K) : State K :=
  (List.range s.nHelpers).reverse.foldl (cleanHelper width finals) s

/-- AutogeneratedHelper.h:380-409: body of the loop of `cleanCommonSubExpressions`. -/
def cleanCommon (width : Tok K → Nat) (finals : List Nat) (s : State K) (i : Nat) : State K :=
  let incs := inclusions width s.commons s.nCommons i
  if finals.any (fun f => decide (Tok.common i ∈ (s.lits f).text)) || decide (1 < incs.length) then
    { s with commons := replaceIn (.common i) i incs s.commons }
  else { s with commons := Function.update s.commons i { s.commons i with active := false } }

/-- `cleanCommonSubExpressions`, AutogeneratedHelper.h:376-410. -/
def cleanCommons (width : Tok K → Nat) (finals : List Nat) (s : State K) : State K :=
  (List.range s.nCommons).reverse.foldl (cleanCommon width finals) s

/-- A line `<type> <name> = <text>;`: `scalar` when the type is the one of the numbers, otherwise an `Eigen::Matrix` of the given
sizes. -/
structure Decl (K : Type) where
  name : Tok K
  scalar : Bool
  rows : Nat
  cols : Nat
  text : List (Tok K)

/-- A line `output(0, 0) = <text>;` when `scalar`, otherwise `output = <text>;`. -/
structure Out (K : Type) where
  scalar : Bool
  text : List (Tok K)

/-- The body of the generated function. -/
structure Program (K : Type) where
  decls : List (Decl K)
  outs : List (Out K)

/-- `getLiteralExpression`, AutogeneratedHelper.h:446-521 (`splitExpression`, which adds new lines, is in `Split`). -/
def getLiteralExpression (shown : K → K) (width : Tok K → Nat) (t : Tree K) (finals : List Nat) : State K :=
  let s := expandAgain shown t (getScalarVariables t (firstExpansion shown t (start t)))
  let s := getCommonSubExpression t (thirdExpansion shown t (cleanHelpers width finals s))
  cleanCommons width finals (expandAgain shown t s)

/-- The text of the function: declarations (AutogeneratedHelper.h:368-372 and 412-416), then the outputs
(AutogeneratedEvaluable.h:58-65, MultipleCompiledExpressions.h:71-83). -/
def program (t : Tree K) (s : State K) (finals : List (Nat × Ex K)) : Program K where
  decls :=
    (((List.range s.nHelpers).filter fun i => (s.helpers i).active).map fun i => ⟨.helper i, true, 1, 1, (s.helpers i).expression⟩) ++
    (((List.range s.nCommons).filter fun i => (s.commons i).active).map fun i =>
      ⟨.common i, false, (s.commons i).rows, (s.commons i).cols, (s.commons i).expression⟩)
  outs := finals.map fun f => ⟨f.2.rows == 1 && f.2.cols == 1, (s.lits f.1).text⟩

/-- What `AutogeneratedEvaluable` and `MultipleCompiledExpressions` generate for the expressions `es`. -/
def generate (cfg : Cfg K) (u : Nat → Nat → K) (shown : K → K) (width : Tok K → Nat) (es : List (Ex K)) : Program K :=
  let x := expandExpressions cfg u es
  program x.1 (getLiteralExpression shown width x.1 x.2) (x.2.zip es)

/-- `evaluateGenerics`, AutogeneratedHelper.h:709-715: the values given to the generated function. -/
def genericValues (cfg : Cfg K) (u : Nat → Nat → K) (es : List (Ex K)) (pw : K → K → K) (ρ : Env K) : List (SM K) :=
  let t := (expandExpressions cfg u es).1
  t.generics.map fun g => (t.comp g).e.ev pw ρ

end Verif.Levi.Code
