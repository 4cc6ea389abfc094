import Verif.Spec.CodeGen
import Verif.Lemmas.LeviMatrix
/- Values of generated texts, computed token by token (texts without division). -/
set_option linter.unusedSectionVars false
set_option linter.unusedSimpArgs false
namespace Verif.Levi.Code
open Spec
variable {K : Type} [Field K] [LinearOrder K]

/-- A value with its sign changed, or not. -/
def signed (b : Bool) (v : Value K) : Value K := if b then v.neg else v

theorem neg_neg' (v : Value K) : v.neg.neg = v := by
  cases v <;> simp [Value.neg]

theorem signed_signed (a b : Bool) (v : Value K) : signed a (signed b v) = signed (a ^^ b) v := by
  cases a <;> cases b <;> simp [signed, neg_neg']

theorem conf {A B : SM K} (h : A.c = B.r) : SM.Conf A B := Or.inl h

theorem mul_assoc (a b c : Value K) : (a.mul b).bind (fun x => x.mul c) = (b.mul c).bind (fun y => a.mul y) := by
  cases a with
  | num x =>
    cases b with
    | num y =>
      cases c with
      | num z => simp [Value.mul, _root_.mul_assoc]
      | mat C => simp [Value.mul]
    | mat B =>
      cases c with
      | num z => simp [Value.mul, mul_comm]
      | mat C =>
        by_cases h : B.c = C.r
        · simp [Value.mul, h, SM.smul_mul x (conf h)]
        · simp [Value.mul, h]
  | mat A =>
    cases b with
    | num y =>
      cases c with
      | num z => simp [Value.mul, mul_comm]
      | mat C =>
        by_cases h : A.c = C.r
        · simp [Value.mul, h, SM.smul_mul y (conf h), SM.mul_smul y (conf h)]
        · simp [Value.mul, h]
    | mat B =>
      cases c with
      | num z =>
        by_cases h : A.c = B.r
        · simp [Value.mul, h, SM.mul_smul z (conf h)]
        · simp [Value.mul, h]
      | mat C =>
        by_cases h : A.c = B.r
        · by_cases h' : B.c = C.r
          · simp [Value.mul, h, h', SM.mul_std_c h, SM.mul_std_r h', SM.mul_assoc' h h']
          · simp [Value.mul, h, h', SM.mul_std_c h]
        · by_cases h' : B.c = C.r
          · simp [Value.mul, h, h', SM.mul_std_r h']
          · simp [Value.mul, h, h']

theorem neg_mul' (a b : Value K) : a.neg.mul b = (a.mul b).map Value.neg := by
  cases a with
  | num x =>
    cases b with
    | num y => simp [Value.mul, Value.neg]
    | mat B => simp [Value.mul, Value.neg, SM.neg_eq_smul]
  | mat A =>
    cases b with
    | num y => simp [Value.mul, Value.neg, SM.neg_eq_smul]
    | mat B =>
      by_cases h : A.c = B.r
      · simp [Value.mul, Value.neg, h, SM.neg_mul (conf h)]
      · simp [Value.mul, Value.neg, h]

theorem mul_neg' (a b : Value K) : a.mul b.neg = (a.mul b).map Value.neg := by
  cases a with
  | num x =>
    cases b with
    | num y => simp [Value.mul, Value.neg]
    | mat B => simp [Value.mul, Value.neg, SM.neg_eq_smul]
  | mat A =>
    cases b with
    | num y => simp [Value.mul, Value.neg, SM.neg_eq_smul]
    | mat B =>
      by_cases h : A.c = B.r
      · simp [Value.mul, Value.neg, h, SM.mul_neg (conf h)]
      · simp [Value.mul, Value.neg, h]

theorem signed_mul (s : Bool) (a b : Value K) : (signed s a).mul b = (a.mul b).map (signed s) := by
  cases s
  · show a.mul b = (a.mul b).map fun v => v
    simp
  · exact neg_mul' a b

theorem mul_signed (s : Bool) (a b : Value K) : a.mul (signed s b) = (a.mul b).map (signed s) := by
  cases s
  · show a.mul b = (a.mul b).map fun v => v
    simp
  · exact mul_neg' a b

/-- What is expected after the tokens read so far: an operand (with a sign allowed), an operator, or an access to a parenthesis. -/
inductive Mode (K : Type) [Zero K]
  | need (ok : Bool)
  | have
  | close (v : Value K)

/-- Reading inside a pair of parentheses (or outside all of them): left operand of a sum, pending sign, product so far. -/
structure Part (K : Type) [Zero K] where
  sum : Option (Value K × Bool)
  sign : Bool
  prod : Option (Value K)
  mode : Mode K

/-- What is suspended by an open parenthesis. -/
structure Ctx (K : Type) [Zero K] where
  sum : Option (Value K × Bool)
  sign : Bool
  prod : Option (Value K)
  isPow : Bool

abbrev Reader (K : Type) [Zero K] := List (Ctx K) × Part K

/-- The product, with one more factor. -/
def join (p : Option (Value K)) (v : Value K) : Option (Value K) :=
  match p with
  | none => some v
  | some p => p.mul v

/-- An operand is complete. -/
def complete (sum : Option (Value K × Bool)) (sign : Bool) (prod : Option (Value K)) (v : Value K) : Option (Part K) :=
  (join prod (signed sign v)).map fun p => ⟨sum, false, some p, .have⟩

/-- One token. -/
def eat (pw : K → K → K) (names : Tok K → Option (Value K)) (st : Reader K) (τ : Tok K) : Option (Reader K) :=
  match st.2.mode with
  | .need ok =>
    match τ with
    | .sign => if ok then some (st.1, ⟨st.2.sum, !st.2.sign, st.2.prod, .need false⟩) else none
    | .lpar => some (⟨st.2.sum, st.2.sign, st.2.prod, false⟩ :: st.1, ⟨none, false, none, .need true⟩)
    | .powOpen => some (⟨st.2.sum, st.2.sign, st.2.prod, true⟩ :: st.1, ⟨none, false, none, .need true⟩)
    | τ => (names τ).bind fun v => (complete st.2.sum st.2.sign st.2.prod v).map fun p => (st.1, p)
  | .close v => (Value.access τ v).bind fun w => (complete st.2.sum st.2.sign st.2.prod w).map fun p => (st.1, p)
  | .have =>
    match st.2.prod with
    | none => none
    | some p =>
      match τ with
      | .times => some (st.1, ⟨st.2.sum, false, some p, .need true⟩)
      | .plus =>
        match st.1, st.2.sum with
        | c :: cs, none => if c.isPow then none else some (c :: cs, ⟨some (p, true), false, none, .need true⟩)
        | _, _ => none
      | .minus =>
        match st.1, st.2.sum with
        | c :: cs, none => if c.isPow then none else some (c :: cs, ⟨some (p, false), false, none, .need true⟩)
        | _, _ => none
      | .rpar =>
        match st.1 with
        | [] => none
        | c :: cs =>
          if c.isPow then none
          else match st.2.sum with
          | none => some (cs, ⟨c.sum, c.sign, c.prod, .close p⟩)
          | some (v, add) => (v.plus add p).bind fun w => (complete c.sum c.sign c.prod w).map fun q => (cs, q)
      | .powClose x =>
        match st.1, st.2.sum, p with
        | c :: cs, none, .num a => if c.isPow then (complete c.sum c.sign c.prod (.num (pw a x))).map fun q => (cs, q) else none
        | _, _, _ => none
      | _ => none

/-- All the tokens. -/
def run (pw : K → K → K) (names : Tok K → Option (Value K)) (st : Reader K) (s : List (Tok K)) : Option (Reader K) := s.foldlM (eat pw names) st

def begin : Reader K := ([], ⟨none, false, none, .need true⟩)

def final : Reader K → Option (Value K)
  | ([], ⟨none, false, some p, .have⟩) => some p
  | _ => none

/-- The value of a text. -/
def valueOf (pw : K → K → K) (names : Tok K → Option (Value K)) (s : List (Tok K)) : Option (Value K) := (run pw names begin s).bind final

theorem run_nil (pw : K → K → K) (names : Tok K → Option (Value K)) (st : Reader K) : run pw names st [] = some st := rfl
theorem run_cons (pw : K → K → K) (names : Tok K → Option (Value K)) (st : Reader K) (τ : Tok K) (s : List (Tok K)) :
    run pw names st (τ :: s) = (eat pw names st τ).bind fun st => run pw names st s := by
  simp only [run, List.foldlM_cons]; rfl
theorem run_append (pw : K → K → K) (names : Tok K → Option (Value K)) (st : Reader K) (s r : List (Tok K)) :
    run pw names st (s ++ r) = (run pw names st s).bind fun st => run pw names st r := by
  simp only [run, List.foldlM_append]; rfl

/-- The outermost part, inside a text where a sum, a sign and a product are pending. -/
def liftPart (sum : Option (Value K × Bool)) (sign : Bool) (prod : Option (Value K)) (q : Part K) : Option (Part K) :=
  match q.prod with
  | none => some ⟨sum, sign ^^ q.sign, prod, q.mode⟩
  | some v => (join prod (signed sign v)).map fun p => ⟨sum, q.sign, some p, q.mode⟩

def liftCtx (sum : Option (Value K × Bool)) (sign : Bool) (prod : Option (Value K)) (q : Ctx K) : Option (Ctx K) :=
  match q.prod with
  | none => some ⟨sum, sign ^^ q.sign, prod, q.isPow⟩
  | some v => (join prod (signed sign v)).map fun p => ⟨sum, q.sign, some p, q.isPow⟩

def liftCtxs (outer : List (Ctx K)) (sum : Option (Value K × Bool)) (sign : Bool) (prod : Option (Value K)) : List (Ctx K) → Option (List (Ctx K))
  | [] => some outer
  | [c] => (liftCtx sum sign prod c).map fun c => c :: outer
  | c :: d :: cs => (liftCtxs outer sum sign prod (d :: cs)).map fun cs => c :: cs

def lift (outer : List (Ctx K)) (sum : Option (Value K × Bool)) (sign : Bool) (prod : Option (Value K)) (st : Reader K) : Option (Reader K) :=
  match st.1 with
  | [] => (liftPart sum sign prod st.2).map fun p => (outer, p)
  | c :: cs => (liftCtxs outer sum sign prod (c :: cs)).map fun cs => (cs, st.2)

theorem join_join (p0 q : Option (Value K)) (sign b : Bool) (v : Value K) (r : Value K) (h : join q (signed b v) = some r) :
    (match q with
      | none => join p0 (signed (sign ^^ b) v)
      | some q => (join p0 (signed sign q)).bind fun p => join (some p) (signed b v)) = join p0 (signed sign r) := by
  cases q with
  | none =>
    obtain rfl : signed b v = r := by simpa [join] using h
    simp only [signed_signed]
  | some q =>
    have h : q.mul (signed b v) = some r := h
    have hs : (signed sign q).mul (signed b v) = some (signed sign r) := by rw [signed_mul, h]; rfl
    cases p0 with
    | none => show (signed sign q).mul (signed b v) = _; exact hs
    | some p0 =>
      show (p0.mul (signed sign q)).bind (fun p => p.mul (signed b v)) = p0.mul (signed sign r)
      rw [mul_assoc, hs]
      rfl

/-- Completing the operand of the outermost part. -/
theorem complete_lift (sum sum' : Option (Value K × Bool)) (sign : Bool) (prod : Option (Value K)) (q : Part K) (v : Value K) (p : Part K)
    (h : complete sum' q.sign q.prod v = some p) :
    (liftPart sum sign prod q).bind (fun q' => complete q'.sum q'.sign q'.prod v) = liftPart sum sign prod p := by
  obtain ⟨s, b, pr, m⟩ := q
  simp only [complete, Option.map_eq_some_iff] at h
  obtain ⟨r, hr, rfl⟩ := h
  have := join_join prod pr sign b v r hr
  cases pr with
  | none =>
    simp only [liftPart, Option.bind_some, complete] at this ⊢
    rw [this]
  | some pr =>
    simp only [liftPart, Option.bind_map, complete] at this ⊢
    rw [← this, Option.map_bind]
    rfl

theorem complete_liftCtx (sum : Option (Value K × Bool)) (sign : Bool) (prod : Option (Value K)) (c : Ctx K) (v : Value K) (p : Part K)
    (h : complete c.sum c.sign c.prod v = some p) :
    (liftCtx sum sign prod c).bind (fun q' => complete q'.sum q'.sign q'.prod v) = liftPart sum sign prod p := by
  have := complete_lift sum c.sum sign prod ⟨c.sum, c.sign, c.prod, .have⟩ v p h
  rw [← this]
  obtain ⟨s, b, pr, m⟩ := c
  cases pr with
  | none => rfl
  | some pr => simp only [liftCtx, liftPart, Option.bind_map]; rfl

end Verif.Levi.Code
