import Verif.Lemmas.CodeGen2
/- A text that is read token by token has, in C++, the value that is read. -/
set_option linter.unusedSectionVars false
set_option linter.unusedSimpArgs false
namespace Verif.Levi.Code
open Spec
variable {K : Type} [Field K] [LinearOrder K]
variable (pw : K → K → K) (g : List (SM K)) (vars : Vars K)

def SumReads (s : List (Tok K)) : Option (Value K × Bool) → Prop
  | none => s = []
  | some (v, add) => ∃ a, Means pw g vars .additive a v ∧ s = a ++ [if add then .plus else .minus]

def ProdReads (s : List (Tok K)) : Option (Value K) → Prop
  | none => s = []
  | some v => ∃ a, Means pw g vars .multiplicative a v ∧ s = a ++ [.times]

def signText (b : Bool) : List (Tok K) := if b then [.sign] else []

def PartReads (s : List (Tok K)) (p : Part K) : Prop :=
  ∃ s0 s1, s = s0 ++ s1 ∧ SumReads pw g vars s0 p.sum ∧
    match p.mode with
    | .need ok => ∃ sp, ProdReads pw g vars sp p.prod ∧ s1 = sp ++ signText p.sign ∧ p.sign = !ok
    | .have => ∃ v, p.prod = some v ∧ Means pw g vars .multiplicative s1 v
    | .close v => ∃ sp x, ProdReads pw g vars sp p.prod ∧ s1 = sp ++ (signText p.sign ++ x) ∧ Means pw g vars .primary x v ∧ x.head? = some .lpar

def CtxReads (s : List (Tok K)) (c : Ctx K) : Prop :=
  ∃ s0 sp, s = s0 ++ (sp ++ (signText c.sign ++ [if c.isPow then .powOpen else .lpar])) ∧ SumReads pw g vars s0 c.sum ∧ ProdReads pw g vars sp c.prod

def StackReads : List (Tok K) → List (Ctx K) → Prop
  | s, [] => s = []
  | s, c :: cs => ∃ a b, s = a ++ b ∧ StackReads a cs ∧ CtxReads pw g vars b c

def Reads (s : List (Tok K)) (st : Reader K) : Prop :=
  ∃ a b, s = a ++ b ∧ StackReads pw g vars a st.1 ∧ PartReads pw g vars b st.2

variable {pw g vars}

theorem complete_reads {sum : Option (Value K × Bool)} {sign : Bool} {prod : Option (Value K)} {v : Value K} {p : Part K} {s0 sp x : List (Tok K)}
    (h : complete sum sign prod v = some p) (h0 : SumReads pw g vars s0 sum) (hp : ProdReads pw g vars sp prod) (hx : Means pw g vars .postfix x v)
    (hh : x.head? ≠ some .sign) : PartReads pw g vars (s0 ++ (sp ++ (signText sign ++ x))) p := by
  obtain ⟨r, hr, rfl⟩ := Option.map_eq_some_iff.1 h
  have hu : Means pw g vars .unary (signText sign ++ x) (signed sign v) := by
    cases sign with
    | false => exact .postfix hx
    | true => exact .sign (.postfix hx) hh
  refine ⟨s0, _, rfl, h0, r, rfl, ?_⟩
  cases prod with
  | none =>
    obtain rfl : sp = [] := hp
    obtain rfl : signed sign v = r := by simpa [join] using hr
    exact .unary hu
  | some q =>
    obtain ⟨a, ha, rfl⟩ := hp
    have := Means.times ha hu hr
    simpa using this

theorem named_name {τ : Tok K} {v : Value K} (h : named g vars τ = some v) : τ ≠ .sign := by
  rintro rfl
  simp [named] at h

theorem eat_reads {s : List (Tok K)} {st st' : Reader K} {τ : Tok K} (hs : Reads pw g vars s st) (h : eat pw (named g vars) st τ = some st') :
    Reads pw g vars (s ++ [τ]) st' := by
  obtain ⟨cs, q⟩ := st
  obtain ⟨a, b, rfl, ha, s0, s1, rfl, h0, hq⟩ := hs
  dsimp only at ha
  cases hmode : q.mode with
  | close v =>
    simp only [eat, hmode] at h hq
    obtain ⟨sp, x, hp, rfl, hx, hh⟩ := hq
    obtain ⟨w, hw, h⟩ := Option.bind_eq_some_iff.1 h
    obtain ⟨p, hp', rfl⟩ := Option.map_eq_some_iff.1 h
    refine ⟨a, s0 ++ (sp ++ (signText q.sign ++ (x ++ [τ]))), by simp, ha, ?_⟩
    refine complete_reads hp' h0 hp (.access (.primary hx) hw) ?_
    cases x with
    | nil => simp at hh
    | cons y x => simp at hh; simp [hh]
  | need ok =>
    simp only [hmode] at hq
    obtain ⟨sp, hp, rfl, hsign⟩ := hq
    by_cases h1 : τ = .sign
    · subst h1
      simp only [eat, hmode] at h
      cases ok with
      | false => exact absurd h (by simp)
      | true =>
        rw [if_pos rfl] at h
        obtain rfl := Option.some.inj h
        refine ⟨a, s0 ++ (sp ++ [.sign]), by simp [hsign, signText], ha, s0, sp ++ [.sign], rfl, h0, sp, hp, ?_, ?_⟩
        · simp [hsign, signText]
        · simp [hsign]
    by_cases h2 : τ = .lpar
    · subst h2
      simp only [eat, hmode] at h
      obtain rfl := Option.some.inj h
      refine ⟨a ++ (s0 ++ (sp ++ (signText q.sign ++ [.lpar]))), [], by simp, ⟨a, _, rfl, ha, s0, sp, by simp, h0, hp⟩, [], [], rfl, rfl, [], rfl, rfl, rfl⟩
    by_cases h3 : τ = .powOpen
    · subst h3
      simp only [eat, hmode] at h
      obtain rfl := Option.some.inj h
      refine ⟨a ++ (s0 ++ (sp ++ (signText q.sign ++ [.powOpen]))), [], by simp, ⟨a, _, rfl, ha, s0, sp, by simp, h0, hp⟩, [], [], rfl, rfl, [], rfl, rfl, rfl⟩
    have key : eat pw (named g vars) (cs, q) τ = (named g vars τ).bind fun v => (complete q.sum q.sign q.prod v).map fun p => (cs, p) := by
      simp only [eat, hmode]
    rw [key] at h
    obtain ⟨w, hw, h⟩ := Option.bind_eq_some_iff.1 h
    obtain ⟨p, hp', rfl⟩ := Option.map_eq_some_iff.1 h
    refine ⟨a, s0 ++ (sp ++ (signText q.sign ++ [τ])), by simp, ha, ?_⟩
    exact complete_reads hp' h0 hp (.primary (.name hw)) (by simpa using named_name hw)
  | «have» =>
    simp only [hmode] at hq
    obtain ⟨p, hprod, hv⟩ := hq
    by_cases h1 : τ = .times
    · subst h1
      simp only [eat, hmode, hprod] at h
      obtain rfl := Option.some.inj h
      exact ⟨a, s0 ++ (s1 ++ [.times]), by simp, ha, s0, _, rfl, h0, s1 ++ [.times], ⟨s1, hv, rfl⟩, by simp [signText], rfl⟩
    cases cs with
    | nil =>
      exfalso
      simp only [eat, hmode, hprod] at h
      cases τ <;> simp_all
    | cons c cs =>
      obtain ⟨a, b, rfl, ha, c0, cp, rfl, hc0, hcp⟩ := ha
      cases τ <;> try (simp [eat, hmode, hprod] at h; done)
      case times => exact absurd rfl h1
      case plus =>
        simp only [eat, hmode, hprod] at h
        cases hsum : q.sum with
        | some x => simp [hsum] at h
        | none =>
          simp only [hsum] at h h0
          obtain rfl : s0 = [] := h0
          cases hpow : c.isPow with
          | true => simp [hpow] at h
          | false =>
            simp only [hpow, Bool.false_eq_true, if_false] at h
            obtain rfl := Option.some.inj h
            refine ⟨_, s1 ++ [.plus], by simp [hpow], ⟨a, _, rfl, ha, c0, cp, rfl, hc0, hcp⟩, s1 ++ [.plus], [], by simp, ⟨s1, .multiplicative hv, rfl⟩, [], rfl, by simp [signText], rfl⟩
      case minus =>
        simp only [eat, hmode, hprod] at h
        cases hsum : q.sum with
        | some x => simp [hsum] at h
        | none =>
          simp only [hsum] at h h0
          obtain rfl : s0 = [] := h0
          cases hpow : c.isPow with
          | true => simp [hpow] at h
          | false =>
            simp only [hpow, Bool.false_eq_true, if_false] at h
            obtain rfl := Option.some.inj h
            refine ⟨_, s1 ++ [.minus], by simp [hpow], ⟨a, _, rfl, ha, c0, cp, rfl, hc0, hcp⟩, s1 ++ [.minus], [], by simp, ⟨s1, .multiplicative hv, rfl⟩, [], rfl, by simp [signText], rfl⟩
      case rpar =>
        simp only [eat, hmode, hprod] at h
        cases hpow : c.isPow with
        | true => simp [hpow] at h
        | false =>
          simp only [hpow, Bool.false_eq_true, if_false] at h
          cases hsum : q.sum with
          | none =>
            simp only [hsum] at h h0
            obtain rfl : s0 = [] := h0
            obtain rfl := Option.some.inj h
            exact ⟨a, c0 ++ (cp ++ (signText c.sign ++ (.lpar :: s1 ++ [.rpar]))), by simp [hpow], ha, c0, _, rfl, hc0, cp, _, hcp, rfl, .paren (.multiplicative hv), rfl⟩
          | some x =>
            obtain ⟨v, add⟩ := x
            simp only [hsum] at h h0
            obtain ⟨l, hl, rfl⟩ := h0
            obtain ⟨w, hw, h⟩ := Option.bind_eq_some_iff.1 h
            obtain ⟨r, hr, rfl⟩ := Option.map_eq_some_iff.1 h
            refine ⟨a, c0 ++ (cp ++ (signText c.sign ++ (.lpar :: (l ++ (if add then .plus else .minus) :: s1) ++ [.rpar]))), by simp [hpow], ha, ?_⟩
            refine complete_reads hr hc0 hcp (.primary (.paren ?_)) (by simp)
            cases add with
            | true => exact .plus hl hv hw
            | false => exact .minus hl hv hw
      case powClose x =>
        simp only [eat, hmode, hprod] at h
        cases hsum : q.sum with
        | some x => simp [hsum] at h
        | none =>
          cases p with
          | mat A => simp [hsum] at h
          | num y =>
            simp only [hsum] at h h0
            obtain rfl : s0 = [] := h0
            cases hpow : c.isPow with
            | false => simp [hpow] at h
            | true =>
              simp only [hpow, if_true] at h
              obtain ⟨r, hr, rfl⟩ := Option.map_eq_some_iff.1 h
              refine ⟨a, c0 ++ (cp ++ (signText c.sign ++ (.powOpen :: s1 ++ [.powClose x]))), by simp [hpow], ha, ?_⟩
              exact complete_reads hr hc0 hcp (.primary (.pow (.multiplicative hv))) (by simp)

theorem run_reads {s r : List (Tok K)} {st st' : Reader K} (hs : Reads pw g vars s st) (h : run pw (named g vars) st r = some st') :
    Reads pw g vars (s ++ r) st' := by
  induction r generalizing s st with
  | nil =>
    obtain rfl := Option.some.inj h
    simpa using hs
  | cons τ r ih =>
    rw [run_cons] at h
    obtain ⟨x, hx, h⟩ := Option.bind_eq_some_iff.1 h
    have := ih (eat_reads hs hx) h
    simpa using this

/-- A text with a value means it. -/
theorem means_of_value {s : List (Tok K)} {v : Value K} (h : valueOf pw (named g vars) s = some v) : Means pw g vars .additive s v := by
  obtain ⟨st, hst, hv⟩ := Option.bind_eq_some_iff.1 h
  have h0 : Reads pw g vars [] (begin : Reader K) := ⟨[], [], rfl, rfl, [], [], rfl, rfl, [], rfl, rfl, rfl⟩
  have := run_reads h0 hst
  unfold final at hv
  split at hv
  · rename_i p
    obtain rfl := Option.some.inj hv
    obtain ⟨a, b, e, ha, s0, s1, rfl, h0, v, hv, hm⟩ := this
    obtain rfl : a = [] := ha
    obtain rfl : s0 = [] := h0
    obtain rfl : p = v := by simpa using hv
    obtain rfl : s = s1 := by simpa using e
    exact .multiplicative hm
  · exact absurd hv (by simp)

end Verif.Levi.Code
