import Verif.Lemmas.CodeGen1
/- Reading a text inside another one. -/
set_option linter.unusedSectionVars false
set_option linter.unusedSimpArgs false
namespace Verif.Levi.Code
open Spec
variable {K : Type} [Field K] [LinearOrder K]
variable (pw : K → K → K) (names : Tok K → Option (Value K)) (outer : List (Ctx K)) (sum : Option (Value K × Bool)) (sign : Bool) (prod : Option (Value K))

theorem lift_nil (p : Part K) : lift outer sum sign prod ([], p) = (liftPart sum sign prod p).map fun p => (outer, p) := rfl
theorem lift_cons (c : Ctx K) (cs : List (Ctx K)) (p : Part K) :
    lift outer sum sign prod (c :: cs, p) = (liftCtxs outer sum sign prod (c :: cs)).map fun cs => (cs, p) := rfl

/-- An operand is complete, in any part. -/
theorem complete_step (cs : List (Ctx K)) (q : Part K) (v : Value K) (p : Part K) (h : complete q.sum q.sign q.prod v = some p) :
    (lift outer sum sign prod (cs, q)).bind (fun st => (complete st.2.sum st.2.sign st.2.prod v).map fun p => (st.1, p)) =
      lift outer sum sign prod (cs, p) := by
  cases cs with
  | nil =>
    rw [lift_nil, lift_nil, ← complete_lift sum q.sum sign prod q v p h, Option.bind_map, Option.map_bind]
    rfl
  | cons c cs =>
    rw [lift_cons, lift_cons, Option.bind_map]
    simp only [Function.comp_def, h, Option.map_some]
    cases liftCtxs outer sum sign prod (c :: cs) <;> rfl

/-- An operand is complete, after a parenthesis. -/
theorem complete_pop (c : Ctx K) (cs : List (Ctx K)) (v : Value K) (p : Part K) (h : complete c.sum c.sign c.prod v = some p) :
    (liftCtxs outer sum sign prod (c :: cs)).bind (fun st => match st with
      | [] => none
      | c :: cs => (complete c.sum c.sign c.prod v).map fun p => (cs, p)) = lift outer sum sign prod (cs, p) := by
  cases cs with
  | nil =>
    rw [lift_nil, ← complete_liftCtx sum sign prod c v p h]
    simp only [liftCtxs, Option.bind_map, Option.map_bind, Function.comp_def]
  | cons d cs =>
    rw [lift_cons]
    simp only [liftCtxs, Option.bind_map, Function.comp_def, h, Option.map_some]
    cases liftCtxs outer sum sign prod (d :: cs) <;> rfl

/-- A parenthesis is closed. -/
theorem close_pop (c : Ctx K) (cs : List (Ctx K)) (v : Value K) :
    (liftCtxs outer sum sign prod (c :: cs)).bind (fun st => match st with
      | [] => none
      | c :: cs => some (cs, (⟨c.sum, c.sign, c.prod, .close v⟩ : Part K))) = lift outer sum sign prod (cs, ⟨c.sum, c.sign, c.prod, .close v⟩) := by
  cases cs with
  | nil =>
    rw [lift_nil]
    obtain ⟨s, b, pr, m⟩ := c
    cases pr with
    | none => rfl
    | some pr =>
      simp only [liftCtxs, liftCtx, liftPart]
      cases join prod (signed sign pr) <;> rfl
  | cons d cs =>
    rw [lift_cons]
    simp only [liftCtxs, Option.bind_map, Function.comp_def]
    cases liftCtxs outer sum sign prod (d :: cs) <;> rfl

/-- The kind of the innermost parenthesis is kept. -/
theorem liftCtxs_head (c : Ctx K) (cs cs' : List (Ctx K)) (h : liftCtxs outer sum sign prod (c :: cs) = some cs') :
    ∃ c' cs'', cs' = c' :: cs'' ∧ c'.isPow = c.isPow := by
  cases cs with
  | nil =>
    simp only [liftCtxs, Option.map_eq_some_iff] at h
    obtain ⟨c', h, rfl⟩ := h
    refine ⟨c', _, rfl, ?_⟩
    unfold liftCtx at h
    cases hp : c.prod <;> simp only [hp] at h
    · rw [← Option.some.inj h]
    · simp only [Option.map_eq_some_iff] at h
      obtain ⟨_, _, rfl⟩ := h
      rfl
  | cons d cs =>
    simp only [liftCtxs, Option.map_eq_some_iff] at h
    obtain ⟨_, _, rfl⟩ := h
    exact ⟨_, _, rfl, rfl⟩

/-- A parenthesis is opened. -/
theorem lift_push (cs : List (Ctx K)) (q : Part K) (b : Bool) (p : Part K) :
    (lift outer sum sign prod (cs, q)).bind (fun st => some (⟨st.2.sum, st.2.sign, st.2.prod, b⟩ :: st.1, p)) =
      lift outer sum sign prod (⟨q.sum, q.sign, q.prod, b⟩ :: cs, p) := by
  cases cs with
  | nil =>
    rw [lift_nil, lift_cons]
    obtain ⟨s, b, pr, m⟩ := q
    cases pr with
    | none => rfl
    | some pr =>
      simp only [liftCtxs, liftCtx, liftPart]
      cases join prod (signed sign pr) <;> rfl
  | cons c cs =>
    rw [lift_cons, lift_cons, liftCtxs, Option.bind_map, Option.map_map]
    simp only [Function.comp_def, Option.map_eq_bind]

/-- The part changes as the lifted part does. -/
theorem lift_part (cs : List (Ctx K)) (q q' : Part K) (f : Part K → Option (Part K)) (hf : f q = some q')
    (hl : cs = [] → (liftPart sum sign prod q).bind f = liftPart sum sign prod q') :
    (lift outer sum sign prod (cs, q)).bind (fun st => (f st.2).map fun p => (st.1, p)) = lift outer sum sign prod (cs, q') := by
  cases cs with
  | nil =>
    rw [lift_nil, lift_nil, ← hl rfl, Option.bind_map, Option.map_bind]
    rfl
  | cons c cs =>
    rw [lift_cons, lift_cons, Option.bind_map]
    simp only [Function.comp_def, hf, Option.map_some]
    cases liftCtxs outer sum sign prod (c :: cs) <;> rfl

theorem lift_mode (cs : List (Ctx K)) (q : Part K) (st : Reader K) (h : lift outer sum sign prod (cs, q) = some st) : st.2.mode = q.mode := by
  cases cs with
  | nil =>
    rw [lift_nil] at h
    obtain ⟨p, hp, rfl⟩ := Option.map_eq_some_iff.1 h
    unfold liftPart at hp
    cases hq : q.prod <;> simp only [hq] at hp
    · rw [← Option.some.inj hp]
    · obtain ⟨_, _, rfl⟩ := Option.map_eq_some_iff.1 hp
      rfl
  | cons c cs =>
    rw [lift_cons] at h
    obtain ⟨p, hp, rfl⟩ := Option.map_eq_some_iff.1 h
    rfl

theorem bind_congr' {α β : Type} {o : Option α} {f g : α → Option β} (h : ∀ a, o = some a → f a = g a) : o.bind f = o.bind g := by
  cases o with
  | none => rfl
  | some a => exact h a rfl

theorem eat_lift (st st' : Reader K) (τ : Tok K) (h : eat pw names st τ = some st') :
    (lift outer sum sign prod st).bind (fun st => eat pw names st τ) = lift outer sum sign prod st' := by
  obtain ⟨cs, q⟩ := st
  have hm := fun st => lift_mode outer sum sign prod cs q st
  cases hmode : q.mode with
  | close v =>
    simp only [eat, hmode] at h
    rw [bind_congr' (g := fun st => (Value.access τ v).bind fun w => (complete st.2.sum st.2.sign st.2.prod w).map fun p => (st.1, p))
      fun st hst => by simp only [eat, (hm st hst).trans hmode]]
    obtain ⟨w, hw, h⟩ := Option.bind_eq_some_iff.1 h
    obtain ⟨p, hp, rfl⟩ := Option.map_eq_some_iff.1 h
    simp only [hw, Option.bind_some]
    exact complete_step outer sum sign prod cs q w p hp
  | need ok =>
    by_cases h1 : τ = .sign
    · subst h1
      simp only [eat, hmode] at h
      cases ok with
      | false => exact absurd h (by simp)
      | true =>
        rw [if_pos rfl] at h
        obtain rfl := Option.some.inj h
        rw [bind_congr' (g := fun st => ((fun q : Part K => some (⟨q.sum, !q.sign, q.prod, .need false⟩ : Part K)) st.2).map fun p => (st.1, p))
          fun st hst => by simp only [eat, (hm st hst).trans hmode]; rfl]
        refine lift_part outer sum sign prod cs q (⟨q.sum, !q.sign, q.prod, .need false⟩ : Part K) (fun q : Part K => some (⟨q.sum, !q.sign, q.prod, .need false⟩ : Part K)) rfl fun _ => ?_
        obtain ⟨s, b, pr, m⟩ := q
        cases pr with
        | none => simp [liftPart]
        | some pr =>
          simp only [liftPart, Option.bind_map, Function.comp_def]
          cases join prod (signed sign pr) <;> rfl
    by_cases h2 : τ = .lpar
    · subst h2
      simp only [eat, hmode] at h
      obtain rfl := Option.some.inj h
      rw [bind_congr' (g := fun st => some (⟨st.2.sum, st.2.sign, st.2.prod, false⟩ :: st.1, ⟨none, false, none, .need true⟩))
        fun st hst => by simp only [eat, (hm st hst).trans hmode]]
      exact lift_push outer sum sign prod cs q false _
    by_cases h3 : τ = .powOpen
    · subst h3
      simp only [eat, hmode] at h
      obtain rfl := Option.some.inj h
      rw [bind_congr' (g := fun st => some (⟨st.2.sum, st.2.sign, st.2.prod, true⟩ :: st.1, ⟨none, false, none, .need true⟩))
        fun st hst => by simp only [eat, (hm st hst).trans hmode]]
      exact lift_push outer sum sign prod cs q true _
    have key : ∀ st : Reader K, st.2.mode = .need ok →
        eat pw names st τ = (names τ).bind fun v => (complete st.2.sum st.2.sign st.2.prod v).map fun p => (st.1, p) := by
      intro st hst
      simp only [eat, hst]
    rw [key (cs, q) hmode] at h
    rw [bind_congr' (g := fun st => (names τ).bind fun v => (complete st.2.sum st.2.sign st.2.prod v).map fun p => (st.1, p))
      fun st hst => key st ((hm st hst).trans hmode)]
    obtain ⟨w, hw, h⟩ := Option.bind_eq_some_iff.1 h
    obtain ⟨p, hp, rfl⟩ := Option.map_eq_some_iff.1 h
    simp only [hw, Option.bind_some]
    exact complete_step outer sum sign prod cs q w p hp
  | «have» =>
    cases hprod : q.prod with
    | none => simp [eat, hmode, hprod] at h
    | some p =>
      by_cases h1 : τ = .times
      · subst h1
        simp only [eat, hmode, hprod] at h
        obtain rfl := Option.some.inj h
        rw [bind_congr' (g := fun st => ((fun q : Part K => q.prod.map fun p => (⟨q.sum, false, some p, .need true⟩ : Part K)) st.2).map fun p => (st.1, p))
          fun st hst => by
            simp only [eat, (hm st hst).trans hmode]
            cases st.2.prod <;> rfl]
        refine lift_part outer sum sign prod cs q (⟨q.sum, false, some p, .need true⟩ : Part K) (fun q : Part K => q.prod.map fun p => (⟨q.sum, false, some p, .need true⟩ : Part K)) (by rw [hprod]; rfl) fun _ => ?_
        simp only [liftPart, hprod, Option.bind_map, Function.comp_def]
        cases join prod (signed sign p) <;> rfl
      cases cs with
      | nil =>
        exfalso
        simp only [eat, hmode, hprod] at h
        cases τ <;> simp_all
      | cons c cs =>
        have hpart : ∀ st, lift outer sum sign prod (c :: cs, q) = some st → st.2 = q := by
          intro st hst
          rw [lift_cons] at hst
          obtain ⟨_, _, rfl⟩ := Option.map_eq_some_iff.1 hst
          rfl
        cases τ <;> try (simp [eat, hmode, hprod] at h; done)
        case times => exact absurd rfl h1
        case plus =>
          simp only [eat, hmode, hprod] at h
          cases hsum : q.sum with
          | some x => simp [hsum] at h
          | none =>
            simp only [hsum] at h
            cases hpow : c.isPow with
            | true => simp [hpow] at h
            | false =>
              simp only [hpow, Bool.false_eq_true, if_false] at h
              obtain rfl := Option.some.inj h
              rw [lift_cons, lift_cons, Option.bind_map]
              refine (bind_congr' fun cs' hcs => ?_).trans Option.map_eq_bind.symm
              obtain ⟨c', cs'', rfl, hp'⟩ := liftCtxs_head outer sum sign prod c cs cs' hcs
              simp only [Function.comp_def, eat, hmode, hprod, hsum, hp', hpow, Bool.false_eq_true, if_false]
        case minus =>
          simp only [eat, hmode, hprod] at h
          cases hsum : q.sum with
          | some x => simp [hsum] at h
          | none =>
            simp only [hsum] at h
            cases hpow : c.isPow with
            | true => simp [hpow] at h
            | false =>
              simp only [hpow, Bool.false_eq_true, if_false] at h
              obtain rfl := Option.some.inj h
              rw [lift_cons, lift_cons, Option.bind_map]
              refine (bind_congr' fun cs' hcs => ?_).trans Option.map_eq_bind.symm
              obtain ⟨c', cs'', rfl, hp'⟩ := liftCtxs_head outer sum sign prod c cs cs' hcs
              simp only [Function.comp_def, eat, hmode, hprod, hsum, hp', hpow, Bool.false_eq_true, if_false]
        case rpar =>
          simp only [eat, hmode, hprod] at h
          cases hpow : c.isPow with
          | true => simp [hpow] at h
          | false =>
            simp only [hpow, Bool.false_eq_true, if_false] at h
            rw [lift_cons, Option.bind_map]
            cases hsum : q.sum with
            | none =>
              simp only [hsum] at h
              obtain rfl := Option.some.inj h
              rw [← close_pop outer sum sign prod c cs p]
              refine bind_congr' fun cs' hcs => ?_
              obtain ⟨c', cs'', rfl, hp'⟩ := liftCtxs_head outer sum sign prod c cs cs' hcs
              simp only [Function.comp_def, eat, hmode, hprod, hsum, hp', hpow, Bool.false_eq_true, if_false]
            | some x =>
              obtain ⟨v, add⟩ := x
              simp only [hsum] at h
              obtain ⟨w, hw, h⟩ := Option.bind_eq_some_iff.1 h
              obtain ⟨r, hr, rfl⟩ := Option.map_eq_some_iff.1 h
              rw [← complete_pop outer sum sign prod c cs w r hr]
              refine bind_congr' fun cs' hcs => ?_
              obtain ⟨c', cs'', rfl, hp'⟩ := liftCtxs_head outer sum sign prod c cs cs' hcs
              simp only [Function.comp_def, eat, hmode, hprod, hsum, hp', hpow, Bool.false_eq_true, if_false, hw, Option.bind_some]
        case powClose x =>
          simp only [eat, hmode, hprod] at h
          cases hsum : q.sum with
          | some x => simp [hsum] at h
          | none =>
            cases p with
            | mat A => simp [hsum] at h
            | num a =>
              simp only [hsum] at h
              cases hpow : c.isPow with
              | false => simp [hpow] at h
              | true =>
                simp only [hpow, if_true] at h
                obtain ⟨r, hr, rfl⟩ := Option.map_eq_some_iff.1 h
                rw [lift_cons, Option.bind_map, ← complete_pop outer sum sign prod c cs _ r hr]
                refine bind_congr' fun cs' hcs => ?_
                obtain ⟨c', cs'', rfl, hp'⟩ := liftCtxs_head outer sum sign prod c cs cs' hcs
                simp only [Function.comp_def, eat, hmode, hprod, hsum, hp', hpow, if_true]

theorem run_lift (s : List (Tok K)) (st st' : Reader K) (h : run pw names st s = some st') :
    (lift outer sum sign prod st).bind (fun st => run pw names st s) = lift outer sum sign prod st' := by
  induction s generalizing st with
  | nil =>
    obtain rfl := Option.some.inj h
    simp [run_nil]
  | cons τ s ih =>
    rw [run_cons] at h
    obtain ⟨x, hx, h⟩ := Option.bind_eq_some_iff.1 h
    rw [← ih x h, ← eat_lift pw names outer sum sign prod st x τ hx, Option.bind_assoc]
    simp only [run_cons]

/-- A text with a value, read where an operand is expected, is an operand with that value. -/
theorem run_inside (s : List (Tok K)) (v : Value K) (h : valueOf pw names s = some v) (ok : Bool) (hok : ok = false → s.head? ≠ some .sign) :
    run pw names (outer, ⟨sum, sign, prod, .need ok⟩) s = (complete sum sign prod v).map fun p => (outer, p) := by
  obtain ⟨st, hst, hv⟩ := Option.bind_eq_some_iff.1 h
  have key := run_lift pw names outer sum sign prod s begin st hst
  have e : lift outer sum sign prod begin = some (outer, ⟨sum, sign, prod, .need true⟩) := by
    simp [lift, begin, liftPart]
  rw [e, Option.bind_some] at key
  have hfin : lift outer sum sign prod st = (complete sum sign prod v).map fun p => (outer, p) := by
    unfold final at hv
    split at hv
    · rename_i p
      obtain rfl := Option.some.inj hv
      simp [lift, liftPart, complete]
    · exact absurd hv (by simp)
  rw [hfin] at key
  cases ok with
  | true => exact key
  | false =>
    rw [← key]
    cases s with
    | nil =>
      obtain rfl := Option.some.inj hst
      simp [final, begin] at hv
    | cons τ s =>
      rw [run_cons, run_cons]
      have : τ ≠ .sign := fun h => hok rfl (by simp [h])
      congr 1
      cases τ <;> first | rfl | exact absurd rfl this

end Verif.Levi.Code
