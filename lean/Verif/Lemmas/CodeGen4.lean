import Verif.Lemmas.CodeGen3
/- Names instead of texts: a text with names has the value of the text in which the names are replaced by what they stand for. -/
set_option linter.unusedSectionVars false
set_option linter.unusedSimpArgs false
namespace Verif.Levi.Code
open Spec
variable {K : Type} [Field K] [LinearOrder K]
variable {pw : K → K → K} {g : List (SM K)} {vars vars' : Vars K}

/-- What can start an operand is refused elsewhere. -/
theorem start_refused {st : Reader K} {τ : Tok K} (h : eat pw (named g vars) begin τ ≠ none) (hm : ∀ ok, st.2.mode ≠ .need ok) :
    eat pw (named g vars) st τ = none := by
  cases hmode : st.2.mode with
  | need ok => exact absurd hmode (hm ok)
  | close v =>
    simp only [eat, hmode]
    cases τ <;> first | rfl | (exfalso; apply h; simp [eat, begin, named]; done) | simp [Value.access]
  | «have» =>
    cases hp : st.2.prod with
    | none => simp [eat, hmode, hp]
    | some p =>
      simp only [eat, hmode, hp]
      cases τ <;> first | rfl | (exfalso; apply h; simp [eat, begin, named]; done)

theorem eat_vars {st : Reader K} {τ : Tok K} (h : named g vars' τ = named g vars τ) : eat pw (named g vars') st τ = eat pw (named g vars) st τ := by
  unfold eat
  cases st.2.mode with
  | need ok => cases τ <;> simp_all
  | close v => rfl
  | «have» => rfl

theorem run_unfold (d : Tok K → List (Tok K)) (s : List (Tok K))
    (hd : ∀ τ ∈ s, (d τ = [τ] ∧ named g vars' τ = named g vars τ) ∨
      ∃ v, valueOf pw (named g vars) (d τ) = some v ∧ named g vars' τ = some v) (st st' : Reader K)
    (h : run pw (named g vars) st (s.flatMap d) = some st') : run pw (named g vars') st s = some st' := by
  induction s generalizing st with
  | nil => exact h
  | cons τ s ih =>
    rw [List.flatMap_cons, run_append] at h
    obtain ⟨x, hx, h⟩ := Option.bind_eq_some_iff.1 h
    rw [run_cons]
    have hrest := ih (fun τ hτ => hd τ (List.mem_cons_of_mem _ hτ)) x h
    suffices hs : eat pw (named g vars') st τ = some x by rw [hs]; exact hrest
    rcases hd τ List.mem_cons_self with ⟨h1, h2⟩ | ⟨v, hv, hn⟩
    · rw [h1, run_cons] at hx
      obtain ⟨y, hy, hx⟩ := Option.bind_eq_some_iff.1 hx
      obtain rfl := Option.some.inj hx
      rw [eat_vars h2, hy]
    · obtain ⟨cs, q⟩ := st
      cases hmode : q.mode with
      | need ok =>
        have hok : ok = false → (d τ).head? ≠ some .sign := by
          rintro rfl hh
          obtain ⟨y, hy⟩ : ∃ y, d τ = .sign :: y := by
            cases hdt : d τ with
            | nil => simp [hdt] at hh
            | cons y l => simp [hdt] at hh; exact ⟨l, by rw [hh]⟩
          rw [hy, run_cons] at hx
          simp [eat, hmode] at hx
        obtain ⟨qs, qb, qp, qm⟩ := q
        simp only at hmode
        subst hmode
        rw [run_inside pw (named g vars) cs qs qb qp (d τ) v hv ok hok] at hx
        rw [← hx]
        have hne : τ ≠ .sign ∧ τ ≠ .lpar ∧ τ ≠ .powOpen := by
          refine ⟨?_, ?_, ?_⟩ <;> (rintro rfl; simp [named] at hn)
        have : eat pw (named g vars') (cs, ⟨qs, qb, qp, .need ok⟩) τ =
            (named g vars' τ).bind fun v => (complete qs qb qp v).map fun p => (cs, p) := by
          cases τ <;> first | rfl | exact absurd rfl hne.1 | exact absurd rfl hne.2.1 | exact absurd rfl hne.2.2
        rw [this, hn]
        rfl
      | close w =>
        exfalso
        cases hdt : d τ with
        | nil => rw [hdt] at hv; simp [valueOf, run_nil, begin, final] at hv
        | cons y l =>
          rw [hdt] at hv hx
          obtain ⟨z, hz, -⟩ := Option.bind_eq_some_iff.1 hv
          rw [run_cons] at hz hx
          obtain ⟨z', hz', -⟩ := Option.bind_eq_some_iff.1 hz
          rw [start_refused (st := (cs, q)) (by rw [hz']; simp) (by intro ok; rw [hmode]; simp)] at hx
          simp at hx
      | «have» =>
        exfalso
        cases hdt : d τ with
        | nil => rw [hdt] at hv; simp [valueOf, run_nil, begin, final] at hv
        | cons y l =>
          rw [hdt] at hv hx
          obtain ⟨z, hz, -⟩ := Option.bind_eq_some_iff.1 hv
          rw [run_cons] at hz hx
          obtain ⟨z', hz', -⟩ := Option.bind_eq_some_iff.1 hz
          rw [start_refused (st := (cs, q)) (by rw [hz']; simp) (by intro ok; rw [hmode]; simp)] at hx
          simp at hx

theorem value_unfold (d : Tok K → List (Tok K)) (s : List (Tok K))
    (hd : ∀ τ ∈ s, (d τ = [τ] ∧ named g vars' τ = named g vars τ) ∨
      ∃ v, valueOf pw (named g vars) (d τ) = some v ∧ named g vars' τ = some v) (v : Value K)
    (h : valueOf pw (named g vars) (s.flatMap d) = some v) : valueOf pw (named g vars') s = some v := by
  obtain ⟨st, hst, hv⟩ := Option.bind_eq_some_iff.1 h
  unfold valueOf
  rw [run_unfold d s hd begin st hst]
  exact hv

end Verif.Levi.Code
