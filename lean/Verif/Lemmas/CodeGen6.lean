import Verif.Lemmas.CodeGen5
/- The texts of the first expansion have the values of the expressions. -/
set_option linter.unusedSectionVars false
set_option linter.unusedSimpArgs false
set_option linter.unusedVariables false
namespace Verif.Levi.Code
open Ex Spec Squeeze Levi.Spec
variable {K : Type} [Field K] [LinearOrder K]
section values
variable {pw : K → K → K} {names : Tok K → Option (Value K)} {l r : List (Tok K)} {a b c : Value K}

theorem complete_none (v : Value K) : complete none false none v = some ⟨none, false, some v, .have⟩ := rfl

theorem begin_run (hl : valueOf pw names l = some a) (outer : List (Ctx K)) :
    run pw names (outer, ⟨none, false, none, .need true⟩) l = some (outer, ⟨none, false, some a, .have⟩) := by
  rw [run_inside pw names outer none false none l a hl true (by simp)]
  rfl

theorem value_times (hl : valueOf pw names l = some a) (hr : valueOf pw names r = some b) (hc : a.mul b = some c) :
    valueOf pw names (l ++ .times :: r) = some c := by
  unfold valueOf
  rw [run_append, begin, begin_run hl, Option.bind_some, run_cons]
  simp only [eat, Option.bind_some]
  rw [run_inside pw names [] none false (some a) r b hr true (by simp)]
  have : complete none false (some a) b = some ⟨none, false, some c, .have⟩ := by simp [complete, join, signed, hc]
  rw [this]
  rfl

theorem value_sum (add : Bool) (hl : valueOf pw names l = some a) (hr : valueOf pw names r = some b) (hc : a.plus add b = some c) :
    valueOf pw names (.lpar :: l ++ (if add then .plus else .minus) :: r ++ [.rpar]) = some c := by
  unfold valueOf
  rw [List.append_assoc, List.cons_append, run_cons]
  simp only [eat, begin, Option.bind_some]
  rw [run_append, begin_run hl, Option.bind_some, List.cons_append, run_cons]
  have : eat pw names ([⟨none, false, none, false⟩], ⟨none, false, some a, .have⟩) (if add then .plus else .minus) =
      some ([⟨none, false, none, false⟩], ⟨some (a, add), false, none, .need true⟩) := by cases add <;> rfl
  rw [this, Option.bind_some, run_append, run_inside pw names _ (some (a, add)) false none r b hr true (by simp)]
  simp only [complete, join, signed, Option.map_some, Option.bind_some]
  rw [run_cons]
  simp [eat, hc, complete, join, signed, run_nil, final]

theorem value_sign (hl : valueOf pw names l = some a) (hh : l.head? ≠ some .sign) : valueOf pw names (.sign :: l) = some a.neg := by
  unfold valueOf
  rw [run_cons]
  simp only [eat, begin, Option.bind_some, if_true]
  rw [run_inside pw names _ none _ none l a hl false (fun _ => hh)]
  simp [complete, join, signed, final]

theorem value_pow {x a : K} (hl : valueOf pw names l = some (.num a)) : valueOf pw names (.powOpen :: l ++ [.powClose x]) = some (.num (pw a x)) := by
  unfold valueOf
  rw [List.cons_append, run_cons]
  simp only [eat, begin, Option.bind_some]
  rw [run_append, begin_run hl, Option.bind_some, run_cons]
  simp [eat, complete, join, signed, run_nil, final]

theorem value_access {τ : Tok K} (hl : valueOf pw names l = some a) (ha : Value.access τ a = some b) :
    valueOf pw names (.lpar :: l ++ [.rpar, τ]) = some b := by
  unfold valueOf
  rw [List.cons_append, run_cons]
  simp only [eat, begin, Option.bind_some]
  rw [run_append, begin_run hl, Option.bind_some, run_cons]
  simp only [eat, Bool.false_eq_true, if_false, Option.bind_some, run_cons, ha]
  simp [complete, join, signed, run_nil, final]

theorem value_name {τ : Tok K} (h : names τ = some a) (h1 : τ ≠ .sign) (h2 : τ ≠ .lpar) (h3 : τ ≠ .powOpen) : valueOf pw names [τ] = some a := by
  unfold valueOf
  rw [run_cons]
  have : eat pw names begin τ = (names τ).bind fun v => (complete none false none v).map fun p => ([], p) := by
    cases τ <;> first | rfl | exact absurd rfl h1 | exact absurd rfl h2 | exact absurd rfl h3
  rw [this, h]
  rfl

theorem value_ne_nil (h : valueOf pw names l = some a) : l ≠ [] := by
  rintro rfl
  simp [valueOf, run_nil, begin, final] at h
end values

/-- Names of declared variables. -/
def IsName : Tok K → Prop
  | .helper _ | .common _ => True
  | .gen _ _ | .lpar | .rpar | .plus | .minus | .times | .slash | .sign | .powOpen | .powClose _ | .transpose | .row _ | .col _ | .entry _ _ | .entry00
  | .block _ _ _ _ => False

section shape
variable {shown : K → K}

theorem compose_generic {e : Ex K} (h : opLeft e = none) (own l r : Lit K) : compose shown e own l r = own := by
  cases e <;> first | rfl | simp [opLeft] at h

theorem compose_congr (e : Ex K) (own l r l' r' : Lit K) (hl : opLeft e ≠ none → l = l') (hr : opRight e ≠ none → r = r') :
    compose shown e own l r = compose shown e own l' r' := by
  by_cases h : opLeft e = none
  · rw [compose_generic h, compose_generic h]
  · rw [hl h]
    by_cases h' : opRight e = none
    · cases e <;> first | rfl | (simp [opRight] at h'; done)
    · rw [hr h']

theorem compose_compressed (e : Ex K) (own l r : Lit K) : (compose shown e own l r).compressed = own.compressed := by
  cases e <;> first | rfl | (simp only [compose]; split_ifs <;> rfl)

theorem wrap_compressed (e : Ex K) (l : Lit K) : (wrap e l).compressed = l.compressed := by
  unfold wrap; split_ifs <;> rfl

theorem wrap_simple (e : Ex K) (l : Lit K) : (wrap e l).simple = l.simple := by
  unfold wrap; split_ifs <;> rfl

theorem opRight_opLeft {e : Ex K} (h : opLeft e = none) : opRight e = none := by
  cases e <;> first | rfl | simp [opLeft] at h

/-- Texts of the same meaning. -/
structure Like (d : Tok K → List (Tok K)) (l l' : Lit K) : Prop where
  text : l.text.flatMap d = l'.text
  isScalar : l.isScalar = l'.isScalar
  simple : l.simple = l'.simple

theorem plain {d : Tok K → List (Tok K)} (hd : ∀ τ, ¬ IsName τ → d τ = [τ]) :
    (d .sign = [.sign] ∧ d .lpar = [.lpar] ∧ d .rpar = [.rpar] ∧ d .plus = [.plus] ∧ d .minus = [.minus] ∧ d .times = [.times] ∧ d .slash = [.slash]) ∧
    (d .powOpen = [.powOpen] ∧ (∀ x, d (.powClose x) = [.powClose x]) ∧ d .transpose = [.transpose] ∧ (∀ i, d (.row i) = [.row i]) ∧
      (∀ j, d (.col j) = [.col j]) ∧ (∀ i j, d (.entry i j) = [.entry i j]) ∧ d .entry00 = [.entry00] ∧ ∀ r c i j, d (.block r c i j) = [.block r c i j]) := by
  refine ⟨⟨?_, ?_, ?_, ?_, ?_, ?_, ?_⟩, ?_, ?_, ?_, ?_, ?_, ?_, ?_, ?_⟩ <;> intros <;> exact hd _ id

theorem compose_like {d : Tok K → List (Tok K)} (hd : ∀ τ, ¬ IsName τ → d τ = [τ]) (e : Ex K) {own l r own' l' r' : Lit K}
    (ho : opLeft e = none → Like d own own') (hl : opLeft e ≠ none → Like d l l') (hr : opRight e ≠ none → Like d r r') :
    Like d (compose shown e own l r) (compose shown e own' l' r') := by
  by_cases h : opLeft e = none
  · rw [compose_generic h, compose_generic h]; exact ho h
  · have L := hl h
    by_cases h' : opRight e = none
    · cases e <;> first | (exact absurd rfl h; done) | (simp [opRight] at h'; done) | skip
      all_goals
        simp only [compose]
        try split_ifs
        all_goals
          constructor <;> simp [L.text, L.isScalar, plain hd]
    · have R := hr h'
      cases e <;> first | (exact absurd rfl h'; done) | skip
      all_goals
        simp only [compose]
        constructor <;> simp [L.text, L.isScalar, R.text, R.isScalar, plain hd]

theorem wrap_like {d : Tok K → List (Tok K)} (hd : ∀ τ, ¬ IsName τ → d τ = [τ]) (e : Ex K) {l l' : Lit K} (L : Like d l l') :
    Like d (wrap e l) (wrap e l') := by
  unfold wrap
  rw [L.isScalar]
  split_ifs
  · constructor <;> simp [L.text, L.simple, plain hd]
  · exact L

theorem compose_names (e : Ex K) (own l r : Lit K) (τ : Tok K) (hn : IsName τ) (h : τ ∈ (compose shown e own l r).text) :
    (opLeft e = none ∧ τ ∈ own.text) ∨ (opLeft e ≠ none ∧ τ ∈ l.text) ∨ (opRight e ≠ none ∧ τ ∈ r.text) := by
  have hp : ∀ σ, ¬ IsName σ → τ ≠ σ := fun σ h e => h (e ▸ hn)
  by_cases hl : opLeft e = none
  · rw [compose_generic hl] at h; exact Or.inl ⟨hl, h⟩
  · by_cases hr : opRight e = none
    · refine Or.inr (Or.inl ⟨hl, ?_⟩)
      cases e <;> first | (exact absurd rfl hl; done) | (simp [opRight] at hr; done) | skip
      all_goals
        simp only [compose] at h
        try split_ifs at h
        all_goals cases τ <;> first | (exact absurd hn id; done) | simpa using h
    · cases e <;> first | (exact absurd rfl hr; done) | skip
      all_goals
        simp only [compose] at h
        cases τ <;> first | (exact absurd hn id; done) | (simp at h; simp [hl, hr, h])

theorem wrap_names (e : Ex K) (l : Lit K) (τ : Tok K) (hn : IsName τ) (h : τ ∈ (wrap e l).text) : τ ∈ l.text := by
  unfold wrap at h
  split_ifs at h
  · cases τ <;> first | (exact absurd hn id; done) | simpa using h
  · exact h

end shape

/-- All the components expanded: each has the text composed from those of its operands, unless it is compressed. -/
theorem expandAll {shown : K → K} {t : Squeeze.Tree K} (G : GoodC shown t) (ls : Nat → Lit K) (k : Nat) (hk : k ≤ t.n) :
    let F := (List.range k).foldl (expandElement shown t) ls
    (∀ i, k ≤ i → F i = ls i) ∧ (∀ i < k, F i = if (ls i).compressed then ls i else
      wrap (t.comp i).e (compose shown (t.comp i).e (ls i) (F (t.comp i).lhs) (F (t.comp i).rhs))) := by
  induction k with
  | zero => exact ⟨fun _ _ => rfl, fun i hi => absurd hi (by omega)⟩
  | succ k ih =>
    obtain ⟨h1, h2⟩ := ih (by omega)
    intro F
    have hF : F = expandElement shown t ((List.range k).foldl (expandElement shown t) ls) k := by
      simp only [F, List.range_succ, List.foldl_append, List.foldl_cons, List.foldl_nil]
    set F0 := (List.range k).foldl (expandElement shown t) ls with hF0
    clear_value F F0
    have hold : ∀ i, i ≠ k → F i = F0 i := by
      intro i hi
      rw [hF]
      unfold expandElement
      split_ifs
      · rfl
      · rw [Function.update_of_ne hi]
    have hops : ∀ i ≤ k, ∀ own, compose shown (t.comp i).e own (F (t.comp i).lhs) (F (t.comp i).rhs) =
        compose shown (t.comp i).e own (F0 (t.comp i).lhs) (F0 (t.comp i).rhs) := by
      intro i hi own
      have FC := G.fine i (by omega)
      apply compose_congr
      · intro h
        obtain ⟨a, ha⟩ := Option.ne_none_iff_exists'.1 h
        exact hold _ (by have := (FC.lhs a ha).1; omega)
      · intro h
        obtain ⟨a, ha⟩ := Option.ne_none_iff_exists'.1 h
        exact hold _ (by have := (FC.rhs a ha).1; omega)
    constructor
    · intro i hi
      rw [hold i (by omega), h1 i (by omega)]
    · intro i hi
      rw [hops i (by omega)]
      by_cases hik : i = k
      · subst hik
        rw [hF]
        unfold expandElement
        rw [h1 i le_rfl]
        split_ifs
        · exact h1 i le_rfl
        · rw [Function.update_self]
      · rw [hold i hik]
        exact h2 i (by omega)

def genStep (t : Squeeze.Tree K) (ls : Nat → Lit K) (k : Nat) : Nat → Lit K :=
  let g := t.generics.getD k 0
  Function.update ls g
    (if (t.comp g).e.rows = 1 ∧ (t.comp g).e.cols = 1 then { ls g with
      text := [.gen k true]
      isScalar := true
      simple := true }
    else { ls g with
      text := [.gen k false]
      isScalar := false })

theorem genericTexts_ok {shown : K → K} {t : Squeeze.Tree K} (G : GoodC shown t) (i : Nat) :
    (genericTexts t i).compressed = false ∧ ∀ k, t.generics[k]? = some i → genericTexts t i =
      if (t.comp i).e.size = (1, 1) then ⟨[.gen k true], true, false, true⟩ else ⟨[.gen k false], false, false, false⟩ := by
  have key : ∀ m ≤ t.generics.length, ∀ i,
      let ls := (List.range m).foldl (genStep t) fun _ => ⟨[], false, false, false⟩
      (ls i).compressed = false ∧ (∀ k < m, t.generics[k]? = some i → ls i =
        if (t.comp i).e.size = (1, 1) then ⟨[.gen k true], true, false, true⟩ else ⟨[.gen k false], false, false, false⟩) ∧
      ((∀ k < m, t.generics[k]? ≠ some i) → ls i = ⟨[], false, false, false⟩) := by
    intro m hm
    induction m with
    | zero => intro i; exact ⟨rfl, fun k hk => absurd hk (by omega), fun _ => rfl⟩
    | succ m ih =>
      intro i ls
      have hls := ih (by omega)
      have e : ls = genStep t ((List.range m).foldl (genStep t) fun _ => ⟨[], false, false, false⟩) m := by
        simp only [ls, List.range_succ, List.foldl_append, List.foldl_cons, List.foldl_nil]
      set ls0 := (List.range m).foldl (genStep t) fun _ => ⟨[], false, false, false⟩ with hls0
      clear_value ls0 ls
      subst e
      have hm' : t.generics[m]? = some (t.generics[m]'(by omega)) := List.getElem?_eq_getElem _
      have hg : t.generics.getD m 0 = t.generics[m]'(by omega) := by simp [List.getD_eq_getElem?_getD, hm']
      by_cases hi : t.generics[m]'(by omega) = i
      · have hfresh : ∀ k < m, t.generics[k]? ≠ some i := by
          intro k hk h
          have : t.generics[k]'(by omega) = t.generics[m]'(by omega) := by
            rw [hi]
            rw [List.getElem?_eq_getElem (by omega)] at h
            exact Option.some.inj h
          have := (List.Nodup.getElem_inj_iff G.nodup).1 this
          omega
        obtain ⟨c0, -, hz⟩ := hls i
        have hz := hz hfresh
        unfold genStep
        rw [hg, hi]
        dsimp only
        rw [Function.update_self, hz]
        refine ⟨?_, ?_, ?_⟩
        · split_ifs <;> rfl
        · intro k hk h
          have : k = m := by
            by_contra hne
            exact hfresh k (by omega) h
          subst this
          by_cases hs : (t.comp i).e.size = (1, 1)
          · rw [if_pos hs, if_pos ⟨by rw [show (t.comp i).e.rows = 1 from congrArg Prod.fst hs], by rw [show (t.comp i).e.cols = 1 from congrArg Prod.snd hs]⟩]
          · rw [if_neg hs, if_neg (fun h => hs (Prod.ext h.1 h.2))]
        · intro h
          exact absurd (by rw [hm', hi]) (h m (by omega))
      · unfold genStep
        rw [hg]
        dsimp only
        rw [Function.update_of_ne (Ne.symm hi)]
        obtain ⟨c0, h1, h2⟩ := hls i
        refine ⟨c0, ?_, ?_⟩
        · intro k hk h
          refine h1 k ?_ h
          by_contra hne
          have : k = m := by omega
          subst this
          rw [hm'] at h
          exact hi (Option.some.inj h)
        · intro h
          exact h2 fun k hk => h k (by omega)
  obtain ⟨a, b, -⟩ := key t.generics.length le_rfl i
  refine ⟨a, fun k hk => b k ?_ hk⟩
  by_contra h
  rw [List.getElem?_eq_none (by omega)] at hk
  exact absurd hk (by simp)

/-- The value of a component: a number when it is 1×1. -/
def valueE (pw : K → K → K) (ρ : Env K) (e : Ex K) : Value K :=
  if e.size = (1, 1) then .num ((e.ev pw ρ).f 0 0) else .mat (e.ev pw ρ)

theorem valueE_same {t : Squeeze.Tree K} {j : Nat} {a : Ex K} (s : SameC t j a) (ha : KeptE a) (pw : K → K → K) (ρ : Env K) :
    valueE pw ρ (t.comp j).e = valueE pw ρ a := by
  unfold valueE
  rw [s.size ha, s.2.1]

end Verif.Levi.Code
