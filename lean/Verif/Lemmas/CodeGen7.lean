import Verif.Lemmas.CodeGen6
/- The texts of the first expansion have the values of the expressions. -/
set_option linter.unusedSectionVars false
set_option linter.unusedSimpArgs false
set_option linter.unusedVariables false
namespace Verif.Levi.Code
open Ex Spec Squeeze Levi.Spec
variable {K : Type} [Field K] [LinearOrder K]
variable {pw : K → K → K} {names : Tok K → Option (Value K)}

/-- A number or a matrix. -/
def asValue (scalar : Bool) (A : SM K) : Value K := if scalar then .num (A.f 0 0) else .mat A

theorem valueE_eq (pw : K → K → K) (ρ : Env K) (e : Ex K) (b : Bool) (h : b = true ↔ e.size = (1, 1)) :
    valueE pw ρ e = asValue b (e.ev pw ρ) := by
  unfold valueE asValue
  cases b
  · rw [if_neg (fun h' => absurd (h.2 h') (by simp))]; rfl
  · rw [if_pos (h.1 rfl)]; rfl

theorem scalar_of {A : SM K} (hr : A.r = 1) (hc : A.c = 1) : A = .scalar (A.f 0 0) := by
  apply of_self hr hc
  intro i j hi hj
  rw [show i = 0 by omega, show j = 0 by omega]

theorem wrap_value (e : Ex K) (l : Lit K) (A : SM K) (hr : A.r = e.rows) (hc : A.c = e.cols)
    (hv : valueOf pw names l.text = some (asValue l.isScalar A)) (hs : l.isScalar = true → e.size = (1, 1)) :
    valueOf pw names (wrap e l).text = some (asValue (wrap e l).isScalar A) ∧ ((wrap e l).isScalar = true ↔ e.size = (1, 1)) := by
  unfold wrap
  by_cases h : (!l.isScalar && decide (e.rows = 1) && decide (e.cols = 1)) = true
  · rw [if_pos h]
    simp at h
    obtain ⟨⟨h1, h2⟩, h3⟩ := h
    refine ⟨?_, ?_⟩
    · rw [h1] at hv
      exact value_access hv (by simp [asValue, Value.access, hr, hc, h2, h3])
    · simp only [true_iff]
      exact Prod.ext h2 h3
  · rw [if_neg h]
    refine ⟨hv, hs, ?_⟩
    intro h'
    simp at h
    by_contra hne
    exact h (by simpa using hne) (congrArg Prod.fst h') (congrArg Prod.snd h')

/-- What is known of the text of an operand. -/
structure Says (pw : K → K → K) (names : Tok K → Option (Value K)) (l : Lit K) (a : Ex K) (A : SM K) : Prop where
  value : valueOf pw names l.text = some (asValue l.isScalar A)
  scalar : l.isScalar = true ↔ a.size = (1, 1)
  r : A.r = a.rows
  c : A.c = a.cols
  sign : l.text.head? = some .sign → leading a = true

theorem Says.one {l : Lit K} {a : Ex K} {A : SM K} (h : Says pw names l a A) (hs : l.isScalar = true) : A.r = 1 ∧ A.c = 1 ∧ A = .scalar (A.f 0 0) := by
  have h1 := h.r; have h2 := h.c
  have := h.scalar.1 hs
  have e1 : a.rows = 1 := congrArg Prod.fst this
  have e2 : a.cols = 1 := congrArg Prod.snd this
  exact ⟨by omega, by omega, scalar_of (by omega) (by omega)⟩

theorem sums (b : Bool) (A B : SM K) (hr : B.r = A.r) (hc : B.c = A.c) (s : Bool) (hs : s = true → A.r = 1 ∧ A.c = 1) :
    (asValue s A).plus b (asValue s B) = some (asValue s (if b then .add A B else .sub A B)) := by
  cases s
  · simp [asValue, Value.plus, hr, hc]
  · obtain ⟨h1, h2⟩ := hs rfl
    cases b <;> simp [asValue, Value.plus, SM.add, SM.sub, SM.of, h1, h2]

theorem says_mul {l r : Lit K} {a b : Ex K} {A B : SM K} (L : Says pw names l a A) (R : Says pw names r b B)
    (h : a.cols = b.rows ∨ a.isScalar = true) :
    (asValue l.isScalar A).mul (asValue r.isScalar B) = some (asValue (l.isScalar && r.isScalar) (.mul A B)) := by
  cases hl : l.isScalar
  · have hne : ¬ a.isScalar = true := by
      intro h'
      have : a.size = (1, 1) := Prod.ext (by simp [isScalar] at h'; exact h'.1) (by simp [isScalar] at h'; exact h'.2)
      rw [← L.scalar, hl] at this
      exact absurd this (by simp)
    have hc : A.c = B.r := by rw [L.c, R.r]; exact h.resolve_right hne
    cases hr : r.isScalar
    · simp [asValue, Value.mul, hc]
    · obtain ⟨h1, h2, h3⟩ := R.one hr
      simp only [asValue, Value.mul, Bool.false_and, Bool.false_eq_true, if_false, if_true]
      rw [SM.mul_scalar_right A ⟨h1, h2⟩]
  · obtain ⟨h1, h2, h3⟩ := L.one hl
    cases hr : r.isScalar
    · simp only [asValue, Value.mul, Bool.and_false, Bool.false_eq_true, if_false, if_true]
      rw [SM.mul_scalar_left ⟨h1, h2⟩]
    · simp only [asValue, Value.mul, Bool.and_self, if_true]
      rw [SM.mul_scalar_left ⟨h1, h2⟩, SM.smul_f]

theorem operand_kept {e a : Ex K} (hk : KeptE e) (h : opLeft e = some a ∨ opRight e = some a) : KeptE a := by
  cases e with
  | const | sparse | null | ident | var | skew | vee | byRows | byCols | mpd | hcat | vcat => simp [opLeft, opRight] at h
  | add x y | sub x y | mul x y | div x y =>
    simp [opLeft, opRight] at h
    rcases h with rfl | rfl
    · exact hk.1
    · exact hk.2.1
  | neg x | transpose x =>
    simp [opLeft, opRight] at h
    subst h
    exact hk
  | pow x _ | row x _ | col x _ | elem x _ _ | block x _ _ _ _ =>
    simp [opLeft, opRight] at h
    subst h
    exact hk.1

/-- The composed text of an operator says what the operator does. -/
theorem compose_says {shown : K → K} (ρ : Env K) (e : Ex K) (hk : KeptE e) (hp : Printable shown e) (hop : opLeft e ≠ none) (own l r : Lit K)
    (hl : ∀ a, opLeft e = some a → Says pw names l a (a.ev pw ρ)) (hr : ∀ a, opRight e = some a → Says pw names r a (a.ev pw ρ)) :
    valueOf pw names (compose shown e own l r).text = some (asValue (compose shown e own l r).isScalar (e.ev pw ρ)) ∧
      ((compose shown e own l r).isScalar = true → e.size = (1, 1)) ∧
      ((compose shown e own l r).text.head? = some .sign → leading e = true) := by
  have access : ∀ (a : Ex K) (τ : Tok K) (w : Value K), opLeft e = some a → a.size ≠ (1, 1) → Value.access τ (.mat (a.ev pw ρ)) = some w →
      valueOf pw names (.lpar :: l.text ++ [.rpar, τ]) = some w := by
    intro a τ w ha hne hw
    have L := hl a ha
    have : l.isScalar = false := by
      cases h : l.isScalar
      · rfl
      · exact absurd (L.scalar.1 h) hne
    have hv := L.value
    rw [this] at hv
    exact value_access hv hw
  cases e with
  | const | sparse | null | ident | var | skew | vee | byRows | byCols | mpd | hcat | vcat => exact absurd rfl hop
  | div a b => exact absurd hp (by simp [Printable])
  | add a b =>
    have L := hl a rfl
    have R := hr b rfl
    have hsz : b.size = a.size := hk.2.2
    have hsc : r.isScalar = l.isScalar := by
      have h1 := L.scalar; have h2 := R.scalar
      rw [hsz, ← h1] at h2
      cases h : l.isScalar <;> cases h' : r.isScalar <;> simp_all
    have hR := R.value
    rw [hsc] at hR
    have hc := sums true (a.ev pw ρ) (b.ev pw ρ) (by rw [L.r, R.r]; exact congrArg Prod.fst hsz) (by rw [L.c, R.c]; exact congrArg Prod.snd hsz)
      l.isScalar (fun h => ⟨(L.one h).1, (L.one h).2.1⟩)
    refine ⟨?_, ?_, ?_⟩
    · have := value_sum true L.value hR hc
      simp only [compose, hsc, Bool.and_self]
      simpa [ev] using this
    · intro h
      simp only [compose, hsc, Bool.and_self] at h
      exact L.scalar.1 h
    · simp [compose]
  | sub a b =>
    have L := hl a rfl
    have R := hr b rfl
    have hsz : b.size = a.size := hk.2.2
    have hsc : r.isScalar = l.isScalar := by
      have h1 := L.scalar; have h2 := R.scalar
      rw [hsz, ← h1] at h2
      cases h : l.isScalar <;> cases h' : r.isScalar <;> simp_all
    have hR := R.value
    rw [hsc] at hR
    have hc := sums false (a.ev pw ρ) (b.ev pw ρ) (by rw [L.r, R.r]; exact congrArg Prod.fst hsz) (by rw [L.c, R.c]; exact congrArg Prod.snd hsz)
      l.isScalar (fun h => ⟨(L.one h).1, (L.one h).2.1⟩)
    refine ⟨?_, ?_, ?_⟩
    · have := value_sum false L.value hR hc
      simp only [compose, hsc, Bool.and_self]
      simpa [ev] using this
    · intro h
      simp only [compose, hsc, Bool.and_self] at h
      exact L.scalar.1 h
    · simp [compose]
  | mul a b =>
    have L := hl a rfl
    have R := hr b rfl
    refine ⟨value_times L.value R.value (says_mul L R hk.2.2), ?_, ?_⟩
    · intro h
      simp only [compose, Bool.and_eq_true] at h
      have h1 := L.scalar.1 h.1
      have h2 := R.scalar.1 h.2
      simp [size, h1, h2]
    · intro h
      have hne := value_ne_nil L.value
      apply L.sign
      simp only [compose] at h
      rwa [List.head?_append_of_ne_nil _ hne] at h
  | neg a =>
    have L := hl a rfl
    refine ⟨?_, fun h => L.scalar.1 h, fun _ => rfl⟩
    have := value_sign L.value (fun h => by have := L.sign h; rw [hp.2] at this; exact absurd this (by simp))
    simp only [compose]
    rw [this]
    cases h : l.isScalar
    · rfl
    · simp [asValue, Value.neg, ev]
  | pow a x =>
    have L := hl a rfl
    have hv := L.value
    rw [L.scalar.2 hk.2.1] at hv
    refine ⟨?_, fun h => rfl, by simp [compose]⟩
    have := value_pow (x := shown x) hv
    rw [hp.2] at this
    simp only [compose, hp.2]
    rw [this]
    simp [asValue, ev]
  | transpose a =>
    refine ⟨?_, by simp [compose], by simp [compose]⟩
    exact access a .transpose _ rfl hp.2 rfl
  | row a i =>
    have L := hl a rfl
    have hi : i < (a.ev pw ρ).r := by rw [L.r]; exact hk.2
    by_cases h1 : (row a i).rows = 1 ∧ (row a i).cols = 1
    · simp only [compose, if_pos h1]
      refine ⟨access a (.entry i 0) _ rfl hp.2 ?_, fun _ => Prod.ext h1.1 h1.2, by simp⟩
      have hc : (a.ev pw ρ).c = 1 := by rw [L.c]; exact h1.2
      simp [Value.access, hi, hc, asValue, ev, SM.row_f]
    · simp only [compose, if_neg h1]
      refine ⟨access a (.row i) _ rfl hp.2 ?_, by simp, by simp⟩
      simp [Value.access, hi, asValue, ev]
  | col a j =>
    have L := hl a rfl
    have hj : j < (a.ev pw ρ).c := by rw [L.c]; exact hk.2
    by_cases h1 : (col a j).rows = 1 ∧ (col a j).cols = 1
    · simp only [compose, if_pos h1]
      refine ⟨access a (.entry 0 j) _ rfl hp.2 ?_, fun _ => Prod.ext h1.1 h1.2, by simp⟩
      have hc : (a.ev pw ρ).r = 1 := by rw [L.r]; exact h1.1
      simp [Value.access, hj, hc, asValue, ev, SM.col_f]
    · simp only [compose, if_neg h1]
      refine ⟨access a (.col j) _ rfl hp.2 ?_, by simp, by simp⟩
      simp [Value.access, hj, asValue, ev]
  | elem a i j =>
    have L := hl a rfl
    refine ⟨access a (.entry i j) _ rfl hp.2 ?_, fun _ => rfl, by simp [compose]⟩
    have hi : i < (a.ev pw ρ).r := by rw [L.r]; exact hk.2.1
    have hj : j < (a.ev pw ρ).c := by rw [L.c]; exact hk.2.2
    simp [Value.access, hi, hj, asValue, ev, SM.elem_f, compose]
  | block a i j r' c' =>
    have L := hl a rfl
    refine ⟨access a (.block r' c' i j) _ rfl hp.2 ?_, by simp [compose], by simp [compose]⟩
    have hi : i + r' ≤ (a.ev pw ρ).r := by rw [L.r]; exact hk.2.2.2.1
    have hj : j + c' ≤ (a.ev pw ρ).c := by rw [L.c]; exact hk.2.2.2.2
    simp [Value.access, hi, hj, asValue, ev, compose]

theorem wrap_sign (e : Ex K) (l : Lit K) (h : (wrap e l).text.head? = some .sign) : l.text.head? = some .sign := by
  unfold wrap at h
  split_ifs at h
  · simp at h
  · exact h

/-- The texts of the first expansion. -/
def firstTexts (shown : K → K) (t : Squeeze.Tree K) : Nat → Lit K := (List.range t.n).foldl (expandElement shown t) (genericTexts t)

theorem first_eq {shown : K → K} {t : Squeeze.Tree K} (G : GoodC shown t) (i : Nat) (hi : i < t.n) : firstTexts shown t i =
    wrap (t.comp i).e (compose shown (t.comp i).e (genericTexts t i) (firstTexts shown t (t.comp i).lhs) (firstTexts shown t (t.comp i).rhs)) := by
  have := (expandAll G (genericTexts t) t.n le_rfl).2 i hi
  rw [(genericTexts_ok G i).1] at this
  simpa [firstTexts] using this

theorem Says.same {l : Lit K} {a b : Ex K} {A : SM K} (h : Says pw names l a A) (hs : a.size = b.size) (hl : leading a = leading b) :
    Says pw names l b A :=
  ⟨h.value, by rw [← hs]; exact h.scalar, by rw [h.r]; exact congrArg Prod.fst hs, by rw [h.c]; exact congrArg Prod.snd hs, by rw [← hl]; exact h.sign⟩

theorem first_says {shown : K → K} {t : Squeeze.Tree K} (G : GoodC shown t) (ρ : Env K) (vars : Vars K) (i : Nat) (hi : i < t.n) :
    Says pw (named (t.generics.map fun g => (t.comp g).e.ev pw ρ) vars) (firstTexts shown t i) (t.comp i).e ((t.comp i).e.ev pw ρ) := by
  induction i using Nat.strong_induction_on with
  | _ i ih =>
    have F := G.fine i hi
    have hd := dimsK F.kept pw ρ
    rw [first_eq G i hi]
    by_cases hop : opLeft (t.comp i).e = none
    · rw [compose_generic hop]
      obtain ⟨k, hk, hki⟩ := List.getElem_of_mem (F.generic.1 hop)
      have hgk : t.generics[k]? = some i := by rw [List.getElem?_eq_getElem hk, hki]
      have e := (genericTexts_ok G i).2 k hgk
      have hpos := pos (Kept.written F.kept)
      have hget : (t.generics.map fun g => (t.comp g).e.ev pw ρ)[k]? = some ((t.comp i).e.ev pw ρ) := by
        rw [List.getElem?_map, hgk]; rfl
      have base : valueOf pw (named (t.generics.map fun g => (t.comp g).e.ev pw ρ) vars) (genericTexts t i).text =
          some (asValue (genericTexts t i).isScalar ((t.comp i).e.ev pw ρ)) ∧ ((genericTexts t i).isScalar = true → (t.comp i).e.size = (1, 1)) ∧
          (genericTexts t i).text.head? ≠ some .sign := by
        rw [e]
        split_ifs with hsz
        · refine ⟨value_name ?_ (by simp) (by simp) (by simp), fun _ => hsz, by simp⟩
          rw [named, hget, Option.bind_some, if_pos (by rw [hd.1, hd.2]; exact hpos)]
          rfl
        · refine ⟨value_name ?_ (by simp) (by simp) (by simp), fun h => absurd h (by simp), by simp⟩
          rw [named, hget]
          rfl
      obtain ⟨b1, b2, b3⟩ := base
      obtain ⟨w1, w2⟩ := wrap_value (t.comp i).e (genericTexts t i) _ hd.1 hd.2 b1 b2
      exact ⟨w1, w2, hd.1, hd.2, fun h => absurd (wrap_sign _ _ h) b3⟩
    · obtain ⟨c1, c2, c3⟩ := compose_says ρ (t.comp i).e F.kept F.printable hop (genericTexts t i) (firstTexts shown t (t.comp i).lhs)
        (firstTexts shown t (t.comp i).rhs) (pw := pw) (names := named (t.generics.map fun g => (t.comp g).e.ev pw ρ) vars) (by
          intro a ha
          obtain ⟨h1, h2⟩ := F.lhs a ha
          have ka : KeptE a := operand_kept F.kept (Or.inl ha)
          have := (ih _ h1 (by omega)).same (h2.size ka) h2.2.2
          rwa [h2.2.1] at this) (by
          intro a ha
          obtain ⟨h1, h2⟩ := F.rhs a ha
          have ka : KeptE a := operand_kept F.kept (Or.inr ha)
          have := (ih _ h1 (by omega)).same (h2.size ka) h2.2.2
          rwa [h2.2.1] at this)
      obtain ⟨w1, w2⟩ := wrap_value (t.comp i).e _ _ hd.1 hd.2 c1 c2
      exact ⟨w1, w2, hd.1, hd.2, fun h => c3 (wrap_sign _ _ h)⟩

theorem first_plain {shown : K → K} {t : Squeeze.Tree K} (G : GoodC shown t) (i : Nat) (hi : i < t.n) (τ : Tok K) (h : τ ∈ (firstTexts shown t i).text) :
    ¬ IsName τ := by
  intro hn
  induction i using Nat.strong_induction_on with
  | _ i ih =>
    have F := G.fine i hi
    rw [first_eq G i hi] at h
    rcases compose_names _ _ _ _ τ hn (wrap_names _ _ τ hn h) with ⟨h1, h2⟩ | ⟨h1, h2⟩ | ⟨h1, h2⟩
    · obtain ⟨k, hk, hki⟩ := List.getElem_of_mem (F.generic.1 h1)
      have e := (genericTexts_ok G i).2 k (by rw [List.getElem?_eq_getElem hk, hki])
      rw [e] at h2
      split_ifs at h2 <;> (simp at h2; subst h2; exact hn)
    · obtain ⟨a, ha⟩ := Option.ne_none_iff_exists'.1 h1
      exact ih _ (F.lhs a ha).1 (by have := (F.lhs a ha).1; omega) h2
    · obtain ⟨a, ha⟩ := Option.ne_none_iff_exists'.1 h1
      exact ih _ (F.rhs a ha).1 (by have := (F.rhs a ha).1; omega) h2

theorem first_uncompressed {shown : K → K} {t : Squeeze.Tree K} (G : GoodC shown t) (i : Nat) : (firstTexts shown t i).compressed = false := by
  by_cases hi : i < t.n
  · rw [first_eq G i hi, wrap_compressed, compose_compressed]
    exact (genericTexts_ok G i).1
  · have := (expandAll G (genericTexts t) t.n le_rfl).1 i (by omega)
    rw [firstTexts, this]
    exact (genericTexts_ok G i).1

end Verif.Levi.Code
