import Verif.Lemmas.CodeGen11
import Verif.Lemmas.CodeGen12
import Verif.Props.Levi
/- Compiled expressions (C79). -/
set_option linter.unusedSectionVars false
namespace Verif.Levi.Code
open Ex Spec Squeeze Levi.Spec
variable {K : Type} [Field K] [LinearOrder K]

theorem zip_fst_snd {α β : Type} {R : α → β → Prop} {l : List α} {m : List β} (h : List.Forall₂ R l m) :
    (l.zip m).map Prod.fst = l ∧ (l.zip m).map Prod.snd = m ∧ ∀ p ∈ l.zip m, R p.1 p.2 ∧ p.2 ∈ m := by
  induction h with
  | nil => simp
  | cons h _ ih =>
    refine ⟨by simp [ih.1], by simp [ih.2.1], ?_⟩
    intro p hp
    rw [List.zip_cons_cons, List.mem_cons] at hp
    rcases hp with rfl | hp
    · exact ⟨h, by simp⟩
    · exact ⟨(ih.2.2 p hp).1, by simp [(ih.2.2 p hp).2]⟩

/-- **C79** (for printable expressions): the generated function compiles, and what it computes from the values of the generics at the
values `ρ` of the variables are the values of the expressions, and nothing else.  `width` and `u`, on which the names and the helpers
depend, are arbitrary. -/
theorem C79_compiled_partial {cfg : Cfg K} (hs : Sound cfg) (u : Nat → Nat → K) (shown : K → K) (width : Tok K → Nat) (es : List (Ex K))
    (hk : ∀ e ∈ es, Kept (fun _ _ => True) e) (hp : ∀ e ∈ es, Printable shown e) (pw : K → K → K) (ρ : Env K) (As : List (SM K)) :
    Computes pw (genericValues cfg u es pw ρ) (generate cfg u shown width es) As ↔ As = es.map fun e => e.ev pw ρ := by
  have main : Computes pw (genericValues cfg u es pw ρ) (generate cfg u shown width es) (es.map fun e => e.ev pw ρ) := by
    obtain ⟨G, F⟩ := expandExpressions_ok hs u es hk hp
    obtain ⟨z1, z2, z3⟩ := zip_fst_snd F
    have hf : ∀ f ∈ (expandExpressions cfg u es).2, f < (expandExpressions cfg u es).1.n := by
      intro f hf
      rw [← z1] at hf
      obtain ⟨p, hp, rfl⟩ := List.mem_map.1 hf
      exact (z3 p hp).1.1
    obtain ⟨H, C, S⟩ := getLiteralExpression_ok G width (expandExpressions cfg u es).2 hf
    have := program_ok (pw := pw) G ((expandExpressions cfg u es).2.zip es)
      (fun f hf => ⟨(z3 f hf).1.1, (z3 f hf).1.2, hk _ (z3 f hf).2⟩) ρ H C _ (by rw [z1]; exact S)
    have e : (((expandExpressions cfg u es).2.zip es).map fun f => f.2.ev pw ρ) = es.map fun e => e.ev pw ρ := by
      conv_rhs => rw [← z2, List.map_map]
      rfl
    rw [e] at this
    exact this
  exact ⟨fun h => computes_unique h main, by rintro rfl; exact main⟩

/-- **C79** for what was written. -/
theorem C79_written_partial {cfg : Cfg K} (hs : Sound cfg) (u : Nat → Nat → K) (shown : K → K) (width : Tok K → Nat) (es : List (Ex K))
    (hk : ∀ e ∈ es, Written (fun _ _ => True) e) (hp : ∀ e ∈ es, Printable shown (build cfg e)) (pw : K → K → K) (ρ : Env K) (As : List (SM K)) :
    Computes pw (genericValues cfg u (es.map (build cfg)) pw ρ) (generate cfg u shown width (es.map (build cfg))) As ↔
      As = es.map fun e => e.ev pw ρ := by
  have v := fun e (h : e ∈ es) => build_val hs (P := fun _ _ => True) (fun _ _ _ _ _ => trivial) (hk e h)
  rw [C79_compiled_partial hs u shown width _ (by simpa using fun e h => (v e h).1) (by simpa using hp), List.map_map]
  have : es.map ((fun e => e.ev pw ρ) ∘ build cfg) = es.map fun e => e.ev pw ρ := List.map_congr_left fun e h => (v e h).2 pw ρ
  rw [this]

/-! ### A concrete case, and the expressions that are not printable -/

deriving instance DecidableEq for Decl
deriving instance DecidableEq for Out
deriving instance DecidableEq for Program

/-- Two nodes are the same when they are the same variable. -/
def shared : Cfg ℚ := ⟨fun a b => match a, b with | var v, var w => decide (v = w) | _, _ => false, 0⟩

theorem shared_sound : Sound shared := by
  intro a b h
  unfold shared at h
  dsimp only at h
  split at h
  · rw [of_decide_eq_true h]
  · exact absurd h (by simp)

/-- A variable of one component. -/
abbrev number (s : String) : Ex ℚ := var ⟨s, 1⟩
/-- A variable of three components. -/
abbrev vector (s : String) : Ex ℚ := var ⟨s, 3⟩

/-- Values of the numbers. -/
def values (a b c : ℚ) : Env ℚ := fun v _ => if v.name = "a" then a else if v.name = "b" then b else c

theorem number_value (s : String) (pw : ℚ → ℚ → ℚ) (ρ : Env ℚ) : (number s).ev pw ρ = .scalar (ρ ⟨s, 1⟩ 0) := by
  simp only [ev]
  refine SM.of_congr rfl rfl fun i j hi _ => ?_
  have hi : i < 1 := hi
  obtain rfl : i = 0 := by omega
  rfl

/-- Three vectors times a product that is repeated. -/
def repeated : List (Ex ℚ) :=
  let s := mul (number "a") (number "b")
  [mul s (vector "x"), add (mul s (vector "x")) (vector "y"), sub (vector "y") (mul s (vector "z")), transpose (mul s (vector "x"))]

theorem repeated_fine : (∀ e ∈ repeated, Kept (fun _ _ => True) e) ∧ ∀ e ∈ repeated, Printable id e := by
  simp [repeated, Formed, Printable, size, isScalar, rows, cols]

/-- A helper and a common sub-expression are declared and used. -/
theorem repeated_text : generate shared (fun _ _ => 0) id (fun _ => 1) repeated =
    ⟨[⟨.helper 0, true, 1, 1, [.gen 0 true, .times, .gen 1 true]⟩, ⟨.common 0, false, 3, 1, [.helper 0, .times, .gen 2 false]⟩],
     [⟨false, [.common 0]⟩,
      ⟨false, [.lpar, .common 0, .plus, .gen 3 false, .rpar]⟩,
      ⟨false, [.lpar, .gen 3 false, .minus, .helper 0, .times, .gen 4 false, .rpar]⟩,
      ⟨false, [.lpar, .common 0, .rpar, .transpose]⟩]⟩ := by decide +kernel

/-- The hypotheses of `C79_compiled_partial` are met. -/
example (pw : ℚ → ℚ → ℚ) (ρ : Env ℚ) : Computes pw (genericValues shared (fun _ _ => 0) repeated pw ρ)
    (generate shared (fun _ _ => 0) id (fun _ => 1) repeated) (repeated.map fun e => e.ev pw ρ) :=
  (C79_compiled_partial shared_sound _ _ _ _ repeated_fine.1 repeated_fine.2 pw ρ _).2 rfl

/-- What the names of three numbers mean. -/
theorem named_numbers (pw : ℚ → ℚ → ℚ) (vars : Vars ℚ) (x y z : ℚ) :
    Means pw [SM.scalar x, SM.scalar y, SM.scalar z] vars .unary [.gen 0 true] (.num x) ∧
    Means pw [SM.scalar x, SM.scalar y, SM.scalar z] vars .unary [.gen 1 true] (.num y) ∧
    Means pw [SM.scalar x, SM.scalar y, SM.scalar z] vars .unary [.gen 2 true] (.num z) := by
  refine ⟨.«postfix» (.primary (.name ?_)), .«postfix» (.primary (.name ?_)), .«postfix» (.primary (.name ?_))⟩ <;> simp [named]

theorem scalar_mul (x y : ℚ) : SM.mul (.scalar x) (.scalar y) = .scalar (x * y) := by
  rw [SM.mul_scalar_left ⟨rfl, rfl⟩, SM.smul_scalar ⟨rfl, rfl⟩]; simp
theorem scalar_div (x y : ℚ) : SM.div (.scalar x) (.scalar y) = .scalar (x / y) := by
  rw [SM.scalar_eq (A := SM.div (.scalar x) (.scalar y)) ⟨rfl, rfl⟩]; simp [SM.div, SM.of_f]
theorem scalar_neg (x : ℚ) : SM.neg (.scalar x) = .scalar (-x) := by
  rw [SM.scalar_eq (A := SM.neg (.scalar x)) ⟨rfl, rfl⟩]; simp

/-- **Finding.** The quotient `a / (b * c)` is compiled as `a / b * c`. -/
theorem C79_finding_divisor (pw : ℚ → ℚ → ℚ) (a b c : ℚ) :
    let e := div (number "a") (mul (number "b") (number "c"))
    Written (fun _ _ => True) e ∧ e.ev pw (values a b c) = .scalar (a / (b * c)) ∧
      Computes pw (genericValues shared (fun _ _ => 0) [e] pw (values a b c)) (generate shared (fun _ _ => 0) id (fun _ => 1) [e])
        [.scalar (a / b * c)] := by
  intro e
  have hg : genericValues shared (fun _ _ => 0) [e] pw (values a b c) = [.scalar a, .scalar b, .scalar c] := by
    have : genericValues shared (fun _ _ => 0) [e] pw (values a b c) =
      [(number "a").ev pw (values a b c), (number "b").ev pw (values a b c), (number "c").ev pw (values a b c)] := rfl
    rw [this, number_value, number_value, number_value]
    rfl
  have ht : generate shared (fun _ _ => 0) id (fun _ => 1) [e] = ⟨[], [⟨true, [.gen 0 true, .slash, .gen 1 true, .times, .gen 2 true]⟩]⟩ := by
    decide +kernel
  refine ⟨by simp [e, Formed, Levi.Spec.Fits, size, cols, rows], ?_, ?_⟩
  · have : e.ev pw (values a b c) = .div ((number "a").ev pw (values a b c)) (.mul ((number "b").ev pw (values a b c)) ((number "c").ev pw (values a b c))) := rfl
    rw [this, number_value, number_value, number_value, scalar_mul, scalar_div]
    rfl
  · rw [hg, ht]
    obtain ⟨m0, m1, m2⟩ := named_numbers pw (fun _ => none) a b c
    have m := Means.multiplicative (.times (.over (.unary m0) m1 rfl) m2 rfl)
    refine ⟨fun _ => none, .done, .cons ⟨?_, ?_⟩ .nil⟩
    · rw [SM.scalar_f]; exact m
    · rw [SM.scalar_f]

theorem helper_generics (pw : ℚ → ℚ → ℚ) (ρ : Env ℚ) : genericValues shared (fun _ _ => 0)
    [mul (number "a") (number "b"), mul (number "a") (number "b"), mul (div (number "c") (number "a")) (number "b"),
      mul (div (number "c") (number "a")) (number "b")] pw ρ = [(number "a").ev pw ρ, (number "b").ev pw ρ, (number "c").ev pw ρ] := by rfl

/-- **Finding.** A helper is put in place of a text that is not a sub-expression: with the product `a * b` declared as a helper, the text
`c / a * b` of the expression `(c / a) * b` becomes `c / helper`. -/
theorem C79_finding_helper (pw : ℚ → ℚ → ℚ) (a b c : ℚ) :
    let p := mul (number "a") (number "b")
    let q := mul (div (number "c") (number "a")) (number "b")
    let es := [p, p, q, q]
    (∀ e ∈ es, Written (fun _ _ => True) e) ∧
    es.map (fun e => e.ev pw (values a b c)) = [.scalar (a * b), .scalar (a * b), .scalar (c / a * b), .scalar (c / a * b)] ∧
      Computes pw (genericValues shared (fun _ _ => 0) es pw (values a b c)) (generate shared (fun _ _ => 0) id (fun _ => 1) es)
        [.scalar (a * b), .scalar (a * b), .scalar (c / (a * b)), .scalar (c / (a * b))] := by
  intro p q es
  have hg : genericValues shared (fun _ _ => 0) es pw (values a b c) = [.scalar a, .scalar b, .scalar c] := by
    rw [show genericValues shared (fun _ _ => 0) es pw (values a b c) = _ from helper_generics pw (values a b c), number_value, number_value, number_value]
    rfl
  have ht : generate shared (fun _ _ => 0) id (fun _ => 1) es =
      ⟨[⟨.helper 0, true, 1, 1, [.gen 0 true, .times, .gen 1 true]⟩, ⟨.helper 2, true, 1, 1, [.gen 2 true, .slash, .helper 0]⟩],
       [⟨true, [.helper 0]⟩, ⟨true, [.helper 0]⟩, ⟨true, [.helper 2]⟩, ⟨true, [.helper 2]⟩]⟩ := by
    decide +kernel
  refine ⟨by simp [es, p, q, Formed, Levi.Spec.Fits, size, cols, rows], ?_, ?_⟩
  · have h1 : p.ev pw (values a b c) = .mul ((number "a").ev pw (values a b c)) ((number "b").ev pw (values a b c)) := rfl
    have h2 : q.ev pw (values a b c) = .mul (.div ((number "c").ev pw (values a b c)) ((number "a").ev pw (values a b c))) ((number "b").ev pw (values a b c)) := rfl
    simp only [es, List.map_cons, List.map_nil, h1, h2, number_value, scalar_mul, scalar_div]
    rfl
  · rw [hg, ht]
    obtain ⟨m0, m1, -⟩ := named_numbers pw (fun _ => none) a b c
    have p1 := Means.multiplicative (.times (.unary m0) m1 rfl)
    obtain ⟨-, -, n2⟩ := named_numbers pw (Function.update (fun _ => none) (.helper 0) (some (.num (a * b)))) a b c
    have hh : Means pw [.scalar a, .scalar b, .scalar c] (Function.update (fun _ => none) (.helper 0) (some (.num (a * b)))) .unary [.helper 0] (.num (a * b)) :=
      .«postfix» (.primary (.name (by simp [named])))
    have p2 := Means.multiplicative (.over (.unary n2) hh rfl)
    refine ⟨_, .next rfl p1 rfl (.next ?_ p2 rfl .done), ?_⟩
    · simp
    · have name : ∀ k x (vars : Vars ℚ), vars (.helper k) = some (.num x) →
          Stores pw [.scalar a, .scalar b, .scalar c] vars ⟨true, [.helper k]⟩ (.scalar x) := by
        intro k x vars h
        refine ⟨?_, by rw [SM.scalar_f]⟩
        rw [SM.scalar_f]
        exact .multiplicative (.unary (.«postfix» (.primary (.name h))))
      exact .cons (name _ _ _ (by simp)) (.cons (name _ _ _ (by simp)) (.cons (name _ _ _ (by simp)) (.cons (name _ _ _ (by simp)) .nil)))

/-- **Finding.** The opposite of a quotient whose numerator is an opposite is printed with two minus signs one after the other: it does
not compile. -/
theorem C79_finding_signs (pw : ℚ → ℚ → ℚ) (ρ : Env ℚ) :
    let e := negOp (div (negOp (number "a")) (number "b"))
    Written (fun _ _ => True) e ∧
      ¬∃ As, Computes pw (genericValues shared (fun _ _ => 0) [e] pw ρ) (generate shared (fun _ _ => 0) id (fun _ => 1) [e]) As := by
  intro e
  have ht : generate shared (fun _ _ => 0) id (fun _ => 1) [e] = ⟨[], [⟨true, [.sign, .sign, .gen 0 true, .slash, .gen 1 true]⟩]⟩ := by
    decide +kernel
  refine ⟨by simp [e, negOp, Formed, size, cols], ?_⟩
  rintro ⟨As, vars, -, F⟩
  rw [ht] at F
  cases F with
  | cons h _ =>
    have := full_of_means h.1
    simp [fullValue, frun, feat, FPart.fresh] at this

/-- **Finding.** A block of a number does not compile. -/
theorem C79_finding_block (pw : ℚ → ℚ → ℚ) (ρ : Env ℚ) :
    let e := blockOp (number "a") 0 0 1 1
    Written (fun _ _ => True) e ∧
      ¬∃ As, Computes pw (genericValues shared (fun _ _ => 0) [e] pw ρ) (generate shared (fun _ _ => 0) id (fun _ => 1) [e]) As := by
  intro e
  have ht : generate shared (fun _ _ => 0) id (fun _ => 1) [e] =
      ⟨[], [⟨true, [.lpar, .lpar, .gen 0 true, .rpar, .block 1 1 0 0, .rpar, .entry00]⟩]⟩ := by
    decide +kernel
  have hg : genericValues shared (fun _ _ => 0) [e] pw ρ = [(number "a").ev pw ρ] := rfl
  refine ⟨by simp [e, blockOp, isNull, Formed, size, cols, rows], ?_⟩
  rintro ⟨As, vars, -, F⟩
  rw [ht, hg, number_value] at F
  cases F with
  | cons h _ =>
    have := full_of_means h.1
    simp [fullValue, frun, feat, FPart.fresh, FPart.reduceA, FPart.reduceM, FPart.reduceU, named, Value.access, signed] at this

/-- `std::to_string`: six decimals. -/
def sixDecimals (x : ℚ) : ℚ := ⌊x * 10 ^ 6 + 1 / 2⌋ / 10 ^ 6

/-- **Finding.** An exponent is printed with six decimals: the compiled power has exponent 0 when the one written is 1e-7. -/
theorem C79_finding_exponent (pw : ℚ → ℚ → ℚ) (a b c : ℚ) :
    let e := pow (number "a") (1 / 10 ^ 7)
    Written (fun _ _ => True) e ∧ e.ev pw (values a b c) = .scalar (pw a (1 / 10 ^ 7)) ∧
      Computes pw (genericValues shared (fun _ _ => 0) [e] pw (values a b c)) (generate shared (fun _ _ => 0) sixDecimals (fun _ => 1) [e])
        [.scalar (pw a 0)] := by
  intro e
  have ht : generate shared (fun _ _ => 0) sixDecimals (fun _ => 1) [e] = ⟨[], [⟨true, [.powOpen, .gen 0 true, .powClose 0]⟩]⟩ := by
    decide +kernel
  have hg : genericValues shared (fun _ _ => 0) [e] pw (values a b c) = [(number "a").ev pw (values a b c)] := by rfl
  refine ⟨by simp [e, Formed, size], ?_, ?_⟩
  · have : e.ev pw (values a b c) = .scalar (pw (((number "a").ev pw (values a b c)).f 0 0) (1 / 10 ^ 7)) := rfl
    rw [this, number_value, SM.scalar_f]
    rfl
  · rw [hg, ht, number_value]
    have m : Means pw [SM.scalar (values a b c ⟨"a", 1⟩ 0)] (fun _ => none) .unary [.gen 0 true] (.num a) :=
      .«postfix» (.primary (.name (by simp [named, values])))
    have p : Means pw [SM.scalar (values a b c ⟨"a", 1⟩ 0)] (fun _ => none) .additive [.powOpen, .gen 0 true, .powClose 0] (.num (pw a 0)) :=
      .multiplicative (.unary (.«postfix» (.primary (.pow (s := [.gen 0 true]) (.multiplicative (.unary m))))))
    refine ⟨fun _ => none, .done, .cons ⟨?_, ?_⟩ .nil⟩
    · rw [SM.scalar_f]; exact p
    · rw [SM.scalar_f]

end Verif.Levi.Code
