import Verif.Spec.EqualExpr
import Verif.Props.SqueezeFollow
/- C106: comparing expressions. -/
set_option linter.unusedSectionVars false
set_option linter.unusedSimpArgs false
namespace Verif.Levi
open Ex Spec
variable {K : Type} [Field K] [LinearOrder K]

/-- `operator==` answers whether the expressions are written in the same way. -/
theorem C106_equal_iff_same_form (cfg : Cfg K) (a b : Ex K) : a.eqv cfg b = true ↔ SameForm cfg.same a b := by
  constructor
  · intro h
    induction a generalizing b with
    | const | sparse | var | skew | vee | byRows | byCols | mpd => exact .shared h
    | null r c =>
      simp only [eqv, Bool.or_eq_true] at h
      rcases h with h | h
      · exact .shared h
      · split at h
        · simp only [Bool.and_eq_true, beq_iff_eq] at h
          obtain ⟨rfl, rfl⟩ := h
          exact .null
        · cases h
    | ident n =>
      simp only [eqv, Bool.or_eq_true] at h
      rcases h with h | h
      · exact .shared h
      · split at h
        · simp only [beq_iff_eq] at h
          subst h
          exact .ident
        · cases h
    | add a b iha ihb =>
      simp only [eqv, Bool.or_eq_true] at h
      rcases h with h | h
      · exact .shared h
      · split at h
        · simp only [Bool.or_eq_true, Bool.and_eq_true] at h
          rcases h with h | h
          · exact .add (iha _ h.1) (ihb _ h.2)
          · exact .swapped (iha _ h.1) (ihb _ h.2)
        · cases h
    | sub a b iha ihb | mul a b iha ihb | div a b iha ihb | hcat a b iha ihb | vcat a b iha ihb =>
      simp only [eqv, Bool.or_eq_true] at h
      rcases h with h | h
      · exact .shared h
      · split at h
        · simp only [Bool.and_eq_true] at h
          first
          | exact .sub (iha _ h.1) (ihb _ h.2)
          | exact .mul (iha _ h.1) (ihb _ h.2)
          | exact .div (iha _ h.1) (ihb _ h.2)
          | exact .hcat (iha _ h.1) (ihb _ h.2)
          | exact .vcat (iha _ h.1) (ihb _ h.2)
        · cases h
    | neg a iha =>
      simp only [eqv, Bool.or_eq_true] at h
      rcases h with h | h
      · exact .shared h
      · split at h
        · exact .neg (iha _ h)
        · cases h
    | transpose a iha =>
      simp only [eqv, Bool.or_eq_true] at h
      rcases h with h | h
      · exact .shared h
      · split at h
        · exact .transpose (iha _ h)
        · cases h
    | pow a e iha =>
      simp only [eqv, Bool.or_eq_true] at h
      rcases h with h | h
      · exact .shared h
      · split at h
        · simp only [Bool.and_eq_true, decide_eq_true_eq] at h
          obtain ⟨h, rfl⟩ := h
          exact .pow (iha _ h)
        · cases h
    | row a i iha =>
      simp only [eqv, Bool.or_eq_true] at h
      rcases h with h | h
      · exact .shared h
      · split at h
        · simp only [Bool.and_eq_true, beq_iff_eq] at h
          obtain ⟨h, rfl⟩ := h
          exact .row (iha _ h)
        · cases h
    | col a i iha =>
      simp only [eqv, Bool.or_eq_true] at h
      rcases h with h | h
      · exact .shared h
      · split at h
        · simp only [Bool.and_eq_true, beq_iff_eq] at h
          obtain ⟨h, rfl⟩ := h
          exact .col (iha _ h)
        · cases h
    | elem a i j iha =>
      simp only [eqv, Bool.or_eq_true] at h
      rcases h with h | h
      · exact .shared h
      · split at h
        · simp only [Bool.and_eq_true, beq_iff_eq] at h
          obtain ⟨⟨h, rfl⟩, rfl⟩ := h
          exact .elem (iha _ h)
        · cases h
    | block a i j r c iha =>
      simp only [eqv, Bool.or_eq_true] at h
      rcases h with h | h
      · exact .shared h
      · split at h
        · simp only [Bool.and_eq_true, beq_iff_eq] at h
          obtain ⟨⟨⟨⟨h, rfl⟩, rfl⟩, rfl⟩, rfl⟩ := h
          exact .block (iha _ h)
        · cases h
  · intro h
    induction h with
    | @shared a b h => cases a <;> simp [eqv, h]
    | _ => simp [eqv, *]

/-- Expressions that compare equal have the same size, the same value whatever the values of the variables, and depend on the same variables. -/
theorem C106_equal_means_same_value {cfg : Cfg K} (hs : Sound cfg) {e e' : Ex K} (h : Written (fun _ _ => True) e) (h' : Written (fun _ _ => True) e')
    (heq : (build cfg e).eqv cfg (build cfg e') = true) :
    e.size = e'.size ∧ (∀ (pw : K → K → K) (ρ : Env K), e.ev pw ρ = e'.ev pw ρ) ∧ ∀ v, (build cfg e).dep v = (build cfg e').dep v := by
  have v := build_val hs (P := fun _ _ => True) (fun _ _ _ _ _ => trivial) h
  have v' := build_val hs (P := fun _ _ => True) (fun _ _ _ _ _ => trivial) h'
  have he : ∀ (pw : K → K → K) (ρ : Env K), e.ev pw ρ = e'.ev pw ρ := fun pw ρ => by
    exact (v.2 pw ρ).symm.trans ((eqv_sound hs v.1 v'.1 heq pw ρ).trans (v'.2 pw ρ))
  refine ⟨?_, he, fun w => Squeeze.eqv_dep hs w heq⟩
  rw [← size_of_ev v.1 h v.2]
  exact size_of_ev v.1 h' fun pw ρ => (v.2 pw ρ).trans (he pw ρ)

/-- The same for their derivatives, at any point where both expressions are well formed. -/
theorem C106_equal_means_same_derivatives {cfg : Cfg ℝ} (hs : Sound cfg) {e e' : Ex ℝ} (ρ : Env ℝ) (h : Written (PowOk ρ) e) (h' : Written (PowOk ρ) e')
    (heq : (build cfg e).eqv cfg (build cfg e') = true) (c : Nat) (hc : c < e.cols) (v : Var) (n n' : Nat) (d d' : Ex ℝ)
    (hd : D cfg n (build cfg e) c v = some d) (hd' : D cfg n' (build cfg e') c v = some d') :
    ∀ i j, i < e.rows → j < v.dim → (d.ev rpow ρ).f i j = (d'.ev rpow ρ).f i j := by
  have k := build_val hs (fun a a' α => PowOk.transfer a a' α) h
  have k' := build_val hs (fun a a' α => PowOk.transfer a a' α) h'
  have sz := size_of_ev k.1 h k.2
  have sz' := size_of_ev k'.1 h' k'.2
  have he : ∀ pw σ, (build cfg e).ev pw σ = (build cfg e').ev pw σ := fun pw σ => eqv_sound hs k.1 k'.1 heq pw σ
  have ss : (build cfg e).size = (build cfg e').size := (size_of_ev k.1 h' fun pw σ => (he pw σ).trans (k'.2 pw σ)).trans sz'.symm
  intro i j hi hj
  have hv : 0 < v.dim := by omega
  have c1 := (C25_column_derivatives_exist_and_are_true hs e {ρ} (by intro σ hσ; rw [Set.mem_singleton_iff.1 hσ]; exact h) ⟨ρ, rfl⟩ Obtained.built c
    (by rw [cols, sz]; exact hc) v hv).2 n d hd ρ rfl
  have c2 := (C25_column_derivatives_exist_and_are_true hs e' {ρ} (by intro σ hσ; rw [Set.mem_singleton_iff.1 hσ]; exact h') ⟨ρ, rfl⟩ Obtained.built c
    (by rw [cols, ← ss, sz]; exact hc) v hv).2 n' d' hd' ρ rfl
  have h1 := c1.deriv i j (by rw [rows, sz]; exact hi) hj
  have h2 := c2.deriv i j (by rw [rows, ← ss, sz]; exact hi) hj
  simp only [he] at h1
  exact h1.unique h2

/-- An expression compares equal to one written again in the same way, when what is compared by address (variables, constants, ...) is shared. -/
theorem C106_written_again {cfg : Cfg K} {a : Ex K} (h : ∀ x ∈ byAddress a, cfg.same x x = true) : a.eqv cfg a = true := by
  rw [C106_equal_iff_same_form]
  induction a with
  | null => exact .null
  | ident => exact .ident
  | const | sparse | var | skew | vee | byRows | byCols | mpd => exact .shared (h _ (by simp [byAddress]))
  | add a b iha ihb => exact .add (iha fun x hx => h x (by simp [byAddress, hx])) (ihb fun x hx => h x (by simp [byAddress, hx]))
  | sub a b iha ihb => exact .sub (iha fun x hx => h x (by simp [byAddress, hx])) (ihb fun x hx => h x (by simp [byAddress, hx]))
  | mul a b iha ihb => exact .mul (iha fun x hx => h x (by simp [byAddress, hx])) (ihb fun x hx => h x (by simp [byAddress, hx]))
  | div a b iha ihb => exact .div (iha fun x hx => h x (by simp [byAddress, hx])) (ihb fun x hx => h x (by simp [byAddress, hx]))
  | hcat a b iha ihb => exact .hcat (iha fun x hx => h x (by simp [byAddress, hx])) (ihb fun x hx => h x (by simp [byAddress, hx]))
  | vcat a b iha ihb => exact .vcat (iha fun x hx => h x (by simp [byAddress, hx])) (ihb fun x hx => h x (by simp [byAddress, hx]))
  | neg a iha => exact .neg (iha h)
  | transpose a iha => exact .transpose (iha h)
  | pow a e iha => exact .pow (iha h)
  | row a i iha => exact .row (iha h)
  | col a i iha => exact .col (iha h)
  | elem a i j iha => exact .elem (iha h)
  | block a i j r c iha => exact .block (iha h)

/-- The order of the addends does not matter. -/
theorem C106_sums_commute {cfg : Cfg K} {a b : Ex K} (ha : ∀ x ∈ byAddress a, cfg.same x x = true) (hb : ∀ x ∈ byAddress b, cfg.same x x = true) :
    (add a b).eqv cfg (add b a) = true := by
  rw [C106_equal_iff_same_form]
  exact .swapped ((C106_equal_iff_same_form cfg a a).1 (C106_written_again ha)) ((C106_equal_iff_same_form cfg b b).1 (C106_written_again hb))

theorem C106_symmetric {cfg : Cfg K} (hy : ∀ x y, cfg.same x y = true → cfg.same y x = true) {a b : Ex K} (h : a.eqv cfg b = true) : b.eqv cfg a = true := by
  rw [C106_equal_iff_same_form] at h ⊢
  induction h with
  | shared h => exact .shared (hy _ _ h)
  | null => exact .null
  | ident => exact .ident
  | add _ _ h1 h2 => exact .add h1 h2
  | swapped _ _ h1 h2 => exact .swapped h2 h1
  | sub _ _ h1 h2 => exact .sub h1 h2
  | mul _ _ h1 h2 => exact .mul h1 h2
  | div _ _ h1 h2 => exact .div h1 h2
  | hcat _ _ h1 h2 => exact .hcat h1 h2
  | vcat _ _ h1 h2 => exact .vcat h1 h2
  | neg _ h => exact .neg h
  | transpose _ h => exact .transpose h
  | pow _ h => exact .pow h
  | row _ h => exact .row h
  | col _ h => exact .col h
  | elem _ h => exact .elem h
  | block _ h => exact .block h

theorem C106_transitive {cfg : Cfg K} (hs : Sound cfg) {a b c : Ex K} (h : a.eqv cfg b = true) (h' : b.eqv cfg c = true) : a.eqv cfg c = true := by
  rw [C106_equal_iff_same_form] at h h' ⊢
  induction h generalizing c with
  | shared h => rw [hs _ _ h]; exact h'
  | null => exact h'
  | ident => exact h'
  | add g1 g2 h1 h2 =>
    cases h' with
    | shared h' => rw [← hs _ _ h']; exact .add g1 g2
    | add k1 k2 => exact .add (h1 k1) (h2 k2)
    | swapped k1 k2 => exact .swapped (h1 k1) (h2 k2)
  | swapped g1 g2 h1 h2 =>
    cases h' with
    | shared h' => rw [← hs _ _ h']; exact .swapped g1 g2
    | add k1 k2 => exact .swapped (h1 k2) (h2 k1)
    | swapped k1 k2 => exact .add (h1 k2) (h2 k1)
  | sub g1 g2 h1 h2 =>
    cases h' with
    | shared h' => rw [← hs _ _ h']; exact .sub g1 g2
    | sub k1 k2 => exact .sub (h1 k1) (h2 k2)
  | mul g1 g2 h1 h2 =>
    cases h' with
    | shared h' => rw [← hs _ _ h']; exact .mul g1 g2
    | mul k1 k2 => exact .mul (h1 k1) (h2 k2)
  | div g1 g2 h1 h2 =>
    cases h' with
    | shared h' => rw [← hs _ _ h']; exact .div g1 g2
    | div k1 k2 => exact .div (h1 k1) (h2 k2)
  | hcat g1 g2 h1 h2 =>
    cases h' with
    | shared h' => rw [← hs _ _ h']; exact .hcat g1 g2
    | hcat k1 k2 => exact .hcat (h1 k1) (h2 k2)
  | vcat g1 g2 h1 h2 =>
    cases h' with
    | shared h' => rw [← hs _ _ h']; exact .vcat g1 g2
    | vcat k1 k2 => exact .vcat (h1 k1) (h2 k2)
  | neg g h =>
    cases h' with
    | shared h' => rw [← hs _ _ h']; exact .neg g
    | neg k => exact .neg (h k)
  | transpose g h =>
    cases h' with
    | shared h' => rw [← hs _ _ h']; exact .transpose g
    | transpose k => exact .transpose (h k)
  | pow g h =>
    cases h' with
    | shared h' => rw [← hs _ _ h']; exact .pow g
    | pow k => exact .pow (h k)
  | row g h =>
    cases h' with
    | shared h' => rw [← hs _ _ h']; exact .row g
    | row k => exact .row (h k)
  | col g h =>
    cases h' with
    | shared h' => rw [← hs _ _ h']; exact .col g
    | col k => exact .col (h k)
  | elem g h =>
    cases h' with
    | shared h' => rw [← hs _ _ h']; exact .elem g
    | elem k => exact .elem (h k)
  | block g h =>
    cases h' with
    | shared h' => rw [← hs _ _ h']; exact .block g
    | block k => exact .block (h k)

/-! Concrete cases: `x + y * 2` and `y * 2 + x`; `x - y` and `y - x`; two constants at different addresses. -/

def demoX : Ex K := .var ⟨"x", 1⟩
def demoY : Ex K := .var ⟨"y", 1⟩

example : (add (demoX (K := K)) (mul demoY demoX)).eqv cfgVars (add (mul demoY demoX) demoX) = true := by
  apply C106_sums_commute <;> simp [byAddress, cfgVars, demoX, demoY]

example : (build (cfgVars (K := K)) (neg (add demoX demoY))).eqv cfgVars (build cfgVars (neg (add demoX demoY))) = true := by
  apply C106_written_again
  have : build (cfgVars (K := K)) (neg (add demoX demoY)) = neg (add demoX demoY) := by rfl
  rw [this]
  simp [byAddress, cfgVars, demoX, demoY]

example : Written (fun _ _ => True) (neg (add (demoX (K := K)) demoY)) := by
  refine ⟨?_, ?_, ?_⟩ <;> simp [demoX, demoY, Formed, size]

example : (sub (demoX (K := K)) demoY).eqv cfgVars (sub demoY demoX) = false := by
  simp [eqv, cfgVars, demoX, demoY]

example : (Ex.const 1 1 fun _ _ => (1 : K)).eqv cfgVars (Ex.const 1 1 fun _ _ => 1) = false := by
  simp [eqv, cfgVars]

example : Sound (cfgVars : Cfg K) ∧ (∀ x y : Ex K, cfgVars.same x y = true → cfgVars.same y x = true) := by
  refine ⟨cfgVars_sound, fun x y h => ?_⟩
  have := cfgVars_sound x y h
  subst this
  exact h

end Verif.Levi
