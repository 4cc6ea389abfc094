import Verif.Tac
import Verif.Model.ScalarExpr
import Mathlib.Analysis.Calculus.Deriv.Add
import Mathlib.Analysis.Calculus.Deriv.Mul
/- Lemmas: the derivative of a scalar expression along a curve of values of its atoms. -/
namespace Verif.NLP.Kin.SExp
variable {A : Type}

/-- The differential of an expression: `v` are the values of the atoms, `w` their derivatives. -/
noncomputable def dev (v w : A → ℝ) : SExp A → ℝ
  | .const _ => 0
  | .atom a => w a
  | .add e f => dev v w e + dev v w f
  | .mul e f => dev v w e * eval v f + eval v e * dev v w f
  | .neg e => -dev v w e
  | .sum f => ∑ i, dev v w (f i)

theorem eval_der (v : A → ℝ) (d : A → SExp A) (e : SExp A) : eval v (der d e) = dev v (fun a => eval v (d a)) e := by
  induction e with
  | const r => rfl
  | atom a => rfl
  | add e f he hf => simp only [der, eval, dev, he, hf]
  | mul e f he hf => simp only [der, eval, dev, he, hf]
  | neg e he => simp only [der, eval, dev, he]
  | sum f hf => simp only [der, eval, dev, hf]

theorem eval_congr {v v' : A → ℝ} {P : A → Prop} (h : ∀ a, P a → v a = v' a) {e : SExp A} (he : All P e) : eval v e = eval v' e := by
  induction e with
  | const r => rfl
  | atom a => exact h a he
  | add e f ihe ihf => simp only [eval, ihe he.1, ihf he.2]
  | mul e f ihe ihf => simp only [eval, ihe he.1, ihf he.2]
  | neg e ihe => simp only [eval, ihe he]
  | sum f ihf => simp only [eval]; exact Finset.sum_congr rfl fun i _ => ihf i (he i)

theorem dev_congr (v : A → ℝ) {w w' : A → ℝ} {P : A → Prop} (h : ∀ a, P a → w a = w' a) {e : SExp A} (he : All P e) : dev v w e = dev v w' e := by
  induction e with
  | const r => rfl
  | atom a => exact h a he
  | add e f ihe ihf => simp only [dev, ihe he.1, ihf he.2]
  | mul e f ihe ihf => simp only [dev, ihe he.1, ihf he.2]
  | neg e ihe => simp only [dev, ihe he]
  | sum f ihf => simp only [dev]; exact Finset.sum_congr rfl fun i _ => ihf i (he i)

theorem dev_zero (v : A → ℝ) (e : SExp A) : dev v (fun _ => 0) e = 0 := by
  induction e with
  | const r => rfl
  | atom a => rfl
  | add e f ihe ihf => simp only [dev, ihe, ihf, add_zero]
  | mul e f ihe ihf => simp only [dev, ihe, ihf, zero_mul, mul_zero, add_zero]
  | neg e ihe => simp only [dev, ihe, neg_zero]
  | sum f ihf => simp only [dev, ihf, Finset.sum_const_zero]

theorem dev_add (v w w' : A → ℝ) (e : SExp A) : dev v (fun a => w a + w' a) e = dev v w e + dev v w' e := by
  induction e with
  | const r => simp only [dev, add_zero]
  | atom a => rfl
  | add e f ihe ihf => simp only [dev, ihe, ihf]; ring
  | mul e f ihe ihf => simp only [dev, ihe, ihf]; ring
  | neg e ihe => simp only [dev, ihe]; ring
  | sum f ihf => simp only [dev, ihf, Finset.sum_add_distrib]

theorem dev_mul (v w : A → ℝ) (k : ℝ) (e : SExp A) : dev v (fun a => w a * k) e = dev v w e * k := by
  induction e with
  | const r => simp only [dev, zero_mul]
  | atom a => rfl
  | add e f ihe ihf => simp only [dev, ihe, ihf]; ring
  | mul e f ihe ihf => simp only [dev, ihe, ihf]; ring
  | neg e ihe => simp only [dev, ihe]; ring
  | sum f ihf => simp only [dev, ihf, Finset.sum_mul]

theorem dev_sum (v : A → ℝ) {ι : Type} (t : Finset ι) (w : ι → A → ℝ) (k : ι → ℝ) (e : SExp A) :
    dev v (fun a => ∑ i ∈ t, w i a * k i) e = ∑ i ∈ t, dev v (w i) e * k i := by
  classical
  induction t using Finset.induction_on with
  | empty => simp only [Finset.sum_empty]; exact dev_zero v e
  | insert i t hi ih => simp only [Finset.sum_insert hi]; rw [dev_add, dev_mul, ih]

/-- The expression along a curve. -/
theorem hasDerivAt_eval {P : A → Prop} {v : ℝ → A → ℝ} {w : A → ℝ} {t : ℝ} (h : ∀ a, P a → HasDerivAt (fun y => v y a) (w a) t)
    {e : SExp A} (he : All P e) : HasDerivAt (fun y => eval (v y) e) (dev (v t) w e) t := by
  induction e with
  | const r => exact hasDerivAt_const t r
  | atom a => exact h a he
  | add e f ihe ihf => exact (ihe he.1).add (ihf he.2)
  | mul e f ihe ihf => exact (ihe he.1).mul (ihf he.2)
  | neg e ihe => exact (ihe he).neg
  | sum f ihf => exact HasDerivAt.fun_sum fun i _ => ihf i (he i)

theorem All.mono {P Q : A → Prop} (h : ∀ a, P a → Q a) {e : SExp A} (he : All P e) : All Q e := by
  induction e with
  | const r => trivial
  | atom a => exact h a he
  | add e f ihe ihf => exact ⟨ihe he.1, ihf he.2⟩
  | mul e f ihe ihf => exact ⟨ihe he.1, ihf he.2⟩
  | neg e ihe => exact ihe he
  | sum f ihf => exact fun i => ihf i (he i)

theorem All.der {P Q : A → Prop} (h : ∀ a, P a → Q a) {d : A → SExp A} (hd : ∀ a, P a → All Q (d a)) {e : SExp A} (he : All P e) : All Q (e.der d) := by
  induction e with
  | const r => trivial
  | atom a => exact hd a he
  | add e f ihe ihf => exact ⟨ihe he.1, ihf he.2⟩
  | mul e f ihe ihf => exact ⟨⟨ihe he.1, he.2.mono h⟩, he.1.mono h, ihf he.2⟩
  | neg e ihe => exact ihe he
  | sum f ihf => exact fun i => ihf i (he i)

/-- The derivatives of an expression commute when those of its atoms do. -/
theorem der_comm (v : A → ℝ) {P : A → Prop} {d d' : A → SExp A} (h : ∀ a, P a → eval v ((d' a).der d) = eval v ((d a).der d')) {e : SExp A} (he : All P e) :
    eval v ((e.der d').der d) = eval v ((e.der d).der d') := by
  induction e with
  | const r => rfl
  | atom a => exact h a he
  | add e f ihe ihf => simp only [SExp.der, eval, ihe he.1, ihf he.2]
  | mul e f ihe ihf => simp only [SExp.der, eval, ihe he.1, ihf he.2]; ring
  | neg e ihe => simp only [SExp.der, eval, ihe he]
  | sum f ihf => simp only [SExp.der, eval]; exact Finset.sum_congr rfl fun i _ => ihf i (he i)

theorem eval_der_zero (v : A → ℝ) {P : A → Prop} {d : A → SExp A} (h : ∀ a, P a → eval v (d a) = 0) {e : SExp A} (he : All P e) : eval v (e.der d) = 0 := by
  rw [eval_der, dev_congr v (w' := fun _ => 0) h he, dev_zero]

/-- The derivatives of what is zero are zero. -/
theorem der_der_zero (v : A → ℝ) {P : A → Prop} {d d' : A → SExp A} (h : ∀ a, P a → d' a = .const 0) {e : SExp A} (he : All P e) :
    eval v ((e.der d').der d) = 0 := by
  have z : ∀ {e : SExp A}, All P e → eval v (e.der d') = 0 := fun he => eval_der_zero v (fun a ha => by rw [h a ha]; rfl) he
  induction e with
  | const r => rfl
  | atom a => simp only [SExp.der, h a he, eval]
  | add e f ihe ihf => simp only [SExp.der, eval, ihe he.1, ihf he.2, add_zero]
  | mul e f ihe ihf => simp only [SExp.der, eval, ihe he.1, ihf he.2, z he.1, z he.2, zero_mul, mul_zero, add_zero]
  | neg e ihe => simp only [SExp.der, eval, ihe he, neg_zero]
  | sum f ihf => simp only [SExp.der, eval]; exact Finset.sum_eq_zero fun i _ => ihf i (he i)

end Verif.NLP.Kin.SExp
