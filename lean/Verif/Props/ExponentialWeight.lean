import Verif.Model.ExponentialWeight
import Mathlib.Analysis.SpecialFunctions.Log.Basic
import Mathlib.Topology.Algebra.Order.Field
/- C98: the exponential weight. -/
namespace Verif.Util.Weight
noncomputable section
open Filter Topology

/-- Specification: the answer of an object made with these numbers and called at the times `earlier`, when it is called at the time `t` (and read before the next call). -/
def answer (a b c d : ℝ) (earlier : List ℝ) (t : ℝ) : Option ℝ :=
  let r := get (gets (make a b c d) earlier) t
  if r.2 then some r.1.output else none

theorem gets_members (w : ExponentialWeight) (l : List ℝ) : (gets w l).premultiplier = w.premultiplier ∧ (gets w l).timeMultiplier = w.timeMultiplier ∧ (gets w l).offset = w.offset ∧
    (gets w l).timeOffset = w.timeOffset := by
  induction l generalizing w with
  | nil => exact ⟨rfl, rfl, rfl, rfl⟩
  | cons t l ih => exact ih (get w t).1

/-- **C98.** Whatever the earlier calls were, the answer is valid and is `a * exp (b * (t - d)) + c`. -/
theorem C98_answer (a b c d : ℝ) (earlier : List ℝ) (t : ℝ) : answer a b c d earlier t = some (a * Real.exp (b * (t - d)) + c) := by
  obtain ⟨h1, h2, h3, h4⟩ := gets_members (make a b c d) earlier
  show some ((gets (make a b c d) earlier).premultiplier * Real.exp ((gets (make a b c d) earlier).timeMultiplier * (t - (gets (make a b c d) earlier).timeOffset)) +
    (gets (make a b c d) earlier).offset) = _
  rw [h1, h2, h3, h4]
  rfl

/-- **C98.** It starts from `a + c` at the time `d`. -/
theorem C98_start (a b c d : ℝ) (earlier : List ℝ) : answer a b c d earlier d = some (a + c) := by
  rw [C98_answer]
  simp

/-- **C98.** Later answers are smaller exactly when `a * b` is negative, larger exactly when it is positive. -/
theorem C98_monotone (a b c d : ℝ) (e e' : List ℝ) {t t' x x' : ℝ} (ht : t < t') (h : answer a b c d e t = some x) (h' : answer a b c d e' t' = some x') :
    (x < x' ↔ 0 < a * b) ∧ (x' < x ↔ a * b < 0) := by
  rw [C98_answer] at h h'
  cases h
  cases h'
  have up : ∀ b : ℝ, 0 < b → Real.exp (b * (t - d)) < Real.exp (b * (t' - d)) := fun b hb => Real.exp_lt_exp.2 (by nlinarith)
  have down : ∀ b : ℝ, b < 0 → Real.exp (b * (t' - d)) < Real.exp (b * (t - d)) := fun b hb => Real.exp_lt_exp.2 (by nlinarith)
  rcases lt_trichotomy b 0 with hb | rfl | hb
  · have := down b hb
    refine ⟨?_, ?_⟩ <;> constructor <;> intro h
    · have : a < 0 := by nlinarith
      nlinarith
    · have : a < 0 := by nlinarith
      nlinarith
    · have : 0 < a := by nlinarith
      nlinarith
    · have : 0 < a := by nlinarith
      nlinarith
  · simp
  · have := up b hb
    refine ⟨?_, ?_⟩ <;> constructor <;> intro h
    · have : 0 < a := by nlinarith
      nlinarith
    · have : 0 < a := by nlinarith
      nlinarith
    · have : a < 0 := by nlinarith
      nlinarith
    · have : a < 0 := by nlinarith
      nlinarith

/-- **C98.** With a negative time multiplier the answers tend to the offset. -/
theorem C98_limit (a b c d : ℝ) (hb : b < 0) (earlier : List ℝ) : ∃ w : ℝ → ℝ, (∀ t, answer a b c d earlier t = some (w t)) ∧ Tendsto w atTop (𝓝 c) := by
  refine ⟨fun t => a * Real.exp (b * (t - d)) + c, fun t => C98_answer a b c d earlier t, ?_⟩
  have h1 : Tendsto (fun t : ℝ => b * (t - d)) atTop atBot := (tendsto_atTop_add_const_right atTop (-d) tendsto_id).const_mul_atTop_of_neg hb
  have h2 := ((Real.tendsto_exp_atBot.comp h1).const_mul a).add_const c
  simpa using h2

/-- **C98.** It can be used as a weight, that is no answer is negative, exactly when `a` and `c` are not negative (with `b` not zero). -/
theorem C98_nonnegative_iff (a b c d : ℝ) (hb : b ≠ 0) (earlier : List ℝ) : (∀ t x, answer a b c d earlier t = some x → 0 ≤ x) ↔ 0 ≤ a ∧ 0 ≤ c := by
  constructor
  · intro h
    have all : ∀ y : ℝ, 0 < y → 0 ≤ a * y + c := by
      intro y hy
      have := h (d + Real.log y / b) _ (C98_answer a b c d earlier _)
      rwa [add_sub_cancel_left, mul_div_cancel₀ _ hb, Real.exp_log hy] at this
    refine ⟨?_, ?_⟩
    · by_contra ha
      push Not at ha
      have := all ((|c| + 1) / (-a)) (div_pos (by positivity) (by linarith))
      have e : a * ((|c| + 1) / (-a)) = -(|c| + 1) := by
        have : a ≠ 0 := ha.ne
        field_simp
      rw [e] at this
      linarith [le_abs_self c]
    · by_contra hc
      push Not at hc
      have := all (-c / (2 * (|a| + 1))) (div_pos (by linarith) (by positivity))
      have e : a * (-c / (2 * (|a| + 1))) ≤ -c / 2 := by
        rw [mul_div_assoc', div_le_div_iff₀ (by positivity) (by norm_num)]
        nlinarith [le_abs_self a, abs_nonneg a]
      linarith
  · rintro ⟨ha, hc⟩ t x h
    rw [C98_answer] at h
    cases h
    positivity

/-- C98, on the reference that is returned: it is to a member, so that a result that is read after another call is the one of that call. -/
theorem C98_reference (a b c d : ℝ) (earlier : List ℝ) (t t' : ℝ) : (get (get (gets (make a b c d) earlier) t).1 t').1.output = a * Real.exp (b * (t' - d)) + c := by
  have := C98_answer a b c d (earlier ++ [t]) t'
  have e : gets (make a b c d) (earlier ++ [t]) = (get (gets (make a b c d) earlier) t).1 := by simp [gets]
  unfold answer at this
  rw [e] at this
  exact Option.some.inj this

/-- The weight of test/SolverForComparisonsTest.cpp:312: from 101 it decreases to 1. -/
example : answer 100 (-10) 1 0 [3, 1, 2] 0 = some 101 := by
  rw [C98_start]
  norm_num

example : ∀ t x, answer 100 (-10) 1 0 [] t = some x → 0 ≤ x := (C98_nonnegative_iff 100 (-10) 1 0 (by norm_num) []).2 ⟨by norm_num, by norm_num⟩

example : ∃ t x, answer 100 (-10) (-1) 0 [] t = some x ∧ x < 0 := by
  by_contra h
  push Not at h
  have := ((C98_nonnegative_iff 100 (-10) (-1) 0 (by norm_num) []).1 fun t x e => h t x e).2
  norm_num at this

end
end Verif.Util.Weight
