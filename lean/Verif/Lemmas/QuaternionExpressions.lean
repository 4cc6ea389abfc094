import Verif.Model.QuaternionExpressions
import Verif.Spec.Levi
import Verif.Tac
namespace Verif.Levi.Quat
open Ex Spec

theorem nn_value {K : Type} [Field K] (pw : K → K → K) (ρ : Env K) :
    ((mul (transpose (var q)) (var q) : Ex K).ev pw ρ).f 0 0 = ρ q 0 ^ 2 + ρ q 1 ^ 2 + ρ q 2 ^ 2 + ρ q 3 ^ 2 := by
  simp [ev, SM.mul, SM.of, SM.tr, Finset.sum_range_succ, q]; ring

theorem half_ok (n : ℕ) (h : |(1 / 2 : ℝ) - n| < 1 / 10 ^ 15) : (1 / 2 : ℝ) = n := by
  exfalso
  rw [abs_lt] at h
  rcases n with _ | n
  · norm_num at h
  · have : (1 : ℝ) ≤ ((n + 1 : ℕ) : ℝ) := by exact_mod_cast Nat.succ_le_succ (Nat.zero_le n)
    have h1 := h.1
    norm_num at h1 this
    linarith

theorem neg_ok (n : ℕ) (h : |(-1 : ℝ) - n| < 1 / 10 ^ 15) : (-1 : ℝ) = n := by
  exfalso
  rw [abs_lt] at h
  have : (0 : ℝ) ≤ (n : ℝ) := Nat.cast_nonneg n
  have h1 := h.1
  norm_num at h1
  linarith

theorem written_normalized {ρ : Env ℝ} (h : 0 < ρ q 0 ^ 2 + ρ q 1 ^ 2 + ρ q 2 ^ 2 + ρ q 3 ^ 2) :
    Written (PowOk ρ) (normalized (var q)) := by
  have hq : (0 : Nat) < q.dim := by decide
  refine ⟨hq, ⟨⟨hq, hq, Or.inl rfl⟩, rfl, ⟨Or.inl ?_, half_ok⟩⟩, rfl, rfl, ⟨Or.inl ?_, neg_ok⟩⟩
  · rw [nn_value]; exact h
  · show 0 < (SM.scalar (rpow _ _) : SM ℝ).f 0 0
    rw [nn_value]
    exact Real.rpow_pos_of_pos h _

theorem written_rotation {ρ : Env ℝ} {n : Ex ℝ} (hn : Written (PowOk ρ) n) (h4 : n.size = (4, 1)) :
    Written (PowOk ρ) (rotation n) := by
  have i3 : Written (PowOk ρ) (skew (im n)) := by
    refine ⟨⟨hn, ?_⟩, rfl⟩
    simp [rows, cols, h4]
  refine ⟨⟨Nat.succ_pos 2, ⟨⟨hn, ?_⟩, ⟨⟨by decide, by decide⟩, i3, ?_⟩, ?_⟩, ?_⟩, ⟨⟨⟨by decide, by decide⟩, i3, ?_⟩, i3, ?_⟩, ?_⟩
  · simp [rows, cols, h4]
  · exact Or.inr (Or.inl rfl)
  · exact Or.inr (Or.inl rfl)
  · rfl
  · exact Or.inr (Or.inl rfl)
  · exact Or.inl rfl
  · rfl

end Verif.Levi.Quat
