import Verif.Model.Dynamics
import Verif.Spec.Dynamics
import Verif.Lemmas.Calculus
import Verif.Lemmas.QuaternionUtils
import Mathlib.Algebra.BigOperators.Ring.Finset
/- Entries of the dynamics and of its derivatives in closed form. -/
set_option linter.unusedSectionVars false
set_option linter.unusedSimpArgs false
namespace Verif.NLP.Dynamics
open Verif.NLP.Spec Verif.Smooth Matrix
open Verif.Quaternion (rotationFromQuaternion normalized normalizedDerivative rotatedVectorJacobian)
variable {n : Nat}

instance : Fintype Side := ⟨{.left, .right}, fun s => by cases s <;> simp⟩

/-- A contact point. -/
abbrev Pt (n : Nat) := Side × Fin n

/-- The points in the order they are visited. -/
def points (n : Nat) : List (Pt n) := (List.finRange n).map (Prod.mk .left) ++ (List.finRange n).map (Prod.mk .right)

theorem mem_points (a : Pt n) : a ∈ points n := by
  rcases a with ⟨s, i⟩
  cases s <;> simp [points]

theorem nodup_points : (points n).Nodup := by
  refine List.Nodup.append ?_ ?_ ?_
  · exact (List.nodup_finRange n).map fun a b h => (Prod.mk.inj h).2
  · exact (List.nodup_finRange n).map fun a b h => (Prod.mk.inj h).2
  · intro a h1 h2
    simp only [List.mem_map] at h1 h2
    obtain ⟨i, -, rfl⟩ := h1
    obtain ⟨j, -, h⟩ := h2
    cases h

theorem loops {M : Type} (body : Side → M → Fin n → M) (J : M) :
    (List.finRange n).foldl (body .right) ((List.finRange n).foldl (body .left) J) =
      (points n).foldl (fun J a => body a.1 J a.2) J := by
  rw [points, List.foldl_append, List.foldl_map, List.foldl_map]

section
variable {M : Type} (body : M → Pt n → M) (get : M → ℝ) (J : M)

theorem pts_none (h : ∀ a J, get (body J a) = get J) : get ((points n).foldl body J) = get J :=
  foldl_untouched _ _ _ _ fun a _ J => h a J

theorem foldl_once {α : Type} (l : List α) (hn : l.Nodup) (body : M → α → M) (a0 : α) (hm : a0 ∈ l) (f : ℝ → ℝ)
    (h0 : ∀ J, get (body J a0) = f (get J)) (h : ∀ a, a ≠ a0 → ∀ J, get (body J a) = get J) :
    get (l.foldl body J) = f (get J) := by
  induction l generalizing J with
  | nil => cases hm
  | cons a l ih =>
    rw [List.foldl_cons]
    have hn' := List.nodup_cons.1 hn
    by_cases e : a = a0
    · subst e
      rw [foldl_untouched l body get _ (fun b hb J => h b (by rintro rfl; exact hn'.1 hb) J), h0]
    · have : a0 ∈ l := by
        rcases List.mem_cons.1 hm with h | h
        · exact absurd h.symm e
        · exact h
      rw [ih _ hn'.2 this, h a e]

theorem pts_once (a0 : Pt n) (f : ℝ → ℝ) (h0 : ∀ J, get (body J a0) = f (get J))
    (h : ∀ a, a ≠ a0 → ∀ J, get (body J a) = get J) : get ((points n).foldl body J) = f (get J) :=
  foldl_once get J _ nodup_points body a0 (mem_points a0) f h0 h

theorem sum_points (v : Pt n → ℝ) : ((points n).map v).sum = ∑ a, v a := by
  rw [points, List.map_append, List.sum_append, List.map_map, List.map_map, sum_finRange, sum_finRange, Fintype.sum_prod_type]
  have : (Finset.univ : Finset Side) = {.left, .right} := rfl
  rw [this, Finset.sum_pair (by decide)]
  rfl

theorem pts_accum (v : Pt n → ℝ) (h : ∀ a J, get (body J a) = get J + v a) :
    get ((points n).foldl body J) = get J + ∑ a, v a := by
  rw [foldl_accum (points n) body get J v (fun a _ J => h a J), sum_points]
end

section
variable {ρ : Type} (body : (ρ → ℝ) → Pt n → ρ → ℝ) (J : ρ → ℝ) (p : ρ)
theorem v_none (h : ∀ a J, body J a p = J p) : (points n).foldl body J p = J p := pts_none body (fun J => J p) J h
theorem v_once (a0 : Pt n) (f : ℝ → ℝ) (h0 : ∀ J, body J a0 p = f (J p)) (h : ∀ a, a ≠ a0 → ∀ J, body J a p = J p) :
    (points n).foldl body J p = f (J p) := pts_once body (fun J => J p) J a0 f h0 h
theorem v_accum (v : Pt n → ℝ) (h : ∀ a J, body J a p = J p + v a) : (points n).foldl body J p = J p + ∑ a, v a :=
  pts_accum body (fun J => J p) J v h
end

section
variable {ρ κ : Type} (body : (ρ → κ → ℝ) → Pt n → ρ → κ → ℝ) (J : ρ → κ → ℝ) (p : ρ) (q : κ)
theorem m_none (h : ∀ a J, body J a p q = J p q) : (points n).foldl body J p q = J p q := pts_none body (fun J => J p q) J h
theorem m_once (a0 : Pt n) (f : ℝ → ℝ) (h0 : ∀ J, body J a0 p q = f (J p q)) (h : ∀ a, a ≠ a0 → ∀ J, body J a p q = J p q) :
    (points n).foldl body J p q = f (J p q) := pts_once body (fun J => J p q) J a0 f h0 h
theorem m_accum (v : Pt n → ℝ) (h : ∀ a J, body J a p q = J p q + v a) : (points n).foldl body J p q = J p q + ∑ a, v a :=
  pts_accum body (fun J => J p q) J v h
end

macro "wsimp" : tactic => `(tactic| simp [pointDynamics, pointStateJac, pointCtrlJac, pointMixedHess, putSeg, addSeg, putV, putBlock,
  addBlock, scaleBlock, put])

section value
variable (P : Params) (x : SVec n) (u : CVec n) (d : SVec n)

theorem dyn_force (s : Side) (i : Fin n) (k : Nat) : dynamics P x u d (.force s i, k) =
    if k < 2 then u (.forceCtl s i, k)
    else if k = 2 then P.δz.eval (x (.pos s i, 2)) * u (.forceCtl s i, 2) + P.dissipation * (P.δz.eval (x (.pos s i, 2)) - 1) * x (.force s i, 2)
    else d (.force s i, k) := by
  simp only [dynamics, footDynamics, loops]
  simp only [putSeg, reduceCtorEq, false_and, if_false]
  refine (v_once _ _ _ (s, i) (fun v => if k < 2 then u (.forceCtl s i, k)
    else if k = 2 then P.δz.eval (x (.pos s i, 2)) * u (.forceCtl s i, 2) + P.dissipation * (P.δz.eval (x (.pos s i, 2)) - 1) * x (.force s i, 2)
    else v) ?_ ?_).trans ?_
  · intro J
    wsimp
    rcases k with _ | _ | _ | k <;> simp [comp, vec3]
  · rintro ⟨s', i'⟩ h J
    have : ¬ (s = s' ∧ i = i') := fun h' => h (by rw [h'.1, h'.2])
    wsimp
    simp only [← and_assoc, this, false_and, if_false]
  · simp [putSeg]

theorem dyn_pos (s : Side) (i : Fin n) (k : Nat) : dynamics P x u d (.pos s i, k) =
    if k < 2 then P.δxy.eval (x (.pos s i, 2)) * u (.velCtl s i, k)
    else if k = 2 then u (.velCtl s i, 2) else d (.pos s i, k) := by
  simp only [dynamics, footDynamics, loops]
  simp only [putSeg, reduceCtorEq, false_and, if_false]
  refine (v_once _ _ _ (s, i) (fun v => if k < 2 then P.δxy.eval (x (.pos s i, 2)) * u (.velCtl s i, k)
    else if k = 2 then u (.velCtl s i, 2) else v) ?_ ?_).trans ?_
  · intro J
    wsimp
    rcases k with _ | _ | _ | k <;> simp [comp, vec3]
  · rintro ⟨s', i'⟩ h J
    have : ¬ (s = s' ∧ i = i') := fun h' => h (by rw [h'.1, h'.2])
    wsimp
    simp only [← and_assoc, this, false_and, if_false]
  · simp [putSeg]

theorem dyn_momentum (k : Nat) : dynamics P x u d (.momentum, k) =
    if k < 3 then P.mass * gravity k + ∑ a : Pt n, x (.force a.1 a.2, k)
    else if k < 6 then P.mass * gravity k + ∑ a : Pt n, comp (V3.cross (distance x a.1 a.2) (vec3 x (.force a.1 a.2))) (k - 3)
    else d (.momentum, k) := by
  simp only [dynamics, footDynamics, loops]
  simp only [putSeg, reduceCtorEq, false_and, if_false]
  refine (v_accum _ _ _ (fun a => if k < 3 then x (.force a.1 a.2, k) else if k < 6 then
    comp (V3.cross (distance x a.1 a.2) (vec3 x (.force a.1 a.2))) (k - 3) else 0) ?_).trans ?_
  · rintro ⟨s, i⟩ J
    wsimp
    rcases k with _ | _ | _ | k <;> simp [comp, vec3]
    by_cases h : k < 3
    · simp [h, show k + 3 < 6 by omega, show ¬ k + 1 + 1 + 1 < 3 by omega]
    · simp [h, show ¬ k + 3 < 6 by omega, show ¬ k + 1 + 1 + 1 < 3 by omega]
  · simp only [putSeg, true_and, Nat.zero_le, Nat.zero_add, Nat.sub_zero]
    by_cases h : k < 3
    · simp [h, show k < 6 by omega]
    · by_cases h' : k < 6 <;> simp [h, h']

theorem dyn_com (k : Nat) : dynamics P x u d (.com, k) = if k < 3 then x (.momentum, k) / P.mass else d (.com, k) := by
  simp only [dynamics, footDynamics, loops]
  simp only [putSeg, reduceCtorEq, false_and, if_false, true_and, Nat.zero_le, Nat.zero_add, Nat.sub_zero]
  rw [v_none]
  · simp [putSeg]
  · rintro ⟨s, i⟩ J; wsimp

theorem dyn_basePos (k : Nat) : dynamics P x u d (.basePos, k) =
    if h : k < 3 then (baseRotation x *ᵥ velOf u) ⟨k, h⟩ else d (.basePos, k) := by
  simp only [dynamics, footDynamics, loops]
  simp only [putSeg, reduceCtorEq, false_and, if_false, true_and, Nat.zero_le, Nat.zero_add, Nat.sub_zero]
  rw [v_none]
  · by_cases h : k < 3 <;> simp [putSeg, ent, h]
  · rintro ⟨s, i⟩ J; wsimp

theorem dyn_quat (k : Nat) : dynamics P x u d (.baseQuat, k) = if k < 4 then u (.quatDer, k) else d (.baseQuat, k) := by
  simp only [dynamics, footDynamics, loops]
  simp only [putSeg, reduceCtorEq, false_and, if_false, true_and, Nat.zero_le, Nat.zero_add, Nat.sub_zero]
  rw [v_none]
  · simp [putSeg]
  · rintro ⟨s, i⟩ J; wsimp

theorem dyn_joints (k : Nat) : dynamics P x u d (.joints, k) = if k < P.joints then u (.jointVel, k) else d (.joints, k) := by
  simp only [dynamics, footDynamics, loops]
  simp only [putSeg, reduceCtorEq, false_and, if_false, true_and, Nat.zero_le, Nat.zero_add, Nat.sub_zero]
  rw [v_none]
  · simp [putSeg]
  · rintro ⟨s, i⟩ J; wsimp
end value

end Verif.NLP.Dynamics
