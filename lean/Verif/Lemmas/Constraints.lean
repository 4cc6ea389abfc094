import Verif.Model.Constraints
import Verif.Lemmas.Calculus
/- Exact derivatives of the constraints, one lemma per class. -/
set_option linter.unusedSectionVars false
set_option linter.unusedSimpArgs false
namespace Verif.NLP
open Verif.NLP.Spec Verif.Smooth
variable {n : Nat}

macro "cunf" : tactic => `(tactic|
  simp only [contactFriction, contactForceControl, classicalComplementarity, classicalPlanarComplementarity,
    dynamicalComplementarity, normalVelocityControl, quaternionNorm, planarVelocityControl, put_apply, vec3, zeroMat,
    Fin.sum_univ_succ, Fin.sum_univ_zero, true_and, Matrix.cons_val_zero, Matrix.cons_val_one])

/-- Compare matrix entries. -/
macro "entries" : tactic => `(tactic| (
  (try cunf)
  all_goals ((try split_ifs) <;> simp_all <;> try ring)))

macro "jac" : tactic => `(tactic| (
  intro x u r
  fin_cases r
  all_goals
    constructor
    · refine GradAt.congr (x := x) (by cunf; sgrad) ?_
      intro j
      entries
    · refine GradAt.congr (x := u) (by cunf; sgrad) ?_
      intro j
      entries))

macro "hess" : tactic => `(tactic| (
  cunf
  (try split_ifs)
  all_goals
    refine GradAt.congr (by sgrad) ?_
    intro j
    entries))

theorem friction_jac (s : Side) (i : Fin n) (mu : ℝ) : ExactJacobians (contactFriction s i mu) := by jac

theorem friction_hess (s : Side) (i : Fin n) (mu : ℝ) : ExactHessians (contactFriction s i mu) := by
  apply exactHessians_of _ (friction_jac s i mu)
  all_goals
    intro x u lam k
    hess

theorem forceControl_jac (s : Side) (i : Fin n) (act : Params) (M D : ℝ) : ExactJacobians (contactForceControl s i act M D) := by jac

theorem forceControl_hess (s : Side) (i : Fin n) (act : Params) (M D : ℝ) : ExactHessians (contactForceControl s i act M D) := by
  apply exactHessians_of _ (forceControl_jac s i act M D)
  all_goals
    intro x u lam k
    hess

theorem classical_jac (s : Side) (i : Fin n) (tol : ℝ) : ExactJacobians (classicalComplementarity s i tol) := by jac

theorem classical_hess (s : Side) (i : Fin n) (tol : ℝ) : ExactHessians (classicalComplementarity s i tol) := by
  apply exactHessians_of _ (classical_jac s i tol)
  all_goals
    intro x u lam k
    hess

theorem planar_jac (s : Side) (i : Fin n) (tol : ℝ) : ExactJacobians (classicalPlanarComplementarity s i tol) := by jac

theorem planar_hess (s : Side) (i : Fin n) (tol : ℝ) : ExactHessians (classicalPlanarComplementarity s i tol) := by
  apply exactHessians_of _ (planar_jac s i tol)
  all_goals
    intro x u lam k
    hess

theorem dynamical_jac (s : Side) (i : Fin n) (g ub : ℝ) : ExactJacobians (dynamicalComplementarity s i g ub) := by jac

theorem dynamical_hess (s : Side) (i : Fin n) (g ub : ℝ) : ExactHessians (dynamicalComplementarity s i g ub) := by
  apply exactHessians_of _ (dynamical_jac s i g ub)
  all_goals
    intro x u lam k
    hess

theorem normalVelocity_jac (s : Side) (i : Fin n) (act : Params) (M : ℝ) : ExactJacobians (normalVelocityControl s i act M) := by jac

theorem normalVelocity_hess (s : Side) (i : Fin n) (act : Params) (M : ℝ) : ExactHessians (normalVelocityControl s i act M) := by
  apply exactHessians_of _ (normalVelocity_jac s i act M)
  all_goals
    intro x u lam k
    hess

theorem quaternion_jac (tol : ℝ) : ExactJacobians (quaternionNorm (n := n) tol) := by jac

theorem quaternion_hess (tol : ℝ) : ExactHessians (quaternionNorm (n := n) tol) := by
  apply exactHessians_of _ (quaternion_jac tol)
  all_goals
    intro x u lam k
    hess


macro "spars" : tactic => `(tactic| (
  refine ⟨?_, ?_, ?_, ?_, ?_⟩
  all_goals
    intros
    rename_i h
    revert h
    cunf
    try simp only [dense, diag, seg, List.range, List.range.loop, List.map, List.flatMap_cons, List.flatMap_nil,
      List.zip_cons_cons, List.zip_nil_right, List.append_nil, List.cons_append, List.nil_append]
    try split_ifs
    all_goals simp_all))

theorem friction_sparsity (s : Side) (i : Fin n) (mu : ℝ) : SparsityCovers (contactFriction s i mu) := by spars

theorem forceControl_sparsity (s : Side) (i : Fin n) (act : Params) (M D : ℝ) : SparsityCovers (contactForceControl s i act M D) := by spars

theorem classical_sparsity (s : Side) (i : Fin n) (tol : ℝ) : SparsityCovers (classicalComplementarity s i tol) := by spars

theorem planar_sparsity (s : Side) (i : Fin n) (tol : ℝ) : SparsityCovers (classicalPlanarComplementarity s i tol) := by spars

theorem dynamical_sparsity (s : Side) (i : Fin n) (g ub : ℝ) : SparsityCovers (dynamicalComplementarity s i g ub) := by spars

theorem normalVelocity_sparsity (s : Side) (i : Fin n) (act : Params) (M : ℝ) : SparsityCovers (normalVelocityControl s i act M) := by spars

theorem quaternion_sparsity (tol : ℝ) : SparsityCovers (quaternionNorm (n := n) tol) := by spars

theorem planarVelocity_sparsity (s : Side) (i : Fin n) (act : Params) (Mx My : ℝ) (p : V3 ℝ) : SparsityCovers (planarVelocityControl s i act Mx My p) := by spars


theorem planarVelocity_jac (s : Side) (i : Fin n) (act : Params) (Mx My : ℝ) (p : V3 ℝ) :
    ExactJacobians (planarVelocityControl s i act Mx My p) := by jac

theorem sumHeights_eq (x : SVec n) (s : Side) : sumHeights x s = ∑ i, x (.pos s i, 2) := by
  have h := foldl_accum (List.finRange n) (fun a i => a + x (.pos s i, 2)) id 0 (fun i => x (.pos s i, 2))
    (fun _ _ _ => rfl)
  simp only [id, zero_add, sum_finRange] at h
  exact h

/-- Entries of the Jacobian buffer of the relative height constraint. -/
theorem feetRelativeHeight_entry (h : ℝ) (x : SVec n) (u : CVec n) (J0 : Fin 1 → Idx (SBlk n) → ℝ) (r : Fin 1)
    (j : Idx (SBlk n)) :
    (feetRelativeHeight h).stateJac x u J0 r j = (∑ i, if j = (.pos .left i, 2) then 1 else 0) / n
      - (∑ i, if j = (.pos .right i, 2) then 1 else 0) / (n : ℝ) := by
  have hr : r = 0 := Subsingleton.elim _ _
  subst hr
  simp only [feetRelativeHeight]
  by_cases hl : ∃ i, j = (.pos .left i, 2)
  · obtain ⟨i, rfl⟩ := hl
    rw [mat_untouched _ _ _ _ _ (by simp [put_apply]),
      mat_hit _ _ _ _ _ i (1 / (n : ℝ)) (List.mem_finRange i) (by simp [put_apply])]
    · simp
    · intro a _ ha J
      simp [put_apply, Ne.symm ha]
  · by_cases hrr : ∃ i, j = (.pos .right i, 2)
    · obtain ⟨i, rfl⟩ := hrr
      rw [mat_hit _ _ _ _ _ i (-1 / (n : ℝ)) (List.mem_finRange i) (by simp [put_apply])]
      · simp [neg_div]
      · intro a _ ha J
        simp [put_apply, Ne.symm ha]
    · push Not at hl hrr
      rw [mat_untouched _ _ _ _ _ (by simp [put_apply, hrr]),
        mat_untouched _ _ _ _ _ (by simp [put_apply, hl])]
      simp [zeroMat, hl, hrr]

theorem feetRelativeHeight_jac (h : ℝ) : ExactJacobians (feetRelativeHeight (n := n) h) := by
  intro x u r
  constructor
  · simp only [feetRelativeHeight, sumHeights_eq]
    refine GradAt.congr (GradAt.sub (GradAt.div_const (GradAt.sum _ fun i _ => GradAt.coord _ _) _)
      (GradAt.div_const (GradAt.sum _ fun i _ => GradAt.coord _ _) _)) ?_
    intro j
    exact (feetRelativeHeight_entry h x u (fun _ _ => 0) r j).symm
  · exact (GradAt.const _ _).congr (by simp [feetRelativeHeight, zeroMat])

theorem feetRelativeHeight_hess (h : ℝ) : ExactHessians (feetRelativeHeight (n := n) h) := by
  apply exactHessians_of _ (feetRelativeHeight_jac h)
  · intro x u lam k
    have e : ∀ y v a, (feetRelativeHeight (n := n) h).stateJac y v (fun _ _ => 0) a k = _ :=
      fun y v a => feetRelativeHeight_entry h y v (fun _ _ => 0) a k
    simp only [e]
    exact (GradAt.const _ _).congr (by simp [feetRelativeHeight])
  · intro x u lam k
    exact (GradAt.const (∑ a, lam a * 0) u).congr fun _ => rfl
  · intro x u lam k
    have e : ∀ y v a, (feetRelativeHeight (n := n) h).stateJac y v (fun _ _ => 0) a k = _ :=
      fun y v a => feetRelativeHeight_entry h y v (fun _ _ => 0) a k
    simp only [e]
    exact (GradAt.const _ _).congr (by simp [feetRelativeHeight])

theorem feetRelativeHeight_sparsity (h : ℝ) : SparsityCovers (feetRelativeHeight (n := n) h) := by
  refine ⟨?_, ?_, ?_, ?_, ?_⟩
  · intro x u i j hne
    rw [feetRelativeHeight_entry] at hne
    have hi : i = 0 := Subsingleton.elim _ _
    subst hi
    simp only [feetRelativeHeight, List.mem_append, List.mem_map, List.mem_finRange, true_and, Prod.mk.injEq]
    by_contra hc
    push Not at hc
    apply hne
    have h1 : ∀ k, j ≠ (.pos .left k, 2) := fun k hk => hc.1 k hk.symm
    have h2 : ∀ k, j ≠ (.pos .right k, 2) := fun k hk => hc.2 k hk.symm
    simp [h1, h2]
  all_goals
    intros
    rename_i h
    simp [feetRelativeHeight, zeroMat] at h

/-- Derivative of the weighted Jacobian of the planar velocity constraint. -/
theorem planarVelocity_true_hess (s : Side) (i : Fin n) (act : Params) (Mx My : ℝ) (p : V3 ℝ) (x : SVec n) (u : CVec n)
    (lam : Fin 4 → ℝ) :
    HessAt (fun y => weighted (planarVelocityControl s i act Mx My p) lam y u)
      (put zeroMat (.pos s i, 2) (.pos s i, 2)
        (((lam 0 + lam 2) * Mx + (lam 1 + lam 3) * My) * (Fn.mk .tangent act).evalDoubleDerivative (x (.pos s i, 2)))) x := by
  refine ⟨fun y j => ∑ a, lam a * (planarVelocityControl s i act Mx My p).stateJac y u (fun _ _ => 0) a j, fun y => ?_, ?_⟩
  · simp only [weighted_eq]
    exact GradAt.sum Finset.univ (fun a _ => GradAt.const_mul _ ((planarVelocity_jac s i act Mx My p y u a).1))
  · intro k
    have hz : (0 : Fin 4) ≠ 1 := by decide
    by_cases hk : k = (.pos s i, 2)
    · subst hk
      have e : (fun y : SVec n => ∑ a, lam a * (planarVelocityControl s i act Mx My p).stateJac y u (fun _ _ => 0) a
          (.pos s i, 2)) = fun y => ((lam 0 + lam 2) * Mx + (lam 1 + lam 3) * My) *
            (Fn.mk .tangent act).evalDerivative (y (.pos s i, 2)) := by
        funext y
        simp [planarVelocityControl, put_apply, vec3, Fin.sum_univ_four]
        ring
      rw [e]
      refine GradAt.congr (x := x) (by sgrad) ?_
      intro j
      by_cases hj : j = (.pos s i, 2) <;> simp [put_apply, hj, zeroMat]
    · have e : (fun y : SVec n => ∑ a, lam a * (planarVelocityControl s i act Mx My p).stateJac y u (fun _ _ => 0) a k)
          = fun y => 0 := by
        funext y
        simp [planarVelocityControl, put_apply, Fin.sum_univ_four, hk, zeroMat]
      rw [e]
      exact (GradAt.const _ _).congr (by simp [put_apply, hk, zeroMat])

end Verif.NLP
