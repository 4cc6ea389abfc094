import Verif.Lemmas.EvalCacheRun
/- C26, C51, C52: the evaluation cache of levi. -/
set_option linter.unusedSectionVars false
namespace Verif.EvalCache
variable {V : Type}

/-- C26. Whatever variables and expressions (sharing sub-expressions, copied, destroyed) are constructed, assigned, evaluated and
asked to be new, in any order, every evaluation returns what an evaluation without any cache returns. -/
theorem C26_current_values [Inhabited V] (os : List (Op V)) : run World.empty os = Spec.run Spec.State.empty os :=
  run_eq rel_empty os

/-- C51. If an expression answers not to be new, then it has been evaluated, and it returned the value it has now. -/
theorem C51_not_new_means_unchanged [Inhabited V] (os : List (Op V)) (p : Nat)
    (h : (after World.empty os).isNew p = some false) :
    (Spec.after Spec.State.empty os).value p ≠ none ∧
      (Spec.after Spec.State.empty os).last p = (Spec.after Spec.State.empty os).value p :=
  up_last (rel_after rel_empty os) p ((isNew_iff (rel_after rel_empty os) p).1 h)

/-- C52. Once evaluated, an expression answers not to be new, whatever is done with other expressions, until a variable is assigned. -/
theorem C52_evaluated_is_not_new [Inhabited V] (os os' : List (Op V)) (p : Nat)
    (hp : (Spec.after Spec.State.empty os).value p ≠ none) (hq : ∀ o ∈ os', Spec.Quiet p o) :
    (after World.empty (os ++ [.eval p] ++ os')).isNew p = some false := by
  have R := rel_after (rel_empty (V := V)) os
  have R' := (rel_step R (.eval p)).2
  have e : after World.empty (os ++ [.eval p] ++ os') = after (step (after World.empty os) (.eval p)).1 os' := by
    simp [after, List.foldl_append]
  rw [e, isNew_iff (rel_after R' os')]
  refine up_after R' p os' hq ((rel_eval R p).2.2.2 ?_)
  obtain ⟨own, I, H⟩ := R
  intro hn
  apply hp
  unfold Spec.State.value
  rw [H.handle p, hn]
  rfl

/-- An expression that has never been evaluated answers to be new. -/
theorem C51_never_evaluated_is_new [Inhabited V] (os : List (Op V)) (p : Nat)
    (h : (Spec.after Spec.State.empty os).last p = none) : (after World.empty os).isNew p ≠ some false := by
  intro hn
  obtain ⟨h1, h2⟩ := C51_not_new_means_unchanged os p hn
  rw [h] at h2
  exact h1 h2.symm

/-! A history in which caching matters: `z = (x + y) * x` shares `x` and a sub-expression held by two callers. -/

def demoAdd : List Int → Int := List.foldr (· + ·) 0
def demoMul : List Int → Int := List.foldr (· * ·) 1

def demo : List (Op Int) :=
  [.newVar false 2, .newVar true 3, .build demoAdd [0, 1] .plain 0, .build demoMul [2, 0] (.variable true) 0, .eval 3, .copy 2, .eval 4,
   .assign 0 5, .eval 3, .eval 2, .drop 2, .build demoAdd [3, 3] .plain 7, .eval 5, .assign 1 1, .eval 5, .eval 4]

example : run World.empty demo = [none, none, none, none, some 10, none, some 5, none, some 40, some 8, none, none, some 80, none, some 60, some 6] := by
  decide +kernel

example : (after World.empty (demo ++ [.eval 3])).isNew 3 = some false ∧ (after World.empty (demo ++ [.eval 3, .assign 1 9])).isNew 3 = some true := by
  decide +kernel

end Verif.EvalCache
