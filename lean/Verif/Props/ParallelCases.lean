import Verif.Props.Parallel
/- C90: a case in which the threads disturb each other, and cases for the theorems. -/
set_option linter.unusedSectionVars false
namespace Verif.Parallel
open Verif.EvalCache
namespace Cases

def sum : List Int → Int := List.foldr (· + ·) 0
def next : List Int → Int := List.foldr (· + ·) 1
def double : List Int → Int := fun l => 2 * sum l

/-- `x`, a variable `v` made from `x + 1`, `n = 2 v`, and the expressions `n + 1` and `2 n`, as in CentroidalMomentumConstraint.cpp:192-206. -/
def stale : List (Op Int) :=
  [.newVar false 3, .build next [0] .plain 0, .build sum [1] (.variable false) 0, .build double [2] .plain 0, .build next [3] .plain 0, .build double [3] .plain 0]

/-- Products fill their buffers with zeros, before adding to them. -/
def zeros : Style Int := ⟨fun _ => 0, fun _ => false⟩

/-- The second thread finds that `v` has to be updated; the first thread does it, and computes `n`; the second thread marks `v` as new, and starts computing `n` again;
the first thread reads `n`. -/
def schedule : List Nat := List.replicate 3 1 ++ List.replicate 81 0 ++ List.replicate 45 1 ++ List.replicate 40 0 ++ List.replicate 150 1

end Cases

/-- C90, what is missing: two expressions sharing a sub-expression of a variable made from an expression, which has to be updated.  One after the other they give 9 and 16; in
parallel, with this schedule, 1 and 16. -/
theorem C90_stale_variable :
    (launch (after World.empty Cases.stale) Cases.zeros [4, 5]).bind (fun st => (st.run Cases.schedule).results) = some [1, 16] ∧
      [4, 5].mapM (EvalCache.Spec.after EvalCache.Spec.State.empty Cases.stale).value = some [9, 16] ∧
      run World.empty (Cases.stale ++ [.eval 4, .eval 5]) = [none, none, none, none, none, none, some 9, some 16] := by
  refine ⟨?_, ?_, ?_⟩ <;> decide +kernel

/-! Evaluating `v` before the threads start is enough. -/

def Cases.evaluated : List (Op Int) := Cases.stale ++ [.eval 2]

example : (launch (after World.empty Cases.evaluated) Cases.zeros [4, 5]).bind (fun st => (st.run (Cases.schedule ++ List.replicate 60 0 ++ List.replicate 60 1)).results) = some [9, 16] := by
  decide +kernel

def Cases.role : Kind Int → Option Role
  | .var => none
  | .op _ _ r => some r

/-- The hypothesis of `C90_parallel_values_partial` holds there. -/
theorem Cases.evaluated_current : Spec.VariablesCurrent (after World.empty Cases.evaluated) := by
  intro i f ch b hk
  have hr : Cases.role ((after World.empty Cases.evaluated).heap i).kind = some (.variable b) := by rw [hk]; rfl
  by_cases hi : i < 6
  · obtain rfl : i = 2 := by
      by_contra h2
      have : i = 0 ∨ i = 1 ∨ i = 3 ∨ i = 4 ∨ i = 5 := by omega
      have none : Cases.role ((after World.empty Cases.evaluated).heap i).kind ≠ some (.variable true) ∧
          Cases.role ((after World.empty Cases.evaluated).heap i).kind ≠ some (.variable false) := by
        rcases this with rfl | rfl | rfl | rfl | rfl <;> decide +kernel
      cases b
      · exact none.2 hr
      · exact none.1 hr
    exact ⟨2, 0, by decide +kernel, by decide +kernel⟩
  · obtain ⟨own, I, H⟩ := rel_after (rel_empty (V := Int)) Cases.evaluated
    have hsz : (EvalCache.Spec.after EvalCache.Spec.State.empty Cases.evaluated).size ≤ i := by
      have : (EvalCache.Spec.after EvalCache.Spec.State.empty Cases.evaluated : EvalCache.Spec.State Int).size = 6 := by decide +kernel
      omega
    rw [(I.st.junk i hsz).1] at hk
    simp at hk

example : (launch (after World.empty Cases.evaluated) Cases.zeros [4, 5]).isSome = true := by decide +kernel

/-- In the case above the threads also have a data race. -/
example : (launch (after World.empty Cases.stale) Cases.zeros [4, 5]).bind (fun st =>
    let st := st.run (List.replicate 3 1 ++ List.replicate 81 0 ++ List.replicate 45 1)
    some (st.threads.map Spec.next)) = some [some (.buffer 3, false), some (.buffer 3, true)] := by decide +kernel

/-! A history without variables made from expressions, in which sub-expressions are shared by the threads. -/

def Cases.shared : List (Act Int) :=
  [.op (.newVar false 2), .op (.newVar true 3), .op (.build Cases.sum [0, 1] .plain 0), .op (.build Cases.double [2] .plain 0), .op (.build Cases.next [2, 0] .plain 0),
   .parallel Cases.zeros [3, 4] (((List.range 80).map fun _ => [0, 1]).flatten ++ List.replicate 40 0 ++ List.replicate 40 1),
   .op (.assign 0 10),
   .parallel ⟨fun _ => 0, fun _ => true⟩ [4, 3, 2] (((List.range 80).map fun _ => [2, 0, 1]).flatten ++ List.replicate 80 0 ++ List.replicate 80 1),
   .op (.eval 2)]

example : (∀ a ∈ Cases.shared, Spec.NoVariables a) ∧ acts World.empty Cases.shared = some [[], [], [], [], [], [10, 8], [], [24, 26, 13], [13]] := by
  refine ⟨?_, by decide +kernel⟩
  intro a ha
  simp only [Cases.shared, List.mem_cons, List.not_mem_nil, or_false] at ha
  rcases ha with rfl | rfl | rfl | rfl | rfl | rfl | rfl | rfl | rfl <;> trivial

end Verif.Parallel
