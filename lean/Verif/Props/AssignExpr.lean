import Verif.Props.EvalCache
import Verif.Lemmas.EvalCacheCount
/- C105: expressions can be assigned to each other, every expression has a caller ID of its own, and registers do not leak. -/
set_option linter.unusedSectionVars false
namespace Verif.EvalCache
variable {V : Type}

/-- After the assignment `p = q`, evaluating `p` returns what evaluating `q` would have returned (nothing, if `q` was empty). -/
theorem C105_assigned_partial [Inhabited V] (os : List (Op V)) (p q : Nat) (hp : p < (after World.empty os).handles.length) :
    (step (after World.empty (os ++ [.become p q])) (.eval p)).2 = (step (after World.empty os) (.eval q)).2 := by
  have R := rel_after (rel_empty (V := V)) os
  have R' := (rel_step R (.become p q)).2
  have e : after World.empty (os ++ [.become p q]) = (step (after World.empty os) (.become p q)).1 := by simp [after, List.foldl_append]
  rw [e, (rel_step R' (.eval p)).1, (rel_step R (.eval q)).1]
  generalize Spec.after Spec.State.empty os = s at *
  have hl : p < s.handles.length := by
    obtain ⟨own, I, H⟩ := R
    rw [H.handles, List.length_map]; exact hp
  have eh : ((Spec.step s (.become p q)).1).handle p = s.handle q := by
    show ((s.handles.set p (s.handle q))[p]?).join = _
    rw [List.getElem?_set, if_pos rfl, if_pos hl]; rfl
  simp only [Spec.step] at eh ⊢
  rw [eh]
  cases s.handle q <;> rfl

/-- The expressions assigned to are new, the others keep what they answer. -/
theorem C105_assigned_is_new_partial [Inhabited V] (os : List (Op V)) (p q : Nat) :
    (after World.empty (os ++ [.become p q])).isNew p ≠ some false ∧
      ∀ t, t ≠ p → (after World.empty os).isNew t = some false → (after World.empty (os ++ [.become p q])).isNew t = some false := by
  have R := rel_after (rel_empty (V := V)) os
  have e : after World.empty (os ++ [.become p q]) = (step (after World.empty os) (.become p q)).1 := by simp [after, List.foldl_append]
  refine ⟨C51_never_evaluated_is_new _ p ?_, fun t ht h => ?_⟩
  · simp [Spec.after, List.foldl_append, Spec.step]
  · rw [e, isNew_iff (rel_become R p q).1]
    exact (rel_become R p q).2 t ht ((isNew_iff R t).1 h)

/-- Expressions of the same object have different caller IDs, none of which is in the recycle bin, or is used by an operator for an
operand or for a dependency. -/
theorem C105_own_ID_partial [Inhabited V] (os : List (Op V)) (p : Nat) (k : Nat × Nat) (hp : (after World.empty os).handle p = some k) :
    (∀ p', p' ≠ p → (after World.empty os).handle p' ≠ some k) ∧ k.2 < ((after World.empty os).heap k.1).ids ∧
      k.2 ∉ ((after World.empty os).heap k.1).bin ∧
      ∀ i, k ∉ Spec.operands ((after World.empty os).heap i) ∧ k ∉ ((after World.empty os).heap i).deps := by
  obtain ⟨own, I, H⟩ := rel_after (rel_empty (V := V)) os
  have h1 := (H.own p k hp).1
  refine ⟨fun p' hne hp' => ?_, ?_, fun hb => ?_, fun i => ⟨fun ho => ?_, fun hd => ?_⟩⟩
  · have := (H.own p' k hp').1
    rw [h1] at this
    exact hne (Owner.handle.inj this).symm
  · by_contra hc
    have := I.tb.ge k.1 k.2 (by omega)
    rw [h1] at this
    exact absurd this (by simp)
  · have := (I.tb.bin k.1 k.2 hb).1
    rw [h1] at this
    exact absurd this (by simp)
  · unfold Spec.operands at ho
    cases hk : ((after World.empty os).heap i).kind with
    | var => rw [hk] at ho; simp at ho
    | op f ch role =>
      rw [hk] at ho
      have := ((I.st.op i f ch role hk).2.2.2.1 k ho).2.1
      rw [h1] at this
      exact absurd this (by simp)
  · have := I.st.dep i k hd
    rw [h1] at this
    exact absurd this (by simp)

theorem exact_after [Inhabited V] (os : List (Op V)) : Exact (after (World.empty : World V) os) := by
  induction os using List.reverseRecOn with
  | nil => exact fun i hi => absurd hi (by simp [after, World.empty])
  | append_singleton os o ih =>
    have e : after World.empty (os ++ [o]) = (step (after World.empty os) o).1 := by simp [after, List.foldl_append]
    rw [e]
    exact (exact_step (rel_after rel_empty os) ih o).1

/-- Every caller ID is either in the recycle bin or in use: destroying and assigning expressions gives the IDs back. -/
theorem C105_no_leak_partial [Inhabited V] (os : List (Op V)) (i : Nat) (hi : i < (after (World.empty : World V) os).size) :
    ((after (World.empty : World V) os).heap i).ids = ((after (World.empty : World V) os).heap i).bin.length + Spec.users (after World.empty os) i := by
  have := exact_after os i hi
  unfold used at this
  omega

/-- The register of an evaluable is never larger than the largest number of expressions, operands and dependencies that used it at the same time. -/
theorem C105_register_bounded_partial [Inhabited V] (os : List (Op V)) (i N : Nat) (hi : i < (after (World.empty : World V) os).size)
    (hN : ∀ os', os' <+: os → Spec.users (after (World.empty : World V) os') i ≤ N) :
    ((after (World.empty : World V) os).heap i).ids ≤ N := by
  induction os using List.reverseRecOn with
  | nil => exact absurd hi (by simp [after, World.empty])
  | append_singleton os o ih =>
    have e : after World.empty (os ++ [o]) = (step (after (World.empty : World V) os) o).1 := by simp [after, List.foldl_append]
    obtain ⟨-, -, g⟩ := exact_step (rel_after rel_empty os) (exact_after os) o
    rw [← e] at g
    rcases g i hi with ⟨h1, h2⟩ | h1
    · exact Nat.le_trans h2 (ih h1 fun os' h => hN os' (h.trans (List.prefix_append os [o])))
    · exact Nat.le_trans h1 (hN _ (List.prefix_refl _))

/-! Concrete cases. -/

def demoAssign : List (Op Int) :=
  [.newVar false 2, .newVar true 3, .build demoAdd [0, 1] .plain 0, .build demoMul [2, 0] .plain 0, .eval 3, .eval 2, .become 3 2, .eval 3, .become 3 3, .assign 0 7,
   .eval 3, .become 2 9, .eval 2, .become 2 0, .eval 2]

example : run World.empty demoAssign = [none, none, none, none, some 10, some 5, none, some 5, none, none, some 10, none, none, none, some 7] := by
  decide +kernel

example : (after World.empty demoAssign).isNew 2 = some false ∧ (after World.empty (demoAssign ++ [.become 2 3])).isNew 2 = some true := by
  decide +kernel

/-- A variable used by two expressions, two operands and two dependencies. -/
example : Spec.users (after World.empty demoAssign) 0 = 6 ∧ ((after World.empty demoAssign).heap 0).ids = 6 := by
  decide +kernel

/-! What is false: assigning an empty expression of another type gives the ID back but keeps using it, so that the ID can be given
to an operator for its dependency; evaluating the expression then marks the change of the variable as seen by the operator. -/

def demoForget : List (Op Int) := [.newVar false 2, .copy 0, .copy 0]
def demoAfterwards : List (Op Int) := [.drop 2, .build demoAdd [0] .plain 0, .eval 3, .assign 0 5, .eval 1, .eval 3]

/-- With the assignment: the last evaluation of `f = x` returns the value before the change of `x`. -/
theorem C105_empty_of_another_type_finding :
    run (Spec.forget (after World.empty demoForget) 1) demoAfterwards = [none, none, some 2, none, some 5, some 2] ∧
      (run (after World.empty demoForget) demoAfterwards).getLast? = some (some 5) ∧
      (Spec.forget (after World.empty demoForget) 1).handle 1 = some (0, 1) ∧
      1 ∈ ((Spec.forget (after World.empty demoForget) 1).heap 0).bin := by
  decide +kernel

end Verif.EvalCache
