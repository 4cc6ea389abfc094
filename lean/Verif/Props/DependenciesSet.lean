import Verif.Model.DependenciesSet
import Verif.Props.EvalCache
/- C82: sets of dependencies of levi. -/
set_option linter.unusedSectionVars false
namespace Verif.EvalCache
variable {V : Type}

theorem askNew_back {w : World V} {s : Spec.State V} (R : Rel w s) (p q : Nat) : Up (step w (.askNew p)).1 q ↔ Up w q := by
  refine ⟨?_, (rel_askNew R p).2 q⟩
  obtain ⟨own, I, H⟩ := R
  simp only [step]
  cases hp : w.handle p with
  | none => exact id
  | some k =>
    obtain ⟨b, -⟩ := isNewF_spec (k.1 + 1) w.heap k.1 k.2 (by omega) I.dy.le I.st.older
    obtain ⟨te, -⟩ := b.tells I.dy.le own (fun _ _ => False)
    rintro ⟨k', hp', hc, hr⟩
    have hp' : w.handle q = some k' := hp'
    obtain ⟨x, y⟩ := te _ _ id (H.own_held hp') hc hr
    exact ⟨k', hp', x, y⟩

theorem handle_askNew (w : World V) (p q : Nat) : (step w (.askNew p)).1.handle q = w.handle q := by
  simp only [step]
  cases hp : w.handle p <;> rfl

/-- The questions in order. -/
theorem areNew_state (w : World V) (ps : List Nat) : (areNew w ps).2 = after w (ps.map .askNew) := by
  induction ps generalizing w with
  | nil => rfl
  | cons p ps ih =>
    cases ps with
    | nil => rfl
    | cons q ps => exact ih _

theorem areNew_answer {w : World V} {s : Spec.State V} (R : Rel w s) (ps : List Nat) (h : ∀ p ∈ ps, w.handle p ≠ none) :
    (areNew w ps).1 = true ↔ ∃ p ∈ ps, w.isNew p = some true := by
  have answer : ∀ {w : World V} {s : Spec.State V}, Rel w s → ∀ p, w.handle p ≠ none →
      ((askNew w p).1 = true ↔ w.isNew p = some true) ∧ (w.isNew p = some true ↔ ¬Up w p) := by
    intro w s R p hp
    have i := isNew_iff R p
    unfold askNew
    cases hn : w.isNew p with
    | none =>
      unfold World.isNew at hn
      rw [Option.map_eq_none_iff] at hn
      exact absurd hn hp
    | some b => cases b <;> simp_all
  induction ps generalizing w s with
  | nil => simp [areNew]
  | cons p ps ih =>
    cases ps with
    | nil => simp [areNew, (answer R p (h p (by simp))).1]
    | cons q ps =>
      have R' := (rel_askNew R p).1
      have hh : ∀ r ∈ q :: ps, (step w (.askNew p)).1.handle r ≠ none := fun r hr => by rw [handle_askNew]; exact h r (by simp [hr])
      have key : (areNew w (p :: q :: ps)).1 = ((areNew (step w (.askNew p)).1 (q :: ps)).1 || (askNew w p).1) := rfl
      have i : (areNew (step w (.askNew p)).1 (q :: ps)).1 = true ↔ ∃ r ∈ q :: ps, (step w (.askNew p)).1.isNew r = some true := ih R' hh
      rw [key, Bool.or_eq_true, i, (answer R p (h p (by simp))).1]
      constructor
      · rintro (⟨r, hr, e⟩ | e)
        · refine ⟨r, by simp [hr], ?_⟩
          rw [(answer R' r (hh r hr)).2, askNew_back R] at e
          rwa [(answer R r (h r (by simp [hr]))).2]
        · exact ⟨p, by simp, e⟩
      · rintro ⟨r, hr, e⟩
        rcases List.mem_cons.1 hr with rfl | hr
        · exact Or.inr e
        · refine Or.inl ⟨r, hr, ?_⟩
          rw [(answer R' r (hh r hr)).2, askNew_back R, ← (answer R r (h r (by simp [hr]))).2]
          exact e

/-- **C82.** Whatever happened before, a set answers to have something new exactly when one of its expressions, asked on its own, does. -/
theorem C82_are_new [Inhabited V] (os : List (Op V)) (ps : List Nat) (h : ∀ p ∈ ps, (after World.empty os).handle p ≠ none) :
    (areNew (after World.empty os) ps).1 = true ↔ ∃ p ∈ ps, (after World.empty os).isNew p = some true :=
  areNew_answer (rel_after rel_empty os) ps h

/-- **C82.** When a set answers that nothing is new, each of its expressions has been evaluated and has the value it returned. -/
theorem C82_nothing_new [Inhabited V] (os : List (Op V)) (ps : List Nat) (h : ∀ p ∈ ps, (after World.empty os).handle p ≠ none)
    (hn : (areNew (after World.empty os) ps).1 = false) (p : Nat) (hp : p ∈ ps) :
    (Spec.after Spec.State.empty os).value p ≠ none ∧
      (Spec.after Spec.State.empty os).last p = (Spec.after Spec.State.empty os).value p := by
  refine C51_not_new_means_unchanged os p ?_
  have : ¬∃ p ∈ ps, (after World.empty os).isNew p = some true := by rw [← C82_are_new os ps h, hn]; simp
  cases e : (after World.empty os).isNew p with
  | none =>
    unfold World.isNew at e
    rw [Option.map_eq_none_iff] at e
    exact absurd e (h p hp)
  | some b => cases b with
    | false => rfl
    | true => exact absurd ⟨p, hp, e⟩ this

theorem after_snoc (w : World V) (os : List (Op V)) (o : Op V) : after w (os ++ [o]) = (step (after w os) o).1 := by
  simp [after, List.foldl_append]

/-- **C82.** Asking does not change the answers: neither of the set nor of any expression, nor any value returned later. -/
theorem C82_asking_changes_nothing [Inhabited V] (os os' : List (Op V)) (ps : List Nat) (q : Nat) :
    ((areNew (after World.empty os) ps).2.isNew q = some false ↔ (after World.empty os).isNew q = some false) ∧
      run (areNew (after World.empty os) ps).2 os' = run (after World.empty os) os' := by
  rw [areNew_state]
  have R := rel_after (rel_empty (V := V)) os
  have hs : ∀ (ps : List Nat) (s : Spec.State V), Spec.after s (ps.map .askNew) = s := by
    intro ps
    induction ps with
    | nil => intro s; rfl
    | cons p ps ih => intro s; exact ih s
  have R' := rel_after R (ps.map .askNew)
  constructor
  · rw [isNew_iff R', isNew_iff R]
    clear R'
    generalize after World.empty os = w at R ⊢
    generalize Spec.after Spec.State.empty os = s at R
    induction ps generalizing w with
    | nil => exact Iff.rfl
    | cons p ps ih => exact (ih _ (rel_askNew R p).1).trans (askNew_back R p q)
  · rw [hs] at R'
    rw [run_eq R', run_eq R]

/-- **C82.** After all the expressions of the set were evaluated, and until a variable is assigned, the set answers that nothing is
new. -/
theorem C82_all_evaluated [Inhabited V] (os os' : List (Op V)) (ps : List Nat) (h : ∀ p ∈ ps, (Spec.after Spec.State.empty os).value p ≠ none)
    (hq : ∀ p ∈ ps, ∀ o ∈ os', Spec.Quiet p o) :
    (areNew (after World.empty (os ++ ps.map .eval ++ os')) ps).1 = false := by
  have each : ∀ p ∈ ps, (after World.empty (os ++ ps.map .eval ++ os')).isNew p = some false := by
    intro p hp
    obtain ⟨l, r, rfl⟩ := List.append_of_mem hp
    have e : os ++ (l ++ p :: r).map Op.eval ++ os' = (os ++ l.map .eval) ++ [.eval p] ++ (r.map .eval ++ os') := by simp
    rw [e]
    refine C52_evaluated_is_not_new _ _ p ?_ ?_
    · have hv : ∀ (l : List Nat) (s : Spec.State V) (p : Nat), s.value p ≠ none → (Spec.after s (l.map .eval)).value p ≠ none := by
        intro l
        induction l with
        | nil => intro s p h; exact h
        | cons q l ih =>
          intro s p h
          refine ih _ p ?_
          have : (Spec.step s (.eval q)).1.value p = s.value p := by
            simp only [Spec.step]
            cases s.handle q <;> rfl
          rw [this]
          exact h
      have := hv l _ p (h p hp)
      rwa [← show Spec.after Spec.State.empty (os ++ l.map .eval) = Spec.after (Spec.after Spec.State.empty os) (l.map .eval) by
        simp [Spec.after, List.foldl_append]] at this
    · intro o ho
      rcases List.mem_append.1 ho with ho | ho
      · obtain ⟨r', -, rfl⟩ := List.mem_map.1 ho
        trivial
      · exact hq p hp o ho
  rw [← Bool.not_eq_true, C82_are_new]
  · rintro ⟨p, hp, e⟩
    rw [each p hp] at e
    cases e
  · intro p hp e
    have := each p hp
    unfold World.isNew at this
    rw [e] at this
    cases this

/-- **C82.** Evaluating through the set is evaluating the expression. -/
theorem C82_evaluate (w : World V) (ps : List Nat) (i p : Nat) (h : ps[i]? = some p) : evaluateOf w ps i = step w (.eval p) := by
  unfold evaluateOf
  rw [h]

/-- A set of three expressions: none of them is new, then an assignment makes two of them new. -/
example : (areNew (after World.empty (demo ++ [.eval 3, .eval 0])) [0, 3, 5]).1 = false ∧
    (areNew (after World.empty (demo ++ [.eval 3, .eval 0, .eval 5, .eval 1, .assign 1 9])) [0, 3, 5]).1 = true := by
  decide +kernel

end Verif.EvalCache
