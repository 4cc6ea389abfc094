import Verif.Lemmas.Solver4
/- The initial state in a history. -/
set_option linter.unusedSectionVars false
set_option linter.unusedSimpArgs false
namespace Verif.SolverM
open StateM Spec
variable {K R : Type} [Field K] [LinearOrder K] [IsStrictOrderedRing K]

theorem initial_step (E : Context K R) {s s' : Solver K R} {log : List (Op K R × Bool)} {o : Op K R} {b : Bool} (hi : Inv s)
    (hs : ∀ x, InitialStateGiven log x → s.initialState = x) (h : step E s o = some (s', b)) :
    ∀ x, InitialStateGiven (log ++ [(o, b)]) x → s'.initialState = x := by
  intro x hx
  rw [initial_iff, since_snoc] at hx
  have same : s'.initialState = s.initialState → ((o, b) : Op K R × Bool) ≠ (Op.setInitialState x, true) → s'.initialState = x := by
    intro e hne
    rcases hx with hx | hx
    · exact absurd hx hne
    · rw [e]; exact hs x ((initial_iff _ _).2 hx.1)
  cases o with
  | specifySettings settings a =>
    simp only [step] at h
    cases hv : settings.isValid with
    | false =>
      rw [specify_invalid E s settings a hv] at h
      obtain ⟨rfl, rfl⟩ := Prod.mk.inj (Option.some.inj h)
      exact same rfl (by simp)
    | true =>
      rcases hx with hx | hx
      · cases hx
      · exact absurd (Or.inr ⟨_, _, _, rfl, hv⟩) hx.2
  | setInitialState z =>
    simp only [step] at h
    have e := Option.some.inj h
    rcases setInitialState_cases s z with h' | ⟨-, -, h'⟩
    · rw [e] at h'
      obtain ⟨rfl, rfl⟩ := Prod.mk.inj h'
      exact same rfl (by simp)
    · rw [e] at h'
      obtain ⟨rfl, rfl⟩ := Prod.mk.inj h'
      rcases hx with hx | hx
      · cases hx; rfl
      · exact absurd (Or.inl ⟨z, rfl⟩) hx.2
  | setGuesses g h' =>
    rcases setGuesses_cases h with ⟨-, rfl⟩ | ⟨-, -, _, _, _, -, -, -, rfl⟩
    · exact same rfl (by simp)
    · exact same rfl (by simp)
  | setOptimizer o ok =>
    simp only [step] at h
    have e := Option.some.inj h
    unfold setOptimizer at e
    cases o with
    | none => exact same (by rw [← (Prod.mk.inj e).1]) (by simp)
    | some i =>
      dsimp only at e
      by_cases hc : (s.prepared && !ok) = true
      · rw [if_pos hc] at e; exact same (by rw [← (Prod.mk.inj e).1]) (by simp)
      · rw [if_neg hc] at e; exact same (by rw [← (Prod.mk.inj e).1]) (by simp)
  | setIntegrator g ok =>
    simp only [step] at h
    have e := Option.some.inj h
    unfold setIntegrator at e
    by_cases h1 : (!g) = true
    · rw [if_pos h1] at e; exact same (by rw [← (Prod.mk.inj e).1]) (by simp)
    rw [if_neg h1] at e
    by_cases hc : (s.prepared && !ok) = true
    · rw [if_pos hc] at e; exact same (by rw [← (Prod.mk.inj e).1]) (by simp)
    · rw [if_neg hc] at e; exact same (by rw [← (Prod.mk.inj e).1]) (by simp)
  | solve a =>
    simp only [step] at h
    cases hr : solve E s a [] [] with
    | none => rw [hr] at h; cases h
    | some res =>
      rw [hr] at h
      simp only [Option.map_some] at h
      obtain ⟨rfl, rfl⟩ := Prod.mk.inj (Option.some.inj h)
      obtain ⟨c1, c2⟩ := solve_cases E hi a [] []
      cases hp : s.prepared with
      | false =>
        rw [c1 hp] at hr
        obtain rfl := Option.some.inj hr
        exact same rfl (by simp)
      | true =>
        obtain ⟨st, sh, hst, hsh, -, e'⟩ := c2 hp
        rw [e'] at hr
        exact same (solveWith_spec E _ a [] [] st _ sh hr).keeps.initialState (by simp)

theorem initial_run (E : Context K R) (ipopt : Option (K × K)) (fr : Bool) (ops : List (Op K R)) (hst : SettingsFromAPI ops)
    {s : Solver K R} {log : List (Op K R × Bool)} (h : run E (Solver.new E ipopt fr) ops = some (s, log)) :
    ∀ x, InitialStateGiven log x → s.initialState = x := by
  induction ops using List.reverseRecOn generalizing s log with
  | nil =>
    simp only [run] at h
    obtain ⟨rfl, rfl⟩ := Prod.mk.inj (Option.some.inj h)
    intro x hx
    exact absurd ((initial_iff _ _).1 hx) (since_nil _ _)
  | append_singleton ops o ih =>
    obtain ⟨s1, log1, b, e1, e2, rfl⟩ := run_snoc E _ ops o h
    have hst1 : SettingsFromAPI ops := fun s a hm hv => hst s a (by simp [hm]) hv
    exact initial_step E (history_run E ipopt fr _ hst1 e1).inv (ih hst1 e1) e2

/-- `solve` on an object that has been configured, with everything it needs. -/
theorem solve_ready (E : Context K R) {s : Solver K R} {log : List (Op K R × Bool)} (hs : History s log) (hc : Configured log) (a : SolveAnswers K)
    (states : List (State K)) (controls : List (Control K)) :
    ∃ st sh, LastLog log st ∧ s.shooter = some sh ∧ StateSize st.robotModel.nrOfDOFs st.nLeftPoints s.initialState ∧
      solve E s a states controls =
        solveWith E { s with initialStateVector := stateVector s.initialState (E.asQuat s.initialState.base.rot) } a states controls st
          (rangesAt st.robotModel.nrOfDOFs st.nLeftPoints) sh := by
  obtain ⟨st, sh, h1, h2, h3, h4⟩ := (solve_cases E hs.inv a states controls).2 (hs.prepared.2 hc)
  exact ⟨st, sh, (hs.settings st).1 h1, h2, h3, h4⟩

theorem solveWith_defined (E : Context K R) (s : Solver K R) (a : SolveAnswers K) (states : List (State K)) (controls : List (Control K))
    (st : Settings.SettingsStruct K R) (sh n : Nat) (hn : st.nLeftPoints = n) (hz : Sizes n s) (ha : SolutionOk st.robotModel.nrOfDOFs n a) :
    ∃ res, solveWith E s a states controls st (rangesAt st.robotModel.nrOfDOFs st.nLeftPoints) sh = some res ∧
      (res.ok = true → Series (StateRead E.sqrt st.robotModel.nrOfDOFs n) a.stateTimings a.states res.states ∧
        Series (ControlRead st.robotModel.nrOfDOFs n) a.controlTimings a.controls res.controls) := by
  subst hn
  obtain ⟨xs, e1, s1⟩ := fillStates_ok E.sqrt st.robotModel.nrOfDOFs st.nLeftPoints a.stateTimings a.states
    (resizeList s.optimalStates a.stateTimings.length (State.new E.state st.robotModel.nrOfDOFs st.nLeftPoints E.stateJunk)) ha.states
    (resizeList_length ..) ha.stateSize (resize_points hz.states E _ _)
  obtain ⟨us, e2, s2⟩ := fillControls_ok st.robotModel.nrOfDOFs st.nLeftPoints a.controlTimings a.controls
    (resizeList s.optimalControls a.controlTimings.length (Control.new E.control st.robotModel.nrOfDOFs st.nLeftPoints E.controlJunk)) ha.controls
    (resizeList_length ..) ha.controlSize (resize_pointsC hz.controls E _ _)
  have hd : ∃ res, solveWith E s a states controls st (rangesAt st.robotModel.nrOfDOFs st.nLeftPoints) sh = some res := by
    unfold solveWith
    dsimp only
    rw [e1]
    dsimp only
    rw [e2]
    dsimp only
    repeat' split
    all_goals exact ⟨_, rfl⟩
  obtain ⟨res, hres⟩ := hd
  refine ⟨res, hres, fun ho => ?_⟩
  obtain ⟨-, -, -, -, -, d6, d7⟩ := (solveWith_spec E s a states controls st _ sh hres).done ho
  rw [e1] at d6
  rw [e2] at d7
  rw [← Option.some.inj d6, ← Option.some.inj d7]
  exact ⟨s1, s2⟩

end Verif.SolverM
