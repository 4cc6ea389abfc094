import Verif.Lemmas.Solver
/- What `solve` does. -/
set_option linter.unusedSectionVars false
set_option linter.unusedSimpArgs false
namespace Verif.SolverM
open StateM Spec
open Labeller (Labeller)
variable {K R : Type} [Field K] [LinearOrder K] [IsStrictOrderedRing K]

/-- The members that `solve` does not touch. -/
structure SolveKeeps (s s' : Solver K R) : Prop where
  settings : s'.settings = s.settings
  ranges : s'.ranges = s.ranges
  initialState : s'.initialState = s.initialState
  prepared : s'.prepared = s.prepared
  problem : s'.problem = s.problem
  created : s'.created = s.created
  shooter : s'.shooter = s.shooter
  bounds : s'.bounds = s.bounds
  plus : s'.plusInfinity = s.plusInfinity
  minus : s'.minusInfinity = s.minusInfinity

/-- The results and guesses are those of before. -/
structure ResultsKept (s s' : Solver K R) : Prop where
  optimalStates : s'.optimalStates = s.optimalStates
  optimalControls : s'.optimalControls = s.optimalControls
  stateGuess : s'.stateGuess = s.stateGuess
  controlGuess : s'.controlGuess = s.controlGuess
  firstRun : s'.firstRun = s.firstRun

/-- What is known of a call of `solve` that reached the shooting solver. -/
structure SolveSpec (E : Context K R) (s : Solver K R) (a : SolveAnswers K) (states : List (State K)) (controls : List (Control K))
    (st : Settings.SettingsStruct K R) (r : Ranges) (sh : Nat) (res : SolveResult K R) : Prop where
  keeps : SolveKeeps s res.solver
  failed : res.ok = false → res.states = states ∧ res.controls = controls ∧ ResultsKept s res.solver
  done : res.ok = true → res.solver.optimalStates = res.states ∧ res.solver.optimalControls = res.controls ∧ res.solver.stateGuess = none ∧
    res.solver.controlGuess = none ∧ res.solver.firstRun = false ∧
    fillStates E.sqrt r a.stateTimings a.states
      (resizeList s.optimalStates a.stateTimings.length (State.new E.state st.robotModel.nrOfDOFs st.nLeftPoints E.stateJunk)) = some res.states ∧
    fillControls r a.controlTimings a.controls
      (resizeList s.optimalControls a.controlTimings.length (Control.new E.control st.robotModel.nrOfDOFs st.nLeftPoints E.controlJunk)) =
        some res.controls
  calls : ∀ c ∈ res.calls, c = .setInitialState sh s.initialStateVector ∨
    c = .setTimeHorizon s.problem s.initialState.time (s.initialState.time + st.horizon) ∨
    (∃ g, guessesFor E s st.robotModel.nrOfDOFs st.nLeftPoints r = some g ∧ c = .setGuesses sh g) ∨ c = .optimise sh
  optimise : (Call.optimise sh ∈ res.calls) → .setInitialState sh s.initialStateVector ∈ res.calls ∧
    (Call.setTimeHorizon s.problem s.initialState.time (s.initialState.time + st.horizon)) ∈ res.calls ∧
    (∀ g, guessesFor E s st.robotModel.nrOfDOFs st.nLeftPoints r = some g → Call.setGuesses sh g ∈ res.calls) ∧
    res.solver.horizon s.problem = some (s.initialState.time, s.initialState.time + st.horizon)
  solved : res.ok = true → Call.optimise sh ∈ res.calls
  outcome : res.ok = true ↔ a.setInitialState ∧ a.setTimeHorizon ∧ ((guessesFor E s st.robotModel.nrOfDOFs st.nLeftPoints r).isSome → a.setGuesses = true) ∧
    a.solve ∧ a.getTimings ∧ a.getSolution
  horizons : ∀ p, p ≠ s.problem → res.solver.horizon p = s.horizon p

theorem solveWith_spec (E : Context K R) (s : Solver K R) (a : SolveAnswers K) (states : List (State K)) (controls : List (Control K))
    (st : Settings.SettingsStruct K R) (r : Ranges) (sh : Nat) {res : SolveResult K R} (h : solveWith E s a states controls st r sh = some res) :
    SolveSpec E s a states controls st r sh res := by
  unfold solveWith at h
  dsimp only at h
  have hg : guessesFor E { s with horizon := Function.update s.horizon s.problem (some (s.initialState.time, s.initialState.time + st.horizon)) }
      st.robotModel.nrOfDOFs st.nLeftPoints r = guessesFor E s st.robotModel.nrOfDOFs st.nLeftPoints r := rfl
  rw [hg] at h
  by_cases h1 : (!a.setInitialState) = true
  · rw [if_pos h1] at h
    obtain rfl := Option.some.inj h
    exact ⟨⟨rfl, rfl, rfl, rfl, rfl, rfl, rfl, rfl, rfl, rfl⟩, fun _ => ⟨rfl, rfl, rfl, rfl, rfl, rfl, rfl⟩, by simp, by simp, by simp, by simp,
      by simp_all, fun _ _ => rfl⟩
  rw [if_neg h1] at h
  by_cases h2 : (!a.setTimeHorizon) = true
  · rw [if_pos h2] at h
    obtain rfl := Option.some.inj h
    exact ⟨⟨rfl, rfl, rfl, rfl, rfl, rfl, rfl, rfl, rfl, rfl⟩, fun _ => ⟨rfl, rfl, rfl, rfl, rfl, rfl, rfl⟩, by simp, by simp, by simp, by simp,
      by simp_all, fun _ _ => rfl⟩
  rw [if_neg h2] at h
  have up : Function.update s.horizon s.problem (some (s.initialState.time, s.initialState.time + st.horizon)) s.problem =
    some (s.initialState.time, s.initialState.time + st.horizon) := Function.update_self ..
  have up' : ∀ p, p ≠ s.problem → Function.update s.horizon s.problem (some (s.initialState.time, s.initialState.time + st.horizon)) p = s.horizon p :=
    fun p hp => Function.update_of_ne hp ..
  cases g : guessesFor E s st.robotModel.nrOfDOFs st.nLeftPoints r with
  | none =>
    rw [g] at h
    dsimp only at h
    rw [if_neg (by simp)] at h
    by_cases h3 : (!a.solve) = true
    · rw [if_pos h3] at h
      obtain rfl := Option.some.inj h
      exact ⟨⟨rfl, rfl, rfl, rfl, rfl, rfl, rfl, rfl, rfl, rfl⟩, fun _ => ⟨rfl, rfl, rfl, rfl, rfl, rfl, rfl⟩, by simp, by simp,
        fun _ => ⟨by simp, by simp, by simp [g], up⟩, by simp, by simp_all, up'⟩
    rw [if_neg h3] at h
    by_cases h4 : (!a.getTimings) = true
    · rw [if_pos h4] at h
      obtain rfl := Option.some.inj h
      exact ⟨⟨rfl, rfl, rfl, rfl, rfl, rfl, rfl, rfl, rfl, rfl⟩, fun _ => ⟨rfl, rfl, rfl, rfl, rfl, rfl, rfl⟩, by simp, by simp,
        fun _ => ⟨by simp, by simp, by simp [g], up⟩, by simp, by simp_all, up'⟩
    rw [if_neg h4] at h
    by_cases h5 : (!a.getSolution) = true
    · rw [if_pos h5] at h
      obtain rfl := Option.some.inj h
      exact ⟨⟨rfl, rfl, rfl, rfl, rfl, rfl, rfl, rfl, rfl, rfl⟩, fun _ => ⟨rfl, rfl, rfl, rfl, rfl, rfl, rfl⟩, by simp, by simp,
        fun _ => ⟨by simp, by simp, by simp [g], up⟩, by simp, by simp_all, up'⟩
    rw [if_neg h5] at h
    cases f1 : fillStates E.sqrt r a.stateTimings a.states
      (resizeList s.optimalStates a.stateTimings.length (State.new E.state st.robotModel.nrOfDOFs st.nLeftPoints E.stateJunk)) with
    | none => rw [f1] at h; cases h
    | some xs =>
      rw [f1] at h
      dsimp only at h
      cases f2 : fillControls r a.controlTimings a.controls
          (resizeList s.optimalControls a.controlTimings.length (Control.new E.control st.robotModel.nrOfDOFs st.nLeftPoints E.controlJunk)) with
      | none => rw [f2] at h; cases h
      | some us =>
        rw [f2] at h
        obtain rfl := Option.some.inj h
        exact ⟨⟨rfl, rfl, rfl, rfl, rfl, rfl, rfl, rfl, rfl, rfl⟩, by simp, fun _ => ⟨rfl, rfl, rfl, rfl, rfl, f1, f2⟩, by simp,
          fun _ => ⟨by simp, by simp, by simp [g], up⟩, by simp, by simp_all, up'⟩
  | some gs =>
    rw [g] at h
    dsimp only at h
    by_cases h6 : ((some gs).isSome && !a.setGuesses) = true
    · rw [if_pos h6] at h
      obtain rfl := Option.some.inj h
      exact ⟨⟨rfl, rfl, rfl, rfl, rfl, rfl, rfl, rfl, rfl, rfl⟩, fun _ => ⟨rfl, rfl, rfl, rfl, rfl, rfl, rfl⟩, by simp, by simp [g],
        by simp, by simp, by simp_all, up'⟩
    rw [if_neg h6] at h
    by_cases h3 : (!a.solve) = true
    · rw [if_pos h3] at h
      obtain rfl := Option.some.inj h
      exact ⟨⟨rfl, rfl, rfl, rfl, rfl, rfl, rfl, rfl, rfl, rfl⟩, fun _ => ⟨rfl, rfl, rfl, rfl, rfl, rfl, rfl⟩, by simp, by simp [g],
        fun _ => ⟨by simp, by simp, by simp [g], up⟩, by simp, by simp_all, up'⟩
    rw [if_neg h3] at h
    by_cases h4 : (!a.getTimings) = true
    · rw [if_pos h4] at h
      obtain rfl := Option.some.inj h
      exact ⟨⟨rfl, rfl, rfl, rfl, rfl, rfl, rfl, rfl, rfl, rfl⟩, fun _ => ⟨rfl, rfl, rfl, rfl, rfl, rfl, rfl⟩, by simp, by simp [g],
        fun _ => ⟨by simp, by simp, by simp [g], up⟩, by simp, by simp_all, up'⟩
    rw [if_neg h4] at h
    by_cases h5 : (!a.getSolution) = true
    · rw [if_pos h5] at h
      obtain rfl := Option.some.inj h
      exact ⟨⟨rfl, rfl, rfl, rfl, rfl, rfl, rfl, rfl, rfl, rfl⟩, fun _ => ⟨rfl, rfl, rfl, rfl, rfl, rfl, rfl⟩, by simp, by simp [g],
        fun _ => ⟨by simp, by simp, by simp [g], up⟩, by simp, by simp_all, up'⟩
    rw [if_neg h5] at h
    cases f1 : fillStates E.sqrt r a.stateTimings a.states
      (resizeList s.optimalStates a.stateTimings.length (State.new E.state st.robotModel.nrOfDOFs st.nLeftPoints E.stateJunk)) with
    | none => rw [f1] at h; cases h
    | some xs =>
      rw [f1] at h
      dsimp only at h
      cases f2 : fillControls r a.controlTimings a.controls
          (resizeList s.optimalControls a.controlTimings.length (Control.new E.control st.robotModel.nrOfDOFs st.nLeftPoints E.controlJunk)) with
      | none => rw [f2] at h; cases h
      | some us =>
        rw [f2] at h
        obtain rfl := Option.some.inj h
        exact ⟨⟨rfl, rfl, rfl, rfl, rfl, rfl, rfl, rfl, rfl, rfl⟩, by simp, fun _ => ⟨rfl, rfl, rfl, rfl, rfl, f1, f2⟩, by simp [g],
          fun _ => ⟨by simp, by simp, by simp [g], up⟩, by simp, by simp_all, up'⟩

/-- The object is consistent: what is needed to know that the calls are defined. -/
structure Inv (s : Solver K R) : Prop where
  ready : ∀ st, s.settings = some st → s.ranges = some (rangesAt st.robotModel.nrOfDOFs st.nLeftPoints) ∧
    StateSize st.robotModel.nrOfDOFs st.nLeftPoints s.initialState
  prepared : s.prepared = true → s.settings.isSome ∧ s.shooter.isSome
  guesses : s.stateGuess.isSome = s.controlGuess.isSome
  problem : s.created = 0 ∨ s.problem < s.created
  shooter : ∀ k, s.shooter = some k → k < s.created

theorem inv_new (E : Context K R) (ipopt : Option (K × K)) (b : Bool) : Inv (Solver.new E ipopt b) :=
  ⟨by simp [Solver.new], by simp [Solver.new], rfl, Or.inl rfl, by simp [Solver.new]⟩

/-- `solve` on a consistent object: refused, or everything is ready. -/
theorem solve_cases (E : Context K R) {s : Solver K R} (hs : Inv s) (a : SolveAnswers K) (states : List (State K)) (controls : List (Control K)) :
    (s.prepared = false → solve E s a states controls = some ⟨s, false, states, controls, []⟩) ∧
    (s.prepared = true → ∃ st sh, s.settings = some st ∧ s.shooter = some sh ∧ StateSize st.robotModel.nrOfDOFs st.nLeftPoints s.initialState ∧
      solve E s a states controls =
        solveWith E { s with initialStateVector := stateVector s.initialState (E.asQuat s.initialState.base.rot) } a states controls st
          (rangesAt st.robotModel.nrOfDOFs st.nLeftPoints) sh) := by
  refine ⟨fun h => by unfold solve; simp [h], fun h => ?_⟩
  obtain ⟨h1, h2⟩ := hs.prepared h
  obtain ⟨st, hst⟩ := Option.isSome_iff_exists.1 h1
  obtain ⟨sh, hsh⟩ := Option.isSome_iff_exists.1 h2
  obtain ⟨hr, hz⟩ := hs.ready st hst
  refine ⟨st, sh, hst, hsh, hz, ?_⟩
  unfold solve
  rw [hst, hr, hsh]
  dsimp only
  rw [if_neg (by simp [h]), if_neg (by simp [(checkSize_iff _ _ _).2 hz])]
  unfold fillInitialState
  rw [if_pos (resizeList_length ..), packState_ok _ _ _ _ hz _ (by rw [resizeList_length]; simp [rangesAt, footAt]; omega)]

theorem inv_specify (E : Context K R) {s s' : Solver K R} (hs : Inv s) {settings : Settings.Settings K R} {a : SpecifyAnswers K} {b : Bool}
    (hst : settings.isValid = true → ∃ st, settings.stored = some st ∧ Settings.Spec.Acceptable st)
    (h : specifySettings E s settings a = some (s', b)) : Inv s' := by
  cases hv : settings.isValid with
  | false =>
    rw [specify_invalid E s settings a hv] at h
    obtain ⟨rfl, rfl⟩ := Prod.mk.inj (Option.some.inj h)
    exact hs
  | true =>
    obtain ⟨st, hst, -⟩ := hst hv
    have sp := specify_valid E s settings a hv st hst h
    have hk : s'.problem < s'.created ∨ s'.created = 0 := by
      rcases sp.problem with ⟨e1, e2⟩ | ⟨e1, e2⟩
      · rcases hs.problem with h | h
        · right; omega
        · left; omega
      · left; omega
    refine ⟨fun st' h' => ?_, fun hp => ?_, by rw [sp.stateGuess, sp.controlGuess]; exact hs.guesses, hk.symm, fun k hk' => ?_⟩
    · rw [sp.settings] at h'
      obtain rfl := Option.some.inj h'
      exact ⟨sp.ranges, by rw [sp.initialState]; exact initialStateFor_size E _ _ _⟩
    · refine ⟨by rw [sp.settings]; rfl, ?_⟩
      cases b with
      | true => rw [(sp.done rfl).2.2.1]; rfl
      | false =>
        rcases sp.shooter with e | ⟨e, -⟩
        · rw [e]; exact (hs.prepared ((sp.failed rfl).prepared ▸ hp)).2
        · rw [e]; rfl
    · rcases sp.shooter with e | ⟨e, e2⟩
      · rw [e] at hk'
        have := hs.shooter k hk'
        rcases sp.problem with ⟨-, e2⟩ | ⟨-, e2⟩ <;> omega
      · rw [e] at hk'
        obtain rfl := Option.some.inj hk'
        exact e2

end Verif.SolverM
