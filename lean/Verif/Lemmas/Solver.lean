import Verif.Spec.Solver
import Verif.Spec.Packing
import Verif.Props.Bounds
/- Invariants of the solver. -/
set_option linter.unusedSectionVars false
set_option linter.unusedSimpArgs false
namespace Verif.SolverM
open StateM Spec
open Labeller (Labeller)
variable {K R : Type} [Field K] [LinearOrder K] [IsStrictOrderedRing K]

theorem resizeList_length {α : Type} (l : List α) (n : Nat) (x : α) : (resizeList l n x).length = n := by
  unfold resizeList; simp; omega

theorem mem_resizeList {α : Type} {l : List α} {n : Nat} {x y : α} (h : y ∈ resizeList l n x) : y ∈ l ∨ y = x := by
  unfold resizeList at h
  rcases List.mem_append.1 h with h | h
  · exact Or.inl (List.mem_of_mem_take h)
  · exact Or.inr (List.eq_of_mem_replicate h)

theorem state_new_size (x : State K) (d n : Nat) (j : Junk K) : StateSize d n (State.new x d n j) := by
  refine ⟨?_, ?_, ?_⟩ <;> simp [State.new, State.zero, State.resize, resizeList_length]

theorem control_new_size (x : Control K) (d n : Nat) (j : ControlJunk K) : ControlSize d n (Control.new x d n j) := by
  refine ⟨?_, ?_, ?_⟩ <;> simp [Control.new, Control.zero, Control.resize, resizeList_length]

theorem initialStateFor_size (E : Context K R) (x : State K) (d n : Nat) : StateSize d n (initialStateFor E x d n) := by
  unfold initialStateFor
  have hz : StateSize d n (x.resize d n E.stateJunk).zero := by
    refine ⟨?_, ?_, ?_⟩ <;> simp [State.zero, State.resize, resizeList_length]
  by_cases h1 : x.checkSize 0 0 = true
  · rw [if_pos h1]; exact hz
  · rw [if_neg h1]
    by_cases h2 : x.checkSize d n = true
    · rw [if_neg (by simp [h2])]; exact (checkSize_iff x d n).1 h2
    · rw [if_pos (by simp [h2])]; exact hz

/-- The members of the object that configuring does not touch. -/
structure Kept (s s' : Solver K R) : Prop where
  settings : s'.settings = s.settings
  ranges : s'.ranges = s.ranges
  initialState : s'.initialState = s.initialState
  stateGuess : s'.stateGuess = s.stateGuess
  controlGuess : s'.controlGuess = s.controlGuess
  plus : s'.plusInfinity = s.plusInfinity
  minus : s'.minusInfinity = s.minusInfinity

/-- The members that only a successful configuration touches. -/
structure Unfinished (s s' : Solver K R) : Prop where
  prepared : s'.prepared = s.prepared
  firstRun : s'.firstRun = s.firstRun
  optimalStates : s'.optimalStates = s.optimalStates
  optimalControls : s'.optimalControls = s.optimalControls

theorem specifyTimings_spec (E : Context K R) (s : Solver K R) (st : Settings.SettingsStruct K R) (a : SpecifyAnswers K) {s' : Solver K R} {b : Bool}
    (h : specifyTimings E s st a = (s', b)) : Kept s s' ∧ s'.problem = s.problem ∧ s'.created = s.created ∧ s'.shooter = s.shooter ∧ s'.bounds = s.bounds ∧
      s'.horizon = s.horizon ∧ (b = false → Unfinished s s') ∧
      (b = true → s'.prepared = true ∧ s'.firstRun = true ∧
        s'.optimalStates = resizeList s.optimalStates a.stateTimings.length (State.new E.state st.robotModel.nrOfDOFs st.nLeftPoints E.stateJunk) ∧
        s'.optimalControls = resizeList s.optimalControls a.controlTimings.length
          (Control.new E.control st.robotModel.nrOfDOFs st.nLeftPoints E.controlJunk)) := by
  unfold specifyTimings at h
  cases h1 : a.getPossibleTimings with
  | false =>
    rw [h1] at h
    obtain ⟨rfl, rfl⟩ := Prod.mk.inj h
    exact ⟨⟨rfl, rfl, rfl, rfl, rfl, rfl, rfl⟩, rfl, rfl, rfl, rfl, rfl, fun _ => ⟨rfl, rfl, rfl, rfl⟩, by simp⟩
  | true =>
    cases h2 : a.setTimings with
    | false =>
      rw [h1, h2] at h
      obtain ⟨rfl, rfl⟩ := Prod.mk.inj h
      exact ⟨⟨rfl, rfl, rfl, rfl, rfl, rfl, rfl⟩, rfl, rfl, rfl, rfl, rfl, fun _ => ⟨rfl, rfl, rfl, rfl⟩, by simp⟩
    | true =>
      rw [h1, h2] at h
      obtain ⟨rfl, rfl⟩ := Prod.mk.inj h
      exact ⟨⟨rfl, rfl, rfl, rfl, rfl, rfl, rfl⟩, rfl, rfl, rfl, rfl, rfl, by simp, fun _ => ⟨rfl, rfl, rfl, rfl⟩⟩

theorem specifyShooting_spec (E : Context K R) (s : Solver K R) (st : Settings.SettingsStruct K R) (r : Ranges) (a : SpecifyAnswers K) {s' : Solver K R}
    {b : Bool} (h : specifyShooting E s st r a = some (s', b)) : Kept s s' ∧ s'.problem = s.problem ∧ s'.created = s.created ∧ s'.shooter = s.shooter ∧
      s'.horizon = s.horizon ∧ (b = false → Unfinished s s') ∧
      (b = true → s'.prepared = true ∧ s'.firstRun = true ∧
        s'.optimalStates = resizeList s.optimalStates a.stateTimings.length (State.new E.state st.robotModel.nrOfDOFs st.nLeftPoints E.stateJunk) ∧
        s'.optimalControls = resizeList s.optimalControls a.controlTimings.length
          (Control.new E.control st.robotModel.nrOfDOFs st.nLeftPoints E.controlJunk) ∧
        setBounds s.minusInfinity s.plusInfinity r st (E.extras st.rest) = s'.bounds ∧ s'.bounds.isSome) := by
  have stop : some (s, false) = some (s', b) → Kept s s' ∧ s'.problem = s.problem ∧ s'.created = s.created ∧ s'.shooter = s.shooter ∧
      s'.horizon = s.horizon ∧ (b = false → Unfinished s s') ∧
      (b = true → s'.prepared = true ∧ s'.firstRun = true ∧
        s'.optimalStates = resizeList s.optimalStates a.stateTimings.length (State.new E.state st.robotModel.nrOfDOFs st.nLeftPoints E.stateJunk) ∧
        s'.optimalControls = resizeList s.optimalControls a.controlTimings.length
          (Control.new E.control st.robotModel.nrOfDOFs st.nLeftPoints E.controlJunk) ∧
        setBounds s.minusInfinity s.plusInfinity r st (E.extras st.rest) = s'.bounds ∧ s'.bounds.isSome) := by
    intro h
    obtain ⟨rfl, rfl⟩ := Prod.mk.inj (Option.some.inj h)
    exact ⟨⟨rfl, rfl, rfl, rfl, rfl, rfl, rfl⟩, rfl, rfl, rfl, rfl, fun _ => ⟨rfl, rfl, rfl, rfl⟩, by simp⟩
  unfold specifyShooting at h
  by_cases h1 : (!a.setStepSizeBounds) = true
  · rw [if_pos h1] at h; exact stop h
  rw [if_neg h1] at h
  by_cases h1 : (!a.setControlPeriod) = true
  · rw [if_pos h1] at h; exact stop h
  rw [if_neg h1] at h
  by_cases h1 : (s.optimizer && !a.setOptimizer) = true
  · rw [if_pos h1] at h; exact stop h
  rw [if_neg h1] at h
  by_cases h1 : (!a.setIntegrator) = true
  · rw [if_pos h1] at h; exact stop h
  rw [if_neg h1] at h
  cases hb : setBounds s.minusInfinity s.plusInfinity r st (E.extras st.rest) with
  | none => rw [hb] at h; cases h
  | some bb =>
    rw [hb] at h
    dsimp only at h
    rw [hb] at stop
    by_cases h1 : (!a.setStateBounds) = true
    · rw [if_pos h1] at h; exact stop h
    rw [if_neg h1] at h
    by_cases h1 : (!a.setControlBounds) = true
    · rw [if_pos h1] at h; exact stop h
    rw [if_neg h1] at h
    obtain ⟨k, p1, p2, p3, p4, p5, p6, p7⟩ := specifyTimings_spec E _ st a (Option.some.inj h)
    refine ⟨⟨k.1, k.2, k.3, k.4, k.5, k.6, k.7⟩, p1, p2, p3, p5, fun hb => ⟨(p6 hb).1, (p6 hb).2, (p6 hb).3, (p6 hb).4⟩, fun hb => ?_⟩
    obtain ⟨q1, q2, q3, q4⟩ := p7 hb
    exact ⟨q1, q2, q3, q4, p4.symm, by rw [p4]; rfl⟩

theorem specifyShooting_success (E : Context K R) (s : Solver K R) (st : Settings.SettingsStruct K R) (r : Ranges) (a : SpecifyAnswers K) {s' : Solver K R}
    {b : Bool} (h : specifyShooting E s st r a = some (s', b)) (ha : SpecifyAnswers.AllOk a) : b = true := by
  obtain ⟨h1, h2, h3, h4, h5, h6, h7, h8, h9, h10, h11, h12, h13⟩ := ha
  unfold specifyShooting specifyTimings at h
  cases hb : setBounds s.minusInfinity s.plusInfinity r st (E.extras st.rest) with
  | none => simp [hb, h6, h7, h8, h9] at h
  | some bb =>
    simp [hb, h6, h7, h8, h9, h10, h11, h12, h13] at h
    exact h.2

/-- What a call of `specifySettings` with valid settings does. -/
structure Specified (E : Context K R) (s s' : Solver K R) (st : Settings.SettingsStruct K R) (a : SpecifyAnswers K) (b : Bool) : Prop where
  settings : s'.settings = some st
  ranges : s'.ranges = some (rangesAt st.robotModel.nrOfDOFs st.nLeftPoints)
  initialState : s'.initialState = initialStateFor E s.initialState st.robotModel.nrOfDOFs st.nLeftPoints
  stateGuess : s'.stateGuess = s.stateGuess
  controlGuess : s'.controlGuess = s.controlGuess
  plus : s'.plusInfinity = s.plusInfinity
  minus : s'.minusInfinity = s.minusInfinity
  problem : s'.problem = s.problem ∧ s'.created = s.created ∨ s'.problem = s.created ∧ s'.created = s.created + 1
  shooter : s'.shooter = s.shooter ∨ s'.shooter = some s'.problem ∧ s'.problem < s'.created
  failed : b = false → Unfinished s s'
  success : SpecifyAnswers.AllOk a → b = true
  early : a.loadRobotModel = true → (a.setDynamicalSystemConstraint && a.setCosts && a.setConstraints && a.setTimeHorizon) = false →
    b = false ∧ s'.shooter = s.shooter ∧ s'.problem = s.created ∧ s'.horizon = s.horizon
  done : b = true → s'.prepared = true ∧ s'.firstRun = true ∧ s'.shooter = some s'.problem ∧
    s'.optimalStates = resizeList s.optimalStates a.stateTimings.length (State.new E.state st.robotModel.nrOfDOFs st.nLeftPoints E.stateJunk) ∧
    s'.optimalControls = resizeList s.optimalControls a.controlTimings.length
      (Control.new E.control st.robotModel.nrOfDOFs st.nLeftPoints E.controlJunk) ∧
    setBounds s.minusInfinity s.plusInfinity (rangesAt st.robotModel.nrOfDOFs st.nLeftPoints) st (E.extras st.rest) = s'.bounds ∧ s'.bounds.isSome

theorem specify_invalid (E : Context K R) (s : Solver K R) (settings : Settings.Settings K R) (a : SpecifyAnswers K) (h : settings.isValid = false) :
    specifySettings E s settings a = some (s, false) := by
  unfold specifySettings; simp [h]

theorem specify_valid (E : Context K R) (s : Solver K R) (settings : Settings.Settings K R) (a : SpecifyAnswers K) (hv : settings.isValid = true)
    (st : Settings.SettingsStruct K R) (hst : settings.stored = some st) {s' : Solver K R} {b : Bool}
    (h : specifySettings E s settings a = some (s', b)) : Specified E s s' st a b := by
  unfold specifySettings at h
  rw [hv, hst] at h
  dsimp only at h
  obtain ⟨ss, cs, e, -⟩ := structure_ok s.stateStructure s.controlStructure st.robotModel.nrOfDOFs st.nLeftPoints
  rw [e] at h
  dsimp only at h
  rw [if_neg (by simp)] at h
  unfold specifyProblem at h
  by_cases h1 : (!a.loadRobotModel) = true
  · rw [if_pos h1] at h
    obtain ⟨rfl, rfl⟩ := Prod.mk.inj (Option.some.inj h)
    exact ⟨rfl, rfl, rfl, rfl, rfl, rfl, rfl, Or.inl ⟨rfl, rfl⟩, Or.inl rfl, fun _ => ⟨rfl, rfl, rfl, rfl⟩, fun ha => by simp_all [SpecifyAnswers.AllOk], by simp_all, by simp⟩
  rw [if_neg h1] at h
  dsimp only at h
  have stop : ∀ s0 : Solver K R, s0 = { s with
          settings := some st, initialState := initialStateFor E s.initialState st.robotModel.nrOfDOFs st.nLeftPoints
          stateStructure := ss, controlStructure := cs, ranges := some (rangesAt st.robotModel.nrOfDOFs st.nLeftPoints)
          problem := s.created, created := s.created + 1 } →
      some (s0, false) = some (s', b) → ¬ SpecifyAnswers.AllOk a → Specified E s s' st a b := by
    rintro s0 rfl h hn
    obtain ⟨rfl, rfl⟩ := Prod.mk.inj (Option.some.inj h)
    exact ⟨rfl, rfl, rfl, rfl, rfl, rfl, rfl, Or.inr ⟨rfl, rfl⟩, Or.inl rfl, fun _ => ⟨rfl, rfl, rfl, rfl⟩,
      fun ha => absurd ha hn, fun _ _ => ⟨rfl, rfl, rfl, rfl⟩, by simp⟩
  by_cases h2 : (!a.setDynamicalSystemConstraint) = true
  · rw [if_pos h2] at h; exact stop _ rfl h (by simp_all [SpecifyAnswers.AllOk])
  rw [if_neg h2] at h
  by_cases h3 : (!a.setCosts) = true
  · rw [if_pos h3] at h; exact stop _ rfl h (by simp_all [SpecifyAnswers.AllOk])
  rw [if_neg h3] at h
  by_cases h4 : (!a.setConstraints) = true
  · rw [if_pos h4] at h; exact stop _ rfl h (by simp_all [SpecifyAnswers.AllOk])
  rw [if_neg h4] at h
  by_cases h5 : (!a.setTimeHorizon) = true
  · rw [if_pos h5] at h; exact stop _ rfl h (by simp_all [SpecifyAnswers.AllOk])
  rw [if_neg h5] at h
  obtain ⟨k, p1, p2, p3, p4, p5, p6⟩ := specifyShooting_spec E _ st _ a h
  dsimp only at p1 p2 p3
  refine ⟨k.1, k.2, k.3, k.4, k.5, k.6, k.7, Or.inr ⟨p1, p2⟩, Or.inr ⟨by rw [p3, p1], by omega⟩, fun hb => ⟨(p5 hb).1, (p5 hb).2, (p5 hb).3, (p5 hb).4⟩,
    specifyShooting_success E _ st _ a h, fun _ he => by simp_all, fun hb => ?_⟩
  obtain ⟨q1, q2, q3, q4, q5, q6⟩ := p6 hb
  exact ⟨q1, q2, by rw [p3, p1], q3, q4, q5, q6⟩

theorem defined_ite {α β : Type} (c : Prop) [Decidable c] (p : α × β) (Y : Option (α × β)) (h : ∃ a b, Y = some (a, b)) :
    ∃ a b, (if c then some p else Y) = some (a, b) := by
  by_cases hc : c
  · exact ⟨p.1, p.2, by rw [if_pos hc]⟩
  · rw [if_neg hc]; exact h

theorem specify_defined (E : Context K R) (s : Solver K R) (settings : Settings.Settings K R) (a : SpecifyAnswers K)
    (h : settings.isValid = true → ∃ st, settings.stored = some st ∧ Settings.Spec.Acceptable st) :
    ∃ s' b, specifySettings E s settings a = some (s', b) := by
  cases hv : settings.isValid with
  | false => exact ⟨_, _, specify_invalid E s settings a hv⟩
  | true =>
    obtain ⟨st, hst, hacc⟩ := h hv
    unfold specifySettings
    rw [hv, hst]
    dsimp only
    obtain ⟨ss, cs, e, -⟩ := structure_ok s.stateStructure s.controlStructure st.robotModel.nrOfDOFs st.nLeftPoints
    rw [e]
    dsimp only
    rw [if_neg (by simp)]
    unfold specifyProblem specifyShooting
    dsimp only
    rw [setBounds_ok _ _ _ _ st _ hacc.joints.1 hacc.joints.2.1]
    dsimp only
    repeat' refine defined_ite _ _ _ ?_
    exact ⟨_, _, rfl⟩

end Verif.SolverM
