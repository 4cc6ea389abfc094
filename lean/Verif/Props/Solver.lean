import Verif.Lemmas.Solver5
/- The solver as seen by its user (C28). -/
set_option linter.unusedSectionVars false
set_option linter.unusedSimpArgs false
namespace Verif.SolverM
open StateM Spec
variable {K R : Type} [Field K] [LinearOrder K] [IsStrictOrderedRing K]

theorem run_add (E : Context K R) (s : Solver K R) (ops : List (Op K R)) (o : Op K R) {s1 s' : Solver K R} {log : List (Op K R × Bool)} {b : Bool}
    (h : run E s ops = some (s1, log)) (h' : step E s1 o = some (s', b)) : run E s (ops ++ [o]) = some (s', log ++ [(o, b)]) := by
  induction ops generalizing s log with
  | nil =>
    simp only [run] at h
    obtain ⟨rfl, rfl⟩ := Prod.mk.inj (Option.some.inj h)
    simp [run, h']
  | cons o' ops ih =>
    simp only [run, Option.bind_eq_bind, Option.bind_eq_some_iff] at h
    obtain ⟨⟨s2, b2⟩, e1, ⟨s3, l3⟩, e2, e3⟩ := h
    obtain ⟨rfl, rfl⟩ := Prod.mk.inj (Option.some.inj e3)
    have := ih s2 e2
    simp [run, e1, this]

theorem setGuesses_defined {s : Solver K R} (hi : Inv s) (g : Option (K → State K × Bool)) (h : Option (K → Control K × Bool)) :
    ∃ s' b, setGuesses s g h = some (s', b) := by
  unfold setGuesses
  by_cases hp : (!s.prepared) = true
  · rw [if_pos hp]; exact ⟨_, _, rfl⟩
  rw [if_neg hp]
  cases g with
  | none => exact ⟨_, _, rfl⟩
  | some g =>
    cases h with
    | none => exact ⟨_, _, rfl⟩
    | some h =>
      obtain ⟨st, hst⟩ := Option.isSome_iff_exists.1 (hi.prepared (by simpa using hp)).1
      rw [(hi.ready st hst).1]
      exact ⟨_, _, rfl⟩

/-- **C28**, no undefined behaviour: any history of calls, with settings made with the API of `Settings` that keep the number of contact
points, and any outcome of the external calls (the solutions having one vector of the right length per instant), runs to the end. -/
theorem C28_defined (E : Context K R) (ipopt : Option (K × K)) (fr : Bool) (ops : List (Op K R)) (hst : SettingsFromAPI ops) (n : Nat)
    (hn : PointsAlways n ops) (hs : SolutionsOk n ops) : ∃ s log, run E (Solver.new E ipopt fr) ops = some (s, log) := by
  induction ops using List.reverseRecOn with
  | nil => exact ⟨_, _, rfl⟩
  | append_singleton ops o ih =>
    have hst1 : SettingsFromAPI ops := fun s a hm hv => hst s a (by simp [hm]) hv
    have hn1 : PointsAlways n ops := fun s a hm hv => hn s a (by simp [hm]) hv
    obtain ⟨s, log, h⟩ := ih hst1 hn1 (fun l1 a l2 e => hs l1 a (l2 ++ [o]) (by simp [e]))
    have hh := history_run E ipopt fr ops hst1 h
    obtain ⟨hz, hp⟩ := sizes_run E ipopt fr ops hst1 hn1 h
    have hd : ∃ s' b, step E s o = some (s', b) := by
      cases o with
      | specifySettings settings a => exact specify_defined E s settings a (hst settings a (by simp))
      | setInitialState x => exact ⟨_, _, rfl⟩
      | setGuesses g h' => exact setGuesses_defined hh.inv g h'
      | setOptimizer o ok => exact ⟨_, _, rfl⟩
      | setIntegrator g ok => exact ⟨_, _, rfl⟩
      | solve a =>
        simp only [step]
        obtain ⟨c1, c2⟩ := solve_cases E hh.inv a [] []
        cases hprep : s.prepared with
        | false => rw [c1 hprep]; exact ⟨_, _, rfl⟩
        | true =>
          obtain ⟨st, sh, h1, h2, h3, h4⟩ := c2 hprep
          have hl : LastSettings ops st := by
            have := (last_iff log st).2 ((hh.settings st).1 h1)
            rwa [run_log E _ _ h] at this
          obtain ⟨res, hres, -⟩ := solveWith_defined E { s with initialStateVector := stateVector s.initialState (E.asQuat s.initialState.base.rot) }
            a [] [] st sh n (hp st h1) ⟨hz.states, hz.controls⟩ (hs ops a [] rfl st hl)
          rw [h4, hres]
          exact ⟨_, _, rfl⟩
    obtain ⟨s', b, hd⟩ := hd
    exact ⟨s', _, run_add E _ ops o h hd⟩

/-- **C28**, gate: as long as no configuration succeeded, `solve` is refused without calling anything and without touching the object or the
caller's vectors, and initial states and guesses are refused. -/
theorem C28_gate (E : Context K R) (ipopt : Option (K × K)) (fr : Bool) (ops : List (Op K R)) (hst : SettingsFromAPI ops) {s : Solver K R}
    {log : List (Op K R × Bool)} (h : run E (Solver.new E ipopt fr) ops = some (s, log)) (hc : ¬ Configured log) :
    (∀ a states controls, solve E s a states controls = some { solver := s, ok := false, states, controls, calls := [] }) ∧
    (∀ x, setInitialState s x = (s, false)) ∧ (∀ g h, setGuesses s g h = some (s, false)) := by
  have hh := history_run E ipopt fr ops hst h
  have hp : s.prepared = false := by
    cases hp : s.prepared with
    | false => rfl
    | true => exact absurd (hh.prepared.1 hp) hc
  exact ⟨fun a states controls => (solve_cases E hh.inv a states controls).1 hp, fun x => by simp [setInitialState, hp],
    fun g h => by simp [setGuesses, hp]⟩

/-- **C28**, outcome: after a successful configuration `solve` succeeds exactly when all the external calls it makes succeed (the one giving
guesses is made only if there are guesses). -/
theorem C28_outcome (E : Context K R) (ipopt : Option (K × K)) (fr : Bool) (ops : List (Op K R)) (hst : SettingsFromAPI ops) {s : Solver K R}
    {log : List (Op K R × Bool)} (h : run E (Solver.new E ipopt fr) ops = some (s, log)) (hc : Configured log) (a : SolveAnswers K)
    (states : List (State K)) (controls : List (Control K)) {res : SolveResult K R} (hr : solve E s a states controls = some res) :
    res.ok = true ↔ a.setInitialState ∧ a.setTimeHorizon ∧
      (((∃ gs gc, Pending log gs gc) ∨ FreshlyConfigured log) → a.setGuesses = true) ∧ a.solve ∧ a.getTimings ∧ a.getSolution := by
  have hh := history_run E ipopt fr ops hst h
  obtain ⟨st, sh, h1, h2, h3, h4⟩ := solve_ready E hh hc a states controls
  rw [h4] at hr
  rw [(solveWith_spec E _ a states controls st _ sh hr).outcome]
  have hg : (guessesFor E { s with initialStateVector := stateVector s.initialState (E.asQuat s.initialState.base.rot) } st.robotModel.nrOfDOFs
      st.nLeftPoints (rangesAt st.robotModel.nrOfDOFs st.nLeftPoints)).isSome = true ↔ ((∃ gs gc, Pending log gs gc) ∨ FreshlyConfigured log) := by
    unfold guessesFor
    dsimp only
    rcases hh.both with ⟨e1, e2⟩ | ⟨g, g', r, e1, e2⟩
    · have hn : ¬ ∃ gs gc, Pending log gs gc := by
        rintro ⟨gs, gc, hp⟩
        obtain ⟨r, e, -⟩ := (hh.pending gs gc).2 hp
        rw [e1] at e; cases e
      rw [e1, e2]
      dsimp only
      rw [or_iff_right hn, ← hh.firstRun hc]
      cases s.firstRun <;> simp
    · rw [e1, e2]
      have : ∃ gs gc, Pending log gs gc := ⟨g, g', (hh.pending g g').1 ⟨r, e1, e2⟩⟩
      simp [this]
  rw [hg]

/-- **C28**, failure: a `solve` that does not succeed leaves the caller's vectors and the optimal states and controls of the object as they
were; what guesses are pending, and whether the default guess is due, is told by `C28_guesses` (a failed `solve` changes neither). -/
theorem C28_failure (E : Context K R) (ipopt : Option (K × K)) (fr : Bool) (ops : List (Op K R)) (hst : SettingsFromAPI ops) {s : Solver K R}
    {log : List (Op K R × Bool)} (h : run E (Solver.new E ipopt fr) ops = some (s, log)) (a : SolveAnswers K)
    (states : List (State K)) (controls : List (Control K)) {res : SolveResult K R} (hr : solve E s a states controls = some res) (hf : res.ok = false) :
    res.states = states ∧ res.controls = controls ∧ res.solver.optimalStates = s.optimalStates ∧ res.solver.optimalControls = s.optimalControls ∧
      (∀ gs gc, Pending (log ++ [(Op.solve a, res.ok)]) gs gc ↔ Pending log gs gc) ∧
      res.solver.stateGuess = s.stateGuess ∧ res.solver.controlGuess = s.controlGuess := by
  have hh := history_run E ipopt fr ops hst h
  have pend : ∀ gs gc, Pending (log ++ [(Op.solve a, res.ok)]) gs gc ↔ Pending log gs gc := by
    intro gs gc
    rw [hf, pending_iff, pending_iff, since_snoc]
    constructor
    · rintro (e | e)
      · cases e
      · exact e.1
    · intro e
      exact Or.inr ⟨e, by rintro (⟨_, e⟩ | ⟨_, _, e⟩) <;> cases e⟩
  obtain ⟨c1, c2⟩ := solve_cases E hh.inv a states controls
  cases hp : s.prepared with
  | false =>
    rw [c1 hp] at hr
    obtain rfl := Option.some.inj hr
    exact ⟨rfl, rfl, rfl, rfl, pend, rfl, rfl⟩
  | true =>
    obtain ⟨st, sh, h1, h2, h3, h4⟩ := c2 hp
    rw [h4] at hr
    obtain ⟨e1, e2, r1, r2, r3, r4, r5⟩ := (solveWith_spec E _ a states controls st _ sh hr).failed hf
    exact ⟨e1, e2, r1, r2, pend, r3, r4⟩

/-- **C28**, success: with a solution of the right shape, `solve` is defined and when it succeeds the caller gets, and the object keeps, one
state and one control per instant, read from the solution; the guesses are consumed and the default guess is not due any more. -/
theorem C28_success (E : Context K R) (ipopt : Option (K × K)) (fr : Bool) (ops : List (Op K R)) (hst : SettingsFromAPI ops) (n : Nat)
    (hn : PointsAlways n ops) {s : Solver K R} {log : List (Op K R × Bool)} (h : run E (Solver.new E ipopt fr) ops = some (s, log))
    (st : Settings.SettingsStruct K R) (hl : LastSettings ops st) (a : SolveAnswers K) (ha : SolutionOk st.robotModel.nrOfDOFs n a)
    (states : List (State K)) (controls : List (Control K)) :
    ∃ res, solve E s a states controls = some res ∧ (res.ok = true →
      Series (StateRead E.sqrt st.robotModel.nrOfDOFs n) a.stateTimings a.states res.states ∧
      Series (ControlRead st.robotModel.nrOfDOFs n) a.controlTimings a.controls res.controls ∧
      res.solver.optimalStates = res.states ∧ res.solver.optimalControls = res.controls ∧
      (∀ gs gc, ¬ Pending (log ++ [(Op.solve a, res.ok)]) gs gc) ∧ ¬ FreshlyConfigured (log ++ [(Op.solve a, res.ok)])) := by
  have hh := history_run E ipopt fr ops hst h
  obtain ⟨hz, hp⟩ := sizes_run E ipopt fr ops hst hn h
  obtain ⟨c1, c2⟩ := solve_cases E hh.inv a states controls
  cases hprep : s.prepared with
  | false => exact ⟨_, c1 hprep, by simp⟩
  | true =>
    obtain ⟨st', sh, h1, h2, h3, h4⟩ := c2 hprep
    have e : st' = st := by
      rw [← run_log E _ _ h] at hl
      have := (hh.settings st).2 ((last_iff log st).1 hl)
      rw [h1] at this
      exact Option.some.inj this
    subst e
    obtain ⟨res, hres, hser⟩ := solveWith_defined E { s with initialStateVector := stateVector s.initialState (E.asQuat s.initialState.base.rot) }
      a states controls st' sh n (hp st' h1) ⟨hz.states, hz.controls⟩ ha
    refine ⟨res, by rw [h4, hres], fun ho => ?_⟩
    obtain ⟨d1, d2, -⟩ := (solveWith_spec E _ a states controls st' _ sh hres).done ho
    refine ⟨(hser ho).1, (hser ho).2, d1, d2, fun gs gc hpd => ?_, fun hf => ?_⟩
    · rw [ho, pending_iff, since_snoc] at hpd
      rcases hpd with e | e
      · cases e
      · exact e.2 (Or.inl ⟨a, rfl⟩)
    · rw [ho, fresh_iff, since_snoc] at hf
      rcases hf with ⟨_, _, e⟩ | e
      · cases e
      · exact e.2 ⟨a, rfl⟩

theorem control_new_zero (x : Control K) (d n : Nat) (j : ControlJunk K) : ∀ e ∈ controlVector (Control.new x d n j), e = 0 := by
  intro e he
  simp only [controlVector, Control.new, Control.zero, List.mem_append, List.mem_flatMap, List.mem_map, List.mem_cons, List.not_mem_nil, or_false] at he
  rcases he with (((⟨p, ⟨_, _, rfl⟩, hp⟩ | ⟨p, ⟨_, _, rfl⟩, hp⟩) | he) | he) | ⟨_, _, rfl⟩
  · simp only [pointControl, List.mem_cons, List.not_mem_nil, or_false] at hp; rcases hp with h | h | h | h | h | h <;> rw [h] <;> rfl
  · simp only [pointControl, List.mem_cons, List.not_mem_nil, or_false] at hp; rcases hp with h | h | h | h | h | h <;> rw [h] <;> rfl
  · rcases he with h | h | h <;> rw [h] <;> rfl
  · rcases he with h | h | h | h <;> rw [h]
  · rfl

/-- **C28**, guesses: the guesses given to the shooting solver are those of the user that are pending or, when none are pending and the solver was
configured after the last success, the constant one made of the initial state and a zero control; in the other cases no guesses are given.
Nothing is optimised before they are given. -/
theorem C28_guesses (E : Context K R) (ipopt : Option (K × K)) (fr : Bool) (ops : List (Op K R)) (hst : SettingsFromAPI ops) {s : Solver K R}
    {log : List (Op K R × Bool)} (h : run E (Solver.new E ipopt fr) ops = some (s, log)) (a : SolveAnswers K)
    (states : List (State K)) (controls : List (Control K)) {res : SolveResult K R} (hr : solve E s a states controls = some res) :
    (∀ sh g, Call.setGuesses sh g ∈ res.calls →
      (∃ gs gc r, g = .user ⟨gs, r⟩ ⟨gc, r⟩ ∧ Pending log gs gc) ∨
      ((∀ gs gc, ¬ Pending log gs gc) ∧ FreshlyConfigured log ∧ ∃ x u st, LastSettings ops st ∧
        g = .constant x u (rangesAt st.robotModel.nrOfDOFs st.nLeftPoints) ∧
        ControlSize st.robotModel.nrOfDOFs st.nLeftPoints u ∧ (∀ e ∈ controlVector u, e = 0) ∧
        StateSize st.robotModel.nrOfDOFs st.nLeftPoints x ∧
        Call.setInitialState sh (stateVector x (E.asQuat x.base.rot)) ∈ res.calls)) ∧
    (∀ sh, Call.optimise sh ∈ res.calls →
      (∀ gs gc, Pending log gs gc → ∃ r, Call.setGuesses sh (.user ⟨gs, r⟩ ⟨gc, r⟩) ∈ res.calls) ∧
      ((∀ gs gc, ¬ Pending log gs gc) → FreshlyConfigured log → ∃ x u r, Call.setGuesses sh (.constant x u r) ∈ res.calls)) := by
  have hh := history_run E ipopt fr ops hst h
  obtain ⟨c1, c2⟩ := solve_cases E hh.inv a states controls
  cases hprep : s.prepared with
  | false =>
    rw [c1 hprep] at hr
    obtain rfl := Option.some.inj hr
    exact ⟨by simp, by simp⟩
  | true =>
    have hc := hh.prepared.1 hprep
    obtain ⟨st, sh, h1, h2, h3, h4⟩ := c2 hprep
    have hl : LastSettings ops st := by
      have := (last_iff log st).2 ((hh.settings st).1 h1)
      rwa [run_log E _ _ h] at this
    rw [h4] at hr
    have sp := solveWith_spec E _ a states controls st _ sh hr
    have key : ∀ c, c ∈ res.calls → (∃ sh', c = Call.optimise sh') → c = Call.optimise sh := by
      rintro c hm ⟨sh', rfl⟩
      rcases sp.calls _ hm with e | e | ⟨_, _, e⟩ | e
      · cases e
      · cases e
      · cases e
      · exact e
    have first : ∀ c, c ∈ res.calls → Call.setInitialState sh (stateVector s.initialState (E.asQuat s.initialState.base.rot)) ∈ res.calls := by
      intro c hm
      unfold solveWith at hr
      dsimp only at hr
      revert hr
      repeat' split
      all_goals first
        | (intro hr; obtain rfl := Option.some.inj hr; simp; done)
        | (intro hr; cases hr)
    constructor
    · intro sh' g hm
      rcases sp.calls _ hm with e | e | ⟨g', hg, e⟩ | e
      · cases e
      · cases e
      · cases e
        unfold guessesFor at hg
        dsimp only at hg
        rcases hh.both with ⟨e1, e2⟩ | ⟨gs, gc, r, e1, e2⟩
        · right
          rw [e1, e2] at hg
          dsimp only at hg
          have hn : ∀ gs gc, ¬ Pending log gs gc := by
            intro gs gc hp
            obtain ⟨r, e, -⟩ := (hh.pending gs gc).2 hp
            rw [e1] at e; cases e
          by_cases hf : s.firstRun = true
          · rw [if_pos hf] at hg
            obtain rfl := Option.some.inj hg
            exact ⟨hn, (hh.firstRun hc).1 hf, _, _, st, hl, rfl, control_new_size .., control_new_zero _ _ _ _, h3, first _ hm⟩
          · rw [if_neg hf] at hg; cases hg
        · left
          rw [e1, e2] at hg
          obtain rfl := Option.some.inj hg
          exact ⟨gs, gc, r, rfl, (hh.pending gs gc).1 ⟨r, e1, e2⟩⟩
      · cases e
    · intro sh' hm
      have e := key _ hm ⟨_, rfl⟩
      cases e
      obtain ⟨-, -, o3, -⟩ := sp.optimise hm
      constructor
      · intro gs gc hp
        obtain ⟨r, e1, e2⟩ := (hh.pending gs gc).2 hp
        refine ⟨r, o3 _ ?_⟩
        unfold guessesFor
        dsimp only
        rw [e1, e2]
      · intro hn hf
        rcases hh.both with ⟨e1, e2⟩ | ⟨gs, gc, r, e1, e2⟩
        · refine ⟨s.initialState, Control.new E.control st.robotModel.nrOfDOFs st.nLeftPoints E.controlJunk,
            rangesAt st.robotModel.nrOfDOFs st.nLeftPoints, o3 _ ?_⟩
          unfold guessesFor
          dsimp only
          rw [e1, e2]
          dsimp only
          rw [if_pos ((hh.firstRun hc).2 hf)]
        · exact absurd ((hh.pending gs gc).1 ⟨r, e1, e2⟩) (hn gs gc)

/-- **C28**, initial state: whatever is optimised starts from the initial state accepted last, written with the layout of the settings, and covers the
horizon of the settings from its time. -/
theorem C28_initial_state (E : Context K R) (ipopt : Option (K × K)) (fr : Bool) (ops : List (Op K R)) (hst : SettingsFromAPI ops) {s : Solver K R}
    {log : List (Op K R × Bool)} (h : run E (Solver.new E ipopt fr) ops = some (s, log)) (x : State K) (hx : InitialStateGiven log x)
    (st : Settings.SettingsStruct K R) (hl : LastSettings ops st) (a : SolveAnswers K)
    (states : List (State K)) (controls : List (Control K)) {res : SolveResult K R} (hr : solve E s a states controls = some res) (sh : Nat)
    (ho : Call.optimise sh ∈ res.calls) :
    StateSize st.robotModel.nrOfDOFs st.nLeftPoints x ∧ Call.setInitialState sh (stateVector x (E.asQuat x.base.rot)) ∈ res.calls ∧
    (∀ sh' v, Call.setInitialState sh' v ∈ res.calls → sh' = sh ∧ v = stateVector x (E.asQuat x.base.rot)) ∧
    (∃ p, Call.setTimeHorizon p x.time (x.time + st.horizon) ∈ res.calls) ∧
    (∀ p t0 t1, Call.setTimeHorizon p t0 t1 ∈ res.calls → t0 = x.time ∧ t1 = x.time + st.horizon) := by
  have hh := history_run E ipopt fr ops hst h
  have hi := initial_run E ipopt fr ops hst h x hx
  subst hi
  obtain ⟨c1, c2⟩ := solve_cases E hh.inv a states controls
  cases hprep : s.prepared with
  | false =>
    rw [c1 hprep] at hr
    obtain rfl := Option.some.inj hr
    simp at ho
  | true =>
    obtain ⟨st', sh', h1, h2, h3, h4⟩ := c2 hprep
    have e : st' = st := by
      rw [← run_log E _ _ h] at hl
      have := (hh.settings st).2 ((last_iff log st).1 hl)
      rw [h1] at this
      exact Option.some.inj this
    subst e
    rw [h4] at hr
    have sp := solveWith_spec E _ a states controls st' _ sh' hr
    have e : sh = sh' := by
      rcases sp.calls _ ho with e | e | ⟨_, _, e⟩ | e <;> cases e
      rfl
    subst e
    obtain ⟨o1, o2, -, -⟩ := sp.optimise ho
    refine ⟨h3, o1, fun sh' v hm => ?_, ⟨_, o2⟩, fun p t0 t1 hm => ?_⟩
    · rcases sp.calls _ hm with e | e | ⟨_, _, e⟩ | e <;> cases e
      exact ⟨rfl, rfl⟩
    · rcases sp.calls _ hm with e | e | ⟨_, _, e⟩ | e <;> cases e
      exact ⟨rfl, rfl⟩

/-- **C28**, horizon: if the last configuration tried with valid settings succeeded, the horizon is set in the problem that is optimised. -/
theorem C28_horizon (E : Context K R) (ipopt : Option (K × K)) (fr : Bool) (ops : List (Op K R)) (hst : SettingsFromAPI ops) {s : Solver K R}
    {log : List (Op K R × Bool)} (h : run E (Solver.new E ipopt fr) ops = some (s, log)) (hc : ConfigurationStands log) (a : SolveAnswers K)
    (states : List (State K)) (controls : List (Control K)) {res : SolveResult K R} (hr : solve E s a states controls = some res) (p sh : Nat) (t0 t1 : K)
    (ho : Call.optimise sh ∈ res.calls) (hp : Call.setTimeHorizon p t0 t1 ∈ res.calls) : p = sh := by
  have hh := history_run E ipopt fr ops hst h
  obtain ⟨c1, c2⟩ := solve_cases E hh.inv a states controls
  cases hprep : s.prepared with
  | false =>
    rw [c1 hprep] at hr
    obtain rfl := Option.some.inj hr
    simp at ho
  | true =>
    obtain ⟨st', sh', h1, h2, h3, h4⟩ := c2 hprep
    rw [h4] at hr
    have sp := solveWith_spec E _ a states controls st' _ sh' hr
    rw [hh.stands hc] at h2
    obtain rfl := Option.some.inj h2
    rcases sp.calls _ ho with e | e | ⟨_, _, e⟩ | e <;> cases e
    rcases sp.calls _ hp with e | e | ⟨_, _, e⟩ | e <;> cases e
    rfl

theorem specify_ok (E : Context K R) (s : Solver K R) (settings : Settings.Settings K R) (a : SpecifyAnswers K) (hv : settings.isValid = true)
    (st : Settings.SettingsStruct K R) (hst : settings.stored = some st) (hacc : Settings.Spec.Acceptable st) (ha : SpecifyAnswers.AllOk a) :
    ∃ s', specifySettings E s settings a = some (s', true) ∧ Specified E s s' st a true := by
  obtain ⟨s', b, e⟩ := specify_defined E s settings a (fun _ => ⟨st, hst, hacc⟩)
  have sp := specify_valid E s settings a hv st hst e
  obtain rfl := sp.success ha
  exact ⟨s', e, sp⟩

/-- **C28**, finding: after a configuration that fails once the robot model is loaded (for example because of the friction coefficient), the solver
still accepts `solve` and optimises the old problem, but gives the horizon to another one: the time horizon of what is optimised is not updated. -/
theorem C28_finding_failed_configuration (E : Context K R) (ipopt : Option (K × K)) (fr : Bool) (ops : List (Op K R)) (hst : SettingsFromAPI ops)
    {s s' : Solver K R} {log : List (Op K R × Bool)} {b : Bool} (h : run E (Solver.new E ipopt fr) ops = some (s, log)) (hc : Configured log)
    (settings : Settings.Settings K R) (hv : settings.isValid = true) (hset : ∃ st, settings.stored = some st ∧ Settings.Spec.Acceptable st)
    (c : SpecifyAnswers K) (hl : c.loadRobotModel = true) (hf : c.setConstraints = false) (hs' : specifySettings E s settings c = some (s', b))
    (a : SolveAnswers K) (states : List (State K)) (controls : List (Control K)) {res : SolveResult K R} (hr : solve E s' a states controls = some res) :
    b = false ∧ (a.setInitialState = true → a.setTimeHorizon = true → a.setGuesses = true → ∃ p sh t0 t1, p ≠ sh ∧
      Call.setTimeHorizon p t0 t1 ∈ res.calls ∧ Call.optimise sh ∈ res.calls ∧ res.solver.horizon sh = s.horizon sh) := by
  obtain ⟨st, hset, hacc⟩ := hset
  have hh := history_run E ipopt fr ops hst h
  have sp := specify_valid E s settings c hv st hset hs'
  obtain ⟨rfl, e1, e2, e3⟩ := sp.early hl (by simp [hf])
  refine ⟨rfl, fun a1 a2 a3 => ?_⟩
  have hh' := history_specify E hh (fun _ => ⟨st, hset, hacc⟩) hs'
  obtain ⟨st', sh, -, h2, -, h4⟩ := solve_ready E hh' ((configured_snoc _ _).2 (Or.inr hc)) a states controls
  rw [h4] at hr
  have sp' := solveWith_spec E _ a states controls st' _ sh hr
  have hne : sh ≠ s'.problem := by
    rw [e1] at h2
    have := hh.inv.shooter sh h2
    omega
  have hm : Call.optimise sh ∈ res.calls := by
    unfold solveWith at hr
    dsimp only at hr
    rw [a1, a2, a3] at hr
    revert hr
    simp only [Bool.not_true, Bool.and_false, Bool.false_eq_true, if_false]
    repeat' split
    all_goals first
      | (intro hr; obtain rfl := Option.some.inj hr; simp; done)
      | (intro hr; cases hr)
  refine ⟨s'.problem, sh, _, _, hne.symm, (sp'.optimise hm).2.1, hm, ?_⟩
  rw [sp'.horizons sh hne]
  exact congrFun e3 sh

theorem unpackPoints_le {v : List K} {ps fs : List Labeller.Range} {d r : List (PointState K)} (h : unpackPoints v ps fs d = some r) :
    ps.length ≤ d.length := by
  induction ps generalizing fs d r with
  | nil => simp
  | cons p ps ih =>
    cases fs with
    | nil => simp [unpackPoints] at h
    | cons f fs =>
      cases d with
      | nil => simp [unpackPoints] at h
      | cons x d =>
        simp only [unpackPoints, Option.bind_eq_bind, Option.bind_eq_some_iff] at h
        obtain ⟨_, -, _, -, r', hr, e⟩ := h
        have := ih hr
        simp; omega

theorem resizeList_cons {α : Type} (y : α) (l : List α) (n : Nat) (x : α) : resizeList (y :: l) (n + 1) x = y :: resizeList l n x := by
  simp [resizeList]

theorem fillStates_head {sqrt : K → K} {d n : Nat} {t : K} {ts : List K} {vs : List (List K)} {y : State K} {dest xs : List (State K)}
    (h : fillStates sqrt (rangesAt d n) (t :: ts) vs (y :: dest) = some xs) : n ≤ y.left.length ∧ ∃ x ∈ xs, x.left.length = y.left.length := by
  cases vs with
  | nil => simp [fillStates] at h
  | cons v vs =>
    simp only [fillStates, Option.bind_eq_bind, Option.bind_eq_some_iff] at h
    obtain ⟨x, hx, zs, -, e⟩ := h
    obtain rfl := Option.some.inj e
    refine ⟨?_, x, by simp, ?_⟩
    · simp only [unpackState, Option.bind_eq_bind, Option.bind_eq_some_iff] at hx
      obtain ⟨_, h1, -⟩ := hx
      simpa [rangesAt, footAt] using unpackPoints_le h1
    · simp only [unpackState, Option.bind_eq_bind, Option.bind_eq_some_iff] at hx
      obtain ⟨l, h1, _, -, _, -, _, -, _, -, _, -, _, -, e⟩ := hx
      obtain rfl := Option.some.inj e
      exact unpackPoints_length h1

/-- The first element of the optimal states after two configurations: the one made by the first. -/
theorem head_of_two (E : Context K R) (ipopt : Option (K × K)) (fr : Bool) (set1 set2 : Settings.Settings K R) (a1 a2 : SpecifyAnswers K)
    (st1 st2 : Settings.SettingsStruct K R) (h1 : set1.isValid = true ∧ set1.stored = some st1 ∧ Settings.Spec.Acceptable st1)
    (h2 : set2.isValid = true ∧ set2.stored = some st2 ∧ Settings.Spec.Acceptable st2) (ok1 : SpecifyAnswers.AllOk a1) (ok2 : SpecifyAnswers.AllOk a2)
    (t1 : a1.stateTimings ≠ []) (t2 : a2.stateTimings ≠ []) :
    ∃ s, run E (Solver.new E ipopt fr) [.specifySettings set1 a1, .specifySettings set2 a2] =
        some (s, [(.specifySettings set1 a1, true), (.specifySettings set2 a2, true)]) ∧ s.settings = some st2 ∧
      ∃ y l, s.optimalStates = y :: l ∧ y.left.length = st1.nLeftPoints := by
  obtain ⟨s1, e1, sp1⟩ := specify_ok E (Solver.new E ipopt fr) set1 a1 h1.1 st1 h1.2.1 h1.2.2 ok1
  obtain ⟨s2, e2, sp2⟩ := specify_ok E s1 set2 a2 h2.1 st2 h2.2.1 h2.2.2 ok2
  refine ⟨s2, by simp [run, step, e1, e2], sp2.settings, ?_⟩
  obtain ⟨-, -, -, d1, -⟩ := sp1.done rfl
  obtain ⟨-, -, -, d2, -⟩ := sp2.done rfl
  rw [d2, d1]
  obtain ⟨k1, hk1⟩ := Nat.exists_eq_succ_of_ne_zero (mt List.length_eq_zero_iff.1 t1)
  obtain ⟨k2, hk2⟩ := Nat.exists_eq_succ_of_ne_zero (mt List.length_eq_zero_iff.1 t2)
  rw [hk1, hk2]
  refine ⟨State.new E.state st1.robotModel.nrOfDOFs st1.nLeftPoints E.stateJunk, List.replicate (min k2 k1) (State.new E.state st1.robotModel.nrOfDOFs
    st1.nLeftPoints E.stateJunk) ++ List.replicate (k2 - k1) (State.new E.state st2.robotModel.nrOfDOFs st2.nLeftPoints E.stateJunk),
    by simp [resizeList, Solver.new, List.replicate_succ], (state_new_size ..).left⟩

/-- **C28**, finding: configuring again with more points per foot and then solving successfully reads and writes out of bounds: the states of the
object are not resized (hence the hypothesis `PointsAlways` of the other theorems). -/
theorem C28_finding_more_points (E : Context K R) (ipopt : Option (K × K)) (fr : Bool) (set1 set2 : Settings.Settings K R) (a1 a2 : SpecifyAnswers K)
    (st1 st2 : Settings.SettingsStruct K R) (h1 : set1.isValid = true ∧ set1.stored = some st1 ∧ Settings.Spec.Acceptable st1)
    (h2 : set2.isValid = true ∧ set2.stored = some st2 ∧ Settings.Spec.Acceptable st2) (ok1 : SpecifyAnswers.AllOk a1) (ok2 : SpecifyAnswers.AllOk a2)
    (t1 : a1.stateTimings ≠ []) (t2 : a2.stateTimings ≠ []) (hn : st1.nLeftPoints < st2.nLeftPoints) (a : SolveAnswers K)
    (ha : SolveAnswers.AllOk a) (ht : a.stateTimings ≠ []) :
    run E (Solver.new E ipopt fr) [.specifySettings set1 a1, .specifySettings set2 a2, .solve a] = none := by
  obtain ⟨s, hrun, hset, y, l, hy, hyl⟩ := head_of_two E ipopt fr set1 set2 a1 a2 st1 st2 h1 h2 ok1 ok2 t1 t2
  have hapi : SettingsFromAPI (R := R) (K := K) [.specifySettings set1 a1, .specifySettings set2 a2] := by
    intro set c hm _
    simp at hm
    rcases hm with ⟨rfl, -⟩ | ⟨rfl, -⟩
    · exact ⟨_, h1.2⟩
    · exact ⟨_, h2.2⟩
  have hh := history_run E ipopt fr _ hapi hrun
  have hnone : solve E s a [] [] = none := by
    cases hr : solve E s a [] [] with
    | none => rfl
    | some res =>
      exfalso
      obtain ⟨st', sh, hl, -, -, h4⟩ := solve_ready E hh ⟨set1, a1, by simp⟩ a [] []
      have e : st' = st2 := by
        have := (hh.settings st').2 hl
        rw [hset] at this
        exact (Option.some.inj this).symm
      subst e
      rw [h4] at hr
      have sp := solveWith_spec E _ a [] [] st' _ sh hr
      obtain ⟨b1, b2, b3, b4, b5, b6⟩ := ha
      obtain ⟨-, -, -, -, -, d6, -⟩ := sp.done (sp.outcome.2 ⟨b1, b2, fun _ => b3, b4, b5, b6⟩)
      dsimp only at d6
      rw [hy] at d6
      cases hts : a.stateTimings with
      | nil => exact ht hts
      | cons t ts =>
        rw [hts, List.length_cons, resizeList_cons] at d6
        have := (fillStates_head d6).1
        omega
  cases hfin : run E (Solver.new E ipopt fr) [.specifySettings set1 a1, .specifySettings set2 a2, .solve a] with
  | none => rfl
  | some p =>
    obtain ⟨s1, log1, b, e1, e2, -⟩ := run_snoc E _ [.specifySettings set1 a1, .specifySettings set2 a2] (.solve a) (s' := p.1) (log' := p.2) hfin
    rw [hrun] at e1
    obtain ⟨rfl, -⟩ := Prod.mk.inj (Option.some.inj e1)
    simp [step, hnone] at e2

/-- **C28**, finding: configuring again with fewer points per foot and then solving returns states that still have the old number of points. -/
theorem C28_finding_fewer_points (E : Context K R) (ipopt : Option (K × K)) (fr : Bool) (set1 set2 : Settings.Settings K R) (a1 a2 : SpecifyAnswers K)
    (st1 st2 : Settings.SettingsStruct K R) (h1 : set1.isValid = true ∧ set1.stored = some st1 ∧ Settings.Spec.Acceptable st1)
    (h2 : set2.isValid = true ∧ set2.stored = some st2 ∧ Settings.Spec.Acceptable st2) (ok1 : SpecifyAnswers.AllOk a1) (ok2 : SpecifyAnswers.AllOk a2)
    (t1 : a1.stateTimings ≠ []) (t2 : a2.stateTimings ≠ []) (a : SolveAnswers K) (ht : a.stateTimings ≠ []) :
    ∃ s log, run E (Solver.new E ipopt fr) [.specifySettings set1 a1, .specifySettings set2 a2] = some (s, log) ∧
      ∀ states controls res, solve E s a states controls = some res → res.ok = true → ∃ x ∈ res.states, x.left.length = st1.nLeftPoints := by
  obtain ⟨s, hrun, hset, y, l, hy, hyl⟩ := head_of_two E ipopt fr set1 set2 a1 a2 st1 st2 h1 h2 ok1 ok2 t1 t2
  refine ⟨s, _, hrun, fun states controls res hr ho => ?_⟩
  have hapi : SettingsFromAPI (R := R) (K := K) [.specifySettings set1 a1, .specifySettings set2 a2] := by
    intro set c hm _
    simp at hm
    rcases hm with ⟨rfl, -⟩ | ⟨rfl, -⟩
    · exact ⟨_, h1.2⟩
    · exact ⟨_, h2.2⟩
  have hh := history_run E ipopt fr _ hapi hrun
  obtain ⟨st', sh, -, -, -, h4⟩ := solve_ready E hh ⟨set1, a1, by simp⟩ a states controls
  rw [h4] at hr
  obtain ⟨-, -, -, -, -, d6, -⟩ := (solveWith_spec E _ a states controls st' _ sh hr).done ho
  dsimp only at d6
  rw [hy] at d6
  cases hts : a.stateTimings with
  | nil => exact absurd hts ht
  | cons t ts =>
    rw [hts, List.length_cons, resizeList_cons] at d6
    rw [← hyl]
    exact (fillStates_head d6).2

/- Non-vacuity: a concrete history. -/
section Example

/-- Valid settings: 2 joints, 4 points per foot. -/
def exSettings : Settings.Settings Rat Unit := { stored := some Settings.goodStruct, isValid := true }

/-- Everything succeeds when configuring, with `k` instants. -/
def exSpecify (k : Nat) : SpecifyAnswers Rat :=
  ⟨true, true, true, true, true, true, true, true, true, true, true, true, List.replicate k 0, List.replicate k 0, true⟩

/-- Everything succeeds when solving: two states and one control. -/
def exSolve : SolveAnswers Rat :=
  ⟨true, true, true, true, true, [0, 1], [1 / 2], true, List.replicate 2 (List.replicate 66 1), [List.replicate 57 2]⟩

/-- The optimisation fails. -/
def exFail : SolveAnswers Rat := { exSolve with solve := false }

theorem ex_allOk (k : Nat) : SpecifyAnswers.AllOk (exSpecify k) := by simp [SpecifyAnswers.AllOk, exSpecify]

theorem ex_solution : SolutionOk Settings.goodStruct.robotModel.nrOfDOFs 4 exSolve :=
  ⟨rfl, rfl, fun v hv => by rw [List.eq_of_mem_replicate hv]; rfl, fun v hv => by rw [List.mem_singleton.1 hv]; rfl⟩

theorem ex_api (g : Rat → State Rat × Bool) (h : Rat → Control Rat × Bool) :
    SettingsFromAPI [.specifySettings exSettings (exSpecify 3), .setGuesses (some g) (some h), .solve exFail] := by
  intro set a hm _
  simp at hm
  obtain ⟨rfl, -⟩ := hm
  exact ⟨_, rfl, Settings.goodStruct_acceptable⟩

theorem ex_points (g : Rat → State Rat × Bool) (h : Rat → Control Rat × Bool) :
    PointsAlways (R := Unit) 4 [.specifySettings exSettings (exSpecify 3), .setGuesses (some g) (some h), .solve exFail] := by
  intro set a hm _ st hst
  simp at hm
  obtain ⟨rfl, -⟩ := hm
  obtain rfl := Option.some.inj hst
  rfl

/-- The history: configuration, guesses, failed solve; the guesses are still pending, the default guess would be due, everything stands;
a successful solve then returns two states and one control. -/
example (E : Context Rat Unit) (g : Rat → State Rat × Bool) (h : Rat → Control Rat × Bool) :
    ∃ s log, run E (Solver.new E none false) [.specifySettings exSettings (exSpecify 3), .setGuesses (some g) (some h), .solve exFail] = some (s, log) ∧
      Configured log ∧ FreshlyConfigured log ∧ Pending log g h ∧ ConfigurationStands log ∧
      ∃ res, solve E s exSolve [] [] = some res ∧ res.ok = true ∧ res.states.length = 2 ∧ res.controls.length = 1 := by
  obtain ⟨s1, e1, sp1⟩ := specify_ok E (Solver.new E none false) exSettings (exSpecify 3) rfl _ rfl Settings.goodStruct_acceptable (ex_allOk 3)
  obtain ⟨d1, -, d3, -⟩ := sp1.done rfl
  have e2 : setGuesses s1 (some g) (some h) = some
      ({ s1 with stateGuess := some ⟨g, rangesAt 2 4⟩, controlGuess := some ⟨h, rangesAt 2 4⟩ }, true) := by
    unfold setGuesses
    rw [d1, sp1.ranges]
    rfl
  have r1 : run E (Solver.new E none false) [.specifySettings exSettings (exSpecify 3)] = some (s1, [(.specifySettings exSettings (exSpecify 3), true)]) := by
    simp only [run, step, e1, Option.bind_eq_bind, Option.bind_some]
  have r2 := run_add E _ _ (.setGuesses (some g) (some h)) r1 e2
  have hapi2 : SettingsFromAPI (K := Rat) (R := Unit) [.specifySettings exSettings (exSpecify 3), .setGuesses (some g) (some h)] := by
    intro set a hm hv
    exact ex_api g h set a (by simp at hm ⊢; exact hm) hv
  have hp2 : PointsAlways (K := Rat) (R := Unit) 4 [.specifySettings exSettings (exSpecify 3), .setGuesses (some g) (some h)] := by
    intro set a hm hv
    exact ex_points g h set a (by simp at hm ⊢; exact hm) hv
  have hl2 : LastSettings (K := Rat) (R := Unit) [.specifySettings exSettings (exSpecify 3), .setGuesses (some g) (some h)] Settings.goodStruct :=
    ⟨[], exSettings, _, _, rfl, rfl, rfl, by simp⟩
  obtain ⟨res3, e3, -⟩ := C28_success E none false _ hapi2 4 hp2 r2 _ hl2 exFail
    ⟨ex_solution.1, ex_solution.2, ex_solution.3, ex_solution.4⟩ [] []
  have f3 : res3.ok = false := by
    cases ho : res3.ok with
    | false => rfl
    | true => simpa [exFail] using ((C28_outcome E none false _ hapi2 r2 ⟨exSettings, exSpecify 3, by simp⟩ exFail [] [] e3).1 ho).2.2.2.1
  have r3 := run_add E _ _ (.solve exFail) r2 (s' := res3.solver) (b := false) (by simp only [step]; rw [e3, ← f3]; rfl)
  refine ⟨_, _, r3, ⟨exSettings, exSpecify 3, by simp⟩, ⟨[], _, _, _, rfl, ?_⟩, ⟨[_], [_], rfl, ?_⟩, ⟨[], _, _, _, rfl, ?_⟩, ?_⟩
  · intro x hx; simp at hx; rcases hx with rfl | rfl <;> (rintro ⟨_, e⟩; simp at e)
  · intro x hx; simp at hx; subst hx; exact ⟨by rintro ⟨_, e⟩; simp at e, by rintro ⟨_, _, e⟩; simp at e⟩
  · intro x hx; simp at hx; rcases hx with rfl | rfl <;> (rintro ⟨_, _, e, _⟩; simp at e)
  · obtain ⟨res, e4, hs⟩ := C28_success E none false _ (ex_api g h) 4 (ex_points g h) r3 _
      ⟨[], exSettings, exSpecify 3, [.setGuesses (some g) (some h), .solve exFail], rfl, rfl, rfl, by simp⟩ exSolve ex_solution [] []
    have ok : res.ok = true := (C28_outcome E none false _ (ex_api g h) r3 ⟨exSettings, exSpecify 3, by simp⟩ exSolve [] [] e4).2
      (by simp [exSolve])
    exact ⟨res, e4, ok, (hs ok).1.1, (hs ok).2.1.1⟩

end Example

end Verif.SolverM
