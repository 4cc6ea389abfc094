import Verif.Lemmas.Solver2
/- Histories of calls. -/
set_option linter.unusedSectionVars false
set_option linter.unusedSimpArgs false
namespace Verif.SolverM
open StateM Spec
open Labeller (Labeller)

/-- Something happened, and since then nothing of another kind. -/
def Since {α : Type} (P Q : α → Prop) (log : List α) : Prop := ∃ l1 y l2, log = l1 ++ y :: l2 ∧ P y ∧ ∀ x ∈ l2, ¬ Q x

theorem since_nil {α : Type} (P Q : α → Prop) : ¬ Since P Q [] := by
  rintro ⟨l1, y, l2, h, -⟩; simp at h

theorem since_snoc {α : Type} (P Q : α → Prop) (log : List α) (x : α) : Since P Q (log ++ [x]) ↔ P x ∨ Since P Q log ∧ ¬ Q x := by
  constructor
  · rintro ⟨l1, y, l2, h, hy, hl⟩
    rcases List.eq_nil_or_concat l2 with rfl | ⟨l3, z, rfl⟩
    · left
      have := List.append_inj_right' h rfl
      obtain rfl := (List.cons.inj this).1
      exact hy
    · right
      rw [List.concat_eq_append] at h hl
      have h' : log ++ [x] = (l1 ++ y :: l3) ++ [z] := by simpa using h
      have e1 := List.append_inj_left' h' rfl
      have e2 := List.append_inj_right' h' rfl
      obtain rfl := (List.cons.inj e2).1
      exact ⟨⟨l1, y, l3, e1, hy, fun w hw => hl w (by simp [hw])⟩, hl _ (by simp)⟩
  · rintro (h | ⟨⟨l1, y, l2, rfl, hy, hl⟩, hx⟩)
    · exact ⟨log, x, [], rfl, h, by simp⟩
    · refine ⟨l1, y, l2 ++ [x], by simp, hy, fun w hw => ?_⟩
      rcases List.mem_append.1 hw with hw | hw
      · exact hl w hw
      · obtain rfl := List.mem_singleton.1 hw
        exact hx

variable {K R : Type} [Field K] [LinearOrder K] [IsStrictOrderedRing K]

/-- A successful `specifySettings`. -/
def ConfiguredBy (x : Op K R × Bool) : Prop := ∃ settings a, x = (Op.specifySettings settings a, true)

theorem fresh_iff (log : List (Op K R × Bool)) : FreshlyConfigured log ↔ Since ConfiguredBy Solved log := by
  constructor
  · rintro ⟨l1, s, a, l2, h, h'⟩; exact ⟨l1, _, l2, h, ⟨s, a, rfl⟩, h'⟩
  · rintro ⟨l1, _, l2, h, ⟨s, a, rfl⟩, h'⟩; exact ⟨l1, s, a, l2, h, h'⟩

theorem stands_iff (log : List (Op K R × Bool)) : ConfigurationStands log ↔ Since ConfiguredBy ConfigurationFailed log := by
  constructor
  · rintro ⟨l1, s, a, l2, h, h'⟩; exact ⟨l1, _, l2, h, ⟨s, a, rfl⟩, h'⟩
  · rintro ⟨l1, _, l2, h, ⟨s, a, rfl⟩, h'⟩; exact ⟨l1, s, a, l2, h, h'⟩

theorem pending_iff (log : List (Op K R × Bool)) (g : K → State K × Bool) (h : K → Control K × Bool) :
    Pending log g h ↔ Since (fun x => x = (Op.setGuesses (some g) (some h), true)) (fun x => Solved x ∨ GuessesGiven x) log := by
  constructor
  · rintro ⟨l1, l2, e, h'⟩; exact ⟨l1, _, l2, e, rfl, fun x hx => not_or.2 (h' x hx)⟩
  · rintro ⟨l1, _, l2, e, rfl, h'⟩; exact ⟨l1, l2, e, fun x hx => not_or.1 (h' x hx)⟩

/-- A `specifySettings` with valid settings. -/
def ValidGiven (x : Op K R × Bool) : Prop := ∃ settings a b, x = (Op.specifySettings settings a, b) ∧ settings.isValid = true

/-- The settings given last, in terms of the log. -/
def LastLog (log : List (Op K R × Bool)) (st : Settings.SettingsStruct K R) : Prop :=
  Since (fun x => ∃ settings a b, x = (Op.specifySettings settings a, b) ∧ settings.isValid = true ∧ settings.stored = some st) ValidGiven log

theorem last_iff (log : List (Op K R × Bool)) (st : Settings.SettingsStruct K R) : LastSettings (log.map (·.1)) st ↔ LastLog log st := by
  constructor
  · rintro ⟨l1, s, a, l2, e, hv, hs, h'⟩
    obtain ⟨m1, m2, rfl, rfl, e2⟩ := List.map_eq_append_iff.1 e
    obtain ⟨x, m3, rfl, e3, rfl⟩ := List.map_eq_cons_iff.1 e2
    refine ⟨m1, x, m3, rfl, ⟨s, a, x.2, Prod.ext e3 rfl, hv, hs⟩, fun y hy => ?_⟩
    rintro ⟨s', a', b', rfl, hv'⟩
    rw [h' s' a' (List.mem_map.2 ⟨_, hy, rfl⟩)] at hv'
    cases hv'
  · rintro ⟨l1, _, l2, rfl, ⟨s, a, b, rfl, hv, hs⟩, h'⟩
    refine ⟨l1.map (·.1), s, a, l2.map (·.1), by simp, hv, hs, fun s' a' hm => ?_⟩
    obtain ⟨y, hy, e⟩ := List.mem_map.1 hm
    cases hv' : s'.isValid with
    | false => rfl
    | true => exact absurd ⟨s', a', y.2, Prod.ext e rfl, hv'⟩ (h' y hy)

theorem initial_iff (log : List (Op K R × Bool)) (x : State K) : InitialStateGiven log x ↔
    Since (fun y => y = (Op.setInitialState x, true)) (fun y => (∃ z, y = (Op.setInitialState z, true)) ∨ ValidGiven y) log := by
  constructor
  · rintro ⟨l1, l2, e, h⟩
    refine ⟨l1, _, l2, e, rfl, fun y hy => ?_⟩
    rintro (⟨z, hz⟩ | ⟨s, a, b, e, hv⟩)
    · exact (h y hy).1 z hz
    · rw [(h y hy).2 s a b e] at hv; cases hv
  · rintro ⟨l1, _, l2, e, rfl, h⟩
    refine ⟨l1, l2, e, fun y hy => ⟨fun z hz => h y hy (Or.inl ⟨z, hz⟩), fun s a b e => ?_⟩⟩
    cases hv : s.isValid with
    | false => rfl
    | true => exact absurd (Or.inr ⟨s, a, b, e, hv⟩) (h y hy)

theorem configured_nil : ¬ Configured ([] : List (Op K R × Bool)) := by rintro ⟨s, a, h⟩; simp at h

theorem configured_snoc (log : List (Op K R × Bool)) (x : Op K R × Bool) : Configured (log ++ [x]) ↔ ConfiguredBy x ∨ Configured log := by
  constructor
  · rintro ⟨s, a, h⟩
    rcases List.mem_append.1 h with h | h
    · exact Or.inr ⟨s, a, h⟩
    · exact Or.inl ⟨s, a, (List.mem_singleton.1 h).symm⟩
  · rintro (⟨s, a, rfl⟩ | ⟨s, a, h⟩)
    · exact ⟨s, a, by simp⟩
    · exact ⟨s, a, by simp [h]⟩

theorem run_snoc (E : Context K R) (s : Solver K R) (ops : List (Op K R)) (o : Op K R) {s' : Solver K R} {log' : List (Op K R × Bool)}
    (h : run E s (ops ++ [o]) = some (s', log')) :
    ∃ s1 log b, run E s ops = some (s1, log) ∧ step E s1 o = some (s', b) ∧ log' = log ++ [(o, b)] := by
  induction ops generalizing s s' log' with
  | nil =>
    simp only [List.nil_append, run] at h
    cases hs : step E s o with
    | none => rw [hs] at h; simp at h
    | some p =>
      rw [hs] at h
      simp at h
      exact ⟨s, [], p.2, rfl, by rw [hs, ← h.1], h.2.symm⟩
  | cons o' ops ih =>
    simp only [List.cons_append, run] at h
    cases hs : step E s o' with
    | none => rw [hs] at h; simp at h
    | some p =>
      rw [hs] at h
      simp only [Option.bind_eq_bind, Option.bind_some] at h
      cases hr : run E p.1 (ops ++ [o]) with
      | none => rw [hr] at h; simp at h
      | some q =>
        rw [hr] at h
        simp at h
        obtain ⟨s1, log, b, e1, e2, e3⟩ := ih p.1 hr
        refine ⟨s1, (o', p.2) :: log, b, ?_, by rw [e2, h.1], by rw [← h.2, e3]; rfl⟩
        simp [run, hs, e1]

theorem run_log (E : Context K R) (s : Solver K R) (ops : List (Op K R)) {s' : Solver K R} {log : List (Op K R × Bool)}
    (h : run E s ops = some (s', log)) : log.map (·.1) = ops := by
  induction ops using List.reverseRecOn generalizing s' log with
  | nil => simp [run] at h; simp [← h.2]
  | append_singleton ops o ih =>
    obtain ⟨s1, log1, b, e1, -, rfl⟩ := run_snoc E s ops o h
    simp [ih e1]

/-- What the object and the history have in common. -/
structure History (s : Solver K R) (log : List (Op K R × Bool)) : Prop where
  inv : Inv s
  prepared : s.prepared = true ↔ Configured log
  firstRun : Configured log → (s.firstRun = true ↔ FreshlyConfigured log)
  pending : ∀ g h, (∃ r, s.stateGuess = some ⟨g, r⟩ ∧ s.controlGuess = some ⟨h, r⟩) ↔ Pending log g h
  both : s.stateGuess = none ∧ s.controlGuess = none ∨ ∃ g h r, s.stateGuess = some ⟨g, r⟩ ∧ s.controlGuess = some ⟨h, r⟩
  stands : ConfigurationStands log → s.shooter = some s.problem
  settings : ∀ st, s.settings = some st ↔ LastLog log st

theorem history_new (E : Context K R) (ipopt : Option (K × K)) (b : Bool) : History (Solver.new E ipopt b) [] :=
  ⟨inv_new E ipopt b, by simp [Solver.new, configured_nil], fun h => absurd h configured_nil,
    fun g h => by simp [pending_iff, since_nil, Solver.new], Or.inl ⟨rfl, rfl⟩, fun h => absurd ((stands_iff _).1 h) (since_nil _ _),
    fun st => by simp [LastLog, since_nil, Solver.new]⟩

/-- A call that is not `specifySettings`, `solve` or `setGuesses`, or is refused: what it keeps. -/
theorem history_quiet {s s' : Solver K R} {log : List (Op K R × Bool)} {x : Op K R × Bool} (hs : History s log) (hi : Inv s')
    (h1 : ¬ ConfiguredBy x) (h2 : ¬ Solved x) (h3 : ¬ GuessesGiven x) (h4 : ¬ ValidGiven x)
    (k1 : s'.prepared = s.prepared) (k2 : s'.firstRun = s.firstRun) (k3 : s'.stateGuess = s.stateGuess) (k4 : s'.controlGuess = s.controlGuess)
    (k5 : s'.shooter = s.shooter) (k6 : s'.problem = s.problem) (k7 : s'.settings = s.settings) : History s' (log ++ [x]) := by
  have h5 : ¬ ConfigurationFailed x := by rintro ⟨s, a, e, hv⟩; exact h4 ⟨s, a, _, e, hv⟩
  have hc : Configured (log ++ [x]) ↔ Configured log := by rw [configured_snoc]; tauto
  refine ⟨hi, by rw [k1, hc]; exact hs.prepared, fun h => ?_, fun g h => ?_, by rw [k3, k4]; exact hs.both, fun h => ?_, fun st => ?_⟩
  · rw [k2, fresh_iff, since_snoc, hs.firstRun (hc.1 h), fresh_iff]; tauto
  · rw [k3, k4, hs.pending, pending_iff, pending_iff, since_snoc]
    constructor
    · intro h; exact Or.inr ⟨h, not_or.2 ⟨h2, h3⟩⟩
    · rintro (rfl | h)
      · exact absurd ⟨_, _, rfl⟩ h3
      · exact h.1
  · rw [k5, k6]
    rw [stands_iff, since_snoc] at h
    rcases h with h | h
    · exact absurd h h1
    · exact hs.stands ((stands_iff _).2 h.1)
  · rw [k7, hs.settings, LastLog, LastLog, since_snoc]
    constructor
    · intro h; exact Or.inr ⟨h, h4⟩
    · rintro (⟨s, a, b, e, hv, -⟩ | h)
      · exact absurd ⟨s, a, b, e, hv⟩ h4
      · exact h.1

theorem inv_of_keeps {s s' : Solver K R} (hs : Inv s) (k1 : s'.settings = s.settings) (k2 : s'.ranges = s.ranges) (k3 : s'.initialState = s.initialState)
    (k4 : s'.prepared = s.prepared) (k5 : s'.problem = s.problem) (k6 : s'.created = s.created) (k7 : s'.shooter = s.shooter)
    (k8 : s'.stateGuess.isSome = s'.controlGuess.isSome) : Inv s' :=
  ⟨by rw [k1, k2, k3]; exact hs.ready, by rw [k4, k1, k7]; exact hs.prepared, k8, by rw [k5, k6]; exact hs.problem, by rw [k6, k7]; exact hs.shooter⟩

theorem history_specify (E : Context K R) {s s' : Solver K R} {log : List (Op K R × Bool)} {settings : Settings.Settings K R} {a : SpecifyAnswers K} {b : Bool}
    (hs : History s log) (hst : settings.isValid = true → ∃ st, settings.stored = some st ∧ Settings.Spec.Acceptable st)
    (h : specifySettings E s settings a = some (s', b)) : History s' (log ++ [(Op.specifySettings settings a, b)]) := by
  have hi := inv_specify E hs.inv hst h
  have n2 : ¬ Solved (Op.specifySettings settings a, b) := by rintro ⟨a, e⟩; cases e
  have n3 : ¬ GuessesGiven (Op.specifySettings settings a, b) := by rintro ⟨g, h, e⟩; cases e
  cases hv : settings.isValid with
  | false =>
    rw [specify_invalid E s settings a hv] at h
    obtain ⟨rfl, rfl⟩ := Prod.mk.inj (Option.some.inj h)
    refine history_quiet hs hi ?_ n2 n3 ?_ rfl rfl rfl rfl rfl rfl rfl
    · rintro ⟨_, _, e⟩; cases e
    · rintro ⟨_, _, _, e, hv'⟩; cases e; rw [hv] at hv'; cases hv'
  | true =>
    obtain ⟨st, hst, -⟩ := hst hv
    have sp := specify_valid E s settings a hv st hst h
    have hpend : ∀ g h, (∃ r, s'.stateGuess = some ⟨g, r⟩ ∧ s'.controlGuess = some ⟨h, r⟩) ↔
        Pending (log ++ [(Op.specifySettings settings a, b)]) g h := by
      intro g h
      rw [sp.stateGuess, sp.controlGuess, hs.pending, pending_iff, pending_iff, since_snoc]
      constructor
      · intro h; exact Or.inr ⟨h, not_or.2 ⟨n2, n3⟩⟩
      · rintro (h | h)
        · cases h
        · exact h.1
    have hset : ∀ st', s'.settings = some st' ↔ LastLog (log ++ [(Op.specifySettings settings a, b)]) st' := by
      intro st'
      rw [sp.settings, LastLog, since_snoc]
      constructor
      · intro h; exact Or.inl ⟨settings, a, b, rfl, hv, by rw [hst, h]⟩
      · rintro (⟨_, _, _, e, -, h⟩ | ⟨-, h⟩)
        · cases e; rw [← hst, h]
        · exact absurd ⟨_, _, _, rfl, hv⟩ h
    cases b with
    | true =>
      obtain ⟨d1, d2, d3, -⟩ := sp.done rfl
      have cb : ConfiguredBy (Op.specifySettings settings a, true) := ⟨_, _, rfl⟩
      refine ⟨hi, ⟨fun _ => (configured_snoc _ _).2 (Or.inl cb), fun _ => d1⟩, fun _ => ⟨fun _ => ?_, fun _ => d2⟩, hpend,
        by rw [sp.stateGuess, sp.controlGuess]; exact hs.both, fun _ => d3, hset⟩
      rw [fresh_iff, since_snoc]; exact Or.inl cb
    | false =>
      have f := sp.failed rfl
      have nc : ¬ ConfiguredBy (Op.specifySettings settings a, false) := by rintro ⟨_, _, e⟩; cases e
      have hc : Configured (log ++ [(Op.specifySettings settings a, false)]) ↔ Configured log := by rw [configured_snoc]; tauto
      refine ⟨hi, by rw [f.prepared, hc]; exact hs.prepared, fun h => ?_, hpend, by rw [sp.stateGuess, sp.controlGuess]; exact hs.both, fun h => ?_, hset⟩
      · rw [f.firstRun, fresh_iff, since_snoc, hs.firstRun (hc.1 h), fresh_iff]; tauto
      · rw [stands_iff, since_snoc] at h
        rcases h with h | ⟨-, h⟩
        · exact absurd h nc
        · exact absurd ⟨_, _, rfl, hv⟩ h

theorem setGuesses_cases {s s' : Solver K R} {g : Option (K → State K × Bool)} {h : Option (K → Control K × Bool)} {b : Bool}
    (e : setGuesses s g h = some (s', b)) : b = false ∧ s' = s ∨ b = true ∧ s.prepared = true ∧ ∃ g' h' r, g = some g' ∧ h = some h' ∧ s.ranges = some r ∧
      s' = { s with stateGuess := some ⟨g', r⟩, controlGuess := some ⟨h', r⟩ } := by
  unfold setGuesses at e
  by_cases hp : (!s.prepared) = true
  · rw [if_pos hp] at e
    obtain ⟨rfl, rfl⟩ := Prod.mk.inj (Option.some.inj e)
    exact Or.inl ⟨rfl, rfl⟩
  rw [if_neg hp] at e
  cases g with
  | none => obtain ⟨rfl, rfl⟩ := Prod.mk.inj (Option.some.inj e); exact Or.inl ⟨rfl, rfl⟩
  | some g' =>
    cases h with
    | none => obtain ⟨rfl, rfl⟩ := Prod.mk.inj (Option.some.inj e); exact Or.inl ⟨rfl, rfl⟩
    | some h' =>
      cases hr : s.ranges with
      | none => simp [hr] at e
      | some r =>
        simp only [hr] at e
        obtain ⟨rfl, rfl⟩ := Prod.mk.inj (Option.some.inj e)
        exact Or.inr ⟨rfl, by simpa using hp, g', h', r, rfl, rfl, rfl, rfl⟩

theorem history_setGuesses {s s' : Solver K R} {log : List (Op K R × Bool)} {g : Option (K → State K × Bool)} {h : Option (K → Control K × Bool)} {b : Bool}
    (hs : History s log) (e : setGuesses s g h = some (s', b)) : History s' (log ++ [(Op.setGuesses g h, b)]) := by
  have n1 : ¬ ConfiguredBy ((Op.setGuesses g h, b) : Op K R × Bool) := by rintro ⟨_, _, e⟩; cases e
  have n2 : ¬ Solved ((Op.setGuesses g h, b) : Op K R × Bool) := by rintro ⟨_, e⟩; cases e
  have n4 : ¬ ValidGiven ((Op.setGuesses g h, b) : Op K R × Bool) := by rintro ⟨_, _, _, e, _⟩; cases e
  rcases setGuesses_cases e with ⟨rfl, rfl⟩ | ⟨rfl, -, g', h', r, rfl, rfl, hr, rfl⟩
  · exact history_quiet hs hs.inv n1 n2 (by rintro ⟨_, _, e⟩; cases e) n4 rfl rfl rfl rfl rfl rfl rfl
  · have n5 : ¬ ConfigurationFailed ((Op.setGuesses (some g') (some h'), true) : Op K R × Bool) := by rintro ⟨_, _, e, _⟩; cases e
    have hc : Configured (log ++ [(Op.setGuesses (some g') (some h'), true)]) ↔ Configured log := by rw [configured_snoc]; tauto
    refine ⟨inv_of_keeps hs.inv rfl rfl rfl rfl rfl rfl rfl rfl, by rw [hc]; exact hs.prepared, fun h => ?_, fun g h => ?_, Or.inr ⟨g', h', r, rfl, rfl⟩,
      fun h => ?_, fun st => ?_⟩
    · rw [fresh_iff, since_snoc, hs.firstRun (hc.1 h), fresh_iff]; tauto
    · rw [pending_iff, since_snoc]
      constructor
      · rintro ⟨r', e1, e2⟩
        left
        cases e1; cases e2; rfl
      · rintro (e | ⟨-, e⟩)
        · cases e; exact ⟨r, rfl, rfl⟩
        · exact absurd (Or.inr ⟨_, _, rfl⟩) e
    · rw [stands_iff, since_snoc] at h
      rcases h with h | h
      · exact absurd h n1
      · exact hs.stands ((stands_iff _).2 h.1)
    · rw [show (({ s with stateGuess := some ⟨g', r⟩, controlGuess := some ⟨h', r⟩ } : Solver K R).settings = some st) = (s.settings = some st) from rfl]
      rw [hs.settings, LastLog, LastLog, since_snoc]
      constructor
      · intro h; exact Or.inr ⟨h, n4⟩
      · rintro (⟨_, _, _, e, _⟩ | h)
        · cases e
        · exact h.1

/-- `solve` with the caller's vectors. -/
theorem history_solve (E : Context K R) {s : Solver K R} {log : List (Op K R × Bool)} {a : SolveAnswers K} (hs : History s log)
    {states : List (State K)} {controls : List (Control K)} {res : SolveResult K R} (e : solve E s a states controls = some res) :
    History res.solver (log ++ [(Op.solve a, res.ok)]) := by
  have n1 : ¬ ConfiguredBy ((Op.solve a, res.ok) : Op K R × Bool) := by rintro ⟨_, _, e⟩; cases e
  have n3 : ¬ GuessesGiven ((Op.solve a, res.ok) : Op K R × Bool) := by rintro ⟨_, _, e⟩; cases e
  have n4 : ¬ ValidGiven ((Op.solve a, res.ok) : Op K R × Bool) := by rintro ⟨_, _, _, e, _⟩; cases e
  obtain ⟨c1, c2⟩ := solve_cases E hs.inv a states controls
  cases hp : s.prepared with
  | false =>
    rw [c1 hp] at e
    obtain rfl := Option.some.inj e
    exact history_quiet hs hs.inv n1 (by rintro ⟨_, e⟩; cases e) n3 n4 rfl rfl rfl rfl rfl rfl rfl
  | true =>
    obtain ⟨st, sh, hst, hsh, hz, e'⟩ := c2 hp
    rw [e'] at e
    have sp := solveWith_spec E _ a states controls st _ sh e
    obtain ⟨k1, k2, k3, k4, k5, k6, k7, k8, k9, k10⟩ := sp.keeps
    cases ho : res.ok with
    | false =>
      obtain ⟨-, -, r1, r2, r3, r4, r5⟩ := sp.failed ho
      have hb : res.solver.stateGuess.isSome = res.solver.controlGuess.isSome := by rw [r3, r4]; exact hs.inv.guesses
      rw [ho] at n1 n3 n4
      exact history_quiet hs (inv_of_keeps hs.inv k1 k2 k3 k4 k5 k6 k7 hb) n1 (by rintro ⟨_, e⟩; cases e) n3 n4 k4 r5 r3 r4 k7 k5 k1
    | true =>
      obtain ⟨d1, d2, d3, d4, d5, d6, d7⟩ := sp.done ho
      rw [ho] at n1 n3 n4
      have n5 : ¬ ConfigurationFailed ((Op.solve a, true) : Op K R × Bool) := by rintro ⟨_, _, e, _⟩; cases e
      have hc : Configured (log ++ [(Op.solve a, true)]) ↔ Configured log := by rw [configured_snoc]; tauto
      refine ⟨inv_of_keeps hs.inv k1 k2 k3 k4 k5 k6 k7 (by rw [d3, d4]; rfl), by rw [k4, hc]; exact hs.prepared, fun h => ?_, fun g h => ?_,
        Or.inl ⟨d3, d4⟩, fun h => ?_, fun st => ?_⟩
      · rw [d5, fresh_iff, since_snoc]
        constructor
        · intro h; cases h
        · rintro (h | h)
          · exact absurd h n1
          · exact absurd ⟨a, rfl⟩ h.2
      · rw [d3, d4, pending_iff, since_snoc]
        constructor
        · rintro ⟨_, e, _⟩; cases e
        · rintro (e | e)
          · cases e
          · exact absurd (Or.inl ⟨a, rfl⟩) e.2
      · rw [stands_iff, since_snoc] at h
        rcases h with h | h
        · exact absurd h n1
        · rw [k7, k5]; exact hs.stands ((stands_iff _).2 h.1)
      · rw [k1]
        show s.settings = some st ↔ _
        rw [hs.settings, LastLog, LastLog, since_snoc]
        constructor
        · intro h; exact Or.inr ⟨h, n4⟩
        · rintro (⟨_, _, _, e, _⟩ | h)
          · cases e
          · exact h.1

theorem setInitialState_cases (s : Solver K R) (x : State K) : (setInitialState s x = (s, false)) ∨
    (s.prepared = true ∧ s.initialState.sameSize x = true ∧ setInitialState s x = ({ s with initialState := x }, true)) := by
  unfold setInitialState
  by_cases h1 : (!s.prepared) = true
  · rw [if_pos h1]; exact Or.inl rfl
  rw [if_neg h1]
  by_cases h2 : (!s.initialState.sameSize x) = true
  · rw [if_pos h2]; exact Or.inl rfl
  rw [if_neg h2]
  exact Or.inr ⟨by simpa using h1, by simpa using h2, rfl⟩

theorem inv_setInitialState {s : Solver K R} (hs : Inv s) (x : State K) : Inv (setInitialState s x).1 := by
  rcases setInitialState_cases s x with h | ⟨-, hx, h⟩
  · rw [h]; exact hs
  · rw [h]
    refine ⟨fun st hst => ⟨(hs.ready st hst).1, ?_⟩, hs.prepared, hs.guesses, hs.problem, hs.shooter⟩
    obtain ⟨a, b, c⟩ := (hs.ready st hst).2
    simp only [State.sameSize, Bool.and_eq_true, beq_iff_eq] at hx
    exact ⟨by rw [← hx.1.1, a], by rw [← hx.1.2, b], by rw [← hx.2, c]⟩

theorem history_step (E : Context K R) {s s' : Solver K R} {log : List (Op K R × Bool)} {o : Op K R} {b : Bool} (hs : History s log)
    (hst : ∀ settings a, o = Op.specifySettings settings a → settings.isValid = true → ∃ st, settings.stored = some st ∧ Settings.Spec.Acceptable st)
    (h : step E s o = some (s', b)) : History s' (log ++ [(o, b)]) := by
  cases o with
  | specifySettings settings a => exact history_specify E hs (hst _ _ rfl) h
  | setInitialState x =>
    have hi := inv_setInitialState hs.inv x
    simp only [step] at h
    have e := Option.some.inj h
    rw [e] at hi
    rcases setInitialState_cases s x with h' | ⟨-, -, h'⟩
    · rw [e] at h'
      obtain ⟨rfl, rfl⟩ := Prod.mk.inj h'
      exact history_quiet hs hi (by rintro ⟨_, _, e⟩; cases e) (by rintro ⟨_, e⟩; cases e) (by rintro ⟨_, _, e⟩; cases e)
        (by rintro ⟨_, _, _, e, _⟩; cases e) rfl rfl rfl rfl rfl rfl rfl
    · rw [e] at h'
      obtain ⟨rfl, rfl⟩ := Prod.mk.inj h'
      exact history_quiet hs hi (by rintro ⟨_, _, e⟩; cases e) (by rintro ⟨_, e⟩; cases e) (by rintro ⟨_, _, e⟩; cases e)
        (by rintro ⟨_, _, _, e, _⟩; cases e) rfl rfl rfl rfl rfl rfl rfl
  | setGuesses g h' => exact history_setGuesses hs h
  | setOptimizer o ok =>
    have q : ∀ s'', (s'' = s ∨ ∃ i : K × K, s'' = { s with optimizer := true, plusInfinity := i.1, minusInfinity := i.2 }) →
        History s'' (log ++ [(Op.setOptimizer o ok, b)]) := by
      rintro s'' (rfl | ⟨i, rfl⟩)
      · exact history_quiet hs hs.inv (by rintro ⟨_, _, e⟩; cases e) (by rintro ⟨_, e⟩; cases e) (by rintro ⟨_, _, e⟩; cases e)
          (by rintro ⟨_, _, _, e, _⟩; cases e) rfl rfl rfl rfl rfl rfl rfl
      · exact history_quiet hs (inv_of_keeps hs.inv rfl rfl rfl rfl rfl rfl rfl hs.inv.guesses) (by rintro ⟨_, _, e⟩; cases e) (by rintro ⟨_, e⟩; cases e)
          (by rintro ⟨_, _, e⟩; cases e) (by rintro ⟨_, _, _, e, _⟩; cases e) rfl rfl rfl rfl rfl rfl rfl
    apply q
    simp only [step] at h
    have e := Option.some.inj h
    unfold setOptimizer at e
    cases o with
    | none => exact Or.inl (Prod.mk.inj e).1.symm
    | some i =>
      dsimp only at e
      by_cases hc : (s.prepared && !ok) = true
      · rw [if_pos hc] at e; exact Or.inl (Prod.mk.inj e).1.symm
      · rw [if_neg hc] at e; exact Or.inr ⟨i, (Prod.mk.inj e).1.symm⟩
  | setIntegrator g ok =>
    have q : ∀ s'', (s'' = s ∨ s'' = { s with integrator := true }) → History s'' (log ++ [(Op.setIntegrator g ok, b)]) := by
      rintro s'' (rfl | rfl)
      · exact history_quiet hs hs.inv (by rintro ⟨_, _, e⟩; cases e) (by rintro ⟨_, e⟩; cases e) (by rintro ⟨_, _, e⟩; cases e)
          (by rintro ⟨_, _, _, e, _⟩; cases e) rfl rfl rfl rfl rfl rfl rfl
      · exact history_quiet hs (inv_of_keeps hs.inv rfl rfl rfl rfl rfl rfl rfl hs.inv.guesses) (by rintro ⟨_, _, e⟩; cases e) (by rintro ⟨_, e⟩; cases e)
          (by rintro ⟨_, _, e⟩; cases e) (by rintro ⟨_, _, _, e, _⟩; cases e) rfl rfl rfl rfl rfl rfl rfl
    apply q
    simp only [step] at h
    have e := Option.some.inj h
    unfold setIntegrator at e
    by_cases h1 : (!g) = true
    · rw [if_pos h1] at e; exact Or.inl (Prod.mk.inj e).1.symm
    rw [if_neg h1] at e
    by_cases hc : (s.prepared && !ok) = true
    · rw [if_pos hc] at e; exact Or.inl (Prod.mk.inj e).1.symm
    · rw [if_neg hc] at e; exact Or.inr (Prod.mk.inj e).1.symm
  | solve a =>
    simp only [step] at h
    cases hr : solve E s a [] [] with
    | none => rw [hr] at h; cases h
    | some res =>
      rw [hr] at h
      simp only [Option.map_some] at h
      obtain ⟨rfl, rfl⟩ := Prod.mk.inj (Option.some.inj h)
      exact history_solve E hs hr

theorem history_run (E : Context K R) (ipopt : Option (K × K)) (fr : Bool) (ops : List (Op K R)) (hst : SettingsFromAPI ops)
    {s : Solver K R} {log : List (Op K R × Bool)} (h : run E (Solver.new E ipopt fr) ops = some (s, log)) : History s log := by
  induction ops using List.reverseRecOn generalizing s log with
  | nil =>
    simp only [run] at h
    obtain ⟨rfl, rfl⟩ := Prod.mk.inj (Option.some.inj h)
    exact history_new E ipopt fr
  | append_singleton ops o ih =>
    obtain ⟨s1, log1, b, e1, e2, rfl⟩ := run_snoc E _ ops o h
    exact history_step E (ih (fun s a hm hv => hst s a (by simp [hm]) hv) e1) (fun s a e hv => hst s a (by simp [e]) hv) e2

end Verif.SolverM
