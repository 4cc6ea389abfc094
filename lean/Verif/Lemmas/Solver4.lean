import Verif.Lemmas.Solver3
/- The vectors of optimal states and controls. -/
set_option linter.unusedSectionVars false
set_option linter.unusedSimpArgs false
namespace Verif.SolverM
open StateM Spec
open Labeller (Labeller)
variable {K R : Type} [Field K] [LinearOrder K] [IsStrictOrderedRing K]

theorem unpackPoints_length {v : List K} {ps fs : List Labeller.Range} {d r : List (PointState K)} (h : unpackPoints v ps fs d = some r) :
    r.length = d.length := by
  induction ps generalizing fs d r with
  | nil => simp [unpackPoints] at h; rw [h]
  | cons p ps ih =>
    cases fs with
    | nil => simp [unpackPoints] at h
    | cons f fs =>
      cases d with
      | nil => simp [unpackPoints] at h
      | cons x d =>
        simp only [unpackPoints, Option.bind_eq_bind, Option.bind_eq_some_iff] at h
        obtain ⟨_, -, _, -, r', hr, e⟩ := h
        obtain rfl := Option.some.inj e
        simp [ih hr]

theorem unpackPointsControl_length {v : List K} {ps fs : List Labeller.Range} {d r : List (PointControl K)} (h : unpackPointsControl v ps fs d = some r) :
    r.length = d.length := by
  induction ps generalizing fs d r with
  | nil => simp [unpackPointsControl] at h; rw [h]
  | cons p ps ih =>
    cases fs with
    | nil => simp [unpackPointsControl] at h
    | cons f fs =>
      cases d with
      | nil => simp [unpackPointsControl] at h
      | cons x d =>
        simp only [unpackPointsControl, Option.bind_eq_bind, Option.bind_eq_some_iff] at h
        obtain ⟨_, -, _, -, r', hr, e⟩ := h
        obtain rfl := Option.some.inj e
        simp [ih hr]

/-- The state has `n` points per foot. -/
def PointsOf (n : Nat) (x : State K) : Prop := x.left.length = n ∧ x.right.length = n
def PointsOfC (n : Nat) (x : Control K) : Prop := x.left.length = n ∧ x.right.length = n

theorem unpackState_points {sqrt : K → K} {r : Ranges} {v : List K} {t : K} {x y : State K} (h : unpackState sqrt r v t x = some y) {n : Nat}
    (hx : PointsOf n x) : PointsOf n y := by
  simp only [unpackState, Option.bind_eq_bind, Option.bind_eq_some_iff] at h
  obtain ⟨_, h1, _, h2, _, -, _, -, _, -, _, -, _, -, e⟩ := h
  obtain rfl := Option.some.inj e
  exact ⟨by rw [← hx.1, ← unpackPoints_length h1], by rw [← hx.2, ← unpackPoints_length h2]⟩

theorem unpackControl_points {r : Ranges} {v : List K} {t : K} {x y : Control K} (h : unpackControl r v t x = some y) {n : Nat}
    (hx : PointsOfC n x) : PointsOfC n y := by
  simp only [unpackControl, Option.bind_eq_bind, Option.bind_eq_some_iff] at h
  obtain ⟨_, h1, _, h2, _, -, _, -, _, -, e⟩ := h
  obtain rfl := Option.some.inj e
  exact ⟨by rw [← hx.1, ← unpackPointsControl_length h1], by rw [← hx.2, ← unpackPointsControl_length h2]⟩

theorem fillStates_points {sqrt : K → K} {r : Ranges} {ts : List K} {vs : List (List K)} {dest xs : List (State K)}
    (h : fillStates sqrt r ts vs dest = some xs) {n : Nat} (hd : ∀ x ∈ dest, PointsOf n x) : ∀ x ∈ xs, PointsOf n x := by
  induction ts generalizing vs dest xs with
  | nil => simp [fillStates] at h; rw [← h]; exact hd
  | cons t ts ih =>
    cases vs with
    | nil => simp [fillStates] at h
    | cons v vs =>
      cases dest with
      | nil => simp [fillStates] at h
      | cons y dest =>
        simp only [fillStates, Option.bind_eq_bind, Option.bind_eq_some_iff] at h
        obtain ⟨y', h1, ys, h2, e⟩ := h
        obtain rfl := Option.some.inj e
        intro x hx
        rcases List.mem_cons.1 hx with rfl | hx
        · exact unpackState_points h1 (hd y (by simp))
        · exact ih h2 (fun z hz => hd z (by simp [hz])) x hx

theorem fillControls_points {r : Ranges} {ts : List K} {vs : List (List K)} {dest xs : List (Control K)}
    (h : fillControls r ts vs dest = some xs) {n : Nat} (hd : ∀ x ∈ dest, PointsOfC n x) : ∀ x ∈ xs, PointsOfC n x := by
  induction ts generalizing vs dest xs with
  | nil => simp [fillControls] at h; rw [← h]; exact hd
  | cons t ts ih =>
    cases vs with
    | nil => simp [fillControls] at h
    | cons v vs =>
      cases dest with
      | nil => simp [fillControls] at h
      | cons y dest =>
        simp only [fillControls, Option.bind_eq_bind, Option.bind_eq_some_iff] at h
        obtain ⟨y', h1, ys, h2, e⟩ := h
        obtain rfl := Option.some.inj e
        intro x hx
        rcases List.mem_cons.1 hx with rfl | hx
        · exact unpackControl_points h1 (hd y (by simp))
        · exact ih h2 (fun z hz => hd z (by simp [hz])) x hx

theorem series_cons {α : Type} {read : K → List K → α → Prop} {t : K} {v : List K} {x : α} {ts : List K} {vs : List (List K)} {xs : List α}
    (h : read t v x) (hs : Series read ts vs xs) : Series read (t :: ts) (v :: vs) (x :: xs) := by
  refine ⟨by simp [hs.1], fun i => ?_⟩
  cases i with
  | zero =>
    intro t' v' x' h1 h2 h3
    simp at h1 h2 h3
    subst h1 h2 h3
    exact h
  | succ i =>
    intro t' v' x' h1 h2 h3
    exact hs.2 i t' v' x' (by simpa using h1) (by simpa using h2) (by simpa using h3)

theorem fillStates_ok (sqrt : K → K) (d n : Nat) (ts : List K) (vs : List (List K)) (dest : List (State K)) (h1 : vs.length = ts.length)
    (h2 : dest.length = ts.length) (hv : ∀ v ∈ vs, v.length = 12 * n + 16 + d) (hd : ∀ x ∈ dest, PointsOf n x) :
    ∃ xs, fillStates sqrt (rangesAt d n) ts vs dest = some xs ∧ Series (StateRead sqrt d n) ts vs xs := by
  induction ts generalizing vs dest with
  | nil =>
    obtain rfl := List.length_eq_zero_iff.1 h2
    exact ⟨[], by simp [fillStates], rfl, by simp⟩
  | cons t ts ih =>
    cases vs with
    | nil => simp at h1
    | cons v vs =>
      cases dest with
      | nil => simp at h2
      | cons y dest =>
        obtain ⟨xs, e, hs⟩ := ih vs dest (by simpa using h1) (by simpa using h2) (fun w hw => hv w (by simp [hw])) (fun w hw => hd w (by simp [hw]))
        obtain ⟨s, q, hs', rfl, -, -⟩ := state_of_vector d n v (hv _ (by simp)) t y.base.rot
        obtain ⟨l1, l2⟩ := hd y (by simp)
        have e' := unpackState_ok sqrt d n s hs' q t y (by rw [l1]) (by rw [l2])
        rw [List.drop_eq_nil_of_le (by rw [l1]), List.drop_eq_nil_of_le (by rw [l2]), List.append_nil, List.append_nil] at e'
        refine ⟨_, by simp only [fillStates, Option.bind_eq_bind, e', e, Option.bind_some]; rfl, series_cons ?_ hs⟩
        exact ⟨⟨hs'.left, hs'.right, hs'.joints⟩, rfl, q, rfl, rfl⟩

theorem fillControls_ok (d n : Nat) (ts : List K) (vs : List (List K)) (dest : List (Control K)) (h1 : vs.length = ts.length)
    (h2 : dest.length = ts.length) (hv : ∀ v ∈ vs, v.length = 12 * n + 7 + d) (hd : ∀ x ∈ dest, PointsOfC n x) :
    ∃ xs, fillControls (rangesAt d n) ts vs dest = some xs ∧ Series (ControlRead d n) ts vs xs := by
  induction ts generalizing vs dest with
  | nil =>
    obtain rfl := List.length_eq_zero_iff.1 h2
    exact ⟨[], by simp [fillControls], rfl, by simp⟩
  | cons t ts ih =>
    cases vs with
    | nil => simp at h1
    | cons v vs =>
      cases dest with
      | nil => simp at h2
      | cons y dest =>
        obtain ⟨xs, e, hs⟩ := ih vs dest (by simpa using h1) (by simpa using h2) (fun w hw => hv w (by simp [hw])) (fun w hw => hd w (by simp [hw]))
        obtain ⟨s, hs', rfl, -⟩ := control_of_vector d n v (hv _ (by simp)) t
        obtain ⟨l1, l2⟩ := hd y (by simp)
        have e' := unpackControl_ok d n s hs' t y (by rw [l1]) (by rw [l2])
        rw [List.drop_eq_nil_of_le (by rw [l1]), List.drop_eq_nil_of_le (by rw [l2]), List.append_nil, List.append_nil] at e'
        refine ⟨_, by simp only [fillControls, Option.bind_eq_bind, e', e, Option.bind_some]; rfl, series_cons ?_ hs⟩
        exact ⟨⟨hs'.left, hs'.right, hs'.joints⟩, rfl, rfl⟩

/-- All optimal states and controls have `n` points per foot. -/
structure Sizes (n : Nat) (s : Solver K R) : Prop where
  states : ∀ x ∈ s.optimalStates, PointsOf n x
  controls : ∀ x ∈ s.optimalControls, PointsOfC n x

theorem resize_points {n : Nat} {l : List (State K)} (h : ∀ x ∈ l, PointsOf n x) (E : Context K R) (m d : Nat) :
    ∀ x ∈ resizeList l m (State.new E.state d n E.stateJunk), PointsOf n x := by
  intro x hx
  rcases mem_resizeList hx with hx | rfl
  · exact h x hx
  · have := state_new_size E.state d n E.stateJunk; exact ⟨this.left, this.right⟩

theorem resize_pointsC {n : Nat} {l : List (Control K)} (h : ∀ x ∈ l, PointsOfC n x) (E : Context K R) (m d : Nat) :
    ∀ x ∈ resizeList l m (Control.new E.control d n E.controlJunk), PointsOfC n x := by
  intro x hx
  rcases mem_resizeList hx with hx | rfl
  · exact h x hx
  · have := control_new_size E.control d n E.controlJunk; exact ⟨this.left, this.right⟩

theorem sizes_step (E : Context K R) {s s' : Solver K R} {n : Nat} {o : Op K R} {b : Bool} (hi : Inv s) (hz : Sizes n s)
    (hn : ∀ st, s.settings = some st → st.nLeftPoints = n)
    (hst : ∀ settings a, o = Op.specifySettings settings a → settings.isValid = true → ∃ st, settings.stored = some st ∧ st.nLeftPoints = n)
    (h : step E s o = some (s', b)) : Sizes n s' := by
  cases o with
  | specifySettings settings a =>
    simp only [step] at h
    cases hv : settings.isValid with
    | false =>
      rw [specify_invalid E s settings a hv] at h
      obtain ⟨rfl, rfl⟩ := Prod.mk.inj (Option.some.inj h)
      exact hz
    | true =>
      obtain ⟨st, hst, hp⟩ := hst _ _ rfl hv
      have sp := specify_valid E s settings a hv st hst h
      cases b with
      | false => exact ⟨by rw [(sp.failed rfl).optimalStates]; exact hz.states, by rw [(sp.failed rfl).optimalControls]; exact hz.controls⟩
      | true =>
        obtain ⟨-, -, -, d1, d2, -⟩ := sp.done rfl
        rw [hp] at d1 d2
        exact ⟨by rw [d1]; exact resize_points hz.states E _ _, by rw [d2]; exact resize_pointsC hz.controls E _ _⟩
  | setInitialState x =>
    simp only [step] at h
    have e := Option.some.inj h
    rcases setInitialState_cases s x with h' | ⟨-, -, h'⟩
    · rw [e] at h'; obtain ⟨rfl, rfl⟩ := Prod.mk.inj h'; exact hz
    · rw [e] at h'; obtain ⟨rfl, rfl⟩ := Prod.mk.inj h'; exact ⟨hz.states, hz.controls⟩
  | setGuesses g h' =>
    rcases setGuesses_cases h with ⟨-, rfl⟩ | ⟨-, -, _, _, _, -, -, -, rfl⟩
    · exact hz
    · exact ⟨hz.states, hz.controls⟩
  | setOptimizer o ok =>
    simp only [step] at h
    have e := Option.some.inj h
    unfold setOptimizer at e
    cases o with
    | none => rw [← (Prod.mk.inj e).1]; exact hz
    | some i =>
      dsimp only at e
      by_cases hc : (s.prepared && !ok) = true
      · rw [if_pos hc] at e; rw [← (Prod.mk.inj e).1]; exact hz
      · rw [if_neg hc] at e; rw [← (Prod.mk.inj e).1]; exact ⟨hz.states, hz.controls⟩
  | setIntegrator g ok =>
    simp only [step] at h
    have e := Option.some.inj h
    unfold setIntegrator at e
    by_cases h1 : (!g) = true
    · rw [if_pos h1] at e; rw [← (Prod.mk.inj e).1]; exact hz
    rw [if_neg h1] at e
    by_cases hc : (s.prepared && !ok) = true
    · rw [if_pos hc] at e; rw [← (Prod.mk.inj e).1]; exact hz
    · rw [if_neg hc] at e; rw [← (Prod.mk.inj e).1]; exact ⟨hz.states, hz.controls⟩
  | solve a =>
    simp only [step] at h
    cases hr : solve E s a [] [] with
    | none => rw [hr] at h; cases h
    | some res =>
      rw [hr] at h
      simp only [Option.map_some] at h
      obtain ⟨rfl, rfl⟩ := Prod.mk.inj (Option.some.inj h)
      obtain ⟨c1, c2⟩ := solve_cases E hi a [] []
      cases hp : s.prepared with
      | false =>
        rw [c1 hp] at hr
        obtain rfl := Option.some.inj hr
        exact hz
      | true =>
        obtain ⟨st, sh, hst, hsh, -, e'⟩ := c2 hp
        rw [e'] at hr
        have sp := solveWith_spec E _ a [] [] st _ sh hr
        cases ho : res.ok with
        | false =>
          obtain ⟨-, -, r1, r2, -⟩ := sp.failed ho
          exact ⟨by rw [r1]; exact hz.states, by rw [r2]; exact hz.controls⟩
        | true =>
          obtain ⟨d1, d2, -, -, -, d6, d7⟩ := sp.done ho
          rw [hn st hst] at d6 d7
          exact ⟨by rw [d1]; exact fillStates_points d6 (resize_points hz.states E _ _),
            by rw [d2]; exact fillControls_points d7 (resize_pointsC hz.controls E _ _)⟩

theorem sizes_run (E : Context K R) (ipopt : Option (K × K)) (fr : Bool) (ops : List (Op K R)) (hst : SettingsFromAPI ops) {n : Nat} (hn : PointsAlways n ops)
    {s : Solver K R} {log : List (Op K R × Bool)} (h : run E (Solver.new E ipopt fr) ops = some (s, log)) :
    Sizes n s ∧ ∀ st, s.settings = some st → st.nLeftPoints = n := by
  induction ops using List.reverseRecOn generalizing s log with
  | nil =>
    simp only [run] at h
    obtain ⟨rfl, rfl⟩ := Prod.mk.inj (Option.some.inj h)
    exact ⟨⟨by simp [Solver.new], by simp [Solver.new]⟩, by simp [Solver.new]⟩
  | append_singleton ops o ih =>
    have hh := history_run E ipopt fr _ hst h
    have hl := run_log E _ _ h
    obtain ⟨s1, log1, b, e1, e2, rfl⟩ := run_snoc E _ ops o h
    have hst1 : SettingsFromAPI ops := fun s a hm hv => hst s a (by simp [hm]) hv
    obtain ⟨z, zn⟩ := ih hst1 (fun s a hm hv => hn s a (by simp [hm]) hv) e1
    refine ⟨sizes_step E (history_run E ipopt fr _ hst1 e1).inv z zn (fun s a e hv => ?_) e2, fun st hs => ?_⟩
    · obtain ⟨st, e3, -⟩ := hst s a (by simp [e]) hv
      exact ⟨st, e3, hn s a (by simp [e]) hv st e3⟩
    · obtain ⟨l1, set, a, l2, e3, hv, hs, -⟩ := (last_iff _ st).2 ((hh.settings st).1 hs)
      refine hn set a ?_ hv st hs
      rw [← hl, e3]
      simp

end Verif.SolverM
