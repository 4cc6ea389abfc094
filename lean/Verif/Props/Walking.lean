import Verif.Lemmas.Walking
/- Properties C12, C13, C14 and C41: position references and the walking state machine. -/
set_option linter.unusedSectionVars false
namespace Verif.Reference
open Spec
variable {K : Type} [Field K] [LinearOrder K]

/-- C12.  The desired position at a time is that of the last element of the list whose range contains the time, the
weight is computed from the same element; both are always declared valid. -/
theorem C12_selects_last_active (g : Generator K) (t : K) (e : Element K) (h : IsLastActive g.elements t e) :
    g.reference t = (e.position, true) ∧ g.weight t = (weightOf g.factors e t, true) := by
  have ha := (active_some g t e).2 h
  constructor
  · unfold Generator.reference
    have : g.elements.isEmpty = false := by
      obtain ⟨l1, l2, hl, _⟩ := h
      rw [hl]; simp
    rw [this, ha]
    rfl
  · unfold Generator.weight
    rw [ha]

/-- C12.  If no element is active the weight is zero, and the position is a value that depends neither on the time nor on
the elements. -/
theorem C12_none_active (g : Generator K) (t : K) (h : ∀ e ∈ g.elements, ¬ ActiveAt e t) :
    g.weight t = (some 0, true) ∧ g.reference t = (g.idle, true) := by
  have ha := (active_none g t).2 h
  constructor
  · unfold Generator.weight; rw [ha]
  · unfold Generator.reference; rw [ha]; split <;> rfl

/-- C12.  One of the two cases always applies, and the active element is unique as a value. -/
theorem C12_cases (g : Generator K) (t : K) :
    (∃ e, IsLastActive g.elements t e) ∨ (∀ e ∈ g.elements, ¬ ActiveAt e t) := by
  cases h : g.active t with
  | none => exact Or.inr ((active_none g t).1 h)
  | some e => exact Or.inl ⟨e, (active_some g t e).1 h⟩

/-- C12.  For an element with a proper range and non-negative gains the weight is one at the beginning of the range,
`(gain+1)²` at its end, at least one in between, and never decreases. -/
theorem C12_weight [IsStrictOrderedRing K] (factors : V3 K) (e : Element K)
    (hr : e.range.initTime < e.range.endTime) (hx : 0 ≤ factors.x) (hy : 0 ≤ factors.y) (hz : 0 ≤ factors.z) :
    weightOf factors e e.range.initTime = some ⟨1, 1, 1⟩ ∧
    weightOf factors e e.range.endTime = some ⟨(factors.x + 1) ^ 2, (factors.y + 1) ^ 2, (factors.z + 1) ^ 2⟩ ∧
    ∀ s t, ActiveAt e s → ActiveAt e t → s ≤ t → ∃ ws wt, weightOf factors e s = some ws ∧
      weightOf factors e t = some wt ∧ 1 ≤ ws.x ∧ 1 ≤ ws.y ∧ 1 ≤ ws.z ∧ ws.x ≤ wt.x ∧ ws.y ≤ wt.y ∧ ws.z ≤ wt.z := by
  have hne : e.range.endTime - e.range.initTime ≠ 0 := sub_ne_zero.2 hr.ne'
  have hpos : 0 < e.range.endTime - e.range.initTime := sub_pos.2 hr
  refine ⟨?_, ?_, ?_⟩
  · simp [weightOf, hne]
  · simp only [weightOf, if_neg hne, div_self hne, mul_one, Option.some.injEq]
    ext <;> simp <;> ring
  · intro s t hs ht hst
    have h1 : 0 ≤ (s - e.range.initTime) / (e.range.endTime - e.range.initTime) :=
      div_nonneg (sub_nonneg.2 hs.1) hpos.le
    have h2 : (s - e.range.initTime) / (e.range.endTime - e.range.initTime)
        ≤ (t - e.range.initTime) / (e.range.endTime - e.range.initTime) :=
      div_le_div_of_nonneg_right (by linarith) hpos.le
    have key : ∀ k a b : K, 0 ≤ k → 0 ≤ a → a ≤ b → 1 ≤ (k * a + 1) * (k * a + 1) ∧
        (k * a + 1) * (k * a + 1) ≤ (k * b + 1) * (k * b + 1) := by
      intro k a b hk ha hab
      have h3 : 0 ≤ k * a := mul_nonneg hk ha
      have h4 : k * a ≤ k * b := mul_le_mul_of_nonneg_left hab hk
      constructor <;> nlinarith
    refine ⟨_, _, by simp only [weightOf, if_neg hne]; rfl, by simp only [weightOf, if_neg hne]; rfl, ?_⟩
    exact ⟨(key _ _ _ hx h1 h2).1, (key _ _ _ hy h1 h2).1, (key _ _ _ hz h1 h2).1, (key _ _ _ hx h1 h2).2,
      (key _ _ _ hy h1 h2).2, (key _ _ _ hz h1 h2).2⟩

/-- C12 (degenerate ranges).  For a range made of a single instant the weight at that instant is 0/0. -/
theorem C12_degenerate (factors : V3 K) (e : Element K) (t : K) (h : e.range.initTime = e.range.endTime) :
    weightOf factors e t = none := by simp [weightOf, h]

def sampleGenerator : Generator Rat :=
  { elements := [⟨⟨1, 0, 0⟩, ⟨0, 2⟩⟩, ⟨⟨2, 0, 0⟩, ⟨1, 3⟩⟩], factors := ⟨1, 2, 0⟩, idle := 0 }

example : sampleGenerator.reference (3 / 2) = (⟨2, 0, 0⟩, true) ∧
    sampleGenerator.weight (3 / 2) = (some ⟨25 / 16, 9 / 4, 1⟩, true) ∧
    sampleGenerator.reference (1 / 2) = (⟨1, 0, 0⟩, true) ∧ sampleGenerator.weight 4 = (some 0, true) := by
  decide +kernel

end Verif.Reference

namespace Verif.Walking
open Verif.Reference Verif.StateM Spec
variable {K : Type} [Field K] [LinearOrder K] [IsStrictOrderedRing K]

/-- C13.  `initialize` refuses a negative force threshold and a minimum step larger than the horizon or than the step
duration, and then changes nothing; it accepts everything else. -/
theorem C13_initialise (m : Machine K) (p : Params K) (r : TimeRange K) :
    ((initialise m p r).2 = true ↔ 0 ≤ p.forceThreshold ∧ p.minimumDt ≤ p.horizon ∧ p.minimumDt ≤ p.stepDuration) ∧
    ((initialise m p r).2 = false → (initialise m p r).1 = m) := by
  unfold initialise
  split
  · rename_i h; simp [not_le.2 h]
  · rename_i h
    split
    · rename_i h2
      refine ⟨?_, fun _ => rfl⟩
      simp only [Bool.false_eq_true, false_iff]
      rintro ⟨_, a, b⟩
      rcases h2 with h2 | h2
      · exact absurd h2 (not_lt.2 a)
      · exact absurd h2 (not_lt.2 b)
    · rename_i h2
      rw [not_or, not_lt, not_lt] at h2
      simp [not_lt.1 h, h2.1, h2.2]

/-- C13.  Updating a machine that was not initialised fails and changes nothing. -/
theorem C13_not_initialised (norm : V3 K → K) (m : Machine K) (c f : State K) (h : m.refs = none) :
    advance norm m c f = some (m, false) := by simp [advance, h]

/-- C13.  Updates are well defined as long as both feet have contact points. -/
theorem C13_defined (norm : V3 K → K) (m : Machine K) (c f : State K) (hl : c.left ≠ []) (hr : c.right ≠ []) :
    (advance norm m c f).isSome = true := by
  unfold advance
  split
  · rfl
  · have : (c.minimumPointForceOnForwardFoot norm m.stepIncrement).isSome = true := by
      unfold State.minimumPointForceOnForwardFoot
      split
      · cases h : c.left with
        | nil => exact absurd h hl
        | cons => simp [minForce]
      · cases h : c.right with
        | nil => exact absurd h hr
        | cons => simp [minForce]
    cases h : c.minimumPointForceOnForwardFoot norm m.stepIncrement with
    | none => simp [h] at this
    | some v => simp

/-- C13.  From an accepted initialisation, after any number of updates (each with non-negative elapsed time) the
schedule is consistent: see `Consistent`. -/
theorem C13_schedule (norm : V3 K → K) (m0 m m' : Machine K) (p : Params K) (hp : 0 ≤ p.minimumDt) (r : TimeRange K)
    (h0 : initialise m0 p r = (m, true)) (hist : List (State K × State K)) (ht : ForwardTime hist)
    (h : advances norm m hist = some m') :
    ∃ first second, m'.refs = some (first, second) ∧ Consistent p first second := by
  obtain ⟨hs, hc, hr, hi⟩ := initialise_inv m0 m p hp r h0
  obtain ⟨_, k, a, b, e, i, _⟩ := advances_inv norm p hs hist ht m hc 0 _ _ hr hi m' h
  exact ⟨a, b, e, i.cons⟩

/-- C13.  The planner looking at the current instant (time zero) always sees the first reference, if steps are not longer
than the horizon and the minimum step is positive. -/
theorem C13_current_reference (norm : V3 K → K) (m0 m m' : Machine K) (p : Params K) (hp : 0 < p.minimumDt)
    (hle : p.stepDuration ≤ p.horizon) (r : TimeRange K)
    (h0 : initialise m0 p r = (m, true)) (hist : List (State K × State K)) (ht : ForwardTime hist)
    (h : advances norm m hist = some m') (idle : V3 K) :
    ∃ first second g, m'.refs = some (first, second) ∧ m'.generator idle = some g ∧
      g.reference 0 = (first.position, true) := by
  obtain ⟨hs, hc, hr, hi⟩ := initialise_inv m0 m p hp.le r h0
  obtain ⟨_, k, a, b, e, i, _⟩ := advances_inv norm p hs hist ht m hc 0 _ _ hr hi m' h
  refine ⟨a, b, ⟨[a, b], m'.factors, idle⟩, e, by simp [Machine.generator, e], ?_⟩
  refine (C12_selects_last_active _ 0 a ⟨[], [b], rfl, i.cons.first_now, ?_⟩).1
  intro x hx hact
  rw [List.mem_singleton] at hx
  subst hx
  rcases i.cons.parked_or_planned with hpk | hpl
  · have := hact.1; rw [hpk.1] at this; linarith [hs.horizon]
  · have := (i.cons.no_overlap hpl.1 hle).2; linarith [hact.1]

/-- C14.  After any history the first target is the start plus `k` increments and, when a next step is planned, its
target is the start plus `k+1` increments, where `k` is at most the number of updates. -/
theorem C14_targets (norm : V3 K → K) (m0 m m' : Machine K) (p : Params K) (hp : 0 ≤ p.minimumDt) (r : TimeRange K)
    (h0 : initialise m0 p r = (m, true)) (hist : List (State K × State K)) (ht : ForwardTime hist)
    (h : advances norm m hist = some m') :
    ∃ k first second, k ≤ hist.length ∧ m'.refs = some (first, second) ∧ first.position = target p k ∧
      (Planned p second → second.position = target p (k + 1)) := by
  obtain ⟨hs, hc, hr, hi⟩ := initialise_inv m0 m p hp r h0
  obtain ⟨_, k, a, b, e, i, hk⟩ := advances_inv norm p hs hist ht m hc 0 _ _ hr hi m' h
  exact ⟨k, a, b, by omega, e, i.pos0, i.pos1⟩

/-- C14 (one update).  At any moment of any history one further update either keeps the first target, or replaces it by
the target one increment further; in the second case the new step starts now, lasts a step duration, the previous step's
nominal duration is over up to the minimum step, and (with a positive horizon) no point of the forward foot carries less
than the force threshold. -/
theorem C14_update (norm : V3 K → K) (m0 m m1 m2 : Machine K) (p : Params K) (hp : 0 ≤ p.minimumDt) (r : TimeRange K)
    (h0 : initialise m0 p r = (m, true)) (hist : List (State K × State K)) (ht : ForwardTime hist)
    (h1 : advances norm m hist = some m1) (c f : State K) (hct : 0 ≤ c.time) (ok : Bool)
    (h2 : advance norm m1 c f = some (m2, ok)) (a1 b1 a2 b2 : Element K) (e1 : m1.refs = some (a1, b1))
    (e2 : m2.refs = some (a2, b2)) :
    ok = true ∧
    (a2.position = a1.position ∨
      (a2.position = a1.position + p.increment ∧ a2.range = ⟨0, p.stepDuration⟩ ∧
        a1.range.initTime + p.stepDuration < p.minimumDt + c.time ∧
        (0 < p.horizon → ∀ q ∈ (if c.leftIsForward p.increment = true then c.left else c.right),
          p.forceThreshold ≤ norm q.force))) := by
  obtain ⟨hs, hc, hr, hi⟩ := initialise_inv m0 m p hp r h0
  obtain ⟨hc1, k, a, b, e, i, _⟩ := advances_inv norm p hs hist ht m hc 0 _ _ hr hi m1 h1
  rw [e1] at e
  cases e
  obtain ⟨_, hok, r0', r1', fo, hr1, hfo, hstep, hpl⟩ := advance_inv norm p hs m1 hc1 k a1 b1 e1 i c f hct m2 ok h2
  rw [e2] at hr1
  cases hr1
  refine ⟨hok, ?_⟩
  rcases step_inv p hs k fo c.time hct _ _ _ _ hpl hstep with ⟨hi1, _⟩ | ⟨hi1, _, _, hrange, hlate, hforce⟩
  · left; rw [hi1.pos0, i.pos0]
  · right
    refine ⟨by rw [hi1.pos0, i.pos0, target_succ], hrange, by linarith, ?_⟩
    intro hh
    have hlt : a1.range.initTime - c.time < 3 / 10 * p.horizon := by
      have := i.cons.first_now.1
      nlinarith
    have hfth : p.forceThreshold ≤ fo := by
      by_contra hcon
      exact hforce ⟨hlt, not_le.1 hcon⟩
    have hmin : (∀ q ∈ (if c.leftIsForward p.increment = true then c.left else c.right), fo ≤ norm q.force) := by
      unfold State.minimumPointForceOnForwardFoot at hfo
      split at hfo <;> rename_i hcc
      · simp only [hcc, if_true]; exact (minForce_spec norm _ fo hfo).1
      · simp only [hcc]; exact (minForce_spec norm _ fo hfo).1
    intro q hq
    exact hfth.trans (hmin q hq)

/-- An update in which at least `dt` elapsed and every point of the forward foot carries the threshold force. -/
def GoodUpdate (norm : V3 K → K) (p : Params K) (dt : K) (u : State K × State K) : Prop :=
  dt ≤ u.1.time ∧ u.1.left ≠ [] ∧ u.1.right ≠ [] ∧
  ∀ q ∈ (if u.1.leftIsForward p.increment = true then u.1.left else u.1.right), p.forceThreshold ≤ norm q.force

/-- Either the list of updates contains the switch to the next target, or the first step only grew older. -/
theorem progress_aux (norm : V3 K → K) (p : Params K) (hs : Sensible p) (dt : K) (hdt : 0 ≤ dt)
    (hist : List (State K × State K)) (hg : ∀ u ∈ hist, GoodUpdate norm p dt u) (m : Machine K)
    (hc : Configured p m) (k : Nat) (a b : Element K) (hr : m.refs = some (a, b)) (hi : Inv p k a b) :
    (∃ l1 u l2 m1 m2 a2 b2 ok, hist = l1 ++ u :: l2 ∧ advances norm m l1 = some m1 ∧
      advance norm m1 u.1 u.2 = some (m2, ok) ∧ m2.refs = some (a2, b2) ∧ a2.position = target p (k + 1) ∧
      a2.range = ⟨0, p.stepDuration⟩) ∨
    (∃ m' a' b', advances norm m hist = some m' ∧ Configured p m' ∧ m'.refs = some (a', b') ∧ Inv p k a' b' ∧
      a'.range.initTime ≤ a.range.initTime - hist.length * dt ∧
      (hist ≠ [] → ¬ Planned p b' → a'.range.endTime = max (a'.range.initTime + p.stepDuration) (6 / 10 * p.horizon))) := by
  induction hist generalizing m a b with
  | nil => right; exact ⟨m, a, b, rfl, hc, hr, hi, by simp, fun h => absurd rfl h⟩
  | cons u hist ih =>
    have hu := hg u (by simp)
    have ht : 0 ≤ u.1.time := hdt.trans hu.1
    have hdef := C13_defined norm m u.1 u.2 hu.2.1 hu.2.2.1
    cases hadv : advance norm m u.1 u.2 with
    | none => simp [hadv] at hdef
    | some res =>
      obtain ⟨m1, ok⟩ := res
      obtain ⟨hc1, _, r0', r1', fo, hr1, hfo, hstep, hpl⟩ := advance_inv norm p hs m hc k a b hr hi u.1 u.2 ht m1 ok hadv
      rcases step_inv p hs k fo u.1.time ht _ _ _ _ hpl hstep with ⟨hi1, hinit⟩ | ⟨hi1, _, _, hrange, _⟩
      · rcases ih (fun v hv => hg v (by simp [hv])) m1 hc1 r0' r1' hr1 hi1 with
          ⟨l1, v, l2, n1, n2, x2, y2, okv, e, h1, h2, h3, h4, h5⟩ | ⟨m', x, y, h1, h2, h3, h4, h5, h6⟩
        · left
          refine ⟨u :: l1, v, l2, n1, n2, x2, y2, okv, by rw [e]; rfl, ?_, h2, h3, h4, h5⟩
          simp [advances, hadv, h1]
        · right
          refine ⟨m', x, y, by simp [advances, hadv, h1], h2, h3, h4, ?_, ?_⟩
          · have := hu.1
            push_cast [List.length_cons]
            linarith
          · intro _ hnp
            by_cases hn : hist = []
            · subst hn
              simp only [advances, Option.some.injEq] at h1
              subst h1
              rw [hr1] at h3
              cases h3
              cases hstep with
              | wait _ _ _ er => rw [er]
              | hold h1 _ e1 _ _ => exact absurd (e1 ▸ h1) hnp
              | switch h1 hl hd e0 e1 =>
                rw [e0] at hinit
                simp only at hinit
                exfalso
                have h7 : p.stepDuration < p.minimumDt := by linarith
                exact absurd hs.duration (not_le.2 h7)
              | approach h1 _ _ _ _ er1 =>
                exfalso; apply hnp; unfold Planned at h1 ⊢; rw [er1]; simp only; linarith
            · exact h6 hn hnp
      · left
        exact ⟨[], u, hist, m, m1, r0', r1', ok, rfl, rfl, hadv, hr1, hi1.pos0, hrange⟩

/-- C41.  The walking machine never gets stuck: at any moment of any history, if from now on each update advances time by
at least `dt > 0` and finds the forward foot loaded, then after more than `2·stepDuration/dt` (plus one) updates the next
target has become the current one, whatever the tracking error was. -/
theorem C41_progress (norm : V3 K → K) (m0 m m1 : Machine K) (p : Params K) (hp : 0 ≤ p.minimumDt) (r : TimeRange K)
    (h0 : initialise m0 p r = (m, true)) (hist : List (State K × State K)) (ht : ForwardTime hist)
    (h1 : advances norm m hist = some m1) (a b : Element K) (e1 : m1.refs = some (a, b))
    (dt : K) (hdt : 0 < dt) (future : List (State K × State K)) (hg : ∀ u ∈ future, GoodUpdate norm p dt u)
    (N : Nat) (hN : 2 * p.stepDuration < N * dt) (hlen : N + 1 ≤ future.length) :
    ∃ l1 u l2 m2 m3 a3 b3 ok, future = l1 ++ u :: l2 ∧ advances norm m1 l1 = some m2 ∧
      advance norm m2 u.1 u.2 = some (m3, ok) ∧ m3.refs = some (a3, b3) ∧
      a3.position = a.position + p.increment ∧ a3.range = ⟨0, p.stepDuration⟩ := by
  obtain ⟨hs, hc, hr, hi⟩ := initialise_inv m0 m p hp r h0
  obtain ⟨hc1, k, a', b', e, i, _⟩ := advances_inv norm p hs hist ht m hc 0 _ _ hr hi m1 h1
  rw [e1] at e
  cases e
  have hd : 0 ≤ p.stepDuration := hs.minimumDt.trans hs.duration
  have hh : 0 ≤ p.horizon := hs.minimumDt.trans hs.horizon
  obtain ⟨u, rest, hsplit⟩ : ∃ u rest, future.drop N = u :: rest := by
    cases hdrop : future.drop N with
    | nil => have := List.length_drop (l := future) (i := N); rw [hdrop] at this; simp at this; omega
    | cons u rest => exact ⟨u, rest, rfl⟩
  have hfut : future = future.take N ++ u :: rest := by rw [← hsplit, List.take_append_drop]
  have hu : GoodUpdate norm p dt u := hg u (by rw [hfut]; simp)
  have hgt : ∀ v ∈ future.take N, GoodUpdate norm p dt v := fun v hv => hg v (List.mem_of_mem_take hv)
  have hNpos : N ≠ 0 := by
    rintro rfl
    simp only [Nat.cast_zero, zero_mul] at hN
    linarith
  rw [i.pos0, target_succ]
  rcases progress_aux norm p hs dt hdt.le (future.take N) hgt m1 hc1 k a b e1 i with
    ⟨l1, v, l2, n1, n2, x, y, ok, e, g1, g2, g3, g4, g5⟩ | ⟨m', x, y, g1, g2, g3, g4, g5, g6⟩
  · refine ⟨l1, v, l2 ++ u :: rest, n1, n2, x, y, ok, ?_, g1, g2, g3, g4, g5⟩
    rw [hfut, e]; simp
  · have ht' : 0 ≤ u.1.time := hdt.le.trans hu.1
    have hdef := C13_defined norm m' u.1 u.2 hu.2.1 hu.2.2.1
    have hold : x.range.initTime < -(2 * p.stepDuration) := by
      have hle : (future.take N).length = N := by rw [List.length_take]; omega
      rw [hle] at g5
      have := i.cons.first_now.1
      linarith
    cases hadv : advance norm m' u.1 u.2 with
    | none => simp [hadv] at hdef
    | some res =>
      obtain ⟨m2, ok⟩ := res
      obtain ⟨hc2, _, r0', r1', fo, hr1, hfo, hstep, hpl⟩ := advance_inv norm p hs m' g2 k x y g3 g4 u.1 u.2 ht' m2 ok hadv
      refine ⟨future.take N, u, rest, m', m2, r0', r1', ok, hfut, g1, hadv, hr1, ?_⟩
      have hplanned : Planned p (plan m' (norm (u.2.computeFeetCentroid - x.position)) x y) := by
        by_cases hy : Planned p y
        · rw [(plan_inv p hs m' g2 k _ x y g4).2 hy]; exact hy
        · have hne : future.take N ≠ [] := by
            intro hc; have := congrArg List.length hc; rw [List.length_take, List.length_nil] at this; omega
          have hend := g6 hne hy
          have hle : x.range.initTime + p.stepDuration ≤ 6 / 10 * p.horizon := by
            have : 0 ≤ 6 / 10 * p.horizon := by positivity
            linarith
          rw [max_eq_right hle] at hend
          unfold plan
          rw [g2.stepDuration, g2.horizon, g2.positionThreshold, g2.increment]
          rw [if_pos ⟨not_le.1 hy, hend.le, Or.inr (by
            have : 0 ≤ 6 / 10 * p.horizon := by positivity
            rw [hend]; linarith)⟩]
          unfold Planned
          rw [setTimeInterval_le _ _ _ (by linarith)]
      have hfth : p.forceThreshold ≤ fo := by
        obtain ⟨q, hq, heq⟩ : ∃ q ∈ (if u.1.leftIsForward p.increment = true then u.1.left else u.1.right),
            fo = norm q.force := by
          unfold State.minimumPointForceOnForwardFoot at hfo
          split at hfo <;> rename_i hcc
          · simp only [hcc, if_true]; exact (minForce_spec norm _ fo hfo).2
          · simp only [hcc]; exact (minForce_spec norm _ fo hfo).2
        rw [heq]; exact hu.2.2.2 q hq
      rcases step_inv p hs k fo u.1.time ht' _ _ _ _ hpl hstep with ⟨hi1, hinit⟩ | ⟨hi1, _, _, hrange, _⟩
      · exfalso
        cases hstep with
        | wait h1 _ _ _ => exact h1 hplanned
        | hold _ hf _ _ _ => exact absurd hf (not_lt.2 hfth)
        | switch h1 hl hd' e0 _ => rw [e0] at hinit; simp only at hinit; linarith
        | approach _ hd' _ _ _ _ => linarith [hs.minimumDt]
      · exact ⟨hi1.pos0, hrange⟩

/-- Concrete parameters and an update that satisfy the hypotheses above. -/
def sampleParams : Params Rat :=
  { start := ⟨0, 0, 0⟩, increment := ⟨1, 0, 0⟩, stepDuration := 1 / 2, horizon := 1, minimumDt := 1 / 100,
    weights := ⟨1, 1, 1⟩, forceThreshold := 10, positionThreshold := 1 / 10 }

def emptyMachine : Machine Rat :=
  { refs := none, factors := 0, stepIncrement := 0, stepDuration := 0, horizon := 0, minimumDt := 0,
    forceThreshold := 0, positionThreshold := 0 }

def loadedState : State Rat :=
  { left := [⟨⟨0, 0, 50⟩, ⟨1, 1, 0⟩⟩], right := [⟨⟨0, 0, 30⟩, ⟨0, -1, 0⟩⟩]
    linearMomentum := 0, angularMomentum := 0, com := 0, base := identityTransform Rat, joints := [], time := 3 / 10 }

def sampleNorm (v : V3 Rat) : Rat := |v.x| + |v.y| + |v.z|

/-- Four updates of 0.3 s with a loaded forward foot reach the second target. -/
example : (initialise emptyMachine sampleParams ⟨0, 0⟩).2 = true ∧
    ((advances sampleNorm (initialise emptyMachine sampleParams ⟨0, 0⟩).1
      (List.replicate 4 (loadedState, loadedState))).bind (·.refs)).map (fun r => (r.1.position, r.1.range))
      = some (⟨1, 0, 0⟩, ⟨-(3 / 10), 6 / 10⟩) := by
  decide +kernel

example : GoodUpdate sampleNorm sampleParams (3 / 10) (loadedState, loadedState) := by
  unfold GoodUpdate
  refine ⟨le_refl _, by simp [loadedState], by simp [loadedState], ?_⟩
  decide +kernel

end Verif.Walking
