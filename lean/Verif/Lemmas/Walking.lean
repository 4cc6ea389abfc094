import Verif.Spec.Walking
import Verif.Lemmas.State
/- Lemmas about references and the walking state machine. -/
set_option linter.unusedSectionVars false
namespace Verif.Reference
open Spec
variable {K : Type} [Field K] [LinearOrder K]

theorem isInRange_iff (e : Element K) (t : K) : e.range.isInRange t = true ↔ ActiveAt e t := by
  simp [TimeRange.isInRange, ActiveAt]

theorem active_some (g : Generator K) (t : K) (e : Element K) :
    g.active t = some e ↔ IsLastActive g.elements t e := by
  unfold Generator.active IsLastActive
  rw [List.find?_eq_some_iff_append]
  constructor
  · rintro ⟨ha, as, bs, hl, hn⟩
    refine ⟨bs.reverse, as.reverse, ?_, (isInRange_iff _ _).1 ha, ?_⟩
    · have := congrArg List.reverse hl
      simpa using this
    · intro x hx
      have := hn x (by simpa using hx)
      rw [← isInRange_iff]
      simpa using this
  · rintro ⟨l1, l2, hl, ha, hn⟩
    refine ⟨(isInRange_iff _ _).2 ha, l2.reverse, l1.reverse, by simp [hl], ?_⟩
    intro x hx
    have := hn x (by simpa using hx)
    rw [← isInRange_iff] at this
    simpa using this

theorem active_none (g : Generator K) (t : K) :
    g.active t = none ↔ ∀ e ∈ g.elements, ¬ ActiveAt e t := by
  unfold Generator.active
  rw [List.find?_eq_none]
  simp [← isInRange_iff]

theorem setTimeInterval_le (r : TimeRange K) (a b : K) (h : a ≤ b) : r.setTimeInterval a b = ⟨a, b⟩ := by
  simp [TimeRange.setTimeInterval, not_lt.2 h]

end Verif.Reference

namespace Verif.Walking
open Verif.Reference Verif.StateM Spec
variable {K : Type} [Field K] [LinearOrder K] [IsStrictOrderedRing K]

/-- The configuration members of the machine are those of the parameters. -/
structure Configured (p : Params K) (m : Machine K) : Prop where
  weights : m.factors = p.weights
  increment : m.stepIncrement = p.increment
  stepDuration : m.stepDuration = p.stepDuration
  horizon : m.horizon = p.horizon
  minimumDt : m.minimumDt = p.minimumDt
  forceThreshold : m.forceThreshold = p.forceThreshold
  positionThreshold : m.positionThreshold = p.positionThreshold

/-- The three things one update can do to the schedule. -/
inductive Step (p : Params K) (minimumForce time : K) (r0 r1 r0' r1' : Element K) : Prop
  /-- waiting: the first step moves back in time, the second is parked -/
  | wait (h1 : ¬ Planned p r1) (e1 : r1' = r1) (e0 : r0'.position = r0.position)
      (er : r0'.range = ⟨r0.range.initTime - time,
        max (r0.range.initTime - time + p.stepDuration) (6 / 10 * p.horizon)⟩)
  /-- the forward foot is not loaded: the end of the first step is kept -/
  | hold (h1 : Planned p r1) (hf : minimumForce < p.forceThreshold) (e1 : r1' = r1) (e0 : r0'.position = r0.position)
      (er : r0'.range = ⟨r0.range.initTime - time, r0.range.endTime⟩)
  /-- the second step becomes the first -/
  | switch (h1 : Planned p r1)
      (hl : ¬ (r0.range.initTime - time < 3 / 10 * p.horizon ∧ minimumForce < p.forceThreshold))
      (hd : r0.range.initTime - time + p.stepDuration < p.minimumDt)
      (e0 : r0' = ⟨r1.position, ⟨0, p.stepDuration⟩⟩)
      (e1 : r1'.range = ⟨p.horizon + 1, p.horizon + 1⟩)
  /-- both steps approach -/
  | approach (h1 : Planned p r1)
      (hd : p.minimumDt ≤ r0.range.initTime - time + p.stepDuration)
      (e0 : r0'.position = r0.position) (e1 : r1'.position = r1.position)
      (er0 : r0'.range = ⟨r0.range.initTime - time, r0.range.initTime - time + p.stepDuration⟩)
      (er1 : r1'.range = ⟨r1.range.initTime - time, r1.range.initTime - time + p.stepDuration⟩)

theorem shift_step (p : Params K) (hp : Sensible p) (m : Machine K) (hc : Configured p m) (minimumForce time : K)
    (ht : 0 ≤ time) (r0 r1 : Element K) (h0 : r0.range.initTime ≤ r0.range.endTime) :
    Step p minimumForce time r0 r1 (shift m minimumForce time r0 r1).1 (shift m minimumForce time r0 r1).2 := by
  have hd : 0 ≤ p.stepDuration := hp.minimumDt.trans hp.duration
  have hh : 0 ≤ p.horizon := hp.minimumDt.trans hp.horizon
  unfold shift
  rw [hc.stepDuration, hc.horizon, hc.minimumDt, hc.forceThreshold]
  by_cases h1 : r1.range.initTime ≤ p.horizon
  · rw [if_pos h1]
    dsimp only
    by_cases h2 : r0.range.initTime - time < 3 / 10 * p.horizon ∧ minimumForce < p.forceThreshold
    · rw [if_pos h2]
      exact Step.hold h1 h2.2 rfl rfl (setTimeInterval_le _ _ _ (by linarith))
    · rw [if_neg h2]
      by_cases h3 : r0.range.initTime - time + p.stepDuration < p.minimumDt
      · rw [if_pos h3]
        refine Step.switch h1 h2 h3 ?_ (setTimeInterval_le _ _ _ le_rfl)
        simp only [setTimeInterval_le _ _ _ hd]
      · rw [if_neg h3]
        exact Step.approach h1 (not_lt.1 h3) rfl rfl (setTimeInterval_le _ _ _ (by linarith))
          (setTimeInterval_le _ _ _ (by linarith))
  · rw [if_neg h1]
    dsimp only
    refine Step.wait h1 rfl rfl (setTimeInterval_le _ _ _ ?_)
    exact le_max_of_le_left (by linarith)

/-- Invariant of the machine, with the number of completed switches. -/
structure Inv (p : Params K) (k : Nat) (r0 r1 : Element K) : Prop where
  cons : Consistent p r0 r1
  pos0 : r0.position = target p k
  pos1 : Planned p r1 → r1.position = target p (k + 1)
  fresh : ¬ Planned p r1 → (r0.range = ⟨0, p.stepDuration⟩ ∨
    r0.range.endTime = max (r0.range.initTime + p.stepDuration) (6 / 10 * p.horizon))

theorem target_succ (p : Params K) (k : Nat) : target p k + p.increment = target p (k + 1) := by
  ext <;> simp [target] <;> ring

theorem plan_inv (p : Params K) (hp : Sensible p) (m : Machine K) (hc : Configured p m) (k : Nat) (err : K)
    (r0 r1 : Element K) (hi : Inv p k r0 r1) : Inv p k r0 (plan m err r0 r1) ∧
      (Planned p r1 → plan m err r0 r1 = r1) := by
  have hd : 0 ≤ p.stepDuration := hp.minimumDt.trans hp.duration
  have hh : 0 ≤ p.horizon := hp.minimumDt.trans hp.horizon
  unfold plan
  rw [hc.stepDuration, hc.horizon, hc.positionThreshold, hc.increment]
  split
  · rename_i h
    have hset := setTimeInterval_le r1.range p.horizon (p.horizon + p.stepDuration) (by linarith)
    rw [hset]
    refine ⟨⟨⟨hi.cons.first_now, Or.inr ⟨le_refl _, rfl, by have := hi.cons.first_now.1; simp only; linarith⟩, ?_⟩,
      hi.pos0, ?_, ?_⟩, ?_⟩
    · intro _ hle
      have := h.2.1
      refine ⟨?_, hp.horizon⟩
      simp only
      nlinarith
    · intro _
      simp only
      rw [hi.pos0, target_succ]
    · intro hn; exact absurd (le_refl p.horizon) hn
    · intro hpl; exact absurd hpl (not_le.2 h.1)
  · exact ⟨hi, fun _ => rfl⟩

theorem step_inv (p : Params K) (hp : Sensible p) (k : Nat) (f t : K) (ht : 0 ≤ t) (r0 r1 r0' r1' : Element K)
    (hi : Inv p k r0 r1) (hs : Step p f t r0 r1 r0' r1') :
    (Inv p k r0' r1' ∧ r0'.range.initTime = r0.range.initTime - t) ∨
    (Inv p (k + 1) r0' r1' ∧ Planned p r1 ∧ ¬ Planned p r1' ∧ r0'.range = ⟨0, p.stepDuration⟩ ∧
      r0.range.initTime - t + p.stepDuration < p.minimumDt ∧
      ¬ (r0.range.initTime - t < 3 / 10 * p.horizon ∧ f < p.forceThreshold)) := by
  have hd : 0 ≤ p.stepDuration := hp.minimumDt.trans hp.duration
  have hh : 0 ≤ p.horizon := hp.minimumDt.trans hp.horizon
  obtain ⟨⟨fn1, fn2⟩, pop, novl⟩ := hi.cons
  cases hs with
  | wait h1 e1 e0 er =>
    left
    subst e1
    refine ⟨⟨⟨⟨?_, ?_⟩, ?_, ?_⟩, e0.trans hi.pos0, hi.pos1, ?_⟩, ?_⟩
    · rw [er]; simp only; linarith
    · rw [er]; exact le_max_of_le_right (by positivity)
    · left
      rcases pop with h | h
      · exact h
      · exact absurd h.1 h1
    · intro hpl; exact absurd hpl h1
    · intro _; right; rw [er]
    · rw [er]
  | hold h1 hf e1 e0 er =>
    left
    subst e1
    refine ⟨⟨⟨⟨?_, ?_⟩, ?_, ?_⟩, e0.trans hi.pos0, hi.pos1, ?_⟩, ?_⟩
    · rw [er]; simp only; linarith
    · rw [er]; exact fn2
    · rcases pop with h | h
      · exact Or.inl h
      · right; refine ⟨h.1, h.2.1, ?_⟩; rw [er]; have := h.2.2; simp only; linarith
    · intro hpl hle; rw [er]; exact novl hpl hle
    · intro hn; exact absurd h1 hn
    · rw [er]
  | switch h1 hl hd' e0 e1 =>
    right
    have hnp : ¬ Planned p r1' := by
      unfold Planned; rw [e1]; simp only; linarith
    refine ⟨⟨⟨⟨?_, ?_⟩, ?_, ?_⟩, ?_, ?_, ?_⟩, h1, hnp, by rw [e0], hd', hl⟩
    · rw [e0]
    · rw [e0]; exact hd
    · left; rw [e1]; exact ⟨rfl, rfl⟩
    · intro hpl; exact absurd hpl hnp
    · rw [e0]; exact hi.pos1 h1
    · intro hpl; exact absurd hpl hnp
    · intro _; left; rw [e0]
  | approach h1 hd' e0 e1 er0 er1 =>
    left
    have hpop : Planned p r1 ∧ r1.range.endTime = r1.range.initTime + p.stepDuration ∧
        r0.range.initTime + p.horizon ≤ r1.range.initTime := by
      rcases pop with h | h
      · exfalso; unfold Planned at h1; linarith [h.1]
      · exact h
    refine ⟨⟨⟨⟨?_, ?_⟩, ?_, ?_⟩, e0.trans hi.pos0, ?_, ?_⟩, ?_⟩
    · rw [er0]; simp only; linarith
    · rw [er0]; exact hp.minimumDt.trans hd'
    · right
      refine ⟨?_, by rw [er1], ?_⟩
      · unfold Planned at h1 ⊢; rw [er1]; simp only; linarith
      · rw [er0, er1]; have := hpop.2.2; simp only; linarith
    · intro _ hle
      rw [er0, er1]
      have := hpop.2.2
      simp only
      constructor <;> linarith
    · intro _; rw [e1]; exact hi.pos1 h1
    · intro hn; exfalso; apply hn; unfold Planned at h1 ⊢; rw [er1]; simp only; linarith
    · rw [er0]

theorem advance_inv (norm : V3 K → K) (p : Params K) (hp : Sensible p) (m : Machine K) (hc : Configured p m) (k : Nat)
    (r0 r1 : Element K) (hr : m.refs = some (r0, r1)) (hi : Inv p k r0 r1) (c f : State K) (ht : 0 ≤ c.time)
    (m' : Machine K) (ok : Bool) (h : advance norm m c f = some (m', ok)) :
    Configured p m' ∧ ok = true ∧ ∃ r0' r1' fo, m'.refs = some (r0', r1') ∧
      c.minimumPointForceOnForwardFoot norm p.increment = some fo ∧
      Step p fo c.time r0 (plan m (norm (f.computeFeetCentroid - r0.position)) r0 r1) r0' r1' ∧
      Inv p k r0 (plan m (norm (f.computeFeetCentroid - r0.position)) r0 r1) := by
  unfold advance at h
  rw [hr] at h
  simp only at h
  split at h
  · cases h
  · rename_i fo hfo
    simp only [Option.some.injEq, Prod.mk.injEq] at h
    obtain ⟨rfl, rfl⟩ := h
    have hpl := (plan_inv p hp m hc k (norm (f.computeFeetCentroid - r0.position)) r0 r1 hi).1
    refine ⟨⟨hc.weights, hc.increment, hc.stepDuration, hc.horizon, hc.minimumDt, hc.forceThreshold,
      hc.positionThreshold⟩, rfl, _, _, fo, rfl, ?_, ?_, hpl⟩
    · rw [← hc.increment]; exact hfo
    · exact shift_step p hp m hc fo c.time ht r0 _ (hi.cons.first_now.1.trans hi.cons.first_now.2)

theorem initialise_inv (m0 m : Machine K) (p : Params K) (hp : 0 ≤ p.minimumDt) (range0 : TimeRange K)
    (h : initialise m0 p range0 = (m, true)) :
    Sensible p ∧ Configured p m ∧
    m.refs = some (⟨p.start, ⟨0, p.stepDuration⟩⟩, ⟨p.start, ⟨p.horizon + 1, p.horizon + 1⟩⟩) ∧
    Inv p 0 ⟨p.start, ⟨0, p.stepDuration⟩⟩ ⟨p.start, ⟨p.horizon + 1, p.horizon + 1⟩⟩ := by
  unfold initialise at h
  split at h
  · cases h
  · split at h
    · cases h
    · rename_i h1 h2
      rw [not_or, not_lt, not_lt] at h2
      rw [not_lt] at h1
      have hd : 0 ≤ p.stepDuration := hp.trans h2.2
      simp only [Prod.mk.injEq, and_true] at h
      subst h
      refine ⟨⟨hp, h2.1, h2.2, h1⟩, ⟨rfl, rfl, rfl, rfl, rfl, rfl, rfl⟩, ?_, ?_⟩
      · simp only [setTimeInterval_le _ _ _ hd, setTimeInterval_le _ _ _ (le_refl (p.horizon + 1))]
      · have hnp : ¬ Planned p ⟨p.start, ⟨p.horizon + 1, p.horizon + 1⟩⟩ := by
          unfold Planned; simp only; linarith
        refine ⟨⟨⟨le_refl _, hd⟩, Or.inl ⟨rfl, rfl⟩, fun h => absurd h hnp⟩, ?_, fun h => absurd h hnp, fun _ => Or.inl rfl⟩
        ext <;> simp [target]

/-- Any history of well defined updates keeps the invariant; the counter grows by at most one per update. -/
theorem advances_inv (norm : V3 K → K) (p : Params K) (hp : Sensible p) (hist : List (State K × State K))
    (ht : ForwardTime hist) (m : Machine K) (hc : Configured p m) (k : Nat)
    (r0 r1 : Element K) (hr : m.refs = some (r0, r1)) (hi : Inv p k r0 r1) (m' : Machine K)
    (h : advances norm m hist = some m') :
    Configured p m' ∧ ∃ k' r0' r1', m'.refs = some (r0', r1') ∧ Inv p k' r0' r1' ∧ k ≤ k' ∧ k' ≤ k + hist.length := by
  induction hist generalizing m k r0 r1 with
  | nil =>
    simp only [advances, Option.some.injEq] at h
    subst h
    exact ⟨hc, k, r0, r1, hr, hi, le_refl _, by simp⟩
  | cons u hist ih =>
    obtain ⟨c, f⟩ := u
    simp only [advances] at h
    split at h
    · cases h
    · rename_i m1 ok h1
      have hct : 0 ≤ c.time := ht (c, f) (by simp)
      obtain ⟨hc1, _, r0', r1', fo, hr1, _, hstep, hpl⟩ := advance_inv norm p hp m hc k r0 r1 hr hi c f hct m1 ok h1
      have ht' : ForwardTime hist := fun u hu => ht u (by simp [hu])
      rcases step_inv p hp k fo c.time hct _ _ _ _ hpl hstep with ⟨hi1, _⟩ | ⟨hi1, _⟩
      · obtain ⟨hc', k', a, b, e, i, hk⟩ := ih ht' m1 hc1 k r0' r1' hr1 hi1 h
        exact ⟨hc', k', a, b, e, i, by simp only [List.length_cons]; omega⟩
      · obtain ⟨hc', k', a, b, e, i, hk⟩ := ih ht' m1 hc1 (k + 1) r0' r1' hr1 hi1 h
        exact ⟨hc', k', a, b, e, i, by simp only [List.length_cons]; omega⟩

end Verif.Walking
