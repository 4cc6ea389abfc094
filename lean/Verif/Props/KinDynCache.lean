import Verif.Lemmas.KinDynCache
import Mathlib.Algebra.Order.Ring.Rat
import Mathlib.Tactic.NormNum
/- Properties C05 and C06: the kinematics state cache. -/
set_option linter.unusedSectionVars false
namespace Verif.KinDyn
open Spec
variable {K : Type} [Field K] [LinearOrder K] {M B : Type}

/-- C05.  Load a model into a new object, then perform any history of queries, updates, tolerance, gravity and base
changes.  If the next query for robot state `r` is answered, the answer is computed by the engine, on the loaded model,
for a robot state `p` that is `r` itself or closer to `r` than the current tolerance in every component: errors do not
accumulate with the length of the history. -/
theorem C05_answer_close (accepts : Engine K M B → RobotState K → Bool) (tol0 g : K) (m : M) (b : B) (n : Nat)
    (okT : Bool) (ops : List (Op K M B)) (hops : ∀ op ∈ ops, NotLoad op) (r : RobotState K) (e : Engine K M B) :
    let c := run accepts (loadRobotModel (init M B tol0 g) m b n true okT).1 ops
    (step accepts c (.query r)).2 = .answer e →
    e.model = some m ∧ e.base = c.engine.base ∧
    ∃ p gr, e.pushed = some (p, gr) ∧ (p = r ∨ CloseState c.tol r p) := by
  intro c h
  have hsync : Synced c := synced_run accepts ops _ (by intro hu; cases hu) hops
  have hmodel : c.engine.model = some m := model_run accepts ops _ hops
  simp only [step] at h
  split at h
  · simp only [Out.answer.injEq] at h
    subst h
    refine ⟨(model_update accepts c r).1.trans hmodel, (model_update accepts c r).2, ?_⟩
    rename_i hok
    unfold updateRobotState at hok ⊢
    by_cases hs : sameState c r = true
    · simp only [hs, Bool.not_true, Bool.false_eq_true, if_false]
      obtain ⟨hu, hc⟩ := (sameState_iff c r).1 hs
      obtain ⟨gr, hg⟩ := hsync hu
      exact ⟨c.state, gr, hg, Or.inr hc⟩
    · simp only [hs, Bool.not_false, if_true] at hok ⊢
      split at hok
      · rename_i hacc
        simp only [hacc, if_true]
        exact ⟨r, c.gravity, rfl, Or.inl rfl⟩
      · cases hok
  · cases h

/-- C05 (refused queries).  A query is refused only when the state differs from the cached one and the engine does not
accept it; then the cached state and the engine are unchanged. -/
theorem C05_refused (accepts : Engine K M B → RobotState K → Bool) (c : Cache K M B) (r : RobotState K)
    (h : (step accepts c (.query r)).2 = .refused) :
    accepts c.engine r = false ∧ (step accepts c (.query r)).1.engine = c.engine
    ∧ (step accepts c (.query r)).1.state = c.state := by
  simp only [step, updateRobotState] at h ⊢
  by_cases hs : sameState c r = true
  · simp [hs] at h
  · by_cases ha : accepts c.engine r = true
    · simp [hs, ha] at h
    · simp [hs, ha]

/-- C05 (tolerance).  Negative tolerances are refused without effect, others are stored. -/
theorem C05_tolerance (c : Cache K M B) (t : K) :
    (t < 0 → setToleranceForUpdate c t = (c, false)) ∧
    (0 ≤ t → setToleranceForUpdate c t = ({ c with tol := t }, true)) := by
  constructor
  · intro h; simp [setToleranceForUpdate, h]
  · intro h; simp [setToleranceForUpdate, not_lt.2 h]

/-- With zero tolerance every answer is computed for exactly the requested state. -/
theorem C05_zero_tolerance_exact (accepts : Engine K M B → RobotState K → Bool) [IsStrictOrderedRing K]
    (c : Cache K M B) (htol : c.tol = 0) (r : RobotState K) (hne : r.basePosition ≠ []) (e : Engine K M B)
    (h : (step accepts c (.query r)).2 = .answer e) : ∃ gr, e.pushed = some (r, gr) := by
  simp only [step, updateRobotState] at h
  have hs : sameState c r = false := by
    cases hs : sameState c r with
    | false => rfl
    | true =>
      obtain ⟨_, hc⟩ := (sameState_iff c r).1 hs
      have hpos : 0 < r.basePosition.length := List.length_pos_iff.2 hne
      have := hc.basePosition.2 0 hpos (by rw [← hc.basePosition.1]; exact hpos)
      exact absurd (lt_of_lt_of_eq this htol) (not_lt.2 (abs_nonneg _))
  by_cases ha : accepts c.engine r = true
  · simp [hs, ha] at h
    subst h
    exact ⟨_, rfl⟩
  · simp [hs, ha] at h

def zeroState (x : ℚ) : RobotState ℚ :=
  { basePosition := [x, 0, 0], baseQuaternion := [1, 0, 0, 0], s := [0], baseLinearVelocity := [0, 0, 0]
    baseQuaternionVelocity := [0, 0, 0, 0], sDot := [0] }

/-- Non-vacuity of C05: a history whose last query is answered from a cached, slightly different state. -/
example : ∃ e, (step (fun _ _ => true)
      (run (fun _ _ => true) (loadRobotModel (init Nat Nat (1/10 : ℚ) 10) 7 0 1 true true).1 [.query (zeroState 1)])
      (.query (zeroState (21/20)))).2 = Out.answer e ∧ e.pushed = some (zeroState 1, [0, 0, -10]) := by
  exact ⟨{ model := some 7, base := some 0, pushed := some (zeroState 1, [0, 0, -10]) }, by decide +kernel,
    by decide +kernel⟩

/-- C06 fails on the pinned code (model reload).  After a reload, a query for a state equal to the cached one is
answered by an engine that never received that state (`pushed = none`: it holds the reset state of the new model). -/
theorem C06_negation_reload :
    ∃ (ops : List (Op ℚ Nat Nat)) (r : RobotState ℚ) (e : Engine ℚ Nat Nat),
      (step (fun _ _ => true) (run (fun _ _ => true) (init Nat Nat (1/10) 10) ops) (.query r)).2 = .answer e
      ∧ e.model = some 2 ∧ e.pushed = none := by
  refine ⟨[.load 1 0 1 true true, .query (zeroState 1), .load 2 0 1 true true], zeroState 1,
    { model := some 2, base := some 0, pushed := none }, ?_, ?_, ?_⟩ <;> decide +kernel

/-- C06 fails on the pinned code (gravity drift).  A sequence of gravity changes, each below the tolerance, ends with
`gravity()` far from the gravity used by the engine for the answer (here the tolerance is 1 and the difference 9/5;
longer sequences give any difference). -/
theorem C06_negation_gravity_drift :
    ∃ (ops : List (Op ℚ Nat Nat)) (r : RobotState ℚ) (e : Engine ℚ Nat Nat) (c : Cache ℚ Nat Nat),
      c = run (fun _ _ => true) (init Nat Nat 1 10) ops ∧
      (step (fun _ _ => true) c (.query r)).2 = .answer e ∧ c.tol = 1
      ∧ c.gravity = [0, 0, -10 + 9/5] ∧ (∃ p, e.pushed = some (p, [0, 0, -10])) := by
  refine ⟨[.load 1 0 1 true true, .query (zeroState 1), .setGravity [0, 0, -10 + 9/10],
    .setGravity [0, 0, -10 + 9/5]], zeroState 1,
    { model := some 1, base := some 0, pushed := some (zeroState 1, [0, 0, -10]) }, _, rfl, ?_, ?_, ?_, zeroState 1, ?_⟩ <;> decide +kernel

/-- A gravity change is "visible" when it is exact or exceeds the tolerance at the time of the call. -/
def VisibleGravity (c : Cache K M B) : Op K M B → Prop
  | .setGravity g => g = c.gravity ∨ ¬ CloseVec c.tol g c.gravity
  | _ => True

/-- All gravity changes along a history are visible. -/
def VisibleHistory (accepts : Engine K M B → RobotState K → Bool) : Cache K M B → List (Op K M B) → Prop
  | _, [] => True
  | c, op :: ops => VisibleGravity c op ∧ VisibleHistory accepts (step accepts c op).1 ops

/-- C06 (the part that holds).  If the model is loaded once and no gravity change is smaller than the tolerance (unless
it is no change), every answer is computed with the gravity reported by `gravity()`.  Missing: reloads and
sub-tolerance changes (refuted above). -/
theorem C06_gravity_current_partial (accepts : Engine K M B → RobotState K → Bool) (tol0 g : K) (m : M) (b : B)
    (n : Nat) (okT : Bool) (ops : List (Op K M B)) (hops : ∀ op ∈ ops, NotLoad op)
    (hvis : VisibleHistory accepts (loadRobotModel (init M B tol0 g) m b n true okT).1 ops)
    (r : RobotState K) (e : Engine K M B) :
    let c := run accepts (loadRobotModel (init M B tol0 g) m b n true okT).1 ops
    (step accepts c (.query r)).2 = .answer e → ∃ p, e.pushed = some (p, c.gravity) := by
  have hupd : ∀ (c : Cache K M B) (r : RobotState K), GravSynced c → GravSynced (updateRobotState accepts c r).1 := by
    intro c r hc
    unfold updateRobotState
    split
    · split
      · intro _; rfl
      · exact hc
    · exact hc
  have key : ∀ (ops : List (Op K M B)) (c : Cache K M B), GravSynced c → (∀ op ∈ ops, NotLoad op) →
      VisibleHistory accepts c ops → GravSynced (run accepts c ops) := by
    intro ops
    induction ops with
    | nil => intro c h _ _; exact h
    | cons op ops ih =>
      intro c h hops hv
      refine ih _ ?_ (fun o ho => hops o (List.mem_cons_of_mem _ ho)) hv.2
      have hop := hops op (List.mem_cons_self ..)
      have hvo := hv.1
      cases op with
      | load => exact hop.elim
      | setGravity g =>
        simp only [step, setGravity]
        simp only [VisibleGravity] at hvo
        intro hu
        simp only at hu
        split at hu
        · cases hu
        · rename_i hcl
          have hcl' : CloseVec c.tol g c.gravity := by
            rw [← vectorsAreEqual_iff]; simpa using hcl
          rcases hvo with rfl | hvo
          · exact h hu
          · exact absurd hcl' hvo
      | setTol t =>
        simp only [step, setToleranceForUpdate]
        split <;> exact h
      | setBase b ok okT =>
        simp only [step, setFloatingBase]
        split <;> (intro hu; cases hu)
      | update r => exact hupd c r h
      | query r => simp only [step]; split <;> exact hupd c r h
      | baseTransform r => simp only [step]; split <;> exact hupd c r h
  intro c h
  have hc : GravSynced c := key ops _ (by intro hu; cases hu) hops hvis
  simp only [step] at h
  split at h
  · simp only [Out.answer.injEq] at h
    subst h
    rename_i hok
    unfold updateRobotState at hok ⊢
    by_cases hs : sameState c r = true
    · simp only [hs, Bool.not_true, Bool.false_eq_true, if_false]
      exact ⟨_, hc ((sameState_iff c r).1 hs).1⟩
    · simp only [hs, Bool.not_false, if_true] at hok ⊢
      split at hok
      · rename_i hacc
        simp only [hacc, if_true]
        exact ⟨r, rfl⟩
      · cases hok
  · cases h

/-- Non-vacuity of `C06_gravity_current_partial`. -/
example : VisibleHistory (fun _ _ => true) (loadRobotModel (init Nat Nat (1/10 : ℚ) 10) 1 0 1 true true).1
    [.query (zeroState 1), .setGravity [0, 0, -3]] := by
  refine ⟨trivial, Or.inr ?_, trivial⟩
  rw [← vectorsAreEqual_iff]
  decide +kernel

/-- C05 for the base transform, on histories in which the engine accepts every state (missing: histories with a refused
update, for which it fails, see `C05_negation_base_transform_after_refusal`). -/
theorem C05_base_transform_partial (accepts : Engine K M B → RobotState K → Bool) (hacc : ∀ e r, accepts e r = true)
    (tol0 g : K) (m : M) (b : B) (n : Nat) (okT : Bool) (ops : List (Op K M B)) (hops : ∀ op ∈ ops, NotLoad op)
    (r : RobotState K) :
    let c := run accepts (loadRobotModel (init M B tol0 g) m b n true okT).1 ops
    ∃ p, (step accepts c (.baseTransform r)).2 = .base (some p) ∧ (p = r ∨ CloseState c.tol r p) := by
  have hupd : ∀ (c : Cache K M B) (r : RobotState K), (c.updateNecessary = false → c.baseFrom = some c.state) →
      ((updateRobotState accepts c r).1.updateNecessary = false →
        (updateRobotState accepts c r).1.baseFrom = some (updateRobotState accepts c r).1.state) := by
    intro c r hc
    unfold updateRobotState
    simp only [hacc, if_true]
    split
    · intro _; rfl
    · exact hc
  have key : ∀ (ops : List (Op K M B)) (c : Cache K M B), (c.updateNecessary = false → c.baseFrom = some c.state) →
      (∀ op ∈ ops, NotLoad op) →
      ((run accepts c ops).updateNecessary = false →
        (run accepts c ops).baseFrom = some (run accepts c ops).state) := by
    intro ops
    induction ops with
    | nil => intro c h _; exact h
    | cons op ops ih =>
      intro c h hops
      refine ih _ ?_ (fun o ho => hops o (List.mem_cons_of_mem _ ho))
      have hop := hops op (List.mem_cons_self ..)
      cases op with
      | load => exact hop.elim
      | setGravity g =>
        simp only [step, setGravity]
        intro hu
        split at hu
        · cases hu
        · exact h hu
      | setTol t =>
        simp only [step, setToleranceForUpdate]
        split <;> exact h
      | setBase b ok okT =>
        simp only [step, setFloatingBase]
        split <;> (intro hu; cases hu)
      | update r => exact hupd c r h
      | query r => simp only [step]; split <;> exact hupd c r h
      | baseTransform r => simp only [step]; split <;> exact hupd c r h
  intro c
  have hc := key ops (loadRobotModel (init M B tol0 g) m b n true okT).1 (by intro hu; cases hu) hops
  simp only [step, updateRobotState, hacc, if_true]
  by_cases hs : sameState c r = true
  · obtain ⟨hu, hcl⟩ := (sameState_iff c r).1 hs
    refine ⟨c.state, ?_, Or.inr hcl⟩
    simp only [hs, Bool.not_true, Bool.false_eq_true, if_false, if_true]
    rw [hc hu]
  · refine ⟨r, ?_, Or.inl rfl⟩
    simp [hs]

/-- Further finding: the base transform buffers are overwritten by a refused update, so `getBaseTransform` for the
cached state afterwards returns the base transform of the refused state. -/
theorem C05_negation_base_transform_after_refusal :
    ∃ (accepts : Engine ℚ Nat Nat → RobotState ℚ → Bool) (ops : List (Op ℚ Nat Nat)) (r p : RobotState ℚ),
      (step accepts (run accepts (init Nat Nat (1/10) 10) ops) (.baseTransform r)).2 = .base (some p)
      ∧ p.basePosition = [5, 0, 0] ∧ r.basePosition = [1, 0, 0] := by
  refine ⟨fun _ r => r.s.length == 1,
    [.load 1 0 1 true true, .query (zeroState 1), .query { zeroState 5 with s := [] }],
    zeroState 1, { zeroState 5 with s := [] }, ?_, ?_, ?_⟩ <;> decide +kernel

end Verif.KinDyn
