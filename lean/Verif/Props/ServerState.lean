import Verif.Model.ServerState
import Verif.Props.KinDynCache
import Verif.Props.Timely
/- C71: the server of expressions follows the robot state of the shared computations. -/
set_option linter.unusedSectionVars false
namespace Verif.Server
open Verif.KinDyn (RobotState Cache Engine Out sameState sameState_iff)
open Verif.KinDyn.Spec (CloseState CloseVec)
open Verif.Timely (Timely Handle)
variable {K : Type} [Field K] [LinearOrder K] {M B : Type}

/-- Specification: the state is not given to the server directly (as in all of the planner; the tests do it). -/
def Followed : Op K M B → Prop
  | .updateWith _ _ => False
  | _ => True

/-- Once synchronised, the variables are the state that the evaluables use. -/
theorem World.run_vars (accepts : Engine K M B → RobotState K → Bool) (tolT : K) (ops : List (Op K M B)) :
    ∀ w w' : World K M B, w.run accepts tolT ops = some w' → (∀ op ∈ ops, Followed op) → (w.first = false → w.vars = w.robotState) →
      (w'.first = false → w'.vars = w'.robotState) := by
  induction ops with
  | nil => intro w w' h _ hw; cases h; exact hw
  | cons op ops ih =>
    intro w w' h hf hw
    simp only [World.run] at h
    cases hs : w.step accepts tolT op with
    | none => rw [hs] at h; cases h
    | some w1 =>
      rw [hs] at h
      refine ih w1 w' h (fun o ho => hf o (List.mem_cons_of_mem _ ho)) ?_
      have h0 := hf op List.mem_cons_self
      cases op with
      | updateWith t r => exact h0.elim
      | kin g o => simp only [World.step, Option.some.injEq] at hs; subst hs; exact hw
      | setTimings l =>
        simp only [World.step, Option.some.injEq, World.setTimings] at hs
        split at hs <;> subst hs <;> exact hw
      | evaluate =>
        simp only [World.step, World.evaluate] at hs
        split at hs
        · cases hs
        · simp only [Option.map_some, Option.some.injEq] at hs; subst hs; exact hw
      | update t =>
        simp only [World.step, World.update] at hs
        split at hs
        · cases hs
        · split at hs <;> simp only [Option.map_some, Option.some.injEq] at hs <;> subst hs
          · intro _; rfl
          · exact hw

/-- **C71.** After any history, `updateRobotState(time)` chooses the computations of that time and leaves the variables of all the expressions at the
state that these computations hold, or closer to it than their tolerance in every component; the same state is used by the expressions that ask the
computations. -/
theorem C71_current (accepts : Engine K M B → RobotState K → Bool) (tolT : K) (v0 r0 : RobotState K) (tm0 : Timely K) (kin0 : Handle → Cache K M B)
    (ops : List (Op K M B)) (hf : ∀ op ∈ ops, Followed op) (w w' : World K M B) (hw : (World.init v0 r0 tm0 kin0).run accepts tolT ops = some w)
    (t : K) (h : Handle) (hu : w.update tolT t = some (w', h)) :
    (∃ tm, Timely.get w.timely tolT t = some (tm, h)) ∧ w'.time = t ∧ w'.kin = w.kin ∧ w'.robotState = w'.vars ∧ w'.first = false ∧
    (w'.vars = (w.kin h).state ∨ CloseState (w.kin h).tol w'.vars (w.kin h).state) := by
  have hv := World.run_vars accepts tolT ops _ w hw hf (by intro h; cases h)
  simp only [World.update] at hu
  split at hu
  · cases hu
  · rename_i tm h' hg
    split at hu
    · simp only [Option.some.injEq, Prod.mk.injEq] at hu
      obtain ⟨rfl, rfl⟩ := hu
      exact ⟨⟨tm, hg⟩, rfl, rfl, rfl, rfl, Or.inl rfl⟩
    · rename_i hc
      simp only [Option.some.injEq, Prod.mk.injEq] at hu
      obtain ⟨rfl, rfl⟩ := hu
      simp only [Bool.or_eq_true, Bool.not_eq_true', not_or, Bool.not_eq_true, Bool.not_eq_false] at hc
      have hv' := hv hc.1
      exact ⟨⟨tm, hg⟩, rfl, rfl, hv'.symm, hc.1, Or.inr (by rw [show ({ w with time := t, timely := tm } : World K M B).vars = w.vars from rfl, hv']; exact ((sameState_iff _ _).1 hc.2).2)⟩

/-- **C71.** With a tolerance that is not positive the variables are exactly the state of the computations. -/
theorem C71_exact [IsStrictOrderedRing K] (accepts : Engine K M B → RobotState K → Bool) (tolT : K) (v0 r0 : RobotState K) (tm0 : Timely K) (kin0 : Handle → Cache K M B)
    (ops : List (Op K M B)) (hf : ∀ op ∈ ops, Followed op) (w w' : World K M B) (hw : (World.init v0 r0 tm0 kin0).run accepts tolT ops = some w)
    (t : K) (h : Handle) (hu : w.update tolT t = some (w', h)) (htol : (w.kin h).tol ≤ 0) (hne : (w.kin h).state.basePosition ≠ []) :
    w'.vars = (w.kin h).state := by
  obtain ⟨-, -, -, -, -, hc | hc⟩ := C71_current accepts tolT v0 r0 tm0 kin0 ops hf w w' hw t h hu
  · exact hc
  · exfalso
    obtain ⟨hl, hp⟩ := hc.basePosition
    have h0 : 0 < (w.kin h).state.basePosition.length := List.length_pos_iff.2 hne
    have := hp 0 (by omega) h0
    exact absurd (lt_of_lt_of_le this htol) (not_lt.2 (abs_nonneg _))

/-- Specification: the models are loaded before the server is made. -/
def NoLoad : Op K M B → Prop
  | .kin _ op => KinDyn.NotLoad op
  | _ => True

/-- Specification: the calls between an update of the server and an evaluation. -/
def Meanwhile : Op K M B → Prop
  | .kin _ op => KinDyn.NotLoad op
  | .evaluate => True
  | .setTimings _ => True
  | _ => False

theorem World.step_synced (accepts : Engine K M B → RobotState K → Bool) (tolT : K) (op : Op K M B) (hn : NoLoad op) (w w' : World K M B)
    (h : w.step accepts tolT op = some w') (hw : ∀ g, KinDyn.Synced (w.kin g)) : ∀ g, KinDyn.Synced (w'.kin g) := by
  have hup : ∀ (k : Handle → Cache K M B) (g : Handle) (c : Cache K M B), (∀ g, KinDyn.Synced (k g)) → KinDyn.Synced c →
      ∀ g', KinDyn.Synced (Function.update k g c g') := by
    intro k g c hk hc g'
    by_cases hg : g' = g
    · subst hg; rw [Function.update_self]; exact hc
    · rw [Function.update_of_ne hg]; exact hk g'
  cases op with
  | kin g o =>
    simp only [World.step, Option.some.injEq] at h; subst h
    exact hup _ _ _ hw (KinDyn.synced_step accepts _ (hw g) o hn)
  | setTimings l =>
    simp only [World.step, Option.some.injEq, World.setTimings] at h
    split at h <;> subst h
    · intro g
      cases g with
      | template => exact hw _
      | entry i => dsimp only; split <;> exact hw _
    · exact hw
  | evaluate =>
    simp only [World.step, World.evaluate] at h
    split at h
    · cases h
    · simp only [Option.map_some, Option.some.injEq] at h; subst h
      exact hup _ _ _ hw (KinDyn.synced_step accepts _ (hw _) _ trivial)
  | update t =>
    simp only [World.step, World.update] at h
    split at h
    · cases h
    · split at h <;> simp only [Option.map_some, Option.some.injEq] at h <;> subst h <;> exact hw
  | updateWith t r =>
    simp only [World.step, World.updateWith] at h
    split at h
    · cases h
    · split at h
      · split at h <;> simp only [Option.map_some, Option.some.injEq] at h <;> subst h <;>
          exact hup _ _ _ hw (KinDyn.synced_update accepts _ (hw _) _)
      · simp only [Option.map_some, Option.some.injEq] at h; subst h; exact hw

theorem World.run_synced (accepts : Engine K M B → RobotState K → Bool) (tolT : K) (ops : List (Op K M B)) :
    ∀ w w' : World K M B, w.run accepts tolT ops = some w' → (∀ op ∈ ops, NoLoad op) → (∀ g, KinDyn.Synced (w.kin g)) → ∀ g, KinDyn.Synced (w'.kin g) := by
  induction ops with
  | nil => intro w w' h _ hw; cases h; exact hw
  | cons op ops ih =>
    intro w w' h hf hw
    simp only [World.run] at h
    cases hs : w.step accepts tolT op with
    | none => rw [hs] at h; cases h
    | some w1 =>
      rw [hs] at h
      exact ih w1 w' h (fun o ho => hf o (List.mem_cons_of_mem _ ho)) (World.step_synced accepts tolT op (hf op List.mem_cons_self) w w1 hs hw)

theorem World.run_meanwhile (accepts : Engine K M B → RobotState K → Bool) (tolT : K) (ops : List (Op K M B)) :
    ∀ w w' : World K M B, w.run accepts tolT ops = some w' → (∀ op ∈ ops, Meanwhile op) → w'.vars = w.vars ∧ w'.robotState = w.robotState ∧ w'.time = w.time := by
  induction ops with
  | nil => intro w w' h _; cases h; exact ⟨rfl, rfl, rfl⟩
  | cons op ops ih =>
    intro w w' h hf
    simp only [World.run] at h
    cases hs : w.step accepts tolT op with
    | none => rw [hs] at h; cases h
    | some w1 =>
      rw [hs] at h
      have := ih w1 w' h (fun o ho => hf o (List.mem_cons_of_mem _ ho))
      have h0 := hf op List.mem_cons_self
      have h1 : w1.vars = w.vars ∧ w1.robotState = w.robotState ∧ w1.time = w.time := by
        cases op with
        | kin g o => simp only [World.step, Option.some.injEq] at hs; subst hs; exact ⟨rfl, rfl, rfl⟩
        | setTimings l =>
          simp only [World.step, Option.some.injEq, World.setTimings] at hs
          split at hs <;> subst hs <;> exact ⟨rfl, rfl, rfl⟩
        | evaluate =>
          simp only [World.step, World.evaluate] at hs
          split at hs
          · cases hs
          · simp only [Option.map_some, Option.some.injEq] at hs; subst hs; exact ⟨rfl, rfl, rfl⟩
        | update t => exact h0.elim
        | updateWith t r => exact h0.elim
      exact ⟨this.1.trans h1.1, this.2.1.trans h1.2.1, this.2.2.trans h1.2.2⟩

/-- **C71.** After any history, an update of the server for the time `t` and any calls of the other classes on the shared computations, an expression
that is evaluated uses the computations of the time `t` and is computed for the state of the variables, or closer to it than the tolerance of these
computations. -/
theorem C71_evaluation (accepts : Engine K M B → RobotState K → Bool) (tolT : K) (v0 r0 : RobotState K) (tm0 : Timely K) (kin0 : Handle → Cache K M B)
    (h0 : ∀ g, (kin0 g).updateNecessary = true) (ops ops' : List (Op K M B)) (hf : ∀ op ∈ ops, Followed op) (hn : ∀ op ∈ ops, NoLoad op)
    (hm : ∀ op ∈ ops', Meanwhile op) (w w1 w2 w3 : World K M B) (hw : (World.init v0 r0 tm0 kin0).run accepts tolT ops = some w)
    (t : K) (h h' : Handle) (hu : w.update tolT t = some (w1, h)) (hw2 : w1.run accepts tolT ops' = some w2)
    (e : Engine K M B) (he : w2.evaluate accepts tolT = some (w3, h', .answer e)) :
    (∃ tm, Timely.get w2.timely tolT t = some (tm, h')) ∧ w2.vars = w1.vars ∧
    ∃ p gr, e.pushed = some (p, gr) ∧ (p = w1.vars ∨ CloseState (w2.kin h').tol w1.vars p) := by
  obtain ⟨-, ht, hk, hrv, -, -⟩ := C71_current accepts tolT v0 r0 tm0 kin0 ops hf w w1 hw t h hu
  have hs := World.run_synced accepts tolT ops _ w hw hn (fun g hg => by rw [show ((World.init v0 r0 tm0 kin0).kin g) = kin0 g from rfl, h0 g] at hg; cases hg)
  have hs1 : ∀ g, KinDyn.Synced (w1.kin g) := by rw [hk]; exact hs
  have hs2 := World.run_synced accepts tolT ops' w1 w2 hw2 (fun op ho => by
    have := hm op ho; cases op <;> first | exact this | trivial) hs1 h'
  obtain ⟨hv2, hr2, ht2⟩ := World.run_meanwhile accepts tolT ops' w1 w2 hw2 hm
  simp only [World.evaluate] at he
  split at he
  · cases he
  · rename_i tm g hg
    simp only [Option.some.injEq, Prod.mk.injEq] at he
    obtain ⟨rfl, rfl, hq⟩ := he
    rw [ht2, ht] at hg
    refine ⟨⟨tm, hg⟩, hv2, ?_⟩
    have hr : w2.robotState = w1.vars := hr2.trans hrv
    rw [hr] at hq
    simp only [KinDyn.step] at hq
    split at hq
    · simp only [Out.answer.injEq] at hq
      subst hq
      rename_i hok
      unfold KinDyn.updateRobotState at hok ⊢
      by_cases hsame : sameState (w2.kin g) w1.vars = true
      · simp only [hsame, Bool.not_true, Bool.false_eq_true, if_false]
        obtain ⟨hu', hc⟩ := (sameState_iff _ _).1 hsame
        obtain ⟨gr, hgr⟩ := hs2 hu'
        exact ⟨_, gr, hgr, Or.inr hc⟩
      · simp only [hsame, Bool.not_false, if_true] at hok ⊢
        split at hok
        · rename_i hacc
          simp only [hacc, if_true]
          exact ⟨_, _, rfl, Or.inl rfl⟩
        · cases hok
    · cases hq

/-- **C71, the state given to the server.** If the computations do not already hold a close state and accept the new one, the variables become that
state, exactly. -/
theorem C71_given_partial (accepts : Engine K M B → RobotState K → Bool) (tolT : K) (w w' : World K M B) (t : K) (r : RobotState K) (h : Handle)
    (hs : sameState (w.kin h) r = false) (hu : w.updateWith accepts tolT t r = some (w', h, true)) :
    w'.vars = r ∧ w'.robotState = r ∧ (w'.kin h).state = r := by
  simp only [World.updateWith] at hu
  split at hu
  · cases hu
  · rename_i tm g hg
    split at hu
    · split at hu
      · simp at hu
      · rename_i hok
        simp only [Option.some.injEq, Prod.mk.injEq, and_true] at hu
        obtain ⟨rfl, rfl⟩ := hu
        have hok' : (KinDyn.updateRobotState accepts (w.kin g) r).2 = true := by simpa using hok
        have : (KinDyn.updateRobotState accepts (w.kin g) r).1.state = r := by
          unfold KinDyn.updateRobotState at hok' ⊢
          simp only [hs, Bool.not_false, if_true] at hok' ⊢
          split at hok'
          · rename_i hacc; simp only [hacc, if_true]
          · cases hok'
        refine ⟨rfl, this, ?_⟩
        simp only [Function.update_self]; exact this
    · rename_i hc
      simp only [Option.some.injEq, Prod.mk.injEq, and_true] at hu
      obtain ⟨-, rfl⟩ := hu
      simp [hs] at hc

/-- **C71, finding.** If another class has already given the new state to the computations, giving the same state to the server succeeds and changes
nothing: the variables of the expressions keep the old state. -/
theorem C71_finding_stale (accepts : Engine K M B → RobotState K → Bool) (tolT : K) (w : World K M B) (t : K) (r : RobotState K) (tm : Timely K) (h : Handle)
    (hg : Timely.get w.timely tolT t = some (tm, h)) (hfirst : w.first = false) (hs : sameState (w.kin h) r = true) :
    ∃ w', w.updateWith accepts tolT t r = some (w', h, true) ∧ w'.vars = w.vars ∧ w'.robotState = w.robotState := by
  refine ⟨{ w with time := t, timely := tm }, ?_, rfl, rfl⟩
  simp only [World.updateWith, hg, hfirst, hs, Bool.not_true, Bool.or_self, Bool.false_eq_true, if_false]

/-! ### Examples -/

/-- A base at height `z`, at rest. -/
def atHeight (z : ℚ) : RobotState ℚ := ⟨[0, 0, z], [1, 0, 0, 0], [0], [0, 0, 0], [0, 0, 0, 0], [0]⟩

def startWorld : World ℚ Nat Nat :=
  .init (atHeight 0) (atHeight 0) (Timely.init ℚ true) fun _ => (KinDyn.loadRobotModel (KinDyn.init Nat Nat (1/10) 10) 1 0 1 true true).1

/-- Two times, at each of which another class sets the state, with the tolerance 1/10. -/
def sampleOps : List (Op ℚ Nat Nat) :=
  [.setTimings [0, 1], .kin (.entry 0) (.update (atHeight 1)), .update 0, .evaluate, .kin (.entry 1) (.update (atHeight 2))]

/-- The variables follow. -/
example : (startWorld.run (fun _ _ => true) (1/100) (sampleOps ++ [.update 1])).map (·.vars.basePosition) = some [0, 0, 2] := by decide +kernel
example (w w' : World ℚ Nat Nat) (h : Handle) (hw : startWorld.run (fun _ _ => true) (1/100) sampleOps = some w) (hu : w.update (1/100) 1 = some (w', h)) :=
  C71_current (fun _ _ => true) (1/100) (atHeight 0) (atHeight 0) _ _ sampleOps (by simp [sampleOps, Followed]) w w' hw 1 h hu
example (w w1 w2 w3 : World ℚ Nat Nat) (h h' : Handle) (hw : startWorld.run (fun _ _ => true) (1/100) sampleOps = some w) (hu : w.update (1/100) 1 = some (w1, h))
    (hw2 : w1.run (fun _ _ => true) (1/100) [.kin (.entry 1) (.query (atHeight 7))] = some w2) (e : Engine ℚ Nat Nat)
    (he : w2.evaluate (fun _ _ => true) (1/100) = some (w3, h', .answer e)) :=
  C71_evaluation (fun _ _ => true) (1/100) (atHeight 0) (atHeight 0) _ _ (fun _ => rfl) sampleOps [.kin (.entry 1) (.query (atHeight 7))]
    (by simp [sampleOps, Followed]) (by simp [sampleOps, NoLoad, KinDyn.NotLoad]) (by simp [Meanwhile, KinDyn.NotLoad]) w w1 w2 w3 hw 1 h h' hu hw2 e he
/-- The evaluation answers for the height 2, although the computations were asked for the height 7. -/
example : ((startWorld.run (fun _ _ => true) (1/100) (sampleOps ++ [.update 1, .kin (.entry 1) (.query (atHeight 7))])).bind fun w =>
    (w.evaluate (fun _ _ => true) (1/100)).map fun r => match r.2.2 with | .answer e => e.pushed.map (·.1.basePosition) | _ => none) = some (some [0, 0, 2]) := by
  decide +kernel
/-- Finding: the server, synchronised at the height 1, keeps it although the height 2 is given to it. -/
example : (startWorld.run (fun _ _ => true) (1/100) [.setTimings [0], .kin (.entry 0) (.update (atHeight 1)), .update 0,
    .kin (.entry 0) (.update (atHeight 2)), .updateWith 0 (atHeight 2)]).map (·.vars.basePosition) = some [0, 0, 1] := by decide +kernel

end Verif.Server
