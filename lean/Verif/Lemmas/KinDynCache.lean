import Verif.Spec.KinDynCache
import Mathlib.Tactic.Linarith
namespace Verif.KinDyn
open Spec
variable {K : Type} [Field K] [LinearOrder K]

theorem vectorsAreEqual_iff (tol : K) (v w : List K) : vectorsAreEqual tol v w = true ↔ CloseVec tol v w := by
  unfold vectorsAreEqual CloseVec
  by_cases h : v.length = w.length
  · simp only [h, ne_eq, not_true, if_false, List.all_eq_true, decide_eq_true_eq, true_and]
    constructor
    · intro hall i hi hi'
      exact hall (v[i], w[i]) (by
        rw [List.mem_iff_getElem]
        exact ⟨i, by simp [h] at *; omega, by simp⟩)
    · intro hall p hp
      rw [List.mem_iff_getElem] at hp
      obtain ⟨i, hi, rfl⟩ := hp
      simp at hi
      simpa using hall i (by omega) (by omega)
  · simp [h]

variable {M B : Type}

theorem sameState_iff (c : Cache K M B) (o : RobotState K) :
    sameState c o = true ↔ c.updateNecessary = false ∧ CloseState c.tol o c.state := by
  simp only [sameState, Bool.and_eq_true, Bool.not_eq_true', vectorsAreEqual_iff]
  constructor
  · rintro ⟨⟨⟨⟨⟨⟨h0, h1⟩, h2⟩, h3⟩, h4⟩, h5⟩, h6⟩
    exact ⟨h0, h1, h2, h3, h4, h5, h6⟩
  · rintro ⟨h0, h1, h2, h3, h4, h5, h6⟩
    exact ⟨⟨⟨⟨⟨⟨h0, h1⟩, h2⟩, h3⟩, h4⟩, h5⟩, h6⟩

/-- When the cache claims to be up to date the engine holds exactly the cached state. -/
def Synced (c : Cache K M B) : Prop :=
  c.updateNecessary = false → ∃ g, c.engine.pushed = some (c.state, g)

def NotLoad : Op K M B → Prop
  | .load .. => False
  | _ => True

theorem synced_update (accepts : Engine K M B → RobotState K → Bool) (c : Cache K M B) (h : Synced c)
    (r : RobotState K) : Synced (updateRobotState accepts c r).1 := by
  unfold updateRobotState
  split
  · split
    · intro _; exact ⟨_, rfl⟩
    · exact h
  · exact h

theorem synced_step (accepts : Engine K M B → RobotState K → Bool) (c : Cache K M B) (h : Synced c)
    (op : Op K M B) (hop : NotLoad op) : Synced (step accepts c op).1 := by
  cases op with
  | load => exact hop.elim
  | setGravity g =>
    simp only [step, setGravity]
    intro hu
    apply h
    simp only at hu
    split at hu
    · cases hu
    · exact hu
  | setTol t =>
    simp only [step, setToleranceForUpdate]
    split
    · exact h
    · exact h
  | setBase b ok okT =>
    simp only [step, setFloatingBase]
    split <;> (intro hu; cases hu)
  | update r => exact synced_update accepts c h r
  | query r =>
    simp only [step]
    split <;> exact synced_update accepts c h r
  | baseTransform r =>
    simp only [step]
    split <;> exact synced_update accepts c h r

theorem synced_run (accepts : Engine K M B → RobotState K → Bool) (ops : List (Op K M B)) :
    ∀ c : Cache K M B, Synced c → (∀ op ∈ ops, NotLoad op) → Synced (run accepts c ops) := by
  induction ops with
  | nil => intro c h _; exact h
  | cons op ops ih =>
    intro c h hops
    exact ih _ (synced_step accepts c h op (hops op (List.mem_cons_self ..)))
      (fun o ho => hops o (List.mem_cons_of_mem _ ho))

theorem model_update (accepts : Engine K M B → RobotState K → Bool) (c : Cache K M B) (r : RobotState K) :
    (updateRobotState accepts c r).1.engine.model = c.engine.model
    ∧ (updateRobotState accepts c r).1.engine.base = c.engine.base := by
  unfold updateRobotState
  split
  · split <;> exact ⟨rfl, rfl⟩
  · exact ⟨rfl, rfl⟩

theorem model_run (accepts : Engine K M B → RobotState K → Bool) (ops : List (Op K M B)) :
    ∀ c : Cache K M B, (∀ op ∈ ops, NotLoad op) → (run accepts c ops).engine.model = c.engine.model := by
  induction ops with
  | nil => intro c _; rfl
  | cons op ops ih =>
    intro c hops
    have h1 := ih (step accepts c op).1 (fun o ho => hops o (List.mem_cons_of_mem _ ho))
    have h2 : (step accepts c op).1.engine.model = c.engine.model := by
      have hop := hops op (List.mem_cons_self ..)
      cases op with
      | load => exact hop.elim
      | setGravity g => rfl
      | setTol t => simp only [step, setToleranceForUpdate]; split <;> rfl
      | setBase b ok okT => simp only [step, setFloatingBase]; split <;> rfl
      | update r => exact (model_update accepts c r).1
      | query r => simp only [step]; split <;> exact (model_update accepts c r).1
      | baseTransform r => simp only [step]; split <;> exact (model_update accepts c r).1
    exact h1.trans h2

/-- Gravity of the engine agrees with the stored one. -/
def GravSynced (c : Cache K M B) : Prop :=
  c.updateNecessary = false → c.engine.pushed = some (c.state, c.gravity)

end Verif.KinDyn
