import Verif.Model.ConstraintStack
import Verif.Props.ObjectiveGradient
import Verif.Props.Constraints
import Verif.Props.CentroidalMomentum
import Verif.Props.PointConstraints
/- C92: the Jacobian handed to the optimiser is the Jacobian of the constraints, and its declared entries are enough. -/
set_option linter.unusedSectionVars false
set_option linter.unusedSimpArgs false
namespace Verif.Plan
open NLP NLP.Kin SolverM StateM Rigid Matrix
open NLP.Spec (GradAt ExactJacobians SparsityCovers)
open NLP.Dynamics (quatOf)
open Labeller (Labeller Range)
open SolverM.Spec (stateVector controlVector StateSize ControlSize)
noncomputable section
variable {n nj : ℕ} {L F T : Type} [DecidableEq L] [DecidableEq F] {m : Model L (Fin nj)} (R : Objects m F)

/-- The constraint holds when its object does. -/
theorem satisfied_object (x : SVec n) (u : CVec n) (k : SolverM.Con ℝ) : satisfied R x u k ↔ ∃ o, constraintObject n R k = some o ∧ o.2.Holds x u := by
  cases k <;> simp only [satisfied, constraintObject, Option.some.injEq, exists_eq_left']
  all_goals
    constructor
    · rintro ⟨h, hh⟩
      exact ⟨_, dif_pos h, hh⟩
    · rintro ⟨o, ho, hh⟩
      split at ho
      · rename_i h
        cases ho
        exact ⟨h, hh⟩
      · cases ho

/-- The frame of the constraint on a point of the foot keeps the axis of its joint. -/
def FrameKeeps : SolverM.Con ℝ → Prop
  | .contactPosition _ _ frame _ _ _ => R.server.KeepsAxes (R.frame frame)
  | _ => True

theorem bounds_free {k : ℕ} (c : Constraint (Idx (SBlk n)) (Idx (CBlk n)) k) (a b : ℝ) :
    (SparsityCovers c → SparsityCovers (withBounds c a b)) ∧ (ExactJacobians c → ExactJacobians (withBounds c a b)) := ⟨id, id⟩

theorem object_sparsity {k : SolverM.Con ℝ} {o} (h : constraintObject n R k = some o) : SparsityCovers o.2 := by
  cases k <;> simp only [constraintObject, Option.some.injEq] at h
  case centroidalMomentum => subst h; exact C64_sparsity R.server R.norm R.fuel R.order R.order' 0
  case comPosition => subst h; exact C65_sparsity R.server R.rot R.fuel R.leftover 0
  case quaternionNorm => subst h; exact quaternion_sparsity 0
  case feetRelativeHeight => subst h; exact feetRelativeHeight_sparsity _
  all_goals
    split at h
    · cases h
      first
        | exact C67_sparsity _ _ _ _ _ _
        | exact planarVelocity_sparsity _ _ _ _ _ _
        | exact planar_sparsity _ _ _
        | exact dynamical_sparsity _ _ _ _
        | exact forceControl_sparsity _ _ _ _ _
        | exact classical_sparsity _ _ _
        | exact friction_sparsity _ _ _
        | exact C66_sparsity _ _ _ _ _ _ _ 0
    · cases h

theorem object_jacobian {cfg : Levi.Ex.Cfg ℝ} (hcfg : Levi.Spec.Sound cfg) (hR : R.rot.Made cfg) (hm : m.Regular) (hM : massOf m ≠ 0) {k : SolverM.Con ℝ} {o}
    (h : constraintObject n R k = some o) (hk : FrameKeeps R k) (x : SVec n) (hx : quatOf x ≠ 0) (u : CVec n) (a : Fin o.1) :
    GradAt (fun y => o.2.value y u a) (o.2.stateJac x u (fun _ _ => 0) a) x ∧ GradAt (fun v => o.2.value x v a) (o.2.ctrlJac x u (fun _ _ => 0) a) u := by
  cases k <;> simp only [constraintObject, Option.some.injEq] at h
  case centroidalMomentum => subst h; exact C64_jacobians R.server R.norm R.fuel R.order R.order' 0 hm hM x hx u a
  case comPosition => subst h; exact C65_jacobians R.server R.rot R.fuel R.leftover 0 hm hM x hx u a
  case quaternionNorm => subst h; exact quaternion_jac 0 x u a
  case feetRelativeHeight => subst h; exact feetRelativeHeight_jac _ x u a
  case contactPosition =>
    split at h
    · cases h
      exact C66_jacobians_partial R.server hcfg hR _ hk R.leftover _ _ _ 0 hm x hx u a
    · cases h
  all_goals
    split at h
    · cases h
      first
        | exact C67_jacobians _ _ _ _ _ _ hm x u a
        | exact planarVelocity_jac _ _ _ _ _ _ x u a
        | exact planar_jac _ _ _ x u a
        | exact dynamical_jac _ _ _ _ x u a
        | exact forceControl_jac _ _ _ _ _ x u a
        | exact classical_jac _ _ _ x u a
        | exact friction_jac _ _ _ x u a
    · cases h

theorem seg_lt {B : Type} {b : B} {k0 len : ℕ} {p : Idx B} (h : p ∈ seg b k0 len) : p.1 = b ∧ p.2 < k0 + len := by
  simp only [seg, List.mem_map, List.mem_range] at h
  obtain ⟨i, hi, rfl⟩ := h
  exact ⟨rfl, by dsimp only; omega⟩

theorem dense_right {ρ κ : Type} {rows : List ρ} {cols : List κ} {a : ρ} {p : κ} (h : (a, p) ∈ dense rows cols) : p ∈ cols := by
  simp only [dense, List.mem_flatMap, List.mem_map, Prod.mk.injEq] at h
  obtain ⟨_, _, _, hp, _, rfl⟩ := h
  exact hp

theorem diag_right {ρ κ : Type} {rows : List ρ} {cols : List κ} {a : ρ} {p : κ} (h : (a, p) ∈ diag rows cols) : p ∈ cols := (List.of_mem_zip h).2

theorem seg_state {b : SBlk n} {k0 len : ℕ} {p : Idx (SBlk n)} (h : p ∈ seg b k0 len) (hs : k0 + len ≤ SolverM.stateSize nj b) : p.2 < SolverM.stateSize nj p.1 := by
  obtain ⟨h1, h2⟩ := seg_lt h
  rw [h1]; omega

theorem seg_control {b : CBlk n} {k0 len : ℕ} {p : Idx (CBlk n)} (h : p ∈ seg b k0 len) (hs : k0 + len ≤ SolverM.controlSize nj b) : p.2 < SolverM.controlSize nj p.1 := by
  obtain ⟨h1, h2⟩ := seg_lt h
  rw [h1]; omega

/-- The declared entries are inside their ranges. -/
theorem object_columns {k : SolverM.Con ℝ} {o} (h : constraintObject n R k = some o) :
    (∀ a p, (a, p) ∈ o.2.stateJacPat → p.2 < SolverM.stateSize nj p.1) ∧ ∀ a p, (a, p) ∈ o.2.ctrlJacPat → p.2 < SolverM.controlSize nj p.1 := by
  cases k <;> simp only [constraintObject, Option.some.injEq] at h
  case centroidalMomentum =>
    subst h
    refine ⟨fun a p hp => ?_, fun a p hp => ?_⟩
    · rcases List.mem_append.1 hp with hp | hp
      · rcases List.mem_append.1 hp with hp | hp
        · exact seg_state (dense_right hp) (by simp [SolverM.stateSize])
        · exact seg_state (diag_right hp) (by simp [SolverM.stateSize])
      · exact seg_state (dense_right hp) (by simp [SolverM.stateSize])
    · rcases List.mem_append.1 hp with hp | hp
      · rcases List.mem_append.1 hp with hp | hp
        · exact seg_control (dense_right hp) (by simp [SolverM.controlSize])
        · exact seg_control (dense_right hp) (by simp [SolverM.controlSize])
      · exact seg_control (dense_right hp) (by simp [SolverM.controlSize])
  case comPosition =>
    subst h
    refine ⟨fun a p hp => ?_, fun a p hp => absurd hp List.not_mem_nil⟩
    rcases List.mem_append.1 hp with hp | hp
    · rcases List.mem_append.1 hp with hp | hp
      · rcases List.mem_append.1 hp with hp | hp
        · exact seg_state (diag_right hp) (by simp [SolverM.stateSize])
        · exact seg_state (dense_right hp) (by simp [SolverM.stateSize])
      · exact seg_state (dense_right hp) (by simp [SolverM.stateSize])
    · exact seg_state (diag_right hp) (by simp [SolverM.stateSize])
  case quaternionNorm =>
    subst h
    exact ⟨fun a p hp => seg_state (dense_right hp) (by simp [SolverM.stateSize]), fun a p hp => absurd hp List.not_mem_nil⟩
  case feetRelativeHeight =>
    subst h
    refine ⟨fun a p hp => ?_, fun a p hp => absurd hp List.not_mem_nil⟩
    rcases List.mem_append.1 hp with hp | hp
    all_goals
      obtain ⟨i, -, e⟩ := List.mem_map.1 hp
      cases e
      simp [SolverM.stateSize]
  case contactPosition =>
    split at h
    · cases h
      refine ⟨fun a p hp => ?_, fun a p hp => absurd hp List.not_mem_nil⟩
      rcases List.mem_append.1 hp with hp | hp
      · rcases List.mem_append.1 hp with hp | hp
        · rcases List.mem_append.1 hp with hp | hp
          · exact seg_state (diag_right hp) (by simp [SolverM.stateSize])
          · exact seg_state (dense_right hp) (by simp [SolverM.stateSize])
        · exact seg_state (dense_right hp) (by simp [SolverM.stateSize])
      · exact seg_state (diag_right hp) (by simp [SolverM.stateSize])
    · cases h
  case feetLateralDistance =>
    split at h
    · cases h
      exact ⟨fun a p hp => seg_state (dense_right hp) (by simp [SolverM.stateSize]), fun a p hp => absurd hp List.not_mem_nil⟩
    · cases h
  case friction =>
    split at h
    · cases h
      exact ⟨fun a p hp => seg_state (dense_right hp) (by simp [SolverM.stateSize]), fun a p hp => absurd hp List.not_mem_nil⟩
    · cases h
  case planarVelocityControl =>
    split at h
    · cases h
      refine ⟨fun a p hp => ?_, fun a p hp => ?_⟩
      · obtain rfl := List.mem_singleton.1 (dense_right hp)
        simp [SolverM.stateSize]
      · rcases List.mem_append.1 hp with hp | hp
        all_goals exact seg_control (diag_right hp) (by simp [SolverM.controlSize])
    · cases h
  all_goals
    split at h
    · cases h
      refine ⟨fun a p hp => ?_, fun a p hp => ?_⟩
      all_goals
        simp only [classicalPlanarComplementarity, dynamicalComplementarity, contactForceControl, classicalComplementarity, List.mem_cons, List.not_mem_nil, or_false,
          Prod.mk.injEq] at hp <;>
        first
          | exact Or.elim hp (fun h2 => by rw [h2.2]; simp [SolverM.stateSize, SolverM.controlSize]) fun h2 => by rw [h2.2]; simp [SolverM.stateSize, SolverM.controlSize]
          | (rw [hp.2]; simp [SolverM.stateSize, SolverM.controlSize])
    · cases h

variable {r : Ranges} (sv cv : List ℝ)

/-- What is right of a row: the derivatives, and the declared entries. -/
def RowRight (n nj : ℕ) (G : List ℝ → List ℝ → Option ℝ) (row : StackRow) : Prop :=
  (∀ i < 12 * n + 16 + nj, Spec.PartialDerivative (fun v => G v cv) sv i (row.state i)) ∧
  (∀ i < 12 * n + 7 + nj, Spec.PartialDerivative (fun w => G sv w) cv i (row.control i)) ∧
  (∀ i, row.state i ≠ 0 → row.stateDeclared i) ∧ (∀ i, row.control i ≠ 0 → row.controlDeclared i)

theorem rows_length {k : ℕ} (c : Constraint (Idx (SBlk n)) (Idx (CBlk n)) k) (x : SVec n) (u : CVec n) : (rowsOf r c x u).length = k := by simp [rowsOf]

theorem place_column {p : Idx (SBlk n)} {i : ℕ} (h : StatePlace r p i) : StateColumn r p i := by
  obtain ⟨rg, h1, -, h2⟩ := h
  exact ⟨rg, h1, h2⟩

theorem place_column' {p : Idx (CBlk n)} {i : ℕ} (h : ControlPlace r p i) : ControlColumn r p i := by
  obtain ⟨rg, h1, -, h2⟩ := h
  exact ⟨rg, h1, h2⟩

theorem vector_place (g : SVec n) {i : ℕ} (h : stateVectorOf r g i ≠ 0) : ∃ p, StatePlace r p i ∧ g p ≠ 0 := by
  unfold stateVectorOf at h
  split_ifs at h with h'
  · exact ⟨_, h'.choose_spec, h⟩
  · exact absurd rfl h

theorem vector_place' (g : CVec n) {i : ℕ} (h : controlVectorOf r g i ≠ 0) : ∃ p, ControlPlace r p i ∧ g p ≠ 0 := by
  unfold controlVectorOf at h
  split_ifs at h with h'
  · exact ⟨_, h'.choose_spec, h⟩
  · exact absurd rfl h

section
variable (hL : Labels r n nj) (hsv : sv.length = 12 * n + 16 + nj) (hcv : cv.length = 12 * n + 7 + nj)
include hL hsv hcv

theorem rows_right {k : ℕ} (c : Constraint (Idx (SBlk n)) (Idx (CBlk n)) k) (hs : SparsityCovers c)
    (hJ : ∀ a, GradAt (fun y => c.value y (readControl r cv) a) (c.stateJac (readState r sv) (readControl r cv) (fun _ _ => 0) a) (readState r sv) ∧
      GradAt (fun v => c.value (readState r sv) v a) (c.ctrlJac (readState r sv) (readControl r cv) (fun _ _ => 0) a) (readControl r cv))
    (a : ℕ) (row : StackRow) (h : (rowsOf r c (readState (n := n) r sv) (readControl (n := n) r cv))[a]? = some row) :
    RowRight sv cv n nj (fun v w => ((rowsOf r c (readState (n := n) r v) (readControl (n := n) r w))[a]?).map (·.value)) row := by
  have ha : a < k := by
    have := (List.getElem?_eq_some_iff.1 h).1
    rwa [rows_length] at this
  have key : ∀ x u, (rowsOf r c x u)[a]? = some
    { value := c.value x u ⟨a, ha⟩
      lower := c.lower.map (· ⟨a, ha⟩)
      upper := c.upper.map (· ⟨a, ha⟩)
      state := stateVectorOf r (c.stateJac x u (fun _ _ => 0) ⟨a, ha⟩)
      control := controlVectorOf r (c.ctrlJac x u (fun _ _ => 0) ⟨a, ha⟩)
      stateDeclared := fun i => ∃ p, (⟨a, ha⟩, p) ∈ c.stateJacPat ∧ StateColumn r p i
      controlDeclared := fun i => ∃ p, (⟨a, ha⟩, p) ∈ c.ctrlJacPat ∧ ControlColumn r p i } := fun x u => by
    simp [rowsOf, ha]
  rw [key] at h
  obtain rfl := Option.some.inj h
  refine ⟨fun i hi => ⟨fun b => c.value (readState r (sv.set i b)) (readControl r cv) ⟨a, ha⟩, fun b => by dsimp only; rw [key]; rfl, ?_⟩,
    fun i hi => ⟨fun b => c.value (readState r sv) (readControl r (cv.set i b)) ⟨a, ha⟩, fun b => by dsimp only; rw [key]; rfl, ?_⟩, fun i hi => ?_, fun i hi => ?_⟩
  · exact deriv_state hL sv hsv (fun y => c.value y (readControl r cv) ⟨a, ha⟩) _ (hJ ⟨a, ha⟩).1 i hi
  · exact deriv_control hL cv hcv (fun w => c.value (readState r sv) w ⟨a, ha⟩) _ (hJ ⟨a, ha⟩).2 i hi
  · obtain ⟨p, h1, h2⟩ := vector_place _ hi
    exact ⟨p, hs.1 _ _ _ _ h2, place_column h1⟩
  · obtain ⟨p, h1, h2⟩ := vector_place' _ hi
    exact ⟨p, hs.2.1 _ _ _ _ h2, place_column' h1⟩

theorem stack_right {cfg : Levi.Ex.Cfg ℝ} (hcfg : Levi.Spec.Sound cfg) (hR : R.rot.Made cfg) (hm : m.Regular) (hM : massOf m ≠ 0)
    (hx : quatOf (readState (n := n) r sv) ≠ 0) (l : List (SolverM.Con ℝ)) (hk : ∀ k ∈ l, FrameKeeps R k) (a : ℕ) (row : StackRow) (h : (stack R r n l sv cv)[a]? = some row) :
    RowRight sv cv n nj (fun v w => ((stack R r n l v w)[a]?).map (·.value)) row := by
  induction l generalizing a with
  | nil => simp [stack] at h
  | cons k l ih =>
    have ih := ih fun j hj => hk j (List.mem_cons_of_mem _ hj)
    cases ho : constraintObject n R k with
    | none =>
      have e : ∀ v w, stack R r n (k :: l) v w = stack R r n l v w := fun v w => by simp [stack, ho]
      simp only [e] at h ⊢
      exact ih a h
    | some o =>
      have e : ∀ v w, stack R r n (k :: l) v w = rowsOf r o.2 (readState (n := n) r v) (readControl (n := n) r w) ++ stack R r n l v w := fun v w => by simp [stack, ho]
      simp only [e] at h ⊢
      by_cases hlt : a < o.1
      · have e1 : ∀ v w, (rowsOf r o.2 (readState (n := n) r v) (readControl (n := n) r w) ++ stack R r n l v w)[a]? =
            (rowsOf r o.2 (readState (n := n) r v) (readControl (n := n) r w))[a]? := fun v w => List.getElem?_append_left (by rw [rows_length]; exact hlt)
        simp only [e1] at h ⊢
        exact rows_right sv cv hL hsv hcv o.2 (object_sparsity R ho) (fun b => object_jacobian R hcfg hR hm hM ho (hk k List.mem_cons_self) _ hx _ b) a row h
      · have e1 : ∀ v w, (rowsOf r o.2 (readState (n := n) r v) (readControl (n := n) r w) ++ stack R r n l v w)[a]? = (stack R r n l v w)[a - o.1]? := fun v w => by
          rw [List.getElem?_append_right (by rw [rows_length]; omega), rows_length]
        simp only [e1] at h ⊢
        exact ih _ h

end

/-! ### The bounds and the declared columns -/

theorem ofFn_forall {α : Type} {k : ℕ} (f : Fin k → α) (P : α → Prop) : (∀ y ∈ List.ofFn f, P y) ↔ ∀ a, P (f a) := by
  constructor
  · intro h a
    exact h _ ((List.mem_ofFn).2 ⟨a, rfl⟩)
  · rintro h y hy
    obtain ⟨a, rfl⟩ := (List.mem_ofFn).1 hy
    exact h a

theorem rows_within {k : ℕ} (c : Constraint (Idx (SBlk n)) (Idx (CBlk n)) k) (x : SVec n) (u : CVec n) : (∀ row ∈ rowsOf r c x u, row.Within) ↔ c.Holds x u := by
  unfold rowsOf
  rw [ofFn_forall]
  unfold StackRow.Within Constraint.Holds
  rw [forall_and]
  refine and_congr ?_ ?_
  · cases c.lower with
    | none => simp
    | some l => simp
  · cases c.upper with
    | none => simp
    | some l => simp

theorem mem_stack {l : List (SolverM.Con ℝ)} {row : StackRow} : row ∈ stack R r n l sv cv ↔
    ∃ k ∈ l, ∃ o, constraintObject n R k = some o ∧ row ∈ rowsOf r o.2 (readState (n := n) r sv) (readControl (n := n) r cv) := by
  simp only [stack, List.mem_flatMap]
  refine exists_congr fun k => and_congr_right fun _ => ?_
  cases constraintObject n R k <;> simp

theorem rows_columns (hr : r = rangesAt nj n) {k : SolverM.Con ℝ} {o} (ho : constraintObject n R k = some o) {x : SVec n} {u : CVec n} {row : StackRow}
    (h : row ∈ rowsOf r o.2 x u) : (∀ i, row.stateDeclared i → i < 12 * n + 16 + nj) ∧ ∀ i, row.controlDeclared i → i < 12 * n + 7 + nj := by
  subst hr
  obtain ⟨a, rfl⟩ := (List.mem_ofFn).1 h
  have hc := object_columns R ho
  refine ⟨?_, ?_⟩
  · rintro i ⟨p, h1, rg, h2, rfl⟩
    have h3 := hc.1 _ _ h1
    have hN := sizes_at nj n
    obtain ⟨b, e⟩ := p
    cases b with
    | force f j => cases f <;> (simp [stateRange, rangesAt, footAt] at h2; subst h2; have := j.2; simp only [SolverM.stateSize] at h3; simp; omega)
    | pos f j => cases f <;> (simp [stateRange, rangesAt, footAt] at h2; subst h2; have := j.2; simp only [SolverM.stateSize] at h3; simp; omega)
    | _ => cases h2; simp only [SolverM.stateSize] at h3; simp [rangesAt]; omega
  · rintro i ⟨p, h1, rg, h2, rfl⟩
    have h3 := hc.2 _ _ h1
    obtain ⟨b, e⟩ := p
    cases b with
    | forceCtl f j => cases f <;> (simp [controlRange, rangesAt, footAt] at h2; subst h2; have := j.2; simp only [SolverM.controlSize] at h3; simp; omega)
    | velCtl f j => cases f <;> (simp [controlRange, rangesAt, footAt] at h2; subst h2; have := j.2; simp only [SolverM.controlSize] at h3; simp; omega)
    | _ => cases h2; simp only [SolverM.controlSize] at h3; simp [rangesAt]; omega

/-! ### The constraints of the problem -/

section
variable {st : ProblemSettings ℝ T}

theorem point_object (hl : st.leftPointsPosition.length = n) (hr : st.rightPointsPosition.length = n) (hF : ∀ f, R.server.KeepsAxes (R.frame (SolverM.Spec.footFrame st f)))
    (f : Foot) (i : ℕ) (hi : i < n) {k : SolverM.Con ℝ} (hk : k ∈ pointCons st f i) : FrameKeeps R k ∧ ∃ o, constraintObject n R k = some o := by
  simp only [pointCons, List.mem_append, List.mem_ite_nil_right, List.mem_cons, List.not_mem_nil, or_false] at hk
  rcases hk with (⟨-, rfl⟩ | ⟨-, rfl⟩) | (⟨-, rfl⟩ | ⟨-, rfl⟩ | ⟨-, rfl⟩) | rfl | rfl
  all_goals refine ⟨?_, _, dif_pos hi⟩
  all_goals first | trivial | exact hF f

theorem all_object (hready : SolverM.Spec.ConstraintsReady st) (hl : st.leftPointsPosition.length = n) (hr : st.rightPointsPosition.length = n)
    (hF : ∀ f, R.server.KeepsAxes (R.frame (SolverM.Spec.footFrame st f))) {k : SolverM.Con ℝ} (hk : k ∈ allCons st) : FrameKeeps R k ∧ ∃ o, constraintObject n R k = some o := by
  rcases List.mem_append.1 hk with hk | hk
  · simp only [globalCons, List.mem_cons, List.not_mem_nil, or_false] at hk
    rcases hk with rfl | rfl | rfl | rfl | rfl
    · exact ⟨trivial, _, rfl⟩
    · exact ⟨trivial, _, rfl⟩
    · exact ⟨trivial, _, dif_pos hready.lateral⟩
    · exact ⟨trivial, _, rfl⟩
    · exact ⟨trivial, _, rfl⟩
  · rcases List.mem_append.1 hk with hk | hk
    all_goals
      obtain ⟨i, hi, hk⟩ := List.mem_flatMap.1 hk
      have hi := List.mem_range.1 hi
    · exact point_object R hl hr hF .left i (hl ▸ hi) hk
    · exact point_object R hl hr hF .right i (hr ▸ hi) hk

/-- C92: the optimiser is given, for the constraints of the problem: rows that are within their bounds exactly at the plans that are physically consistent (`Spec.Consistent`, C83);
for each row, a Jacobian that has the partial derivatives of that row with respect to each entry of the two vectors; and a sparsity pattern that declares all the entries that are
not zero, and no entry outside of the vectors. Partial: for the frames of the feet turned with respect to their links the Jacobian is wrong (C66). -/
theorem C92_jacobian_partial {accepts : List (SolverM.Con ℝ) → SolverM.Con ℝ → Bool} {l : List (SolverM.Con ℝ)}
    (h : setConstraints accepts st = some l) (hd : 0 ≤ st.minimumFeetDistance)
    (hl : st.leftPointsPosition.length = n) (hr : st.rightPointsPosition.length = n)
    {ls lc ls' lc' : Labeller ℝ} {r : Ranges} (hv : setVariablesStructure ls lc nj n = some (ls', lc', r)) (hM : Spec.mass m ≠ 0) (hm : m.Regular)
    {cfg : Levi.Ex.Cfg ℝ} (hcfg : Levi.Spec.Sound cfg) (hR : R.rot.Made cfg) (hF : ∀ f, R.server.KeepsAxes (R.frame (SolverM.Spec.footFrame st f)))
    {s : State ℝ} {c : Control ℝ} (q : V4 ℝ) (hq : Spec.quat q ≠ 0) (hs : StateSize nj n s) (hc : ControlSize nj n c) :
    ((∀ row ∈ stack R r n l (stateVector s q) (controlVector c), row.Within) ↔ Spec.Consistent R st s q c) ∧
    ∀ (a : ℕ) (row : StackRow), (stack R r n l (stateVector s q) (controlVector c))[a]? = some row →
      (∀ i < 12 * n + 16 + nj, Spec.PartialDerivative (fun v => ((stack R r n l v (controlVector c))[a]?).map (·.value)) (stateVector s q) i (row.state i)) ∧
      (∀ i < 12 * n + 7 + nj, Spec.PartialDerivative (fun w => ((stack R r n l (stateVector s q) w)[a]?).map (·.value)) (controlVector c) i (row.control i)) ∧
      (∀ i, row.state i ≠ 0 → row.stateDeclared i) ∧ (∀ i, row.control i ≠ 0 → row.controlDeclared i) ∧
      (∀ i, row.stateDeclared i → i < 12 * n + 16 + nj) ∧ (∀ i, row.controlDeclared i → i < 12 * n + 7 + nj) := by
  have hL := labels hv
  have hre := ranges_eq hv
  obtain ⟨hready, -, rfl⟩ := (setConstraints_iff l).1 h
  have hobj := fun {k} hk => all_object R hready hl hr hF (k := k) hk
  refine ⟨?_, fun a row hrow => ?_⟩
  · rw [← C83_feasible_iff_consistent R h hd hl hr hv hM q hs hc]
    constructor
    · intro H k hk
      obtain ⟨o, ho⟩ := (hobj hk).2
      exact (satisfied_object R _ _ k).2 ⟨o, ho, (rows_within (r := r) o.2 _ _).1 fun row hrow => H row ((mem_stack R _ _).2 ⟨k, hk, o, ho, hrow⟩)⟩
    · intro H row hrow
      obtain ⟨k, hk, o, ho, hrow⟩ := (mem_stack R _ _).1 hrow
      obtain ⟨o', ho', hh⟩ := (satisfied_object R _ _ k).1 (H k hk)
      rw [ho] at ho'
      cases ho'
      exact (rows_within (r := r) o.2 _ _).2 hh row hrow
  · have key := stack_right R (stateVector s q) (controlVector c) hL (state_len q hs) (control_len hc) hcfg hR hm hM
      (by rw [hre, read_quat q hs]; exact hq) (allCons st) (fun k hk => (hobj hk).1) a row hrow
    obtain ⟨k, hk, o, ho, hrow⟩ := (mem_stack R _ _).1 (List.mem_of_getElem? hrow)
    have cols := rows_columns R hre ho hrow
    exact ⟨key.1, key.2.1, key.2.2.1, key.2.2.2, cols.1, cols.2⟩

end

section Examples
open Sample
variable (norm : NormExprs) (order : List StateTask) (order' : List MixedTask) (leftover : Leftover 1) (stored : V3 ℝ)
variable (k : Settings.ComplementarityType) (pk : Settings.PlanarComplementarityType)

theorem Sample.feet_keep (rot : RotExprs) (f : Foot) : (objects rot norm order order' leftover stored).server.KeepsAxes
    ((objects rot norm order order' leftover stored).frame (SolverM.Spec.footFrame (settings k pk) f)) := by
  cases f
  · exact Server.keepsAxes_ofLink server 0
  · refine Server.keepsAxes_of_rotation server ?_
    simp [objects, settings, SolverM.Spec.footFrame, server, translation]

/-- The hypotheses of C92 hold for the robot with two legs, with all the mechanisms, and its rows are not empty. -/
example (labels : Labeller ℝ) {cfg : Levi.Ex.Cfg ℝ} (hcfg : Levi.Spec.Sound cfg) : ∃ rot l ls' lc' r, setConstraints SolverM.Spec.ocpConstraints (settings k pk) = some l ∧
    setVariablesStructure labels labels 1 1 = some (ls', lc', r) ∧ ∀ z w φ ψ, 9 ≤ (stack (objects rot norm order order' leftover stored) r 1 l
        (stateVector (Sample.state z w φ) upright) (controlVector (Sample.control w ψ))).length ∧
      ∀ (a : ℕ) (row : StackRow), (stack (objects rot norm order order' leftover stored) r 1 l
          (stateVector (Sample.state z w φ) upright) (controlVector (Sample.control w ψ)))[a]? = some row →
        ∀ i < 29, Spec.PartialDerivative (fun v => ((stack (objects rot norm order order' leftover stored) r 1 l v
          (controlVector (Sample.control w ψ)))[a]?).map (·.value)) (stateVector (Sample.state z w φ) upright) i (row.state i) := by
  obtain ⟨rot, hR⟩ := C65_expressions_exist hcfg
  obtain ⟨l, hl⟩ := Option.isSome_iff_exists.1 ((C54_constraints_set_iff (st := settings k pk)).2 (sample_ready k pk))
  obtain ⟨a, b, e, -⟩ := structure_ok labels labels 1 1
  refine ⟨rot, l, a, b, _, hl, e, fun z w φ ψ => ⟨?_, fun a row h => ?_⟩⟩
  · obtain ⟨-, -, rfl⟩ := (setConstraints_iff l).1 hl
    have : ∀ t, 9 ≤ (stack (objects rot norm order order' leftover stored) (rangesAt 1 1) 1 (globalCons (settings k pk) ++ t)
        (stateVector (Sample.state z w φ) upright) (controlVector (Sample.control w ψ))).length := fun t => by
      simp only [stack, globalCons, List.flatMap_append, List.flatMap_cons, List.length_append, constraintObject, rows_length, settings]
      rw [dif_pos (by norm_num : 1 < 3)]
      simp only [rows_length]
      omega
    exact this _
  · exact ((C92_jacobian_partial (objects rot norm order order' leftover stored) hl (by norm_num [settings]) rfl rfl e mass_ne biped_regular hcfg hR
      (Sample.feet_keep norm order order' leftover stored k pk rot) upright (by intro h; simpa [Spec.quat, upright] using congrFun h 0) (state_size z w φ) (control_size w ψ)).2 a row h).1

end Examples

end
end Verif.Plan
