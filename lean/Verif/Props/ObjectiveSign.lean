import Verif.Spec.ObjectiveSign
import Verif.Props.Objective
/- C97: what the optimiser minimises is bounded from below. -/
namespace Verif.Plan
open NLP NLP.Kin SolverM StateM Rigid Matrix
open Labeller (Labeller Range)
open SolverM.Spec (stateVector controlVector StateSize ControlSize Asked asked Realises)
noncomputable section
variable {n nj : ℕ} {L F T : Type} [DecidableEq L] [DecidableEq F] {m : Model L (Fin nj)} (R : CostObjects m F) (Q : Readings T) (t : ℝ)

theorem halfDistance_nonneg (w x r : List ℝ) (hw : ∀ a ∈ w, 0 ≤ a) : 0 ≤ Spec.halfDistance w x r := by
  unfold Spec.halfDistance
  apply List.sum_nonneg
  intro y hy
  obtain ⟨i, hi, rfl⟩ := List.mem_iff_getElem.1 hy
  rw [List.getElem_zipWith]
  have := hw _ (List.getElem_mem (l := w) (n := i) (by rw [List.length_zipWith] at hi; omega))
  positivity

theorem weights_nonneg (x : List ℝ) (w : Option (List ℝ)) (hw : ∀ v, w = some v → ∀ a ∈ v, 0 ≤ a) : ∀ a ∈ Spec.weights x w, 0 ≤ a := by
  cases w with
  | none =>
    intro a ha
    simp only [Spec.weights, Option.getD_none, List.mem_map] at ha
    obtain ⟨_, _, rfl⟩ := ha
    exact zero_le_one
  | some v => exact hw v rfl

theorem halfSquare_nonneg (w e : Vec) (h0 : 0 ≤ w 0) (h1 : 0 ≤ w 1) (h2 : 0 ≤ w 2) : 0 ≤ Spec.halfSquare w e := by
  unfold Spec.halfSquare
  positivity

theorem trace_rotations {A B : Matrix (Fin 3) (Fin 3) ℝ} (hA : A * Aᵀ = 1) (hB : B * Bᵀ = 1) : Matrix.trace (Aᵀ * B) ≤ 3 := by
  have a : Matrix.trace (A * Aᵀ) = 3 := by rw [hA, Matrix.trace_one]; simp
  have b : Matrix.trace (B * Bᵀ) = 3 := by rw [hB, Matrix.trace_one]; simp
  simp only [Matrix.trace, Matrix.diag_apply, Matrix.mul_apply, Matrix.transpose_apply, Fin.sum_univ_three] at a b ⊢
  nlinarith [sq_nonneg (A 0 0 - B 0 0), sq_nonneg (A 0 1 - B 0 1), sq_nonneg (A 0 2 - B 0 2), sq_nonneg (A 1 0 - B 1 0), sq_nonneg (A 1 1 - B 1 1), sq_nonneg (A 1 2 - B 1 2),
    sq_nonneg (A 2 0 - B 2 0), sq_nonneg (A 2 1 - B 2 1), sq_nonneg (A 2 2 - B 2 2)]

theorem one_sub_half_sqrt {x : ℝ} (h : x ≤ 3) : 0 ≤ 1 - Real.sqrt (1 + x) / 2 := by
  have : Real.sqrt (1 + x) ≤ 2 := by
    rw [Real.sqrt_le_left (by norm_num)]
    linarith
  linarith

theorem aimState_nonneg (quantity : State ℝ → V4 ℝ → List ℝ) (w : Option (List ℝ)) (ref : Option T) (k : SolverM.Cost) (s : State ℝ) (q : V4 ℝ) (c : Control ℝ)
    (hw : ∀ v, w = some v → ∀ a ∈ v, 0 ≤ a) {v : ℝ} (h : Spec.aimValue R Q t s q c k (.state quantity w ref) = some v) : 0 ≤ v := by
  simp only [Spec.aimValue, Option.map_eq_some_iff] at h
  obtain ⟨r, -, rfl⟩ := h
  exact halfDistance_nonneg _ _ _ (weights_nonneg _ _ hw)

theorem aimControl_nonneg (quantity : Control ℝ → List ℝ) (w : Option (List ℝ)) (ref : Option T) (k : SolverM.Cost) (s : State ℝ) (q : V4 ℝ) (c : Control ℝ)
    (hw : ∀ v, w = some v → ∀ a ∈ v, 0 ≤ a) {v : ℝ} (h : Spec.aimValue R Q t s q c k (.control quantity w ref) = some v) : 0 ≤ v := by
  simp only [Spec.aimValue, Option.map_eq_some_iff] at h
  obtain ⟨r, -, rfl⟩ := h
  exact halfDistance_nonneg _ _ _ (weights_nonneg _ _ hw)

theorem aimMomentum_nonneg (w : Option (List ℝ)) (ref : Option T) (k : SolverM.Cost) (s : State ℝ) (q : V4 ℝ) (c : Control ℝ)
    (hw : ∀ v, w = some v → ∀ a ∈ v, 0 ≤ a) {v : ℝ} (h : Spec.aimValue R Q t s q c k (.linearMomentum w ref) = some v) : 0 ≤ v := by
  simp only [Spec.aimValue, Option.map_eq_some_iff] at h
  obtain ⟨r, -, rfl⟩ := h
  exact halfDistance_nonneg _ _ _ (weights_nonneg _ _ hw)

theorem getD_nonneg {l : List ℝ} (h : ∀ x ∈ l, 0 ≤ x) (j : ℕ) : 0 ≤ l.getD j 0 := by
  rw [List.getD_eq_getElem?_getD]
  cases hj : l[j]? with
  | none => simp
  | some x => exact h x (List.mem_of_getElem? hj)

theorem frame_nonneg (frame : String) (ref weight : Option T) (s : State ℝ) (q : V4 ℝ) (c : Control ℝ)
    (hw : ∀ w, weight = some w → ∀ x, Q.number w t = some x → 0 ≤ x) (hR : ∀ r, ref = some r → ∀ A, Q.rotation r t = some A → A * Aᵀ = 1) {v : ℝ}
    (h : Spec.dedicated R Q t s q c .frameOrientation (.frameOrientation frame ref weight) = some v) : 0 ≤ v := by
  simp only [Spec.dedicated, Option.bind_eq_bind, Option.bind_eq_some_iff, Option.some.injEq] at h
  obtain ⟨Rd, h1, w, h2, rfl⟩ := h
  have o : Rd * Rdᵀ = 1 := by
    cases ref with
    | none => simp only [Option.map_none, Option.getD_none, Option.some.injEq] at h1; subst h1; simp
    | some r => exact hR r rfl Rd h1
  have hw0 : 0 ≤ w := by
    cases weight with
    | none => simp only [Option.map_none, Option.getD_none, Option.some.injEq] at h2; subst h2; exact zero_le_one
    | some r => exact hw r rfl w h2
  exact mul_nonneg hw0 (one_sub_half_sqrt (trace_rotations o (Spec.framePose R.toObjects s q frame).orthogonal))

theorem swing_nonneg (foot : SolverM.Foot) (i : ℕ) (height : ℝ) (w : V3 ℝ) (s : State ℝ) (q : V4 ℝ) (c : Control ℝ) (hw : 0 ≤ w.x ∧ 0 ≤ w.y ∧ 0 ≤ w.z) {v : ℝ}
    (h : Spec.dedicated R Q t s q c (.swing foot i) (.swing height w) = some v) : 0 ≤ v := by
  simp only [Spec.dedicated, Option.bind_eq_bind, Option.bind_eq_some_iff, Option.some.injEq] at h
  obtain ⟨p, -, u, -, rfl⟩ := h
  exact halfSquare_nonneg _ _ hw.1 hw.2.1 hw.2.2

theorem meanPoint_nonneg (ref weight : Option T) (s : State ℝ) (q : V4 ℝ) (c : Control ℝ)
    (hw : ∀ w, weight = some w → ∀ l, Q.vector w t = some l → ∀ x ∈ l, 0 ≤ x) {v : ℝ}
    (h : Spec.dedicated R Q t s q c .meanPointPosition (.meanPointPosition ref weight) = some v) : 0 ≤ v := by
  simp only [Spec.dedicated, Option.bind_eq_bind, Option.bind_eq_some_iff, Option.some.injEq] at h
  obtain ⟨d, -, w, h2, u, h3, rfl⟩ := h
  have hw0 : ∀ x ∈ w, 0 ≤ x := by
    cases weight with
    | none =>
      simp only [Option.map_none, Option.getD_none, Option.some.injEq] at h2
      subst h2
      simp
    | some r => exact hw r rfl w h2
  match w, h3, hw0 with
  | [a, b, e], h3, hw0 =>
    cases Option.some.inj h3
    exact halfSquare_nonneg _ _ (hw0 a (by simp)) (hw0 b (by simp)) (hw0 e (by simp))
  | [], h3, _ => cases h3
  | [_], h3, _ => cases h3
  | [_, _], h3, _ => cases h3
  | _ :: _ :: _ :: _ :: _, h3, _ => cases h3

/-- The costs without weights of their own. -/
theorem plain_nonneg (s : State ℝ) (q : V4 ℝ) (c : Control ℝ) (k : SolverM.Cost) (b : Body ℝ T) (h1 : ∀ a b' d, b ≠ .frameOrientation a b' d) (h2 : ∀ a b' d e f, b ≠ .staticTorques a b' d e f)
    (h3 : ∀ a b', b ≠ .swing a b') (h4 : ∀ a b', b ≠ .meanPointPosition a b') {v : ℝ} (h : Spec.dedicated R Q t s q c k b = some v) : 0 ≤ v := by
  unfold Spec.dedicated at h
  split at h
  · exact absurd rfl (h1 _ _ _)
  · simp only [Option.bind_eq_bind, Option.bind_eq_some_iff, Option.some.injEq] at h
    obtain ⟨p, -, rfl⟩ := h
    exact halfSquare_nonneg _ _ (by simp) (by simp) (by simp)
  · simp only [Option.bind_eq_bind, Option.bind_eq_some_iff, Option.some.injEq] at h
    obtain ⟨p, -, rfl⟩ := h
    positivity
  · exact absurd rfl (h2 _ _ _ _ _)
  · exact absurd rfl (h3 _ _)
  · simp only [Option.bind_eq_bind, Option.bind_eq_some_iff, Option.some.injEq] at h
    obtain ⟨p, -, rfl⟩ := h
    positivity
  · exact absurd rfl (h4 _ _)
  · simp only [Option.bind_eq_bind, Option.bind_eq_some_iff, Option.some.injEq] at h
    obtain ⟨_, -, _, -, _, -, _, -, _, -, _, -, _, -, rfl⟩ := h
    positivity
  · simp only [Option.some.injEq] at h
    subst h
    exact halfSquare_nonneg _ _ (by simp) (by simp) (by simp)
  · simp only [Option.bind_eq_bind, Option.bind_eq_some_iff] at h
    obtain ⟨_, -, _, -, h⟩ := h
    split_ifs at h
    cases Option.some.inj h
    exact Finset.sum_nonneg fun j _ => by positivity
  · simp only [Option.bind_eq_bind, Option.bind_eq_some_iff, Option.some.injEq] at h
    obtain ⟨_, -, _, -, rfl⟩ := h
    positivity
  · simp only [Option.bind_eq_bind, Option.bind_eq_some_iff, Option.some.injEq] at h
    obtain ⟨_, -, rfl⟩ := h
    exact halfSquare_nonneg _ _ (by simp) (by simp) (by simp)
  · cases h

theorem staticTorques_nonneg (a b : String) (d e : List (V3 ℝ)) (w : List ℝ) (s : State ℝ) (q : V4 ℝ) (c : Control ℝ) (hw : ∀ x ∈ w, 0 ≤ x) {v : ℝ}
    (h : Spec.dedicated R Q t s q c .staticTorques (.staticTorques a b d e w) = some v) : 0 ≤ v := by
  simp only [Spec.dedicated, Option.some.injEq] at h
  subst h
  exact mul_nonneg (by norm_num) (Finset.sum_nonneg fun j _ => mul_nonneg (getD_nonneg hw j) (sq_nonneg _))

theorem plain_aim (s : State ℝ) (q : V4 ℝ) (c : Control ℝ) (k : SolverM.Cost) (b : Body ℝ T) (h1 : ∀ a b' d, b ≠ .frameOrientation a b' d) (h2 : ∀ a b' d e f, b ≠ .staticTorques a b' d e f)
    (h3 : ∀ a b', b ≠ .swing a b') (h4 : ∀ a b', b ≠ .meanPointPosition a b') {v : ℝ} (h : Spec.aimValue R Q t s q c k (.dedicated b) = some v) : 0 ≤ v :=
  plain_nonneg R Q t s q c k b h1 h2 h3 h4 h

/-- None of the costs of the table measures a negative value. -/
theorem aim_nonneg {st : ProblemSettings ℝ T} (H : Spec.NonnegativeWeights Q st t) {k : SolverM.Cost} {a : Asked ℝ T} (hk : asked (Spec.ratioWeighted st) k = some a)
    (s : State ℝ) (q : V4 ℝ) (c : Control ℝ) {v : ℝ} (h : Spec.aimValue R Q t s q c k a.aim = some v) : 0 ≤ v := by
  cases k with
  | comPosition =>
    obtain ⟨h1, rfl⟩ := when_some hk
    exact aimState_nonneg R Q t _ _ _ _ s q c (fun v e => by cases e; exact H.com h1) h
  | comVelocity =>
    obtain ⟨h1, rfl⟩ := when_some hk
    exact aimMomentum_nonneg R Q t _ _ _ s q c (fun v e => by cases e; exact H.comVelocity h1) h
  | frameOrientation =>
    obtain ⟨h1, rfl⟩ := when_some hk
    exact frame_nonneg R Q t _ _ _ s q c (H.frame h1) (H.rotation h1) h
  | forceMean f i =>
    obtain ⟨h1, -, rfl⟩ := each_some hk
    refine plain_aim R Q t s q c _ _ ?_ ?_ ?_ ?_ h <;> nofun
  | forceRatio f i =>
    obtain ⟨h1, -, rfl⟩ := each_some hk
    refine plain_aim R Q t s q c _ _ ?_ ?_ ?_ ?_ h <;> nofun
  | jointsRegularization =>
    obtain ⟨h1, rfl⟩ := when_some hk
    exact aimState_nonneg R Q t _ _ _ _ s q c (fun v e => by cases e; exact H.jointsRegularization h1) h
  | jointsVelocity =>
    obtain ⟨h1, rfl⟩ := when_some hk
    exact aimControl_nonneg R Q t _ _ _ _ s q c (fun v e => by cases e; exact H.jointsVelocity h1) h
  | staticTorques =>
    obtain ⟨h1, rfl⟩ := when_some hk
    exact staticTorques_nonneg R Q t _ _ _ _ _ s q c (H.staticTorques h1) h
  | forceDerivative f i =>
    obtain ⟨h1, -, rfl⟩ := each_some hk
    exact aimControl_nonneg R Q t _ _ _ _ s q c (fun v e => by cases e; exact H.forceDerivative h1) h
  | pointAcceleration f i =>
    obtain ⟨h1, -, rfl⟩ := each_some hk
    exact aimControl_nonneg R Q t _ _ _ _ s q c (fun v e => by cases e; exact H.pointAcceleration h1) h
  | swing f i =>
    obtain ⟨h1, -, rfl⟩ := each_some hk
    exact swing_nonneg R Q t _ _ _ _ s q c (H.swing h1) h
  | phantomForces f i =>
    obtain ⟨h1, -, rfl⟩ := each_some hk
    refine plain_aim R Q t s q c _ _ ?_ ?_ ?_ ?_ h <;> nofun
  | meanPointPosition =>
    obtain ⟨h1, rfl⟩ := when_some hk
    exact meanPoint_nonneg R Q t _ _ s q c (H.meanPoint h1) h
  | footYaw f =>
    cases f <;>
    · obtain ⟨h1, rfl⟩ := when_some hk
      refine plain_aim R Q t s q c _ _ ?_ ?_ ?_ ?_ h <;> nofun
  | feetDistance =>
    obtain ⟨h1, rfl⟩ := when_some hk
    refine plain_aim R Q t s q c _ _ ?_ ?_ ?_ ?_ h <;> nofun
  | jointsVelocityForPostural =>
    obtain ⟨h1, rfl⟩ := when_some hk
    refine plain_aim R Q t s q c _ _ ?_ ?_ ?_ ?_ h <;> nofun
  | complementarity f i =>
    obtain ⟨h1, -, rfl⟩ := each_some hk
    refine plain_aim R Q t s q c _ _ ?_ ?_ ?_ ?_ h <;> nofun
  | basePosition =>
    obtain ⟨h1, rfl⟩ := when_some hk
    exact aimState_nonneg R Q t _ _ _ _ s q c (fun v e => by cases e; exact H.basePosition h1) h
  | baseQuaternion =>
    obtain ⟨h1, rfl⟩ := when_some hk
    exact aimState_nonneg R Q t _ _ _ _ s q c (fun v e => by cases e) h
  | frameAngularVelocity =>
    obtain ⟨h1, rfl⟩ := when_some hk
    refine plain_aim R Q t s q c _ _ ?_ ?_ ?_ ?_ h <;> nofun
  | baseLinearVelocity =>
    obtain ⟨h1, rfl⟩ := when_some hk
    exact aimControl_nonneg R Q t _ _ _ _ s q c (fun v e => by cases e; exact H.baseLinearVelocity h1) h
  | baseQuaternionVelocity =>
    obtain ⟨h1, rfl⟩ := when_some hk
    exact aimControl_nonneg R Q t _ _ _ _ s q c (fun v e => by cases e) h
  | angularMomentum =>
    obtain ⟨h1, rfl⟩ := when_some hk
    exact aimState_nonneg R Q t _ _ _ _ s q c (fun v e => by cases e) h

theorem total_sign (s : State ℝ) (q : V4 ℝ) (c : Control ℝ) (costs : List (SolverM.Cost × Asked ℝ T)) (hw : ∀ e ∈ costs, 0 ≤ e.2.weight)
    (hv : ∀ e ∈ costs, ∀ v, Spec.aimValue R Q t s q c e.1 e.2.aim = some v → 0 ≤ v) {x : ℝ} (h : Spec.total R Q t s q c costs = some x) :
    0 ≤ x ∧ (x = 0 ↔ ∀ e ∈ costs, 0 < e.2.weight → Spec.aimValue R Q t s q c e.1 e.2.aim = some 0) := by
  induction costs generalizing x with
  | nil =>
    simp only [Spec.total, List.mapM_nil] at h
    cases h
    simp
  | cons e l ih =>
    simp only [Spec.total, List.mapM_cons, Option.bind_eq_bind, Option.pure_def, Option.map_eq_some_iff, Option.bind_eq_some_iff, Option.some.injEq] at h
    obtain ⟨_, ⟨_, ⟨v, h1, rfl⟩, ys, h2, rfl⟩, rfl⟩ := h
    have ht : Spec.total R Q t s q c l = some ys.sum := by rw [Spec.total, h2]; rfl
    obtain ⟨i1, i2⟩ := ih (fun e he => hw e (List.mem_cons_of_mem _ he)) (fun e he => hv e (List.mem_cons_of_mem _ he)) ht
    have hw0 := hw e List.mem_cons_self
    have hv0 := hv e List.mem_cons_self v h1
    have hp := mul_nonneg hw0 hv0
    rw [List.sum_cons]
    refine ⟨add_nonneg hp i1, ?_⟩
    rw [add_eq_zero_iff_of_nonneg hp i1, i2, List.forall_mem_cons, h1, Option.some.injEq]
    refine and_congr_left fun _ => ?_
    constructor
    · intro hz hpos
      exact (mul_eq_zero.1 hz).resolve_left hpos.ne'
    · intro hz
      rcases hw0.eq_or_lt with h0 | h0
      · rw [← h0, zero_mul]
      · rw [hz h0, mul_zero]

/-- **C97.** When the variables and the costs are set without errors and the weights are not negative, at each time there is a number below which the value that the
optimiser sees never goes, whatever the state and the control are; the value is that number exactly when each active cost with a positive weight measures zero. The number is zero if
the constant part of the norms is added. -/
theorem C97_bounded_below {st : ProblemSettings ℝ T} (hm : m.Regular) {accepts : List (Term ℝ T) → Term ℝ T → Bool} {ls lc ls' lc' : Labeller ℝ} {r : Ranges} (hd : st.dofs = nj)
    (hv : setVariablesStructure ls lc nj n = some (ls', lc', r)) (hl : st.leftPointsPosition.length = n) (hr : st.rightPointsPosition.length = n) (hn : 0 < n)
    {terms : List (Term ℝ T)} (h : setCosts accepts st ls' lc' = some terms) (H : Spec.NonnegativeWeights Q st t) :
    ∃ least : ℝ, (R.constantPart = true → least = 0) ∧
      ∀ s q c, StateSize nj n s → ControlSize nj n c → Spec.Evaluable R Q t st s q → ∀ x, objectiveAt R Q r n terms t s q c = some x →
        least ≤ x ∧ (x = least ↔ ∀ k a, Spec.ActiveAt st t k a → 0 < a.weight → Spec.aimValue R Q t s q c k a.aim = some 0) := by
  obtain ⟨costs, offset, -, hc, ho, hobj⟩ := C87_objective R Q t hm hd hv hl hr hn h
  refine ⟨-offset, fun e => by rw [ho e, neg_zero], fun s q c hs hcs E x hx => ?_⟩
  rw [hobj s q c hs hcs E, Option.map_eq_some_iff] at hx
  obtain ⟨v, hv, rfl⟩ := hx
  obtain ⟨h1, h2⟩ := total_sign R Q t s q c costs (fun e he => H.overall e.1 e.2 ((hc _ _).1 he)) (fun e he w => aim_nonneg R Q t H ((hc e.1 e.2).1 he).1 s q c) hv
  refine ⟨by linarith, ?_⟩
  rw [sub_eq_neg_self, h2]
  constructor
  · intro g k a ha
    exact g (k, a) ((hc k a).2 ha)
  · rintro g ⟨k, a⟩ he
    exact g k a ((hc k a).1 he)

section Examples
open Sample
variable (rot : RotExprs) (norm : NormExprs) (order : List StateTask) (order' : List MixedTask) (leftover : Leftover 1) (stored : V3 ℝ) (held : Held 1)

/-- The weights of the twelve kinds of costs of the examples of C87 are not negative. -/
theorem Sample.busy_weights : Spec.NonnegativeWeights Sample.readings Sample.busy 0 where
  overall := by
    intro k a h
    have := h.1
    cases k <;> try simp [asked, SolverM.Spec.when, SolverM.Spec.eachPoint, Spec.ratioWeighted, Sample.busy, Sample.settings] at this
    all_goals first
      | (subst this; norm_num)
      | (obtain ⟨_, rfl⟩ := this; norm_num)
      | (rename_i f; cases f <;> simp [asked, SolverM.Spec.when, Sample.busy, Sample.settings, Spec.ratioWeighted] at this)
  com := by simp [Sample.busy, Sample.settings]
  comVelocity := by simp [Sample.busy, Sample.settings]
  jointsRegularization := by simp [Sample.busy, Sample.settings]
  jointsVelocity := by simp [Sample.busy, Sample.settings]
  staticTorques := by simp [Sample.busy, Sample.settings]
  forceDerivative := by simp [Sample.busy, Sample.settings]
  pointAcceleration := by simp [Sample.busy, Sample.settings]
  swing := by simp [Sample.busy, Sample.settings]
  basePosition := by simp [Sample.busy, Sample.settings]
  baseLinearVelocity := by simp [Sample.busy, Sample.settings]
  frame := by simp [Sample.readings]
  meanPoint := by simp [Sample.readings]
  rotation := by simp [Sample.readings]

/-- The hypotheses of C97 hold with these costs: the value is never negative. -/
example (labels : Labeller ℝ) : ∃ terms ls' lc' r, setVariablesStructure labels labels 1 1 = some (ls', lc', r) ∧
    setCosts (SolverM.Spec.ocpCosts fun _ => true) Sample.busy ls' lc' = some terms ∧ ∀ z w φ ψ x,
      objectiveAt (Sample.costObjects rot norm order order' leftover stored held true) Sample.readings r 1 terms 0 (Sample.state z w φ) upright (Sample.control w ψ) = some x → 0 ≤ x := by
  obtain ⟨a, b, e, -⟩ := structure_ok labels labels 1 1
  obtain ⟨terms, ht⟩ := Option.isSome_iff_exists.1 ((C53_costs_set_iff (st := Sample.busy) (fun _ => true) e rfl rfl one_pos).2
    ⟨by constructor <;> simp [Sample.busy, Sample.settings], by constructor <;> simp⟩)
  obtain ⟨least, hz, H⟩ := C97_bounded_below (Sample.costObjects rot norm order order' leftover stored held true) Sample.readings 0 biped_regular rfl e rfl rfl one_pos ht Sample.busy_weights
  refine ⟨terms, a, b, _, e, ht, fun z w φ ψ x hx => ?_⟩
  rw [← hz rfl]
  exact (H _ _ _ (state_size z w φ) (control_size w ψ) (Sample.busy_evaluable rot norm order order' leftover stored held z w φ) x hx).1

/-- The cost of the centre of mass only, with any weight. -/
def Sample.comWeighted (weight : ℝ) : ProblemSettings ℝ Unit := { Sample.comOnly with comCostOverallWeight := weight }

/-- C97: the hypothesis on the weights is needed, and setting the costs does not check it (nor does `Settings`, whose checks never read the weight: Model/Settings.lean):
with a negative weight the costs are set and the value has no lower bound. -/
theorem C97_negative_weight (weight : ℝ) (hneg : weight < 0) (labels : Labeller ℝ) (constantPart : Bool) :
    ∃ terms ls' lc' r, setVariablesStructure labels labels 1 1 = some (ls', lc', r) ∧
      setCosts (SolverM.Spec.ocpCosts fun _ => true) (Sample.comWeighted weight) ls' lc' = some terms ∧
      ∀ bound : ℝ, ∃ s q c x, StateSize 1 1 s ∧ ControlSize 1 1 c ∧
        objectiveAt (Sample.costObjects rot norm order order' leftover stored held constantPart) Sample.readings r 1 terms (1 / 2) s q c = some x ∧ x < bound := by
  obtain ⟨a, b, e, -⟩ := structure_ok labels labels 1 1
  obtain ⟨terms, ht⟩ := Option.isSome_iff_exists.1 ((C53_costs_set_iff (st := Sample.comWeighted weight) (fun _ => true) e rfl rfl one_pos).2
    ⟨by constructor <;> simp [Sample.comWeighted, Sample.comOnly, Sample.settings], by constructor <;> simp⟩)
  obtain ⟨costs, off, hn, hc, -, H⟩ := C87_objective (Sample.costObjects rot norm order order' leftover stored held constantPart) Sample.readings (1 / 2) biped_regular rfl e rfl rfl one_pos ht
  have hcosts : ∃ a, costs = [(.comPosition, a)] ∧ a.weight = weight ∧ ∀ s q c, Spec.aimValue (Sample.costObjects rot norm order order' leftover stored held constantPart) Sample.readings (1 / 2) s q c .comPosition a.aim =
      some (Spec.halfDistance [1, 2, 3] (SolverM.Spec.three s.com) [0, 0, 1]) := by
    refine ⟨⟨weight, some ⟨0, 1⟩, .state (fun s _ => SolverM.Spec.three s.com) (some [1, 2, 3]) (some ())⟩, ?_, rfl, fun s q c => by
      simp [Spec.aimValue, Spec.reference, Sample.readings, Spec.weights, SolverM.Spec.three]⟩
    have only : ∀ x ∈ costs, x = (.comPosition, ⟨weight, some ⟨0, 1⟩, .state (fun s _ => SolverM.Spec.three s.com) (some [1, 2, 3]) (some ())⟩) := by
      rintro ⟨k, a⟩ hx
      have := ((hc k a).1 hx).1
      cases k <;> try simp [asked, SolverM.Spec.when, SolverM.Spec.eachPoint, Spec.ratioWeighted, Sample.comWeighted, Sample.comOnly, Sample.settings] at this
      · rw [← this]
      all_goals (rename_i f; cases f <;> simp [asked, SolverM.Spec.when, Sample.comWeighted, Sample.comOnly, Sample.settings, Spec.ratioWeighted] at this)
    have mem := (hc .comPosition ⟨weight, some ⟨0, 1⟩, .state (fun s _ => SolverM.Spec.three s.com) (some [1, 2, 3]) (some ())⟩).2
      ⟨by simp [asked, SolverM.Spec.when, Spec.ratioWeighted, Sample.comWeighted, Sample.comOnly, Sample.settings], by rintro r hr; cases hr; norm_num⟩
    match costs, hn, only, mem with
    | [], _, _, mem => simp at mem
    | [x], _, only, _ => rw [only x (by simp)]
    | x :: y :: l, hn, only, _ =>
      rw [only x (by simp), only y (by simp)] at hn
      simp at hn
  have value : ∀ z, objectiveAt (Sample.costObjects rot norm order order' leftover stored held constantPart) Sample.readings (rangesAt 1 1) 1 terms (1 / 2) (Sample.state z 0 0) upright
      (Sample.control 0 0) = some (weight * (1 / 2 * 3 * (z - 1) ^ 2) - off) := by
    intro z
    rw [H _ _ _ (state_size z 0 0) (control_size 0 0) ⟨fun h => by simp [Sample.comWeighted, Sample.comOnly, Sample.settings] at h,
      fun h => by simp [Sample.comWeighted, Sample.comOnly, Sample.settings] at h, fun h => by simp [Sample.comWeighted, Sample.comOnly, Sample.settings] at h⟩]
    obtain ⟨a, rfl, hw, hv⟩ := hcosts
    simp only [Spec.total, List.mapM_cons, List.mapM_nil, hw, hv]
    simp [Spec.halfDistance, SolverM.Spec.three, Sample.state]
  refine ⟨terms, a, b, _, e, ht, fun bound => ?_⟩
  -- far enough: with the square larger than the distance from the bound
  let y := |bound + off| / (-weight) + 1
  have hy : 1 ≤ y := by
    have : 0 ≤ |bound + off| / (-weight) := div_nonneg (abs_nonneg _) (by linarith)
    simpa [y] using this
  refine ⟨Sample.state (1 + y) 0 0, upright, Sample.control 0 0, _, state_size _ _ _, control_size _ _, value _, ?_⟩
  have h1 : -weight * y = |bound + off| + -weight := by
    have hne : -weight ≠ 0 := by
      intro h
      linarith
    show -weight * (|bound + off| / (-weight) + 1) = _
    rw [mul_add, mul_div_cancel₀ _ hne, mul_one]
  have h2 : -|bound + off| ≤ bound + off := neg_abs_le _
  have h3 : y ≤ y ^ 2 := by nlinarith
  have h4 : 1 + y - 1 = y := by ring
  rw [h4]
  nlinarith [mul_le_mul_of_nonneg_left h3 (by linarith : (0 : ℝ) ≤ -weight)]

/-- The weight minus one is an instance. -/
example (labels : Labeller ℝ) := C97_negative_weight rot norm order order' leftover stored held (-1) (by norm_num) labels true

end Examples

end
end Verif.Plan
