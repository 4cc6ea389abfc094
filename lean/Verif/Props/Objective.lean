import Verif.Lemmas.Objective
import Verif.Props.Plan
import Verif.Props.FrameOrientationCost
/- C87: the objective handed to the optimiser, in terms of the fields of the state and of the control. -/
set_option linter.unusedSectionVars false
set_option linter.unusedSimpArgs false
namespace Verif.Plan
open NLP NLP.Kin SolverM StateM Rigid Matrix
open Labeller (Labeller Range)
open SolverM.Spec (stateVector controlVector StateSize ControlSize Asked asked Realises)
noncomputable section
variable {n nj : ℕ} {L F T : Type} [DecidableEq L] [DecidableEq F] {m : Model L (Fin nj)} (R : CostObjects m F) (Q : Readings T) (t : ℝ)

/-- Specification: the sum of the values of some costs, each times its weight; `none` if one of them has no value. -/
def Spec.total (s : State ℝ) (q : V4 ℝ) (c : Control ℝ) (costs : List (SolverM.Cost × Asked ℝ T)) : Option ℝ :=
  (costs.mapM fun e => (Spec.aimValue R Q t s q c e.1 e.2.aim).map (e.2.weight * ·)).map List.sum

/-- Specification: the feet are on different links (C68), the library gives the quaternion of the orientation error (C69), the quaternion of the base is
not zero (C70), for the costs that need it. -/
structure Spec.Evaluable (st : ProblemSettings ℝ T) (s : State ℝ) (q : V4 ℝ) : Prop where
  torques : st.staticTorquesCostActive = true → R.server.frames.link (R.frame st.leftFrameName) ≠ R.server.frames.link (R.frame st.rightFrameName)
  orientation : st.frameCostActive = true → GivesQuaternion R.asQuaternion 1 ∧
    ∀ Rd, ((st.desiredRotationTrajectory.map Q.rotation).getD fun _ => some 1) t = some Rd →
      GivesQuaternion R.asQuaternion (Rdᵀ * (Spec.framePose R.toObjects s q st.frameForOrientationCost).R)
  velocity : st.frameAngularVelocityCostActive = true → Spec.quat q ≠ 0

/-- The segments are inside the vectors. -/
def Inside (d n : ℕ) : Body ℝ T → Prop
  | .stateNorm g _ _ | .linearMomentumNorm g _ _ => g.offset + g.size ≤ 12 * n + 16 + d
  | .controlNorm g _ _ => g.offset + g.size ≤ 12 * n + 7 + d
  | _ => True

theorem mem_one {b : Bool} {x y : Term ℝ T} (h : y ∈ (if b then [x] else [])) : y = x := by
  cases b
  · simp at h
  · simpa using h

variable {st : ProblemSettings ℝ T}

theorem mem_pts {b : Bool} {g : Foot → ℕ → Term ℝ T} {y : Term ℝ T} (hl : st.leftPointsPosition.length = n) (hr : st.rightPointsPosition.length = n)
    (h : y ∈ (if b then pointTerms st g else [])) : ∃ f i, i < n ∧ y = g f i := by
  cases b
  · simp at h
  · simp only [if_true, pointTerms, List.mem_append, List.mem_flatMap, List.mem_singleton, List.mem_range] at h
    rcases h with ⟨i, hi, e⟩ | ⟨i, hi, e⟩
    · exact ⟨.left, i, by omega, e⟩
    · exact ⟨.right, i, by omega, e⟩

theorem inside (hl : st.leftPointsPosition.length = n) (hr : st.rightPointsPosition.length = n) {y : Term ℝ T}
    (h : y ∈ costTerms st (rangesAt nj n)) : Inside nj n y.body := by
  rw [costTerms, List.mem_flatten] at h
  obtain ⟨l, hl', hy⟩ := h
  simp only [costBlocks, List.mem_cons, List.not_mem_nil, or_false] at hl'
  rcases hl' with rfl | rfl | rfl | rfl | rfl | rfl | rfl | rfl | rfl | rfl | rfl | rfl | rfl | rfl | rfl | rfl | rfl | rfl | rfl | rfl | rfl | rfl | rfl | rfl
  all_goals first
    | (obtain rfl := mem_one hy; simp only [Inside, rangesAt]; omega)
    | (obtain rfl := mem_one hy; trivial)
    | (obtain ⟨f, i, hi, rfl⟩ := mem_pts hl hr hy; trivial)
    | (obtain ⟨f, i, hi, rfl⟩ := mem_pts hl hr hy
       have := sizes_at nj n
       cases f <;> simp [Inside, forceControlRange, velocityControlRange, rangeAt, rangesAt, footAt, List.getD_eq_getElem?_getD, hi] <;> omega)

theorem when_some {b : Bool} {a x : Asked ℝ T} (h : SolverM.Spec.when b a = some x) : b = true ∧ a = x := by
  cases b
  · simp [SolverM.Spec.when] at h
  · exact ⟨rfl, by simpa [SolverM.Spec.when] using h⟩

theorem each_some {f : Foot} {i : ℕ} {b : Bool} {a x : Asked ℝ T} (h : SolverM.Spec.eachPoint st b f i a = some x) :
    b = true ∧ i < (SolverM.Spec.footPoints st f).length ∧ a = x := by
  unfold SolverM.Spec.eachPoint at h
  split_ifs at h with h'
  exact ⟨h'.1, h'.2, by simpa using h⟩

theorem select_len (g : Range) (v : List ℝ) (h : g.offset + g.size ≤ v.length) : (SolverM.Spec.select g v).length = g.size := by
  simp [SolverM.Spec.select]; omega

theorem state_len {s : State ℝ} (q : V4 ℝ) (hs : StateSize nj n s) : (stateVector s q).length = 12 * n + 16 + nj := by
  have := pts_length hs
  have hj := hs.joints
  simp only [stateVector, List.length_append, List.length_cons, List.length_nil] at this ⊢
  omega

theorem control_len {c : Control ℝ} (hc : ControlSize nj n c) : (controlVector c).length = 12 * n + 7 + nj := by
  have := ctl_length hc
  have hj := hc.joints
  simp only [controlVector, List.length_append, List.length_cons, List.length_nil] at this ⊢
  omega

/-- The value of a norm. -/
theorem norm_value (w : Option (List ℝ)) (ref : Option T) (size : ℕ) : ∃ off : ℝ, (R.constantPart = true → off = 0) ∧
    ∀ x : List ℝ, x.length = size → (normReference Q size t ref).map (fun r => normValue R.constantPart (normWeights size w) x r) =
      ((Spec.reference Q x t ref).map fun r => Spec.halfDistance (Spec.weights x w) x r).map (· - off) := by
  refine ⟨if R.constantPart then 0 else ((normReference Q size t ref).map (normOffset (normWeights size w))).getD 0, fun h => by rw [h]; rfl, fun x hx => ?_⟩
  have hw : normWeights size w = Spec.weights x w := by cases w <;> simp [normWeights, Spec.weights, hx]
  have hr : Spec.reference Q x t ref = normReference Q size t ref := by
    cases ref with
    | none => simp [Spec.reference, normReference, hx]
    | some r =>
      simp only [Spec.reference, normReference]
      cases Q.vector r t with
      | none => rfl
      | some v => simp [Option.filter, hx]
  rw [hw, hr]
  cases h : normReference Q size t ref with
  | none => rfl
  | some r =>
    have hl : x.length = r.length := by
      cases ref with
      | none => simp [normReference] at h; rw [← h]; simp [hx]
      | some f =>
        simp only [normReference] at h
        cases hv : Q.vector f t with
        | none => rw [hv] at h; simp at h
        | some v =>
          rw [hv] at h
          simp at h
          rw [← h.2, h.1, hx]
    simp only [Option.map_some, Option.getD_some, Option.some.injEq]
    exact norm_eq _ _ _ _ hl


theorem momentum_value (w : Option (List ℝ)) (ref : Option T) (size : ℕ) : ∃ off : ℝ, (R.constantPart = true → off = 0) ∧
    ∀ x : List ℝ, x.length = size → x.length = 3 → (momentumReference Q (Dynamics.totalMass (m.links.map fun k => (m.inertia k).mass)) size t ref).map
        (fun r => normValue R.constantPart (normWeights size w) x r) =
      ((Spec.reference Q x t ref).map fun v => Spec.halfDistance (Spec.weights x w) x (v.map fun y => Spec.mass m * y)).map (· - off) := by
  have hM : Dynamics.totalMass (m.links.map fun k => (m.inertia k).mass) = Spec.mass m := by
    rw [Dynamics.totalMass, Spec.mass, List.sum_eq_foldl]
  rw [hM]
  refine ⟨if R.constantPart then 0 else ((momentumReference Q (Spec.mass m) size t ref).map (normOffset (normWeights size w))).getD 0,
    fun h => by rw [h]; rfl, fun x hx h3 => ?_⟩
  have hw : normWeights size w = Spec.weights x w := by cases w <;> simp [normWeights, Spec.weights, hx]
  rw [hw]
  cases ref with
  | none =>
    simp only [momentumReference, Spec.reference, Option.map_some, Option.getD_some, Option.some.injEq]
    rw [norm_eq _ _ _ _ (by simp [hx])]
    simp [hx]
  | some r =>
    simp only [momentumReference, Spec.reference]
    cases hv : Q.vector r t with
    | none => simp [linearMomentumReference]
    | some v =>
      by_cases hl : v.length = 3
      · simp only [linearMomentumReference, Option.getD_some, Option.isSome_some, Bool.true_eq_false, if_false, hl, ne_eq, not_true, if_true, Option.map_some]
        simp only [Option.filter, h3, hl, decide_true, if_true, Option.map_some, Option.some.injEq]
        exact norm_eq _ _ _ _ (by simp [hl, h3])
      · simp [linearMomentumReference, hl, Option.filter, h3]

theorem asked_with (k : SolverM.Cost) : asked (Spec.ratioWeighted st) k = askedWith st st.forceMeanCostOverallWeight k := by
  cases k with
  | forceRatio f i =>
    cases f
    all_goals
      show SolverM.Spec.eachPoint (Spec.ratioWeighted st) _ _ _ _ = (SolverM.Spec.eachPoint st _ _ _ _).map _
      unfold SolverM.Spec.eachPoint
    · by_cases h : st.forceRatioCostActive = true ∧ i < (SolverM.Spec.footPoints st .left).length
      · rw [if_pos h, Option.map_some]; exact if_pos h
      · rw [if_neg h, Option.map_none]; exact if_neg h
    · by_cases h : st.forceRatioCostActive = true ∧ i < (SolverM.Spec.footPoints st .right).length
      · rw [if_pos h, Option.map_some]; exact if_pos h
      · rw [if_neg h, Option.map_none]; exact if_neg h
  | footYaw f => cases f <;> rfl
  | forceMean f i | forceDerivative f i | pointAcceleration f i | swing f i | phantomForces f i | complementarity f i => cases f <;> rfl
  | _ => rfl

/-- What each cost of the problem evaluates to. -/
theorem body_value (hm : m.Regular) (hl : st.leftPointsPosition.length = n) (hr : st.rightPointsPosition.length = n) (k : SolverM.Cost) (b : Body ℝ T) (a : Asked ℝ T)
    (ha : asked (Spec.ratioWeighted st) k = some a) (hR : Realises nj n b a.aim) (hI : Inside nj n b) : ∃ off : ℝ, (R.constantPart = true → off = 0) ∧
    ∀ s q c, StateSize nj n s → ControlSize nj n c → Spec.Evaluable R Q t st s q →
      evalBody R Q (readState (n := n) (rangesAt nj n) (stateVector s q)) (readControl (n := n) (rangesAt nj n) (controlVector c)) (stateVector s q) (controlVector c) t k b =
      (Spec.aimValue R Q t s q c k a.aim).map (· - off) := by
  obtain ⟨wt, range, aim⟩ := a
  have same : ∀ o : Option ℝ, o.map (· - 0) = o := fun o => by cases o <;> simp
  dsimp only at hR ⊢
  cases aim with
  | state quantity w ref =>
    cases b <;> simp only [Realises] at hR <;> try exact hR.elim
    rename_i g w' ref'
    obtain ⟨h1, rfl, rfl⟩ := hR
    obtain ⟨off, ho, hv⟩ := norm_value R Q t w' ref' g.size
    refine ⟨off, ho, fun s q c hs hc _ => ?_⟩
    have e := h1 s q hs
    simp only [evalBody, Spec.aimValue, ← e]
    exact hv _ (select_len _ _ (by rw [state_len q hs]; exact hI))
  | control quantity w ref =>
    cases b <;> simp only [Realises] at hR <;> try exact hR.elim
    rename_i g w' ref'
    obtain ⟨h1, rfl, rfl⟩ := hR
    obtain ⟨off, ho, hv⟩ := norm_value R Q t w' ref' g.size
    refine ⟨off, ho, fun s q c hs hc _ => ?_⟩
    have e := h1 c hc
    simp only [evalBody, Spec.aimValue, ← e]
    exact hv _ (select_len _ _ (by rw [control_len hc]; exact hI))
  | linearMomentum w ref =>
    cases b <;> simp only [Realises] at hR <;> try exact hR.elim
    rename_i g w' ref'
    obtain ⟨h1, rfl, rfl⟩ := hR
    obtain ⟨off, ho, hv⟩ := momentum_value R Q t w' ref' g.size
    refine ⟨off, ho, fun s q c hs hc _ => ?_⟩
    have e := h1 s q hs
    simp only [evalBody, Spec.aimValue, ← e]
    exact hv _ (select_len _ _ (by rw [state_len q hs]; exact hI)) ((congrArg List.length e).trans rfl)
  | dedicated b' =>
    have hb : b = b' := by cases b <;> exact hR
    subst hb
    refine ⟨0, fun _ => rfl, fun s q c hs hc E => ?_⟩
    rw [same]
    have hp : ∀ f, (SolverM.Spec.footPoints (Spec.ratioWeighted st) f).length = n := fun f => by cases f; exacts [hl, hr]
    cases k with
    | frameOrientation =>
      obtain ⟨h1, h2⟩ := when_some ha
      cases h2
      exact value_orientation R Q t q hs hc _ _ _ (E.orientation h1).1 (E.orientation h1).2
    | staticTorques =>
      obtain ⟨h1, h2⟩ := when_some ha
      cases h2
      exact value_torques R Q t q hs hc _ _ _ _ hl hr _ hm (E.torques h1)
    | frameAngularVelocity =>
      obtain ⟨h1, h2⟩ := when_some ha
      cases h2
      exact value_angularVelocity R Q t q hs hc _ _ _ hm (E.velocity h1)
    | feetDistance =>
      obtain ⟨h1, h2⟩ := when_some ha
      cases h2
      exact value_feetDistance R Q t q hs hc
    | meanPointPosition =>
      obtain ⟨h1, h2⟩ := when_some ha
      cases h2
      exact value_mean R Q t q hs hc _ _
    | jointsVelocityForPostural =>
      obtain ⟨h1, h2⟩ := when_some ha
      cases h2
      exact value_postural R Q t q hs hc _ _ _
    | footYaw f =>
      cases f
      all_goals
        obtain ⟨h1, h2⟩ := when_some ha
        cases h2
        exact value_footYaw R Q t q hs hc _ _ _
    | forceMean f i =>
      obtain ⟨h1, hi, h2⟩ := each_some ha
      rw [hp] at hi
      cases h2
      exact value_forceMean R Q t q hs hc f i hi
    | forceRatio f i =>
      obtain ⟨h1, hi, h2⟩ := each_some ha
      rw [hp] at hi
      cases h2
      exact value_forceRatio R Q t q hs hc f i hi _
    | swing f i =>
      obtain ⟨h1, hi, h2⟩ := each_some ha
      rw [hp] at hi
      cases h2
      exact value_swing R Q t q hs hc f i hi _ _
    | phantomForces f i =>
      obtain ⟨h1, hi, h2⟩ := each_some ha
      rw [hp] at hi
      cases h2
      exact value_phantom R Q t q hs hc f i hi _
    | complementarity f i =>
      obtain ⟨h1, hi, h2⟩ := each_some ha
      rw [hp] at hi
      cases h2
      exact value_complementarity R Q t q hs hc f i hi
    | forceDerivative f i =>
      obtain ⟨h1, hi, h2⟩ := each_some ha
      cases h2
    | pointAcceleration f i =>
      obtain ⟨h1, hi, h2⟩ := each_some ha
      cases h2
    | _ =>
      obtain ⟨h1, h2⟩ := when_some ha
      cases h2

/-- The term of the problem agrees with what is asked. -/
theorem term_asked (hd : st.dofs = nj) (hl : st.leftPointsPosition.length = n) (hr : st.rightPointsPosition.length = n) {y : Term ℝ T}
    (h : y ∈ costTerms st (rangesAt nj n)) : ∃ a, asked (Spec.ratioWeighted st) y.cost = some a ∧ SolverM.Spec.Honours nj n y a := by
  subst hd
  have hon := costs_honoured st n hl hr y.cost
  rw [← asked_with] at hon
  cases ha : asked (Spec.ratioWeighted st) y.cost with
  | none => rw [ha] at hon; exact absurd rfl (hon y h)
  | some a =>
    rw [ha] at hon
    obtain ⟨y', h1, h2⟩ := hon
    have : y ∈ [y'] := by rw [← h1, List.mem_filter]; exact ⟨h, by simp⟩
    obtain rfl := List.mem_singleton.1 this
    exact ⟨a, rfl, h2⟩

theorem isActive_iff (range : Option (Reference.TimeRange ℝ)) (t : ℝ) : isActive range t ↔ ∀ r, range = some r → r.initTime ≤ t ∧ t ≤ r.endTime := by
  cases range <;> simp [isActive]

open Classical in
theorem objective_eq (f : Term ℝ T → SolverM.Cost × Asked ℝ T) (off : Term ℝ T → ℝ) {s : State ℝ} {q : V4 ℝ} {c : Control ℝ} (l : List (Term ℝ T))
    (h : ∀ y ∈ l, (f y).2.weight = y.weight ∧
      evalBody R Q (readState (n := n) (rangesAt nj n) (stateVector s q)) (readControl (n := n) (rangesAt nj n) (controlVector c)) (stateVector s q) (controlVector c) t
        y.cost y.body = (Spec.aimValue R Q t s q c (f y).1 (f y).2.aim).map (· - off y)) :
    objective R Q (readState (n := n) (rangesAt nj n) (stateVector s q)) (readControl (n := n) (rangesAt nj n) (controlVector c)) (stateVector s q) (controlVector c) t l =
      (Spec.total R Q t s q c ((l.filter fun y => isActive y.range t).map f)).map
        (· - ((l.filter fun y => isActive y.range t).map fun y => y.weight * off y).sum) := by
  induction l with
  | nil => simp [objective, Spec.total]
  | cons y l ih =>
    have ih := ih fun z hz => h z (List.mem_cons_of_mem _ hz)
    obtain ⟨hw, hv⟩ := h y List.mem_cons_self
    unfold objective
    by_cases ha : isActive y.range t
    · rw [if_pos ha, List.filter_cons_of_pos (by simpa using ha), List.map_cons, List.map_cons, List.sum_cons, hv, ih]
      simp only [Spec.total, List.mapM_cons]
      cases Spec.aimValue R Q t s q c (f y).1 (f y).2.aim with
      | none => rfl
      | some v =>
        cases (((l.filter fun y => isActive y.range t).map f).mapM fun e => (Spec.aimValue R Q t s q c e.1 e.2.aim).map (e.2.weight * ·)) with
        | none => rfl
        | some vs =>
          simp [hw]
          ring
    · rw [if_neg ha, List.filter_cons_of_neg (by simpa using ha), ih]

/-- **C87.** When the variables and the costs are set without errors, whatever the optimal control problem accepts, the value that the optimiser sees at a
time, for the vectors of any state and any control, is the sum of what the costs asked by the settings and active at that time measure on the fields of the
state and of the control, each with its weight, except for a number that does not depend on the state and on the control (and is zero if the constant part of the
norms is added); there is no value exactly when one of the references used is not valid. -/
theorem C87_objective (hm : m.Regular) {accepts : List (Term ℝ T) → Term ℝ T → Bool} {ls lc ls' lc' : Labeller ℝ} {r : Ranges} (hd : st.dofs = nj)
    (hv : setVariablesStructure ls lc nj n = some (ls', lc', r)) (hl : st.leftPointsPosition.length = n) (hr : st.rightPointsPosition.length = n) (hn : 0 < n)
    {terms : List (Term ℝ T)} (h : setCosts accepts st ls' lc' = some terms) :
    ∃ (costs : List (SolverM.Cost × Asked ℝ T)) (offset : ℝ), (costs.map Prod.fst).Nodup ∧ (∀ k a, (k, a) ∈ costs ↔ Spec.ActiveAt st t k a) ∧
      (R.constantPart = true → offset = 0) ∧
      ∀ s q c, StateSize nj n s → ControlSize nj n c → Spec.Evaluable R Q t st s q →
        objectiveAt R Q r n terms t s q c = (Spec.total R Q t s q c costs).map (· - offset) := by
  obtain rfl := ranges_eq hv
  have hterms : terms = costTerms st (rangesAt nj n) := by
    subst hd
    exact ((costs_list hv hl hr hn terms).1 h).2.2
  subst hterms
  classical
  have hA : ∀ y : Term ℝ T, ∃ (a : Asked ℝ T) (off : ℝ), y ∈ costTerms st (rangesAt nj n) → asked (Spec.ratioWeighted st) y.cost = some a ∧ SolverM.Spec.Honours nj n y a ∧
      (R.constantPart = true → off = 0) ∧ ∀ s q c, StateSize nj n s → ControlSize nj n c → Spec.Evaluable R Q t st s q →
      evalBody R Q (readState (n := n) (rangesAt nj n) (stateVector s q)) (readControl (n := n) (rangesAt nj n) (controlVector c)) (stateVector s q) (controlVector c) t
        y.cost y.body = (Spec.aimValue R Q t s q c y.cost a.aim).map (· - off) := by
    intro y
    by_cases hy : y ∈ costTerms st (rangesAt nj n)
    · obtain ⟨a, h1, h2⟩ := term_asked hd hl hr hy
      obtain ⟨off, h3, h4⟩ := body_value R Q t hm hl hr y.cost y.body a h1 h2.aim (inside hl hr hy)
      exact ⟨a, off, fun _ => ⟨h1, h2, h3, h4⟩⟩
    · exact ⟨⟨0, none, .dedicated .feetDistance⟩, 0, fun h => absurd h hy⟩
  choose A off hA using hA
  refine ⟨((costTerms st (rangesAt nj n)).filter fun y => isActive y.range t).map fun y => (y.cost, A y),
    (((costTerms st (rangesAt nj n)).filter fun y => isActive y.range t).map fun y => y.weight * off y).sum, ?_, ?_, ?_, ?_⟩
  · rw [List.map_map]
    have hnd : ((costTerms st (rangesAt nj n)).map fun y => y.cost).Nodup := by
      subst hd
      have := terms_nodup (st := st) hl hr
      refine List.Nodup.of_map SolverM.Cost.name ?_
      rw [List.map_map]
      exact this
    exact hnd.sublist (List.filter_sublist.map _)
  · intro k a
    rw [List.mem_map]
    constructor
    · rintro ⟨y, hy, e⟩
      obtain ⟨hy, hact⟩ := List.mem_filter.1 hy
      cases e
      obtain ⟨h1, h2, -⟩ := hA y hy
      exact ⟨h1, (isActive_iff _ t).1 (by rw [← h2.range]; simpa using hact)⟩
    · rintro ⟨h1, h2⟩
      have h2 := (isActive_iff _ t).2 h2
      subst hd
      have hon := costs_honoured st n hl hr k
      rw [← asked_with, h1] at hon
      obtain ⟨y, hy, ho⟩ := hon
      have hy : y ∈ (costTerms st (rangesAt st.dofs n)).filter fun t => t.cost = k := by rw [hy]; exact List.mem_singleton_self y
      obtain ⟨hy, hk⟩ := List.mem_filter.1 hy
      have hk : y.cost = k := by simpa using hk
      refine ⟨y, List.mem_filter.2 ⟨hy, by rw [ho.range]; simpa using h2⟩, ?_⟩
      have := (hA y hy).1
      rw [hk, h1] at this
      rw [hk, Option.some.inj this]
  · intro hc
    apply List.sum_eq_zero
    intro x hx
    obtain ⟨y, hy, rfl⟩ := List.mem_map.1 hx
    rw [(hA y (List.mem_filter.1 hy).1).2.2.1 hc, mul_zero]
  · intro s q c hs hc E
    exact objective_eq R Q t (fun y => (y.cost, A y)) off _ fun y hy => ⟨(hA y hy).2.1.weight.symm, (hA y hy).2.2.2 s q c hs hc E⟩

section Examples
open Sample
variable (rot : RotExprs) (norm : NormExprs) (order : List StateTask) (order' : List MixedTask) (leftover : Leftover 1) (stored : V3 ℝ) (held : Held 1)

/-- The robot with two legs (Lemmas/PlanSample.lean), with the costs. -/
def Sample.costObjects (constantPart : Bool) : CostObjects biped (Option (Fin 2)) :=
  { Sample.objects rot norm order order' leftover stored with
    asQuaternion := Quaternion.traceQuaternion
    gravity := 981 / 100
    held := held
    constantPart := constantPart }

/-- Constant references. -/
def Sample.readings : Readings Unit where
  vector := fun _ _ => some [0, 0, 1]
  position := fun _ _ => some ⟨0, 0, 1⟩
  rotation := fun _ _ => some 1
  number := fun _ _ => some 1

/-- Twelve kinds of costs. -/
def Sample.busy : ProblemSettings ℝ Unit :=
  { Sample.settings .classical .classical with
    comCostActive := true
    comVelocityCostActive := true
    frameCostActive := true
    forceMeanCostActive := true
    forceRatioCostActive := true
    staticTorquesCostActive := true
    swingCostActive := true
    phantomForcesCostActive := true
    meanPointPositionCostActive := true
    feetDistanceCostActive := true
    complementarityCostActive := true
    frameAngularVelocityCostActive := true }

theorem Sample.busy_evaluable (z w φ : ℝ) :
    Spec.Evaluable (Sample.costObjects rot norm order order' leftover stored held true) Sample.readings 0 Sample.busy (Sample.state z w φ) upright := by
  have g : GivesQuaternion Quaternion.traceQuaternion 1 := gives_trace one_rotation (by simp; norm_num)
  refine ⟨fun _ => ?_, fun _ => ⟨g, fun Rd h => ?_⟩, fun _ h => ?_⟩
  · show server.frames.link (if ("l_sole" : String) = "r_sole" then none else some 0) ≠ server.frames.link (if ("r_sole" : String) = "r_sole" then none else some 0)
    simp [server]
  · have : Rd = 1 := (Option.some.inj h).symm
    have e := Sample.frame_eq rot norm order order' leftover stored z w φ Sample.busy.frameForOrientationCost
    have e' : (Spec.framePose (Sample.costObjects rot norm order order' leftover stored held true).toObjects (Sample.state z w φ) upright Sample.busy.frameForOrientationCost).R = 1 := by
      refine (congrArg SE3.R e).trans ?_
      simp [Sample.busy, Sample.settings, translation]
    rw [e', this, transpose_one, Matrix.one_mul]
    exact g
  · have := congrFun h 0
    simp [Spec.quat, upright] at this

/-- The hypotheses of C87 hold with these costs. -/
example (labels : Labeller ℝ) : ∃ terms ls' lc' r, setVariablesStructure labels labels 1 1 = some (ls', lc', r) ∧
    setCosts (SolverM.Spec.ocpCosts fun _ => true) Sample.busy ls' lc' = some terms ∧
    ∃ costs : List (SolverM.Cost × Asked ℝ Unit), (∀ k a, (k, a) ∈ costs ↔ Spec.ActiveAt Sample.busy 0 k a) ∧ ∀ z w φ ψ,
      objectiveAt (Sample.costObjects rot norm order order' leftover stored held true) Sample.readings r 1 terms 0 (Sample.state z w φ) upright (Sample.control w ψ) =
        Spec.total (Sample.costObjects rot norm order order' leftover stored held true) Sample.readings 0 (Sample.state z w φ) upright (Sample.control w ψ) costs := by
  obtain ⟨a, b, e, -⟩ := structure_ok labels labels 1 1
  obtain ⟨terms, ht⟩ := Option.isSome_iff_exists.1 ((C53_costs_set_iff (st := Sample.busy) (fun _ => true) e rfl rfl one_pos).2
    ⟨by constructor <;> simp [Sample.busy, Sample.settings], by constructor <;> simp⟩)
  obtain ⟨costs, off, -, hc, ho, H⟩ := C87_objective (Sample.costObjects rot norm order order' leftover stored held true) Sample.readings 0 biped_regular rfl e rfl rfl one_pos ht
  refine ⟨terms, a, b, _, e, ht, costs, hc, fun z w φ ψ => ?_⟩
  rw [H _ _ _ (state_size z w φ) (control_size w ψ) (Sample.busy_evaluable rot norm order order' leftover stored held z w φ), ho rfl]
  cases Spec.total (Sample.costObjects rot norm order order' leftover stored held true) Sample.readings 0 (Sample.state z w φ) upright (Sample.control w ψ) costs <;> simp

/-- The cost of the centre of mass only. -/
def Sample.comOnly : ProblemSettings ℝ Unit := { Sample.settings .classical .classical with comCostActive := true }

/-- With the cost of the centre of mass only, whose weights are 1, 2, 3 and whose target is at one metre: what the optimiser sees. -/
example (labels : Labeller ℝ) : ∃ terms ls' lc' r, setVariablesStructure labels labels 1 1 = some (ls', lc', r) ∧
    setCosts (SolverM.Spec.ocpCosts fun _ => true) Sample.comOnly ls' lc' = some terms ∧
    ∃ off : ℝ, ∀ z w φ ψ,
      objectiveAt (Sample.costObjects rot norm order order' leftover stored held false) Sample.readings r 1 terms (1 / 2) (Sample.state z w φ) upright (Sample.control w ψ) =
        some (1 / 2 * 3 * (z - 1) ^ 2 - off) := by
  obtain ⟨a, b, e, -⟩ := structure_ok labels labels 1 1
  obtain ⟨terms, ht⟩ := Option.isSome_iff_exists.1 ((C53_costs_set_iff (st := Sample.comOnly) (fun _ => true) e rfl rfl one_pos).2
    ⟨by constructor <;> simp [Sample.comOnly, Sample.settings], by constructor <;> simp⟩)
  obtain ⟨costs, off, hn, hc, -, H⟩ := C87_objective (Sample.costObjects rot norm order order' leftover stored held false) Sample.readings (1 / 2) biped_regular rfl e rfl rfl one_pos ht
  have hcosts : ∃ a, costs = [(.comPosition, a)] ∧ a.weight = 1 ∧ ∀ s q c, Spec.aimValue (Sample.costObjects rot norm order order' leftover stored held false) Sample.readings (1 / 2) s q c .comPosition a.aim =
      some (Spec.halfDistance [1, 2, 3] (SolverM.Spec.three s.com) [0, 0, 1]) := by
    refine ⟨⟨1, some ⟨0, 1⟩, .state (fun s _ => SolverM.Spec.three s.com) (some [1, 2, 3]) (some ())⟩, ?_, rfl, fun s q c => by
      simp [Spec.aimValue, Spec.reference, Sample.readings, Spec.weights, SolverM.Spec.three]⟩
    have only : ∀ x ∈ costs, x = (.comPosition, ⟨1, some ⟨0, 1⟩, .state (fun s _ => SolverM.Spec.three s.com) (some [1, 2, 3]) (some ())⟩) := by
      rintro ⟨k, a⟩ hx
      have := ((hc k a).1 hx).1
      cases k <;> try simp [asked, SolverM.Spec.when, SolverM.Spec.eachPoint, Spec.ratioWeighted, Sample.comOnly, Sample.settings] at this
      · rw [← this]
      all_goals (rename_i f; cases f <;> simp [asked, SolverM.Spec.when, Sample.comOnly, Sample.settings, Spec.ratioWeighted] at this)
    have mem := (hc .comPosition ⟨1, some ⟨0, 1⟩, .state (fun s _ => SolverM.Spec.three s.com) (some [1, 2, 3]) (some ())⟩).2
      ⟨by simp [asked, SolverM.Spec.when, Spec.ratioWeighted, Sample.comOnly, Sample.settings], by rintro r hr; cases hr; norm_num⟩
    match costs, hn, only, mem with
    | [], _, _, mem => simp at mem
    | [x], _, only, _ => rw [only x (by simp)]
    | x :: y :: l, hn, only, _ =>
      rw [only x (by simp), only y (by simp)] at hn
      simp at hn
  refine ⟨terms, a, b, _, e, ht, off, fun z w φ ψ => ?_⟩
  rw [H _ _ _ (state_size z w φ) (control_size w ψ) ⟨fun h => by simp [Sample.comOnly, Sample.settings] at h, fun h => by simp [Sample.comOnly, Sample.settings] at h, fun h => by simp [Sample.comOnly, Sample.settings] at h⟩]
  obtain ⟨a, rfl, hw, hv⟩ := hcosts
  simp only [Spec.total, List.mapM_cons, List.mapM_nil, hw, hv]
  simp [Spec.halfDistance, SolverM.Spec.three, Sample.state]

end Examples

end
end Verif.Plan
