import Verif.Lemmas.Problem8
import Verif.Props.Settings
/-
C53: the costs of the problem.  C54: the constraints of the problem.  C55: validated settings and the problem.
-/
set_option linter.unusedSectionVars false
set_option linter.unusedSimpArgs false
namespace Verif.SolverM
open StateM Spec
open Labeller (Labeller)
open Reference (TimeRange)

section Costs
variable {K T : Type} [Zero K] {accepts : List (Term K T) → Term K T → Bool} {st : ProblemSettings K T} {s0 c0 s c : Labeller K} {r : Ranges} {n : Nat}

theorem costs_list (hv : setVariablesStructure s0 c0 st.dofs n = some (s, c, r)) (hl : st.leftPointsPosition.length = n)
    (hr : st.rightPointsPosition.length = n) (hn : 0 < n) (terms : List (Term K T)) :
    setCosts accepts st s c = some terms ↔
      Ready st ∧ AcceptAll accepts [] (costTerms st (rangesAt st.dofs n)) ∧ terms = costTerms st (rangesAt st.dofs n) := by
  obtain ⟨F, -⟩ := structure_found hv
  obtain ⟨s1, c1, e, -⟩ := structure_ok s0 c0 st.dofs n
  have : r = rangesAt st.dofs n := by
    rw [hv] at e
    simp only [Option.some.injEq, Prod.mk.injEq] at e
    exact e.2.2
  subst this
  exact setCosts_iff F (sizes_at _ _) hl hr hn terms

theorem costs_with (hv : setVariablesStructure s0 c0 st.dofs n = some (s, c, r)) (hl : st.leftPointsPosition.length = n)
    (hr : st.rightPointsPosition.length = n) (hn : 0 < n) {terms : List (Term K T)} (h : setCosts accepts st s c = some terms) (k : Cost) :
    match askedWith st st.forceMeanCostOverallWeight k with
    | none => ∀ t ∈ terms, t.cost ≠ k
    | some a => ∃ t, terms.filter (fun t => t.cost = k) = [t] ∧ Honours st.dofs n t a := by
  obtain ⟨-, -, rfl⟩ := (costs_list hv hl hr hn terms).1 h
  exact costs_honoured st n hl hr k

/-- **C53**, every cost other than the force ratios: when the costs are set without errors, whatever the optimal control problem accepts,
each cost of the table is in the problem exactly once if the settings ask for it, with its weight, its time range, its quantity, its
weights and its reference, and it is not in the problem if they do not.  The quantities are read in the vectors of the optimiser, for
every state and every control. -/
theorem C53_costs_partial (hv : setVariablesStructure s0 c0 st.dofs n = some (s, c, r)) (hl : st.leftPointsPosition.length = n)
    (hr : st.rightPointsPosition.length = n) (hn : 0 < n) {terms : List (Term K T)} (h : setCosts accepts st s c = some terms)
    (k : Cost) (hk : ∀ f i, k = .forceRatio f i → st.forceRatioCostOverallWeight = st.forceMeanCostOverallWeight) : CostHonoured st terms k := by
  have := costs_with hv hl hr hn h k
  unfold CostHonoured
  rw [hl]
  cases k with
  | forceRatio f i =>
    simp only [askedWith, asked, eachPoint] at this ⊢
    rw [hk f i rfl]
    split_ifs at this ⊢ <;> exact this
  | _ => exact this

/-- **C53**, the force ratios: they are in the problem exactly when asked, for each point once and with the ratio of the point, but with
the weight of the force mean cost. -/
theorem C53_finding_ratio_weight (hv : setVariablesStructure s0 c0 st.dofs n = some (s, c, r)) (hl : st.leftPointsPosition.length = n)
    (hr : st.rightPointsPosition.length = n) (hn : 0 < n) {terms : List (Term K T)} (h : setCosts accepts st s c = some terms) (f : Foot) (i : Nat) :
    (st.forceRatioCostActive = true → i < n → ∃ t, terms.filter (fun t => t.cost = .forceRatio f i) = [t] ∧
      t.weight = st.forceMeanCostOverallWeight ∧ t.range = none ∧ t.body = .forceRatio ((ratios st f).getD i 0)) ∧
    (st.forceRatioCostActive = true → i < n → st.forceRatioCostOverallWeight ≠ st.forceMeanCostOverallWeight →
      ¬ CostHonoured st terms (.forceRatio f i)) ∧
    ((st.forceRatioCostActive = false ∨ n ≤ i) → ∀ t ∈ terms, t.cost ≠ .forceRatio f i) := by
  have hp : (footPoints st f).length = n := by cases f <;> assumption
  have := costs_with hv hl hr hn h (.forceRatio f i)
  simp only [askedWith, asked, eachPoint, hp] at this
  refine ⟨fun ha hi => ?_, fun ha hi hw hh => ?_, fun ha => ?_⟩
  · rw [if_pos ⟨ha, hi⟩] at this
    obtain ⟨t, h1, h2, h3, h4⟩ := this
    refine ⟨t, h1, h2, h3, ?_⟩
    dsimp only at h4
    revert h4
    cases t.body <;> simp [Realises]
  · rw [if_pos ⟨ha, hi⟩] at this
    unfold CostHonoured at hh
    simp only [asked, eachPoint, hp, if_pos (show _ ∧ _ from ⟨ha, hi⟩)] at hh
    obtain ⟨t, h1, h2, -⟩ := this
    obtain ⟨t', h1', h2', -⟩ := hh
    rw [h1] at h1'
    obtain rfl : t = t' := by simpa using h1'
    exact hw (h2'.symm.trans h2)
  · rw [if_neg (by rintro ⟨a, b⟩; rcases ha with ha | ha; exact absurd (a.symm.trans ha) (by decide); omega)] at this
    exact this

theorem terms_nodup (hl : st.leftPointsPosition.length = n) (hr : st.rightPointsPosition.length = n) :
    ((costTerms st (rangesAt st.dofs n)).map fun t => t.cost.name).Nodup := by
  have hc : ((costTerms st (rangesAt st.dofs n)).map fun t => t.cost).Nodup := by
    rw [List.nodup_iff_count_le_one]
    intro k
    have := costs_honoured st n hl hr k
    rw [List.count_eq_countP, List.countP_map, List.countP_eq_length_filter]
    cases ha : askedWith st st.forceMeanCostOverallWeight k with
    | none =>
      rw [ha] at this
      dsimp only at this
      rw [List.filter_eq_nil_iff.2]
      · exact Nat.zero_le _
      · intro t ht; simpa using this t ht
    | some a =>
      rw [ha] at this
      obtain ⟨t, ht, -⟩ := this
      refine le_of_eq ?_
      have e : ((fun x => x == k) ∘ fun t : Term K T => t.cost) = fun t => decide (t.cost = k) := by
        funext x; simp [beq_eq_decide]
      rw [e, ht]; rfl
  have := hc.map (f := Cost.name) fun a b h => Cost.name_injective h
  rwa [List.map_map] at this

/-- **C53**, when the costs can be set: exactly when the weights have the right sizes, the references are given and the time ranges are
valid, for the active costs.  The names of the costs never clash, for any number of points. -/
theorem C53_costs_set_iff (valid : TimeRange K → Bool) (hv : setVariablesStructure s0 c0 st.dofs n = some (s, c, r))
    (hl : st.leftPointsPosition.length = n) (hr : st.rightPointsPosition.length = n) (hn : 0 < n) :
    (setCosts (ocpCosts valid) st s c).isSome = true ↔ Ready st ∧ RangesValid valid st := by
  have key : AcceptAll (ocpCosts valid) [] (costTerms st (rangesAt st.dofs n)) ↔ RangesValid valid st := by
    have := acceptAll_names (fun t : Term K T => t.cost.name) (fun t => (t.range.map valid).getD true) [] (costTerms st (rangesAt st.dofs n))
    refine Iff.trans this ⟨fun ⟨h, _⟩ => ?_, fun h => ⟨fun t ht => ?_, terms_nodup hl hr, by simp⟩⟩
    · have get : ∀ k a, askedWith st st.forceMeanCostOverallWeight k = some a → (a.range.map valid).getD true = true := by
        intro k a ha
        have := costs_honoured st n hl hr k
        rw [ha] at this
        obtain ⟨t, ht, h1⟩ := this
        have hm : t ∈ costTerms st (rangesAt st.dofs n) := (List.mem_filter.1 (by rw [ht]; exact List.mem_singleton_self t)).1
        rw [← h1.range]
        exact h t hm
      refine ⟨fun a => ?_, fun a => ?_, fun a => ?_, fun a => ?_⟩
      · exact get .comPosition _ (if_pos a)
      · exact get .comVelocity _ (if_pos a)
      · exact get .meanPointPosition _ (if_pos a)
      · exact get .basePosition _ (if_pos a)
    · have := costs_honoured st n hl hr t.cost
      cases ha : askedWith st st.forceMeanCostOverallWeight t.cost with
      | none => rw [ha] at this; exact absurd rfl (this t ht)
      | some a =>
        rw [ha] at this
        obtain ⟨t', ht', h1⟩ := this
        have hm : t ∈ (costTerms st (rangesAt st.dofs n)).filter (fun x => x.cost = t.cost) := List.mem_filter.2 ⟨ht, by simp⟩
        rw [ht', List.mem_singleton] at hm
        subst hm
        rw [h1.range]
        clear this ht' h1
        revert ha
        cases t.cost with
        | comPosition => simp only [askedWith, asked, Spec.when]; split_ifs with hb <;> simp; rintro rfl; simpa using h.com hb
        | comVelocity => simp only [askedWith, asked, Spec.when]; split_ifs with hb <;> simp; rintro rfl; simpa using h.comVelocity hb
        | meanPointPosition => simp only [askedWith, asked, Spec.when]; split_ifs with hb <;> simp; rintro rfl; simpa using h.mean hb
        | basePosition => simp only [askedWith, asked, Spec.when]; split_ifs with hb <;> simp; rintro rfl; simpa using h.basePosition hb
        | footYaw f => cases f <;> (simp only [askedWith, asked, Spec.when]; split_ifs with hb <;> simp; rintro rfl; rfl)
        | _ => simp only [askedWith, asked, Spec.when, eachPoint]; split_ifs with hb <;> simp; try (rintro rfl; rfl)
  rw [Option.isSome_iff_exists]
  constructor
  · rintro ⟨l, h⟩
    obtain ⟨h1, h2, -⟩ := (costs_list hv hl hr hn l).1 h
    exact ⟨h1, key.1 h2⟩
  · rintro ⟨h1, h2⟩
    exact ⟨_, (costs_list hv hl hr hn _).2 ⟨h1, key.2 h2, rfl⟩⟩

end Costs

section Constraints
variable {K T : Type} [Field K] [LinearOrder K] {accepts : List (Con K) → Con K → Bool} {st : ProblemSettings K T}

/-- **C54.** When the constraints are set without errors, whatever the optimal control problem accepts, the constraints of the problem
are exactly the ones of the table, each of them once, with the parameters of the settings (the minimum distance of validated settings
is not negative). -/
theorem C54_constraints (hm : 0 ≤ st.minimumFeetDistance) {l : List (Con K)} (h : setConstraints accepts st = some l) :
    l.Nodup ∧ ∀ c, c ∈ l ↔ Wanted st c := by
  obtain ⟨-, -, rfl⟩ := (setConstraints_iff l).1 h
  exact ⟨nodup_of_key _ (allCons_keys st), allCons_iff st hm⟩

/-- **C54**, when the constraints can be set: exactly when their parameters are in their domains.  The names never clash, for any number
of points. -/
theorem C54_constraints_set_iff : (setConstraints ocpConstraints st).isSome = true ↔ ConstraintsReady st := by
  rw [Option.isSome_iff_exists]
  exact ⟨fun ⟨l, h⟩ => ((setConstraints_iff l).1 h).1, fun h => ⟨_, (setConstraints_iff _).2 ⟨h, allCons_accepted st, rfl⟩⟩⟩

theorem point_count (P : Con K → Bool) (l : List (Con K)) : l.countP P = (l.filter P).length := List.countP_eq_length_filter

theorem flatMap_count (P : Con K → Bool) (f : Nat → List (Con K)) (n i k : Nat) (hi : i < n) (h : ∀ j, (f j).countP P = if j = i then k else 0) :
    ((List.range n).flatMap f).countP P = k := by
  have : ∀ m, ((List.range m).flatMap f).countP P = if i < m then k else 0 := by
    intro m
    induction m with
    | zero => simp
    | succ m ih =>
      rw [List.range_succ, List.flatMap_append, List.countP_append, ih, List.flatMap_singleton, h m]
      by_cases h1 : i < m
      · rw [if_pos h1, if_neg (by omega), if_pos (by omega)]; rfl
      · by_cases h2 : m = i
        · rw [if_neg h1, if_pos h2, if_pos (by omega), Nat.zero_add]
        · rw [if_neg h1, if_neg h2, if_neg (by omega)]
  rw [this n, if_pos hi]

theorem allCons_count (st : ProblemSettings K T) (P : Con K → Bool) (f : Foot) (i k : Nat) (hi : IsPoint st f i) (hg : (globalCons st).countP P = 0)
    (hp : ∀ g j, (pointCons st g j).countP P = if g = f ∧ j = i then k else 0) : (allCons st).countP P = k := by
  have other : ∀ g m, g ≠ f → ((List.range m).flatMap (pointCons st g)).countP P = 0 := by
    intro g m hg
    rw [List.countP_eq_zero]
    intro c hc
    simp only [List.mem_flatMap] at hc
    obtain ⟨j, -, hc⟩ := hc
    have := hp g j
    rw [if_neg (fun h => hg h.1), List.countP_eq_zero] at this
    exact this c hc
  rw [allCons, List.countP_append, List.countP_append, hg, Nat.zero_add]
  cases f with
  | left =>
    rw [other .right _ (by decide), flatMap_count P (pointCons st .left) st.leftPointsPosition.length i k hi (by intro j; rw [hp]; simp), Nat.add_zero]
  | right =>
    rw [other .left _ (by decide), flatMap_count P (pointCons st .right) st.rightPointsPosition.length i k hi (by intro j; rw [hp]; simp), Nat.zero_add]

/-- **C54**, the contact model: each contact point has exactly one friction constraint, exactly one constraint on its position, exactly
one mechanism against slipping and exactly one relation between the normal force and the height.  The mechanism against slipping is
either a constraint or the activation of the dynamics, and the same holds for the relation of the normal force. -/
theorem C54_one_mechanism {l : List (Con K)} (h : setConstraints accepts st = some l) (f : Foot) (i : Nat) (hi : IsPoint st f i) :
    l.countP (frictionFor f i) = 1 ∧ l.countP (positionFor f i) = 1 ∧
    l.countP (planarFor f i) + (if (dynamicsSetup st).velocityActivation.isSome then 1 else 0) = 1 ∧
    l.countP (normalFor f i) + (if (dynamicsSetup st).forceActivation.isSome then 1 else 0) = 1 := by
  obtain ⟨-, -, rfl⟩ := (setConstraints_iff l).1 h
  refine ⟨?_, ?_, ?_, ?_⟩
  · refine allCons_count st _ f i 1 hi rfl fun g j => ?_
    unfold pointCons
    by_cases hh : g = f ∧ j = i
    · obtain ⟨rfl, rfl⟩ := hh
      cases st.planarComplementarity <;> cases st.complementarity <;> simp [frictionFor, List.countP_cons]
    · cases st.planarComplementarity <;> cases st.complementarity <;> simp [frictionFor, List.countP_cons, hh]
  · refine allCons_count st _ f i 1 hi rfl fun g j => ?_
    unfold pointCons
    by_cases hh : g = f ∧ j = i
    · obtain ⟨rfl, rfl⟩ := hh
      cases st.planarComplementarity <;> cases st.complementarity <;> simp [positionFor, List.countP_cons]
    · cases st.planarComplementarity <;> cases st.complementarity <;> simp [positionFor, List.countP_cons, hh]
  · rw [allCons_count st _ f i (if st.planarComplementarity = .hyperbolicTangentInDynamics then 0 else 1) hi rfl fun g j => ?_]
    · unfold dynamicsSetup
      cases st.planarComplementarity <;> simp
    · unfold pointCons
      by_cases hh : g = f ∧ j = i
      · obtain ⟨rfl, rfl⟩ := hh
        cases st.planarComplementarity <;> cases st.complementarity <;> simp [planarFor, List.countP_cons]
      · cases st.planarComplementarity <;> cases st.complementarity <;> simp [planarFor, List.countP_cons, hh]
  · rw [allCons_count st _ f i (if st.complementarity = .hyperbolicSecantInDynamics then 0 else 1) hi rfl fun g j => ?_]
    · unfold dynamicsSetup
      cases st.complementarity <;> simp
    · unfold pointCons
      by_cases hh : g = f ∧ j = i
      · obtain ⟨rfl, rfl⟩ := hh
        cases st.planarComplementarity <;> cases st.complementarity <;> simp [normalFor, List.countP_cons]
      · cases st.planarComplementarity <;> cases st.complementarity <;> simp [normalFor, List.countP_cons, hh]

/-- **C54**, the activations of the dynamics: the one asked by the settings, with its scaling. -/
theorem C54_activations :
    (dynamicsSetup st).velocityActivation =
      (if st.planarComplementarity = .hyperbolicTangentInDynamics then some st.planarVelocityHyperbolicTangentScaling else none) ∧
    (dynamicsSetup st).forceActivation =
      (if st.complementarity = .hyperbolicSecantInDynamics then some st.normalForceHyperbolicSecantScaling else none) ∧
    (dynamicsSetup st).dissipation = st.normalForceDissipationRatio := by
  unfold dynamicsSetup
  cases st.planarComplementarity <;> cases st.complementarity <;> simp

/-- **C55.** Validated settings: the costs and the constraints can be set exactly when the conditions that the validation leaves out
hold. -/
theorem C55_validated_settings_partial {R : Type} {i : Settings.SettingsStruct K R} (valid : TimeRange K → Bool) (ha : Settings.Spec.Acceptable i)
    (hd : Describes valid i st) (s0 c0 : Labeller K) :
    (∃ s c r, setVariablesStructure s0 c0 st.dofs st.leftPointsPosition.length = some (s, c, r) ∧
      (setCosts (ocpCosts valid) st s c).isSome = true ∧ (setConstraints ocpConstraints st).isSome = true) ↔ Unchecked valid st := by
  obtain ⟨s, c, e, -⟩ := structure_ok s0 c0 st.dofs st.leftPointsPosition.length
  have hlr : st.rightPointsPosition.length = st.leftPointsPosition.length := by
    rw [hd.rightPoints, hd.leftPoints]; exact ha.model.2.1.symm
  obtain ⟨-, q2, q3, q4, q5, q6, q7, q8, q9, q10, q11, q12, q13, q14, q15⟩ := ha.costs
  obtain ⟨-, t2, t3, t4, t5, t6, t7, -⟩ := ha.tolerances
  constructor
  · rintro ⟨s', c', r', e', h1, h2⟩
    have h2 := C54_constraints_set_iff.1 h2
    obtain ⟨h1, h3⟩ := (C53_costs_set_iff valid e' rfl hlr h2.leftPoints).1 h1
    exact ⟨h2.leftPoints, ne_of_gt h2.friction, h3.comVelocity, h1.jointsVelocity, fun a => (h1.forceDerivative a).2, h1.leftYaw, h1.rightYaw, h1.postural⟩
  · intro h
    refine ⟨s, c, _, e, (C53_costs_set_iff valid e rfl hlr h.points).2 ⟨?_, ?_⟩, C54_constraints_set_iff.2 ?_⟩
    · refine ⟨fun a => ?_, fun a => ?_, fun a => ?_, fun a => ?_, fun a => ?_, h.jointsVelocity, fun a => ?_, fun a => ?_, fun a => ?_, fun a => ?_,
        h.leftYaw, h.rightYaw, h.postural, fun a => ?_, fun a => ?_, fun a => ?_, fun a => ?_⟩
      · obtain ⟨x, y, z, w⟩ := hd.com
        rw [y, z]; rw [x] at a; exact ⟨(q2 a).1, (q2 a).2.2⟩
      · obtain ⟨x, y, z⟩ := hd.comVelocity
        rw [y, z]; rw [x] at a; exact q3 a
      · obtain ⟨x, y, z⟩ := hd.frame
        rw [y, z]; rw [x] at a; exact (q4 a).2
      · obtain ⟨x, y, z⟩ := hd.ratio
        rw [x] at a
        rw [y, z, hd.leftPoints, hd.rightPoints, (q15 a).1, (q15 a).2.1]; exact ⟨le_refl _, le_refl _⟩
      · obtain ⟨x, y, z⟩ := hd.joints
        rw [y, z, hd.dofs]; rw [x] at a; exact ⟨(q5 a).2, (q5 a).1⟩
      · obtain ⟨x, y⟩ := hd.torques
        rw [y, hd.dofs]; rw [x] at a; exact q6 a
      · have b := a
        obtain ⟨x, y⟩ := hd.forceDerivative
        rw [y]; rw [x] at a; exact ⟨(q7 a).2, h.forceDerivative b⟩
      · obtain ⟨x, y, z⟩ := hd.acceleration
        rw [y, z]; rw [x] at a; exact ⟨(q8 a).2, (q8 a).1⟩
      · obtain ⟨x, y, z⟩ := hd.mean
        rw [y]; rw [x] at a; exact (q10 a).2.2
      · obtain ⟨x, y, z, w⟩ := hd.basePosition
        rw [y, z]; rw [x] at a; exact ⟨(q11 a).1, (q11 a).2.2⟩
      · obtain ⟨x, y⟩ := hd.baseQuaternion
        rw [y]; rw [x] at a; exact q12 a
      · obtain ⟨x, y, z⟩ := hd.baseVelocity
        rw [y, z]; rw [x] at a; exact ⟨(q13 a).2, (q13 a).1⟩
      · obtain ⟨x, y⟩ := hd.quaternionVelocity
        rw [y]; rw [x] at a; exact q14 a
    · refine ⟨fun a => ?_, h.comVelocityRange, fun a => ?_, fun a => ?_⟩
      · obtain ⟨x, y, z, w⟩ := hd.com
        rw [w]; rw [x] at a; exact (q2 a).2.1
      · obtain ⟨x, y, z⟩ := hd.mean
        rw [z]; rw [x] at a; exact (q10 a).1
      · obtain ⟨x, y, z, w⟩ := hd.basePosition
        rw [w]; rw [x] at a; exact (q11 a).2.1
    · refine ⟨?_, ?_, ?_, ?_, h.points, by rw [hlr]; exact h.points, ?_, ?_⟩
      · rw [hd.momentumTolerance]; exact t5
      · rw [hd.comTolerance]; exact t4
      · rw [hd.lateral]; have := ha.model.2.2.2.2.2.2; omega
      · rw [hd.quaternionTolerance]; exact t6
      · refine lt_of_le_of_ne ?_ (Ne.symm h.friction)
        rw [hd.friction]; exact t2
      · rw [hd.pointTolerance]; exact t7

end Constraints

/-- **C55**, settings without effect: the gravity, the update tolerance and the floating base of the settings have no effect on the kinematics used by the problem:
it is the same for any two settings. -/
theorem C55_finding_ignored_settings {K T : Type} [Zero K] [Neg K] (g tolerance : K) (st st' : ProblemSettings K T) :
    kinDynSetup g tolerance st = kinDynSetup g tolerance st' ∧ (kinDynSetup g tolerance st).gravity = ⟨0, 0, -g⟩ ∧
    (kinDynSetup g tolerance st).updateTolerance = tolerance ∧ (kinDynSetup g tolerance st).floatingBase = none :=
  ⟨rfl, rfl, rfl, rfl⟩

/-- Settings with two joints, two points per foot and every cost active. -/
def withFriction (friction : ℚ) : ProblemSettings ℚ Unit :=
  { dofs := 2, gravity := ⟨0, 0, -981/100⟩, updateTolerance := 1, floatingBaseName := "root_link",
    leftPointsPosition := [⟨1/10, 1/20, 0⟩, ⟨-1/10, 1/20, 0⟩], rightPointsPosition := [⟨1/10, -1/20, 0⟩, ⟨-1/10, -1/20, 0⟩], leftFrameName := "l_sole", rightFrameName := "r_sole",
    complementarity := .dynamical, forceMaximumDerivative := ⟨1, 1, 1⟩, normalForceDissipationRatio := 1, normalForceHyperbolicSecantScaling := 1,
    complementarityDissipation := 1, dynamicComplementarityUpperBound := 1, classicalComplementarityTolerance := 1, frictionCoefficient := friction,
    planarComplementarity := .hyperbolicTangentInDynamics, velocityMaximumDerivative := ⟨1, 1, 1⟩, planarVelocityHyperbolicTangentScaling := 1, classicalPlanarComplementarityTolerance := 1,
    indexOfLateralDirection := 1, minimumFeetDistance := 1, referenceFrameNameForFeetDistance := "chest", otherFrameNameForFeetDistance := "chest",
    feetMaximumRelativeHeight := 1, comPositionConstraintTolerance := 1, centroidalMomentumConstraintTolerance := 1, quaternionModulusConstraintTolerance := 1,
    pointPositionConstraintTolerance := 1, comCostActive := true, comCostOverallWeight := 1, comCostActiveRange := ⟨0, 1⟩,
    comWeights := [1, 2, 3], desiredCoMTrajectory := some (), comVelocityCostActive := true, comVelocityCostOverallWeight := 1,
    comVelocityWeights := [1, 1, 1], comVelocityCostActiveRange := ⟨0, 1⟩, desiredCoMVelocityTrajectory := some (), frameCostActive := true,
    frameCostOverallWeight := 1, frameForOrientationCost := "chest", desiredRotationTrajectory := some (), frameCostTimeVaryingWeight := some (),
    forceMeanCostActive := true, forceMeanCostOverallWeight := 1, forceRatioCostActive := true, forceRatioCostOverallWeight := 10,
    desiredLeftRatios := [1/2, 1/2], desiredRightRatios := [1/3, 2/3], jointsRegularizationCostActive := true, jointsRegularizationCostOverallWeight := 1,
    desiredJointsTrajectory := some (), jointsRegularizationWeights := [1, 2], jointsVelocityCostActive := true, jointsVelocityCostOverallWeight := 1,
    desiredJointsVelocityTrajectory := some (), jointsVelocityCostWeights := [3, 4], staticTorquesCostActive := true, staticTorquesCostOverallWeight := 1,
    staticTorquesCostWeights := [1, 1], forceDerivativeCostActive := true, forceDerivativesCostOverallWeight := 1, desiredForceDerivativeTrajectory := some (),
    forceDerivativeWeights := [1, 1, 1], pointAccelerationCostActive := true, pointAccelerationCostOverallWeight := 1, desiredPointAccelerationTrajectory := some (),
    pointAccelerationWeights := [1, 1, 1], swingCostActive := true, swingCostOverallWeight := 1, desiredSwingHeight := 1,
    swingCostWeights := ⟨1, 1, 1⟩, phantomForcesCostActive := true, phantomForcesCostOverallWeight := 1, meanPointPositionCostActive := true,
    meanPointPositionCostOverallWeight := 1, meanPointPositionCostTimeVaryingWeight := some (), meanPointPositionCostActiveRange := ⟨0, 1⟩, desiredMeanPointPosition := some (),
    leftFootYawCostActive := true, leftFootYawCostOverallWeight := 1, desiredLeftFootYaw := some (), rightFootYawCostActive := true,
    rightFootYawCostOverallWeight := 1, desiredRightFootYaw := some (), feetDistanceCostActive := true, feetDistanceCostOverallWeight := 1,
    jointsVelocityForPosturalCostActive := true, jointsVelocityForPosturalCostOverallWeight := 1, complementarityCostActive := true, complementarityCostOverallWeight := 1,
    basePositionCostActive := true, basePositionCostOverallWeight := 1, basePositionCostActiveRange := ⟨0, 1⟩, basePositionCostWeights := [0, 0, 1],
    desiredBasePositionTrajectory := some (), baseQuaternionCostActive := true, baseQuaternionCostOverallWeight := 1, desiredBaseQuaternionTrajectory := some (),
    frameAngularVelocityCostActive := true, frameAngularVelocityCostOverallWeight := 1, rotationalPIDgain := 1, baseLinearVelocityCostActive := true,
    baseLinearVelocityCostOverallWeight := 1, baseLinearVelocityCostWeights := [1, 1, 1], desiredBaseLinearVelocityTrajectory := some (), baseQuaternionVelocityCostActive := true,
    baseQuaternionVelocityCostOverallWeight := 1, desiredBaseQuaternionVelocityTrajectory := some (), angularMomentumCostActive := true, angularMomentumCostOverallWeight := 1 }

/-- With a friction coefficient. -/
def everyCost : ProblemSettings ℚ Unit := withFriction (1/3)

theorem everyCost_ready : Ready everyCost := by
  constructor <;> decide

theorem everyCost_ranges : RangesValid (fun r => decide (r.initTime ≤ r.endTime)) everyCost := by
  constructor <;> decide

/-- The hypotheses of C53 and C54 hold for these settings, and the force ratios have a wrong weight. -/
example : ∃ s c r terms l, setVariablesStructure ({ full := [], map := [], labels := [] } : Labeller ℚ) { full := [], map := [], labels := [] } 2 2 = some (s, c, r) ∧
    setCosts (ocpCosts fun r => decide (r.initTime ≤ r.endTime)) everyCost s c = some terms ∧ setConstraints ocpConstraints everyCost = some l ∧
    CostHonoured everyCost terms (.forceDerivative .right 1) ∧ ¬ CostHonoured everyCost terms (.forceRatio .left 0) ∧
    .dynamicalComplementarity .right 1 1 1 ∈ l := by
  obtain ⟨s, c, e, -⟩ := structure_ok ({ full := [], map := [], labels := [] } : Labeller ℚ) { full := [], map := [], labels := [] } 2 2
  have h := (C53_costs_set_iff (st := everyCost) (n := 2) (fun r => decide (r.initTime ≤ r.endTime)) e rfl rfl (by decide)).2 ⟨everyCost_ready, everyCost_ranges⟩
  obtain ⟨terms, ht⟩ := Option.isSome_iff_exists.1 h
  have h' : ConstraintsReady everyCost := by constructor <;> simp [everyCost, withFriction]
  obtain ⟨l, hl⟩ := Option.isSome_iff_exists.1 (C54_constraints_set_iff.2 h')
  refine ⟨s, c, _, terms, l, e, ht, hl, C53_costs_partial (st := everyCost) (n := 2) e rfl rfl (by decide) ht _ (by simp),
    (C53_finding_ratio_weight (st := everyCost) (n := 2) e rfl rfl (by decide) ht _ _).2.1 rfl (by decide) (by simp [everyCost, withFriction]), ?_⟩
  refine ((C54_constraints (st := everyCost) (by simp [everyCost, withFriction]) hl).2 _).2 ?_
  simp [Wanted, IsPoint, everyCost, withFriction, footPoints]

/-- The structure given to the validation for these settings. -/
def structWithFriction (friction : ℚ) : Settings.SettingsStruct ℚ Unit :=
  { Settings.goodStruct with
    nLeftPoints := 2, nRightPoints := 2, frictionCoefficient := friction, indexOfLateralDirection := 1, minimumFeetDistance := 1,
    comPositionConstraintTolerance := 1, centroidalMomentumConstraintTolerance := 1, quaternionModulusConstraintTolerance := 1,
    pointPositionConstraintTolerance := 1, comCostActive := true, comWeightsSize := 3, hasDesiredCoMTrajectory := true,
    comCostActiveRangeValid := true, comVelocityCostActive := true, comVelocityWeightsSize := 3, hasDesiredCoMVelocityTrajectory := true,
    frameCostActive := true, hasDesiredRotationTrajectory := true, hasFrameCostTimeVaryingWeight := true, forceRatioCostActive := true,
    desiredLeftRatios := [1/2, 1/2], desiredRightRatios := [1/3, 2/3], jointsRegularizationCostActive := true,
    jointsRegularizationWeightsSize := 2, hasDesiredJointsTrajectory := true, staticTorquesCostActive := true,
    staticTorquesCostWeightsSize := 2, forceDerivativeCostActive := true, forceDerivativeWeightsSize := 3,
    pointAccelerationCostActive := true, pointAccelerationWeightsSize := 3, hasDesiredPointAccelerationTrajectory := true,
    meanPointPositionCostActive := true, hasMeanPointPositionCostTimeVaryingWeight := true, meanPointPositionCostActiveRangeValid := true,
    basePositionCostActive := true, basePositionCostWeightsSize := 3, hasDesiredBasePositionTrajectory := true,
    basePositionCostActiveRangeValid := true, baseQuaternionCostActive := true, hasDesiredBaseQuaternionTrajectory := true,
    baseLinearVelocityCostActive := true, baseLinearVelocityCostWeightsSize := 3, hasDesiredBaseLinearVelocityTrajectory := true,
    baseQuaternionVelocityCostActive := true, hasDesiredBaseQuaternionVelocityTrajectory := true }

theorem described (friction : ℚ) : Describes (fun r => decide (r.initTime ≤ r.endTime)) (structWithFriction friction) (withFriction friction) := by
  constructor <;> simp [structWithFriction, withFriction, Settings.goodStruct, Settings.defaults, Settings.anyRobot]

/-- **C55**, settings that are accepted although no problem can be made from them: for example, a friction coefficient equal to zero. -/
theorem C55_finding_zero_friction : ∃ (i : Settings.SettingsStruct ℚ Unit) (st : ProblemSettings ℚ Unit),
    (∃ s', Settings.setFromStruct (Settings.init ℚ Unit) i = some (s', true)) ∧ Describes (fun r => decide (r.initTime ≤ r.endTime)) i st ∧
    setConstraints ocpConstraints st = none := by
  refine ⟨structWithFriction 0, withFriction 0, ⟨_, Settings.accepted_eq _ _ (by decide +kernel)⟩, described 0, ?_⟩
  rw [← Option.isSome_eq_false_iff.trans Option.isNone_iff_eq_none, ← Bool.not_eq_true, C54_constraints_set_iff]
  intro h
  exact absurd h.friction (by simp [withFriction])

/-- The hypotheses of C55 hold for these settings, and the problem is made. -/
example : ∃ (i : Settings.SettingsStruct ℚ Unit), Settings.Spec.Acceptable i ∧ Describes (fun r => decide (r.initTime ≤ r.endTime)) i everyCost ∧
    Unchecked (fun r => decide (r.initTime ≤ r.endTime)) everyCost := by
  refine ⟨structWithFriction (1/3), (Settings.errors_zero _).1 (by decide +kernel), described _, ?_⟩
  constructor <;> simp [everyCost, withFriction]

end Verif.SolverM
