import Verif.Lemmas.Problem4
import Verif.Lemmas.Packing2
/- Each cost appears once, and reads what it must. -/
set_option linter.unusedSectionVars false
set_option linter.unusedSimpArgs false
namespace Verif.SolverM
open Labeller (Labeller Range)
open StateM
open Spec (Ready footPoints stateVector controlVector StateSize ControlSize select three four pointState pointControl asked Asked Honours Realises CostHonoured eachPoint)
variable {K T : Type} [Zero K] {accepts : List (Term K T) → Term K T → Bool} {st : ProblemSettings K T} {s c : Labeller K} {r : Ranges} {n : Nat}

theorem select_mid {a x b : List K} {k m : Nat} (hk : a.length = k) (hm : x.length = m) : select ⟨k, m⟩ (a ++ (x ++ b)) = x := by
  subst hk hm
  simp [select]

theorem flat_length {α : Type} (f : α → List K) (l : List α) (h : ∀ x, (f x).length = 6) : (l.flatMap f).length = 6 * l.length := by
  induction l with
  | nil => rfl
  | cons x l ih => simp [h, ih]; omega

theorem flat_split {α : Type} (f : α → List K) (l : List α) (i : Nat) (x : α) (h : l[i]? = some x) :
    ∃ a b : List α, l.flatMap f = a.flatMap f ++ (f x ++ b.flatMap f) ∧ a.length = i := by
  obtain ⟨hi, rfl⟩ := List.getElem?_eq_some_iff.1 h
  refine ⟨l.take i, l.drop (i + 1), ?_, by simp; omega⟩
  conv_lhs => rw [← List.take_append_drop i l, List.drop_eq_getElem_cons hi, List.flatMap_append, List.flatMap_cons]

section
variable {d : Nat} {x : State K} (hx : StateSize d n x) (q : V4 K) {u : Control K} (hu : ControlSize d n u)
include hx

theorem pts_length : (x.left.flatMap pointState ++ x.right.flatMap pointState).length = 12 * n := by
  rw [List.length_append, flat_length _ _ (by intro; rfl), flat_length _ _ (by intro; rfl), hx.left, hx.right]; omega

theorem read_linear : select ⟨12 * n, 3⟩ (stateVector x q) = three x.linearMomentum := by
  have := select_mid (a := x.left.flatMap pointState ++ x.right.flatMap pointState) (x := three x.linearMomentum)
    (b := three x.angularMomentum ++ three x.com ++ three x.base.pos ++ four q ++ x.joints) (pts_length hx) rfl
  rw [← this]; simp [stateVector, three, four]

theorem read_angular : select ⟨12 * n + 3, 3⟩ (stateVector x q) = three x.angularMomentum := by
  have := select_mid (a := x.left.flatMap pointState ++ x.right.flatMap pointState ++ three x.linearMomentum) (x := three x.angularMomentum)
    (b := three x.com ++ three x.base.pos ++ four q ++ x.joints) (k := 12 * n + 3) (by rw [List.length_append, pts_length hx]; rfl) rfl
  rw [← this]; simp [stateVector, three, four]

theorem read_com : select ⟨12 * n + 6, 3⟩ (stateVector x q) = three x.com := by
  have := select_mid (a := x.left.flatMap pointState ++ x.right.flatMap pointState ++ (three x.linearMomentum ++ three x.angularMomentum)) (x := three x.com)
    (b := three x.base.pos ++ four q ++ x.joints) (k := 12 * n + 6) (by rw [List.length_append, pts_length hx]; rfl) rfl
  rw [← this]; simp [stateVector, three, four]

theorem read_base : select ⟨12 * n + 9, 3⟩ (stateVector x q) = three x.base.pos := by
  have := select_mid (a := x.left.flatMap pointState ++ x.right.flatMap pointState ++ (three x.linearMomentum ++ three x.angularMomentum ++ three x.com))
    (x := three x.base.pos) (b := four q ++ x.joints) (k := 12 * n + 9) (by rw [List.length_append, pts_length hx]; rfl) rfl
  rw [← this]; simp [stateVector, three, four]

theorem read_quaternion : select ⟨12 * n + 12, 4⟩ (stateVector x q) = four q := by
  have := select_mid (a := x.left.flatMap pointState ++ x.right.flatMap pointState ++
    (three x.linearMomentum ++ three x.angularMomentum ++ three x.com ++ three x.base.pos))
    (x := four q) (b := x.joints) (k := 12 * n + 12) (by rw [List.length_append, pts_length hx]; rfl) rfl
  rw [← this]; simp [stateVector, three, four]

theorem read_joints : select ⟨12 * n + 16, d⟩ (stateVector x q) = x.joints := by
  have := select_mid (a := x.left.flatMap pointState ++ x.right.flatMap pointState ++
    (three x.linearMomentum ++ three x.angularMomentum ++ three x.com ++ three x.base.pos ++ four q))
    (x := x.joints) (b := []) (k := 12 * n + 16) (by rw [List.length_append, pts_length hx]; rfl) hx.joints
  rw [← this]; simp [stateVector, three, four]

omit hx
include hu

theorem ctl_length : (u.left.flatMap pointControl ++ u.right.flatMap pointControl).length = 12 * n := by
  rw [List.length_append, flat_length _ _ (by intro; rfl), flat_length _ _ (by intro; rfl), hu.left, hu.right]; omega

theorem read_baseVelocity : select ⟨12 * n, 3⟩ (controlVector u) = three u.baseLinearVelocity := by
  have := select_mid (a := u.left.flatMap pointControl ++ u.right.flatMap pointControl) (x := three u.baseLinearVelocity)
    (b := four u.baseQuaternionDerivative ++ u.jointsVelocity) (ctl_length hu) rfl
  rw [← this]; simp [controlVector, three, four]

theorem read_quaternionDerivative : select ⟨12 * n + 3, 4⟩ (controlVector u) = four u.baseQuaternionDerivative := by
  have := select_mid (a := u.left.flatMap pointControl ++ u.right.flatMap pointControl ++ three u.baseLinearVelocity) (x := four u.baseQuaternionDerivative)
    (b := u.jointsVelocity) (k := 12 * n + 3) (by rw [List.length_append, ctl_length hu]; rfl) rfl
  rw [← this]; simp [controlVector, three, four]

theorem read_jointsVelocity : select ⟨12 * n + 7, d⟩ (controlVector u) = u.jointsVelocity := by
  have := select_mid (a := u.left.flatMap pointControl ++ u.right.flatMap pointControl ++ (three u.baseLinearVelocity ++ four u.baseQuaternionDerivative))
    (x := u.jointsVelocity) (b := []) (k := 12 * n + 7) (by rw [List.length_append, ctl_length hu]; rfl) hu.joints
  rw [← this]; simp [controlVector, three, four]

theorem read_point (f : Foot) (i : Nat) (hi : i < n) :
    select (velocityControlRange (rangesAt d n) f i) (controlVector u) = Spec.velocityControlOf f i u ∧
    select (forceControlRange (rangesAt d n) f i) (controlVector u) = Spec.forceControlOf f i u := by
  cases f with
  | left =>
    have hp : u.left[i]? = some (u.left[i]'(by rw [hu.left]; exact hi)) := List.getElem?_eq_getElem _
    generalize (u.left[i]'(by rw [hu.left]; exact hi)) = p at hp
    obtain ⟨a, b, e, ha⟩ := flat_split pointControl u.left i p hp
    have hal : (a.flatMap pointControl).length = 6 * i := by rw [flat_length _ _ (by intro; rfl), ha]
    simp only [velocityControlRange, forceControlRange, rangeAt, rangesAt, footAt, List.getD_eq_getElem?_getD, List.getElem?_map, List.getElem?_range hi,
      Option.map_some, Option.getD_some, Spec.velocityControlOf, Spec.forceControlOf, Spec.controlPoints, hp, Nat.zero_add]
    constructor
    · have := select_mid (a := a.flatMap pointControl) (x := three p.velocityControl)
        (b := three p.forceControl ++ b.flatMap pointControl ++ u.right.flatMap pointControl ++ three u.baseLinearVelocity ++
          four u.baseQuaternionDerivative ++ u.jointsVelocity) (k := 6 * i) hal rfl
      rw [← this]; simp [controlVector, three, four, e, pointControl]
    · have := select_mid (a := a.flatMap pointControl ++ three p.velocityControl) (x := three p.forceControl)
        (b := b.flatMap pointControl ++ u.right.flatMap pointControl ++ three u.baseLinearVelocity ++
          four u.baseQuaternionDerivative ++ u.jointsVelocity) (k := 6 * i + 3) (by rw [List.length_append, hal]; rfl) rfl
      rw [← this]; simp [controlVector, three, four, e, pointControl]
  | right =>
    have hp : u.right[i]? = some (u.right[i]'(by rw [hu.right]; exact hi)) := List.getElem?_eq_getElem _
    generalize (u.right[i]'(by rw [hu.right]; exact hi)) = p at hp
    obtain ⟨a, b, e, ha⟩ := flat_split pointControl u.right i p hp
    have hal : (u.left.flatMap pointControl ++ a.flatMap pointControl).length = 6 * n + 6 * i := by
      rw [List.length_append, flat_length _ _ (by intro; rfl), flat_length _ _ (by intro; rfl), ha, hu.left]
    simp only [velocityControlRange, forceControlRange, rangeAt, rangesAt, footAt, List.getD_eq_getElem?_getD, List.getElem?_map, List.getElem?_range hi,
      Option.map_some, Option.getD_some, Spec.velocityControlOf, Spec.forceControlOf, Spec.controlPoints, hp]
    constructor
    · have := select_mid (a := u.left.flatMap pointControl ++ a.flatMap pointControl) (x := three p.velocityControl)
        (b := three p.forceControl ++ b.flatMap pointControl ++ three u.baseLinearVelocity ++
          four u.baseQuaternionDerivative ++ u.jointsVelocity) (k := 6 * n + 6 * i) hal rfl
      rw [← this]; simp [controlVector, three, four, e, pointControl]
    · have := select_mid (a := u.left.flatMap pointControl ++ a.flatMap pointControl ++ three p.velocityControl) (x := three p.forceControl)
        (b := b.flatMap pointControl ++ three u.baseLinearVelocity ++
          four u.baseQuaternionDerivative ++ u.jointsVelocity) (k := 6 * n + 6 * i + 3) (by rw [List.length_append, hal]; rfl) rfl
      rw [← this]; simp [controlVector, three, four, e, pointControl]

end

theorem one_left {a b : List (Term K T)} (h : b = []) : a ++ b = a := by rw [h, List.append_nil]

/-- What is asked, with the weight that the code uses for the force ratios. -/
def askedWith (st : ProblemSettings K T) (w : K) : Cost → Option (Asked K T)
  | .forceRatio f i => (asked st (.forceRatio f i)).map fun a => { a with weight := w }
  | k => asked st k

theorem filter_blocks (st : ProblemSettings K T) (r : Ranges) (k : Cost) :
    (costTerms st r).filter (fun t => t.cost = k) = ((costBlocks st r).map fun b => b.filter fun t => t.cost = k).flatten := by
  rw [costTerms, List.filter_flatten]

theorem costs_honoured (st : ProblemSettings K T) (n : Nat) (hl : st.leftPointsPosition.length = n) (hr : st.rightPointsPosition.length = n) (k : Cost) :
    match askedWith st st.forceMeanCostOverallWeight k with
    | none => ∀ t ∈ costTerms st (rangesAt st.dofs n), t.cost ≠ k
    | some a => ∃ t, (costTerms st (rangesAt st.dofs n)).filter (fun t => t.cost = k) = [t] ∧ Honours st.dofs n t a := by
  have hp : ∀ f, (footPoints st f).length = n := by intro f; cases f <;> assumption
  cases k with
  | comPosition =>
    have hf := filter_blocks st (rangesAt st.dofs n) (.comPosition)
    simp only [costBlocks, List.map_cons, List.map_nil, List.flatten_cons, List.flatten_nil, filter_one, filter_points_ne, ne_eq, reduceCtorEq, not_false_eq_true,
      implies_true, and_false, and_true, if_false, List.nil_append, List.append_nil, Cost.footYaw.injEq] at hf
    by_cases ha : st.comCostActive = true
    · simp only [askedWith, asked, Spec.when, ha, if_true] at hf ⊢
      exact ⟨_, hf, rfl, rfl, fun x q hx => read_com hx q, rfl, rfl⟩
    · simp only [askedWith, asked, Spec.when, ha, if_false] at hf ⊢
      exact fun t ht => by simpa using List.filter_eq_nil_iff.1 hf t ht
  | comVelocity =>
    have hf := filter_blocks st (rangesAt st.dofs n) (.comVelocity)
    simp only [costBlocks, List.map_cons, List.map_nil, List.flatten_cons, List.flatten_nil, filter_one, filter_points_ne, ne_eq, reduceCtorEq, not_false_eq_true,
      implies_true, and_false, and_true, if_false, List.nil_append, List.append_nil, Cost.footYaw.injEq] at hf
    by_cases ha : st.comVelocityCostActive = true
    · simp only [askedWith, asked, Spec.when, ha, if_true] at hf ⊢
      exact ⟨_, hf, rfl, rfl, fun x q hx => read_linear hx q, rfl, rfl⟩
    · simp only [askedWith, asked, Spec.when, ha, if_false] at hf ⊢
      exact fun t ht => by simpa using List.filter_eq_nil_iff.1 hf t ht
  | frameOrientation =>
    have hf := filter_blocks st (rangesAt st.dofs n) (.frameOrientation)
    simp only [costBlocks, List.map_cons, List.map_nil, List.flatten_cons, List.flatten_nil, filter_one, filter_points_ne, ne_eq, reduceCtorEq, not_false_eq_true,
      implies_true, and_false, and_true, if_false, List.nil_append, List.append_nil, Cost.footYaw.injEq] at hf
    by_cases ha : st.frameCostActive = true
    · simp only [askedWith, asked, Spec.when, ha, if_true] at hf ⊢
      exact ⟨_, hf, rfl, rfl, rfl⟩
    · simp only [askedWith, asked, Spec.when, ha, if_false] at hf ⊢
      exact fun t ht => by simpa using List.filter_eq_nil_iff.1 hf t ht
  | forceMean f i =>
    have hq := filter_points (st := st) (fun f i => ⟨.forceMean f i, st.forceMeanCostOverallWeight, none, .forceMean⟩) Cost.forceMean (fun _ _ => rfl) (fun _ _ _ _ => by simp) f i st.forceMeanCostActive
    have hf := filter_blocks st (rangesAt st.dofs n) (.forceMean f i)
    simp only [costBlocks, List.map_cons, List.map_nil, List.flatten_cons, List.flatten_nil, filter_one, filter_points_ne, hq, ne_eq, reduceCtorEq, not_false_eq_true,
      implies_true, and_false, and_true, if_false, List.nil_append, List.append_nil, Cost.footYaw.injEq] at hf
    by_cases ha : st.forceMeanCostActive = true ∧ i < (footPoints st f).length
    · rw [if_pos ha] at hf
      have hi : i < n := by rw [← hp f]; exact ha.2
      simp only [askedWith, asked, eachPoint, ha, and_self, if_true, Option.map_some]
      exact ⟨_, hf, rfl, rfl, rfl⟩
    · rw [if_neg ha] at hf
      simp only [askedWith, asked, eachPoint, ha, if_false, Option.map_none]
      exact fun t ht => by simpa using List.filter_eq_nil_iff.1 hf t ht
  | forceRatio f i =>
    have hq := filter_points (st := st) (fun f i => ⟨.forceRatio f i, st.forceMeanCostOverallWeight, none, .forceRatio ((Spec.ratios st f).getD i 0)⟩) Cost.forceRatio (fun _ _ => rfl) (fun _ _ _ _ => by simp) f i st.forceRatioCostActive
    have hf := filter_blocks st (rangesAt st.dofs n) (.forceRatio f i)
    simp only [costBlocks, List.map_cons, List.map_nil, List.flatten_cons, List.flatten_nil, filter_one, filter_points_ne, hq, ne_eq, reduceCtorEq, not_false_eq_true,
      implies_true, and_false, and_true, if_false, List.nil_append, List.append_nil, Cost.footYaw.injEq] at hf
    by_cases ha : st.forceRatioCostActive = true ∧ i < (footPoints st f).length
    · rw [if_pos ha] at hf
      have hi : i < n := by rw [← hp f]; exact ha.2
      simp only [askedWith, asked, eachPoint, ha, and_self, if_true, Option.map_some]
      exact ⟨_, hf, rfl, rfl, by cases f <;> rfl⟩
    · rw [if_neg ha] at hf
      simp only [askedWith, asked, eachPoint, ha, if_false, Option.map_none]
      exact fun t ht => by simpa using List.filter_eq_nil_iff.1 hf t ht
  | jointsRegularization =>
    have hf := filter_blocks st (rangesAt st.dofs n) (.jointsRegularization)
    simp only [costBlocks, List.map_cons, List.map_nil, List.flatten_cons, List.flatten_nil, filter_one, filter_points_ne, ne_eq, reduceCtorEq, not_false_eq_true,
      implies_true, and_false, and_true, if_false, List.nil_append, List.append_nil, Cost.footYaw.injEq] at hf
    by_cases ha : st.jointsRegularizationCostActive = true
    · simp only [askedWith, asked, Spec.when, ha, if_true] at hf ⊢
      exact ⟨_, hf, rfl, rfl, fun x q hx => read_joints hx q, rfl, rfl⟩
    · simp only [askedWith, asked, Spec.when, ha, if_false] at hf ⊢
      exact fun t ht => by simpa using List.filter_eq_nil_iff.1 hf t ht
  | jointsVelocity =>
    have hf := filter_blocks st (rangesAt st.dofs n) (.jointsVelocity)
    simp only [costBlocks, List.map_cons, List.map_nil, List.flatten_cons, List.flatten_nil, filter_one, filter_points_ne, ne_eq, reduceCtorEq, not_false_eq_true,
      implies_true, and_false, and_true, if_false, List.nil_append, List.append_nil, Cost.footYaw.injEq] at hf
    by_cases ha : st.jointsVelocityCostActive = true
    · simp only [askedWith, asked, Spec.when, ha, if_true] at hf ⊢
      exact ⟨_, hf, rfl, rfl, fun u hu => read_jointsVelocity hu, rfl, rfl⟩
    · simp only [askedWith, asked, Spec.when, ha, if_false] at hf ⊢
      exact fun t ht => by simpa using List.filter_eq_nil_iff.1 hf t ht
  | staticTorques =>
    have hf := filter_blocks st (rangesAt st.dofs n) (.staticTorques)
    simp only [costBlocks, List.map_cons, List.map_nil, List.flatten_cons, List.flatten_nil, filter_one, filter_points_ne, ne_eq, reduceCtorEq, not_false_eq_true,
      implies_true, and_false, and_true, if_false, List.nil_append, List.append_nil, Cost.footYaw.injEq] at hf
    by_cases ha : st.staticTorquesCostActive = true
    · simp only [askedWith, asked, Spec.when, ha, if_true] at hf ⊢
      exact ⟨_, hf, rfl, rfl, rfl⟩
    · simp only [askedWith, asked, Spec.when, ha, if_false] at hf ⊢
      exact fun t ht => by simpa using List.filter_eq_nil_iff.1 hf t ht
  | forceDerivative f i =>
    have hq := filter_points (st := st) (fun f i => ⟨.forceDerivative f i, st.forceDerivativesCostOverallWeight, none,
      .controlNorm (forceControlRange (rangesAt st.dofs n) f i) (some st.forceDerivativeWeights) st.desiredForceDerivativeTrajectory⟩) Cost.forceDerivative (fun _ _ => rfl) (fun _ _ _ _ => by simp) f i st.forceDerivativeCostActive
    have hf := filter_blocks st (rangesAt st.dofs n) (.forceDerivative f i)
    simp only [costBlocks, List.map_cons, List.map_nil, List.flatten_cons, List.flatten_nil, filter_one, filter_points_ne, hq, ne_eq, reduceCtorEq, not_false_eq_true,
      implies_true, and_false, and_true, if_false, List.nil_append, List.append_nil, Cost.footYaw.injEq] at hf
    by_cases ha : st.forceDerivativeCostActive = true ∧ i < (footPoints st f).length
    · rw [if_pos ha] at hf
      have hi : i < n := by rw [← hp f]; exact ha.2
      simp only [askedWith, asked, eachPoint, ha, and_self, if_true, Option.map_some]
      exact ⟨_, hf, rfl, rfl, fun u hu => (read_point hu f i hi).2, rfl, rfl⟩
    · rw [if_neg ha] at hf
      simp only [askedWith, asked, eachPoint, ha, if_false, Option.map_none]
      exact fun t ht => by simpa using List.filter_eq_nil_iff.1 hf t ht
  | pointAcceleration f i =>
    have hq := filter_points (st := st) (fun f i => ⟨.pointAcceleration f i, st.pointAccelerationCostOverallWeight, none,
      .controlNorm (velocityControlRange (rangesAt st.dofs n) f i) (some st.pointAccelerationWeights) st.desiredPointAccelerationTrajectory⟩) Cost.pointAcceleration (fun _ _ => rfl) (fun _ _ _ _ => by simp) f i st.pointAccelerationCostActive
    have hf := filter_blocks st (rangesAt st.dofs n) (.pointAcceleration f i)
    simp only [costBlocks, List.map_cons, List.map_nil, List.flatten_cons, List.flatten_nil, filter_one, filter_points_ne, hq, ne_eq, reduceCtorEq, not_false_eq_true,
      implies_true, and_false, and_true, if_false, List.nil_append, List.append_nil, Cost.footYaw.injEq] at hf
    by_cases ha : st.pointAccelerationCostActive = true ∧ i < (footPoints st f).length
    · rw [if_pos ha] at hf
      have hi : i < n := by rw [← hp f]; exact ha.2
      simp only [askedWith, asked, eachPoint, ha, and_self, if_true, Option.map_some]
      exact ⟨_, hf, rfl, rfl, fun u hu => (read_point hu f i hi).1, rfl, rfl⟩
    · rw [if_neg ha] at hf
      simp only [askedWith, asked, eachPoint, ha, if_false, Option.map_none]
      exact fun t ht => by simpa using List.filter_eq_nil_iff.1 hf t ht
  | swing f i =>
    have hq := filter_points (st := st) (fun f i => ⟨.swing f i, st.swingCostOverallWeight, none, .swing st.desiredSwingHeight st.swingCostWeights⟩) Cost.swing (fun _ _ => rfl) (fun _ _ _ _ => by simp) f i st.swingCostActive
    have hf := filter_blocks st (rangesAt st.dofs n) (.swing f i)
    simp only [costBlocks, List.map_cons, List.map_nil, List.flatten_cons, List.flatten_nil, filter_one, filter_points_ne, hq, ne_eq, reduceCtorEq, not_false_eq_true,
      implies_true, and_false, and_true, if_false, List.nil_append, List.append_nil, Cost.footYaw.injEq] at hf
    by_cases ha : st.swingCostActive = true ∧ i < (footPoints st f).length
    · rw [if_pos ha] at hf
      have hi : i < n := by rw [← hp f]; exact ha.2
      simp only [askedWith, asked, eachPoint, ha, and_self, if_true, Option.map_some]
      exact ⟨_, hf, rfl, rfl, rfl⟩
    · rw [if_neg ha] at hf
      simp only [askedWith, asked, eachPoint, ha, if_false, Option.map_none]
      exact fun t ht => by simpa using List.filter_eq_nil_iff.1 hf t ht
  | phantomForces f i =>
    have hq := filter_points (st := st) (fun f i => ⟨.phantomForces f i, st.phantomForcesCostOverallWeight, none, .phantomForces st.normalForceHyperbolicSecantScaling⟩) Cost.phantomForces (fun _ _ => rfl) (fun _ _ _ _ => by simp) f i st.phantomForcesCostActive
    have hf := filter_blocks st (rangesAt st.dofs n) (.phantomForces f i)
    simp only [costBlocks, List.map_cons, List.map_nil, List.flatten_cons, List.flatten_nil, filter_one, filter_points_ne, hq, ne_eq, reduceCtorEq, not_false_eq_true,
      implies_true, and_false, and_true, if_false, List.nil_append, List.append_nil, Cost.footYaw.injEq] at hf
    by_cases ha : st.phantomForcesCostActive = true ∧ i < (footPoints st f).length
    · rw [if_pos ha] at hf
      have hi : i < n := by rw [← hp f]; exact ha.2
      simp only [askedWith, asked, eachPoint, ha, and_self, if_true, Option.map_some]
      exact ⟨_, hf, rfl, rfl, rfl⟩
    · rw [if_neg ha] at hf
      simp only [askedWith, asked, eachPoint, ha, if_false, Option.map_none]
      exact fun t ht => by simpa using List.filter_eq_nil_iff.1 hf t ht
  | meanPointPosition =>
    have hf := filter_blocks st (rangesAt st.dofs n) (.meanPointPosition)
    simp only [costBlocks, List.map_cons, List.map_nil, List.flatten_cons, List.flatten_nil, filter_one, filter_points_ne, ne_eq, reduceCtorEq, not_false_eq_true,
      implies_true, and_false, and_true, if_false, List.nil_append, List.append_nil, Cost.footYaw.injEq] at hf
    by_cases ha : st.meanPointPositionCostActive = true
    · simp only [askedWith, asked, Spec.when, ha, if_true] at hf ⊢
      exact ⟨_, hf, rfl, rfl, rfl⟩
    · simp only [askedWith, asked, Spec.when, ha, if_false] at hf ⊢
      exact fun t ht => by simpa using List.filter_eq_nil_iff.1 hf t ht
  | feetDistance =>
    have hf := filter_blocks st (rangesAt st.dofs n) (.feetDistance)
    simp only [costBlocks, List.map_cons, List.map_nil, List.flatten_cons, List.flatten_nil, filter_one, filter_points_ne, ne_eq, reduceCtorEq, not_false_eq_true,
      implies_true, and_false, and_true, if_false, List.nil_append, List.append_nil, Cost.footYaw.injEq] at hf
    by_cases ha : st.feetDistanceCostActive = true
    · simp only [askedWith, asked, Spec.when, ha, if_true] at hf ⊢
      exact ⟨_, hf, rfl, rfl, rfl⟩
    · simp only [askedWith, asked, Spec.when, ha, if_false] at hf ⊢
      exact fun t ht => by simpa using List.filter_eq_nil_iff.1 hf t ht
  | jointsVelocityForPostural =>
    have hf := filter_blocks st (rangesAt st.dofs n) (.jointsVelocityForPostural)
    simp only [costBlocks, List.map_cons, List.map_nil, List.flatten_cons, List.flatten_nil, filter_one, filter_points_ne, ne_eq, reduceCtorEq, not_false_eq_true,
      implies_true, and_false, and_true, if_false, List.nil_append, List.append_nil, Cost.footYaw.injEq] at hf
    by_cases ha : st.jointsVelocityForPosturalCostActive = true
    · simp only [askedWith, asked, Spec.when, ha, if_true] at hf ⊢
      exact ⟨_, hf, rfl, rfl, rfl⟩
    · simp only [askedWith, asked, Spec.when, ha, if_false] at hf ⊢
      exact fun t ht => by simpa using List.filter_eq_nil_iff.1 hf t ht
  | complementarity f i =>
    have hq := filter_points (st := st) (fun f i => ⟨.complementarity f i, st.complementarityCostOverallWeight, none, .complementarity⟩) Cost.complementarity (fun _ _ => rfl) (fun _ _ _ _ => by simp) f i st.complementarityCostActive
    have hf := filter_blocks st (rangesAt st.dofs n) (.complementarity f i)
    simp only [costBlocks, List.map_cons, List.map_nil, List.flatten_cons, List.flatten_nil, filter_one, filter_points_ne, hq, ne_eq, reduceCtorEq, not_false_eq_true,
      implies_true, and_false, and_true, if_false, List.nil_append, List.append_nil, Cost.footYaw.injEq] at hf
    by_cases ha : st.complementarityCostActive = true ∧ i < (footPoints st f).length
    · rw [if_pos ha] at hf
      have hi : i < n := by rw [← hp f]; exact ha.2
      simp only [askedWith, asked, eachPoint, ha, and_self, if_true, Option.map_some]
      exact ⟨_, hf, rfl, rfl, rfl⟩
    · rw [if_neg ha] at hf
      simp only [askedWith, asked, eachPoint, ha, if_false, Option.map_none]
      exact fun t ht => by simpa using List.filter_eq_nil_iff.1 hf t ht
  | basePosition =>
    have hf := filter_blocks st (rangesAt st.dofs n) (.basePosition)
    simp only [costBlocks, List.map_cons, List.map_nil, List.flatten_cons, List.flatten_nil, filter_one, filter_points_ne, ne_eq, reduceCtorEq, not_false_eq_true,
      implies_true, and_false, and_true, if_false, List.nil_append, List.append_nil, Cost.footYaw.injEq] at hf
    by_cases ha : st.basePositionCostActive = true
    · simp only [askedWith, asked, Spec.when, ha, if_true] at hf ⊢
      exact ⟨_, hf, rfl, rfl, fun x q hx => read_base hx q, rfl, rfl⟩
    · simp only [askedWith, asked, Spec.when, ha, if_false] at hf ⊢
      exact fun t ht => by simpa using List.filter_eq_nil_iff.1 hf t ht
  | baseQuaternion =>
    have hf := filter_blocks st (rangesAt st.dofs n) (.baseQuaternion)
    simp only [costBlocks, List.map_cons, List.map_nil, List.flatten_cons, List.flatten_nil, filter_one, filter_points_ne, ne_eq, reduceCtorEq, not_false_eq_true,
      implies_true, and_false, and_true, if_false, List.nil_append, List.append_nil, Cost.footYaw.injEq] at hf
    by_cases ha : st.baseQuaternionCostActive = true
    · simp only [askedWith, asked, Spec.when, ha, if_true] at hf ⊢
      exact ⟨_, hf, rfl, rfl, fun x q hx => read_quaternion hx q, rfl, rfl⟩
    · simp only [askedWith, asked, Spec.when, ha, if_false] at hf ⊢
      exact fun t ht => by simpa using List.filter_eq_nil_iff.1 hf t ht
  | frameAngularVelocity =>
    have hf := filter_blocks st (rangesAt st.dofs n) (.frameAngularVelocity)
    simp only [costBlocks, List.map_cons, List.map_nil, List.flatten_cons, List.flatten_nil, filter_one, filter_points_ne, ne_eq, reduceCtorEq, not_false_eq_true,
      implies_true, and_false, and_true, if_false, List.nil_append, List.append_nil, Cost.footYaw.injEq] at hf
    by_cases ha : st.frameAngularVelocityCostActive = true
    · simp only [askedWith, asked, Spec.when, ha, if_true] at hf ⊢
      exact ⟨_, hf, rfl, rfl, rfl⟩
    · simp only [askedWith, asked, Spec.when, ha, if_false] at hf ⊢
      exact fun t ht => by simpa using List.filter_eq_nil_iff.1 hf t ht
  | baseLinearVelocity =>
    have hf := filter_blocks st (rangesAt st.dofs n) (.baseLinearVelocity)
    simp only [costBlocks, List.map_cons, List.map_nil, List.flatten_cons, List.flatten_nil, filter_one, filter_points_ne, ne_eq, reduceCtorEq, not_false_eq_true,
      implies_true, and_false, and_true, if_false, List.nil_append, List.append_nil, Cost.footYaw.injEq] at hf
    by_cases ha : st.baseLinearVelocityCostActive = true
    · simp only [askedWith, asked, Spec.when, ha, if_true] at hf ⊢
      exact ⟨_, hf, rfl, rfl, fun u hu => read_baseVelocity hu, rfl, rfl⟩
    · simp only [askedWith, asked, Spec.when, ha, if_false] at hf ⊢
      exact fun t ht => by simpa using List.filter_eq_nil_iff.1 hf t ht
  | baseQuaternionVelocity =>
    have hf := filter_blocks st (rangesAt st.dofs n) (.baseQuaternionVelocity)
    simp only [costBlocks, List.map_cons, List.map_nil, List.flatten_cons, List.flatten_nil, filter_one, filter_points_ne, ne_eq, reduceCtorEq, not_false_eq_true,
      implies_true, and_false, and_true, if_false, List.nil_append, List.append_nil, Cost.footYaw.injEq] at hf
    by_cases ha : st.baseQuaternionVelocityCostActive = true
    · simp only [askedWith, asked, Spec.when, ha, if_true] at hf ⊢
      exact ⟨_, hf, rfl, rfl, fun u hu => read_quaternionDerivative hu, rfl, rfl⟩
    · simp only [askedWith, asked, Spec.when, ha, if_false] at hf ⊢
      exact fun t ht => by simpa using List.filter_eq_nil_iff.1 hf t ht
  | angularMomentum =>
    have hf := filter_blocks st (rangesAt st.dofs n) (.angularMomentum)
    simp only [costBlocks, List.map_cons, List.map_nil, List.flatten_cons, List.flatten_nil, filter_one, filter_points_ne, ne_eq, reduceCtorEq, not_false_eq_true,
      implies_true, and_false, and_true, if_false, List.nil_append, List.append_nil, Cost.footYaw.injEq] at hf
    by_cases ha : st.angularMomentumCostActive = true
    · simp only [askedWith, asked, Spec.when, ha, if_true] at hf ⊢
      exact ⟨_, hf, rfl, rfl, fun x q hx => read_angular hx q, rfl, rfl⟩
    · simp only [askedWith, asked, Spec.when, ha, if_false] at hf ⊢
      exact fun t ht => by simpa using List.filter_eq_nil_iff.1 hf t ht
  | footYaw f =>
    cases f with
    | left =>
      have hf := filter_blocks st (rangesAt st.dofs n) (.footYaw .left)
      simp only [costBlocks, List.map_cons, List.map_nil, List.flatten_cons, List.flatten_nil, filter_one, filter_points_ne, ne_eq, reduceCtorEq, not_false_eq_true,
        implies_true, and_false, and_true, if_false, List.nil_append, List.append_nil, Cost.footYaw.injEq] at hf
      by_cases ha : st.leftFootYawCostActive = true
      · simp only [askedWith, asked, Spec.when, ha, if_true] at hf ⊢
        exact ⟨_, hf, rfl, rfl, rfl⟩
      · simp only [askedWith, asked, Spec.when, ha, if_false] at hf ⊢
        exact fun t ht => by simpa using List.filter_eq_nil_iff.1 hf t ht
    | right =>
      have hf := filter_blocks st (rangesAt st.dofs n) (.footYaw .right)
      simp only [costBlocks, List.map_cons, List.map_nil, List.flatten_cons, List.flatten_nil, filter_one, filter_points_ne, ne_eq, reduceCtorEq, not_false_eq_true,
        implies_true, and_false, and_true, if_false, List.nil_append, List.append_nil, Cost.footYaw.injEq] at hf
      by_cases ha : st.rightFootYawCostActive = true
      · simp only [askedWith, asked, Spec.when, ha, if_true] at hf ⊢
        exact ⟨_, hf, rfl, rfl, rfl⟩
      · simp only [askedWith, asked, Spec.when, ha, if_false] at hf ⊢
        exact fun t ht => by simpa using List.filter_eq_nil_iff.1 hf t ht

end Verif.SolverM
