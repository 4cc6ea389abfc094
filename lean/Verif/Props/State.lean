import Verif.Lemmas.State
/- Properties C37 and C38: state and control containers. -/
set_option linter.unusedSectionVars false
namespace Verif.StateM
open Spec
variable {K : Type}

/-- C37.  A constructed state has exactly the requested sizes and is zero everywhere. -/
theorem C37_constructed [Zero K] [One K] (u : State K) (n p : Nat) (j : Junk K) :
    HasSize (State.new u n p j) n p ∧ AllZero (State.new u n p j) := by
  refine ⟨?_, ?_⟩
  · simp [HasSize, State.new, State.zero, State.resize, resizeList_length]
  · simp [AllZero, State.new, State.zero, identityTransform]

/-- C37.  A resized state has exactly the requested sizes; the surviving points, the surviving joints, and everything
that has no size are kept. -/
theorem C37_resized (s : State K) (n p : Nat) (j : Junk K) :
    HasSize (s.resize n p j) n p ∧
    (s.resize n p j).left.take s.left.length = s.left.take p ∧
    (s.resize n p j).right.take s.right.length = s.right.take p ∧
    (s.resize n p j).com = s.com ∧ (s.resize n p j).base = s.base ∧ (s.resize n p j).time = s.time ∧
    (s.resize n p j).linearMomentum = s.linearMomentum ∧ (s.resize n p j).angularMomentum = s.angularMomentum := by
  refine ⟨by simp [HasSize, State.resize, resizeList_length], ?_, ?_, rfl, rfl, rfl, rfl, rfl⟩
  all_goals exact resizeList_take _ _ _

/-- C37.  Resizing to the current size changes nothing. -/
theorem C37_resize_same (s : State K) (n p : Nat) (j : Junk K) (h : HasSize s n p) : s.resize n p j = s := by
  obtain ⟨h1, h2, h3⟩ := h
  subst h1 h3
  have e : s.right.take s.left.length = s.right := by rw [← h2]; simp
  simp [State.resize, resizeList, h2, e]

/-- C37.  `zero()` keeps the sizes and zeroes every value. -/
theorem C37_zero [Zero K] [One K] (s : State K) (n p : Nat) (h : HasSize s n p) :
    HasSize s.zero n p ∧ AllZero s.zero := by
  refine ⟨by simpa [HasSize, State.zero] using h, by simp [AllZero, State.zero, identityTransform]⟩

/-- C37.  `checkSize` answers whether the state has the given sizes. -/
theorem C37_checkSize (s : State K) (n p : Nat) : s.checkSize n p = true ↔ HasSize s n p := by
  simp [State.checkSize, HasSize, and_assoc]

/-- C37.  `sameSize` is an equivalence, and on states with uniform feet it agrees with `checkSize`. -/
theorem C37_sameSize (a b c : State K) :
    a.sameSize a = true ∧ (a.sameSize b = true → b.sameSize a = true) ∧
    (a.sameSize b = true → b.sameSize c = true → a.sameSize c = true) ∧
    (∀ n p, a.sameSize b = true → (a.checkSize n p = b.checkSize n p)) ∧
    (∀ n p, a.checkSize n p = true → b.checkSize n p = true → a.sameSize b = true) := by
  refine ⟨?_, ?_, ?_, ?_, ?_⟩
  · simp [State.sameSize]
  · simp only [State.sameSize, Bool.and_eq_true, beq_iff_eq]; omega
  · simp only [State.sameSize, Bool.and_eq_true, beq_iff_eq]; omega
  · intro n p
    simp only [State.sameSize, State.checkSize, Bool.and_eq_true, beq_iff_eq]
    rintro ⟨⟨h1, h2⟩, h3⟩
    rw [h1, h2, h3]
  · intro n p
    simp only [State.sameSize, State.checkSize, Bool.and_eq_true, beq_iff_eq]; omega

/-- C37 for controls: construction, resize, zero, size queries. -/
theorem C37_control_constructed [Zero K] (u : Control K) (n p : Nat) (j : ControlJunk K) :
    ControlHasSize (Control.new u n p j) n p ∧ ControlAllZero (Control.new u n p j) := by
  refine ⟨?_, ?_⟩
  · simp [ControlHasSize, Control.new, Control.zero, Control.resize, resizeList_length]
  · simp [ControlAllZero, Control.new, Control.zero]

theorem C37_control_resized (s : Control K) (n p : Nat) (j : ControlJunk K) :
    ControlHasSize (s.resize n p j) n p ∧
    (s.resize n p j).left.take s.left.length = s.left.take p ∧
    (s.resize n p j).right.take s.right.length = s.right.take p ∧
    (s.resize n p j).baseLinearVelocity = s.baseLinearVelocity ∧
    (s.resize n p j).baseQuaternionDerivative = s.baseQuaternionDerivative ∧ (s.resize n p j).time = s.time := by
  refine ⟨by simp [ControlHasSize, Control.resize, resizeList_length], ?_, ?_, rfl, rfl, rfl⟩
  all_goals exact resizeList_take _ _ _

theorem C37_control_zero [Zero K] (s : Control K) (n p : Nat) (h : ControlHasSize s n p) :
    ControlHasSize s.zero n p ∧ ControlAllZero s.zero := by
  refine ⟨by simpa [ControlHasSize, Control.zero] using h, by simp [ControlAllZero, Control.zero]⟩

theorem C37_control_checkSize (s : Control K) (n p : Nat) : s.checkSize n p = true ↔ ControlHasSize s n p := by
  simp [Control.checkSize, ControlHasSize, and_assoc]

theorem C37_control_sameSize (a b c : Control K) :
    a.sameSize a = true ∧ (a.sameSize b = true → b.sameSize a = true) ∧
    (a.sameSize b = true → b.sameSize c = true → a.sameSize c = true) ∧
    (∀ n p, a.sameSize b = true → (a.checkSize n p = b.checkSize n p)) ∧
    (∀ n p, a.checkSize n p = true → b.checkSize n p = true → a.sameSize b = true) := by
  refine ⟨?_, ?_, ?_, ?_, ?_⟩
  · simp [Control.sameSize]
  · simp only [Control.sameSize, Bool.and_eq_true, beq_iff_eq]; omega
  · simp only [Control.sameSize, Bool.and_eq_true, beq_iff_eq]; omega
  · intro n p
    simp only [Control.sameSize, Control.checkSize, Bool.and_eq_true, beq_iff_eq]
    rintro ⟨⟨h1, h2⟩, h3⟩
    rw [h1, h2, h3]
  · intro n p
    simp only [Control.sameSize, Control.checkSize, Bool.and_eq_true, beq_iff_eq]; omega

/-- C38.  The feet centroid is the mean of all contact points of both feet: deviations from it sum to zero. -/
theorem C38_centroid_mean [Field K] [CharZero K] (s : State K) : IsMean (allPoints s) s.computeFeetCentroid :=
  centroid_isMean s

/-- C38.  There is only one mean (so `C38_centroid_mean` determines the answer) when there is a contact point, and the
answer is the origin when there is none. -/
theorem C38_centroid_unique [Field K] [CharZero K] (s : State K) (c : V3 K) (hne : allPoints s ≠ [])
    (h : IsMean (allPoints s) c) : c = s.computeFeetCentroid := by
  rw [(isMean_iff _ hne c).1 h, ← (isMean_iff _ hne _).1 (centroid_isMean s)]

theorem C38_centroid_empty [Field K] (s : State K) (h : allPoints s = []) : s.computeFeetCentroid = 0 := by
  have h' := List.append_eq_nil_iff.1 h
  simp [State.computeFeetCentroid, h'.1, h'.2]

/-- C38.  Moving every contact point by `d` moves the centroid by `d`. -/
theorem C38_centroid_shift [Field K] [CharZero K] (s : State K) (d : V3 K) (hne : allPoints s ≠ []) :
    (shiftPoints d s).computeFeetCentroid = s.computeFeetCentroid + d := by
  symm
  apply C38_centroid_unique
  · simpa [allPoints, shiftPoints] using hne
  · have := centroid_isMean s
    unfold IsMean at this ⊢
    rw [← this]
    simp only [allPoints, shiftPoints, List.map_append, List.map_map]
    congr 3 <;> (funext p; ext <;> simp)

/-- C38.  Which foot is forward does not depend on the forces, nor on a common shift of all points, and the two feet are
never forward of each other. -/
theorem C38_forward_shift [Field K] [LinearOrder K] [IsStrictOrderedRing K] (s : State K) (d f : V3 K) :
    (shiftPoints d s).leftIsForward f = s.leftIsForward f := by
  have key : ∀ l : List (PointState K), l ≠ [] →
      (divBy (accumulate 0 (l.map fun p => { p with position := p.position + d })) l.length).dot f
        = (divBy (accumulate 0 l) l.length).dot f + d.dot f := by
    intro l hl
    have hn : (l.length : K) ≠ 0 := by rw [Nat.cast_ne_zero]; simpa using hl
    rw [accumulate_eq, accumulate_eq, zero_add, zero_add]
    simp only [divBy, V3.dot, sum_x, sum_y, sum_z, List.map_map]
    have hx := sum_add_const l (fun p => p.position.x) d.x
    have hy := sum_add_const l (fun p => p.position.y) d.y
    have hz := sum_add_const l (fun p => p.position.z) d.z
    simp only [Function.comp_def, V3.add_x, V3.add_y, V3.add_z, hx, hy, hz]
    field_simp
    ring
  unfold State.leftIsForward
  by_cases hl : s.left = []
  · simp [shiftPoints, hl]
  · by_cases hr : s.right = []
    · simp [shiftPoints, hr]
    · have e1 := key s.left hl
      have e2 := key s.right hr
      simp only [shiftPoints, List.isEmpty_map, List.length_map] at e1 e2 ⊢
      rw [e1, e2]
      simp [hl, hr]

theorem C38_forward_asymm [Field K] [LinearOrder K] (s : State K) (f : V3 K) (h : s.leftIsForward f = true) :
    ({ s with left := s.right, right := s.left } : State K).leftIsForward f = false := by
  unfold State.leftIsForward at h ⊢
  split at h
  · cases h
  · rename_i hne
    rw [Bool.or_comm] at hne
    rw [if_neg hne]
    simp only [decide_eq_true_eq, decide_eq_false_iff_not, gt_iff_lt, not_lt] at h ⊢
    exact h.le

/-- C38.  The left foot is forward exactly when its mean point is strictly further along the direction. -/
theorem C38_forward_iff [Field K] [LinearOrder K] [IsStrictOrderedRing K] (s : State K) (f l r : V3 K)
    (hl : s.left ≠ []) (hr : s.right ≠ []) (ml : IsMean s.left l) (mr : IsMean s.right r) :
    s.leftIsForward f = true ↔ r.dot f < l.dot f := by
  rw [(isMean_iff _ hl l).1 ml, (isMean_iff _ hr r).1 mr]
  simp [State.leftIsForward, hl, hr, accumulate_eq]

/-- C38.  The reported minimum force is attained by a point of the forward foot and bounds all of them from below. -/
theorem C38_min_force [Field K] [LinearOrder K] (norm : V3 K → K) (s : State K) (f : V3 K) (m : K)
    (h : s.minimumPointForceOnForwardFoot norm f = some m) :
    let foot := if s.leftIsForward f = true then s.left else s.right
    (∀ p ∈ foot, m ≤ norm p.force) ∧ ∃ p ∈ foot, m = norm p.force := by
  unfold State.minimumPointForceOnForwardFoot at h
  split at h <;> rename_i hc
  · simp only [hc, if_true]; exact minForce_spec norm _ m h
  · simp only [hc]; exact minForce_spec norm _ m h

/-- C38 (definedness).  The query is defined whenever both feet have at least one point. -/
theorem C38_min_force_defined [Field K] [LinearOrder K] (norm : V3 K → K) (s : State K) (f : V3 K)
    (hl : s.left ≠ []) (hr : s.right ≠ []) : (s.minimumPointForceOnForwardFoot norm f).isSome = true := by
  unfold State.minimumPointForceOnForwardFoot
  split
  · cases h : s.left with
    | nil => exact absurd h hl
    | cons => simp [minForce]
  · cases h : s.right with
    | nil => exact absurd h hr
    | cons => simp [minForce]

/-- A concrete state: two points per foot, left foot forward. -/
def sampleState : State Rat :=
  { left := [⟨⟨0, 0, 50⟩, ⟨1, 1, 0⟩⟩, ⟨⟨0, 0, 20⟩, ⟨3, 1, 0⟩⟩]
    right := [⟨⟨0, 0, 10⟩, ⟨0, -1, 0⟩⟩, ⟨⟨0, 0, 5⟩, ⟨2, -1, 0⟩⟩]
    linearMomentum := 0, angularMomentum := 0, com := ⟨1, 0, 1⟩
    base := identityTransform Rat, joints := [0, 1, 2], time := 0 }

example : HasSize sampleState 3 2 ∧ allPoints sampleState ≠ [] ∧ sampleState.left ≠ [] ∧ sampleState.right ≠ [] := by
  refine ⟨⟨rfl, rfl, rfl⟩, by simp [allPoints, sampleState], by simp [sampleState], by simp [sampleState]⟩
example : sampleState.computeFeetCentroid = ⟨3 / 2, 0, 0⟩ := by decide +kernel
example : sampleState.leftIsForward ⟨1, 0, 0⟩ = true := by decide +kernel
example : sampleState.minimumPointForceOnForwardFoot (fun v => |v.x| + |v.y| + |v.z|) ⟨1, 0, 0⟩ = some 20 := by
  decide +kernel

end Verif.StateM
