import Verif.Lemmas.Packing2
import Verif.Model.Vars
/- Layout of the optimisation vector and what is written in it (C29, C31). -/
set_option linter.unusedSectionVars false
namespace Verif.SolverM
open StateM Spec
open Labeller (Labeller Range)
variable {K : Type}

theorem points_of_list (n : Nat) (l : List K) (h : l.length = 6 * n) : ∃ xs : List (PointState K), xs.length = n ∧ xs.flatMap pointState = l := by
  induction n generalizing l with
  | zero => exact ⟨[], rfl, by rw [show l = [] from List.length_eq_zero_iff.1 (by omega)]; rfl⟩
  | succ n ih =>
    match l, h with
    | a :: b :: c :: x :: y :: z :: l, h =>
      obtain ⟨xs, h1, h2⟩ := ih l (by simp at h; omega)
      exact ⟨⟨⟨a, b, c⟩, ⟨x, y, z⟩⟩ :: xs, by simp [h1], by simp [pointState, h2]⟩

theorem pointsControl_of_list (n : Nat) (l : List K) (h : l.length = 6 * n) :
    ∃ xs : List (PointControl K), xs.length = n ∧ xs.flatMap pointControl = l := by
  induction n generalizing l with
  | zero => exact ⟨[], rfl, by rw [show l = [] from List.length_eq_zero_iff.1 (by omega)]; rfl⟩
  | succ n ih =>
    match l, h with
    | a :: b :: c :: x :: y :: z :: l, h =>
      obtain ⟨xs, h1, h2⟩ := ih l (by simp at h; omega)
      exact ⟨⟨⟨x, y, z⟩, ⟨a, b, c⟩⟩ :: xs, by simp [h1], by simp [pointControl, h2]⟩

theorem list3_of (l : List K) (h : l.length = 3) : ∃ v : V3 K, [v.x, v.y, v.z] = l := by
  match l, h with
  | [a, b, c], _ => exact ⟨⟨a, b, c⟩, rfl⟩
theorem list4_of (l : List K) (h : l.length = 4) : ∃ v : V4 K, [v.w, v.x, v.y, v.z] = l := by
  match l, h with
  | [a, b, c, d], _ => exact ⟨⟨a, b, c, d⟩, rfl⟩
theorem list6_of (l : List K) (h : l.length = 6) : ∃ v w : V3 K, [v.x, v.y, v.z, w.x, w.y, w.z] = l := by
  match l, h with
  | [a, b, c, d, e, f], _ => exact ⟨⟨a, b, c⟩, ⟨d, e, f⟩, rfl⟩

/-- Every vector of that length describes a state and a quaternion. -/
theorem state_of_vector (d n : Nat) (v : List K) (hv : v.length = 12 * n + 16 + d) (t : K) (R : M3 K) :
    ∃ (s : State K) (q : V4 K), StateSize d n s ∧ stateVector s q = v ∧ s.time = t ∧ s.base.rot = R := by
  obtain ⟨p1, v, rfl, lp1, hv⟩ := split_list v (6 * n) (6 * n + 16 + d) (by omega)
  obtain ⟨p2, v, rfl, lp2, hv⟩ := split_list v (6 * n) (16 + d) (by omega)
  obtain ⟨m, v, rfl, lm, hv⟩ := split_list v 6 (10 + d) (by omega)
  obtain ⟨c, v, rfl, lc, hv⟩ := split_list v 3 (7 + d) (by omega)
  obtain ⟨b, v, rfl, lb, hv⟩ := split_list v 3 (4 + d) (by omega)
  obtain ⟨q, j, rfl, lq, lj⟩ := split_list v 4 d hv
  obtain ⟨x1, h1, rfl⟩ := points_of_list n p1 lp1
  obtain ⟨x2, h2, rfl⟩ := points_of_list n p2 lp2
  obtain ⟨m1, m2, rfl⟩ := list6_of m lm
  obtain ⟨c, rfl⟩ := list3_of c lc
  obtain ⟨b, rfl⟩ := list3_of b lb
  obtain ⟨q, rfl⟩ := list4_of q lq
  exact ⟨⟨x1, x2, m1, m2, c, ⟨R, b⟩, j, t⟩, q, ⟨h1, h2, lj⟩, by simp [stateVector], rfl, rfl⟩

/-- Every vector of that length describes a control. -/
theorem control_of_vector (d n : Nat) (v : List K) (hv : v.length = 12 * n + 7 + d) (t : K) :
    ∃ s : Control K, ControlSize d n s ∧ controlVector s = v ∧ s.time = t := by
  obtain ⟨p1, v, rfl, lp1, hv⟩ := split_list v (6 * n) (6 * n + 7 + d) (by omega)
  obtain ⟨p2, v, rfl, lp2, hv⟩ := split_list v (6 * n) (7 + d) (by omega)
  obtain ⟨b, v, rfl, lb, hv⟩ := split_list v 3 (4 + d) (by omega)
  obtain ⟨q, j, rfl, lq, lj⟩ := split_list v 4 d hv
  obtain ⟨x1, h1, rfl⟩ := pointsControl_of_list n p1 lp1
  obtain ⟨x2, h2, rfl⟩ := pointsControl_of_list n p2 lp2
  obtain ⟨b, rfl⟩ := list3_of b lb
  obtain ⟨q, rfl⟩ := list4_of q lq
  exact ⟨⟨x1, x2, b, q, j, t⟩, ⟨h1, h2, lj⟩, by simp [controlVector], rfl⟩

theorem stateVector_length {d n : Nat} {s : State K} (hs : StateSize d n s) (q : V4 K) : (stateVector s q).length = 12 * n + 16 + d := by
  simp only [stateVector, List.length_append, flatMap_point_length, hs.left, hs.right, hs.joints, List.length_cons, List.length_nil]
  omega

theorem controlVector_length {d n : Nat} {s : Control K} (hs : ControlSize d n s) : (controlVector s).length = 12 * n + 7 + d := by
  simp only [controlVector, List.length_append, flatMap_pointControl_length, hs.left, hs.right, hs.joints, List.length_cons, List.length_nil]
  omega

theorem ranges_eq [Zero K] {s c s' c' : Labeller K} {d n : Nat} {r : Ranges} (h : setVariablesStructure s c d n = some (s', c', r)) :
    r = rangesAt d n := by
  obtain ⟨a, b, e, -⟩ := structure_ok s c d n
  rw [e] at h
  simp only [Option.some.injEq, Prod.mk.injEq] at h
  exact h.2.2.symm

/-- **C29.** The labels of the variables never clash: whatever the labels were before, for every number of joints and points the
structure is made, with vectors of `12 n + 16 + d` and `12 n + 7 + d` elements. -/
theorem C29_structure [Zero K] (s c : Labeller K) (d n : Nat) : ∃ s' c' r, setVariablesStructure s c d n = some (s', c', r) ∧
    r.stateDimension = 12 * n + 16 + d ∧ r.controlDimension = 12 * n + 7 + d ∧ Labeller.size s' = r.stateDimension ∧
    Labeller.size c' = r.controlDimension := by
  obtain ⟨a, b, e, h1, h2⟩ := structure_ok s c d n
  exact ⟨a, b, _, e, rfl, rfl, h1, h2⟩

/-- **C29**, states: writing a state gives the layout of the specification whatever the vector held, and reading it in a state of the
same size gives back the state, with the given time, if the quaternion taken from its rotation describes that rotation. -/
theorem C29_state_round_trip [Field K] [LinearOrder K] (sqrt : K → K) (asQuat : M3 K → V4 K) {ls lc ls' lc' : Labeller K} {d n : Nat} {r : Ranges}
    (h : setVariablesStructure ls lc d n = some (ls', lc', r)) (s : State K) (hs : StateSize d n s) (buffer : List K)
    (hb : buffer.length = r.stateDimension) :
    packState asQuat r s buffer = some (stateVector s (asQuat s.base.rot)) ∧
    (rotationOf sqrt (asQuat s.base.rot) = s.base.rot → ∀ (dest : State K), StateSize d n dest → ∀ time,
      unpackState sqrt r (stateVector s (asQuat s.base.rot)) time dest = some { s with time := time }) := by
  obtain rfl := ranges_eq h
  refine ⟨packState_ok asQuat d n s hs buffer hb, fun hq dest hd time => ?_⟩
  rw [unpackState_ok sqrt d n s hs _ time dest (by rw [hd.left]) (by rw [hd.right]), hq,
    List.drop_eq_nil_of_le (by rw [hd.left]), List.drop_eq_nil_of_le (by rw [hd.right]), List.append_nil, List.append_nil]

/-- **C29**, initial state: the vector handed to the optimiser has the dimension of the problem and the layout of the specification,
whatever the vector held before. -/
theorem C29_initial_state [Field K] [LinearOrder K] (asQuat : M3 K → V4 K) {ls lc ls' lc' : Labeller K} {d n : Nat} {r : Ranges}
    (h : setVariablesStructure ls lc d n = some (ls', lc', r)) (s : State K) (hs : StateSize d n s) (buffer : List K)
    (hb : buffer.length = r.stateDimension) :
    fillInitialState asQuat r s buffer = some (stateVector s (asQuat s.base.rot)) ∧
      (stateVector s (asQuat s.base.rot)).length = r.stateDimension := by
  obtain rfl := ranges_eq h
  have hp := packState_ok asQuat d n s hs buffer hb
  refine ⟨?_, stateVector_length hs _⟩
  unfold fillInitialState
  rw [if_pos (by rw [hb]; simp [rangesAt, footAt]; omega), hp]

/-- The condition of `C29_state_round_trip` holds when the quaternion is of unit norm and describes the rotation. -/
theorem rotationOf_unit [Field K] [LinearOrder K] [IsStrictOrderedRing K] (sqrt : K → K) (h1 : sqrt 1 = 1) (q : V4 K)
    (hn : q.w * q.w + q.x * q.x + q.y * q.y + q.z * q.z = 1) (R : M3 K)
    (hR : Quaternion.rotationFromQuaternion ![q.w, q.x, q.y, q.z] =
      !![R.r0.x, R.r0.y, R.r0.z; R.r1.x, R.r1.y, R.r1.z; R.r2.x, R.r2.y, R.r2.z]) : rotationOf sqrt q = R := by
  have hsq : Quaternion.squaredNorm ![q.w, q.x, q.y, q.z] = 1 := by
    unfold Quaternion.squaredNorm
    rw [Fin.sum_univ_four]
    exact hn
  have : Quaternion.normalized sqrt ![q.w, q.x, q.y, q.z] = ![q.w, q.x, q.y, q.z] := by
    unfold Quaternion.normalized Quaternion.norm
    rw [hsq, if_pos one_pos, h1]
    funext i
    rw [div_one]
  unfold rotationOf
  rw [this, hR]
  rfl

/-- **C29**, states read from any vector of the right length (what the optimiser returns): no access out of bounds, a state of the
right size, with the given time; written again it gives the same vector but for the four elements of the quaternion, which become
those of the rotation of the normalised quaternion. -/
theorem C29_state_of_any_vector [Field K] [LinearOrder K] (sqrt : K → K) (asQuat : M3 K → V4 K) {ls lc ls' lc' : Labeller K} {d n : Nat} {r : Ranges}
    (h : setVariablesStructure ls lc d n = some (ls', lc', r)) (v : List K) (hv : v.length = r.stateDimension) (time : K) (dest : State K)
    (hd : StateSize d n dest) :
    ∃ s, unpackState sqrt r v time dest = some s ∧ StateSize d n s ∧ s.time = time ∧
      ∃ q, s.base.rot = rotationOf sqrt q ∧ stateVector s q = v ∧
        ∀ buffer : List K, buffer.length = r.stateDimension → packState asQuat r s buffer = some (stateVector s (asQuat (rotationOf sqrt q))) := by
  obtain rfl := ranges_eq h
  obtain ⟨s, q, hs, rfl, -, -⟩ := state_of_vector d n v hv time dest.base.rot
  refine ⟨_, unpackState_ok sqrt d n s hs q time dest (by rw [hd.left]) (by rw [hd.right]), ?_⟩
  rw [List.drop_eq_nil_of_le (by rw [hd.left]), List.drop_eq_nil_of_le (by rw [hd.right]), List.append_nil, List.append_nil]
  have hs' : StateSize d n { s with base := ⟨rotationOf sqrt q, s.base.pos⟩, time := time } := ⟨hs.left, hs.right, hs.joints⟩
  exact ⟨hs', rfl, q, rfl, rfl, fun buffer hb => packState_ok asQuat d n _ hs' buffer hb⟩

/-- **C29**, controls: writing gives the layout of the specification whatever the vector held, reading gives back the control. -/
theorem C29_control_round_trip [Zero K] {ls lc ls' lc' : Labeller K} {d n : Nat} {r : Ranges}
    (h : setVariablesStructure ls lc d n = some (ls', lc', r)) (s : Control K) (hs : ControlSize d n s) (buffer : List K)
    (hb : buffer.length = r.controlDimension) :
    packControl r s buffer = some (controlVector s) ∧ ∀ (dest : Control K), ControlSize d n dest → ∀ time,
      unpackControl r (controlVector s) time dest = some { s with time := time } := by
  obtain rfl := ranges_eq h
  refine ⟨packControl_ok d n s hs buffer hb, fun dest hd time => ?_⟩
  rw [unpackControl_ok d n s hs time dest (by rw [hd.left]) (by rw [hd.right]),
    List.drop_eq_nil_of_le (by rw [hd.left]), List.drop_eq_nil_of_le (by rw [hd.right]), List.append_nil, List.append_nil]

/-- **C29**, controls read from any vector of the right length: written again they give the same vector. -/
theorem C29_control_of_any_vector [Zero K] {ls lc ls' lc' : Labeller K} {d n : Nat} {r : Ranges}
    (h : setVariablesStructure ls lc d n = some (ls', lc', r)) (v : List K) (hv : v.length = r.controlDimension) (time : K) (dest : Control K)
    (hd : ControlSize d n dest) :
    ∃ s, unpackControl r v time dest = some s ∧ ControlSize d n s ∧ s.time = time ∧ controlVector s = v ∧
      ∀ buffer : List K, buffer.length = r.controlDimension → packControl r s buffer = some v := by
  obtain rfl := ranges_eq h
  obtain ⟨s, hs, rfl, -⟩ := control_of_vector d n v hv time
  refine ⟨{ s with time := time }, ?_, ⟨hs.left, hs.right, hs.joints⟩, rfl, rfl, fun buffer hb =>
    packControl_ok d n { s with time := time } ⟨hs.left, hs.right, hs.joints⟩ buffer hb⟩
  rw [unpackControl_ok d n s hs time dest (by rw [hd.left]) (by rw [hd.right]),
    List.drop_eq_nil_of_le (by rw [hd.left]), List.drop_eq_nil_of_le (by rw [hd.right]), List.append_nil, List.append_nil]

/-- The range the solver holds for a label of the state. -/
def stateRange (r : Ranges) {n : Nat} : NLP.SBlk n → Option Range
  | .force .left i => r.left.forcePoints[i.val]?
  | .force .right i => r.right.forcePoints[i.val]?
  | .pos .left i => r.left.positionPoints[i.val]?
  | .pos .right i => r.right.positionPoints[i.val]?
  | .momentum => some r.momentum
  | .com => some r.comPosition
  | .basePos => some r.basePosition
  | .baseQuat => some r.baseQuaternion
  | .joints => some r.jointsPosition

/-- The range the solver holds for a label of the control. -/
def controlRange (r : Ranges) {n : Nat} : NLP.CBlk n → Option Range
  | .velCtl .left i => r.left.velocityControlPoints[i.val]?
  | .velCtl .right i => r.right.velocityControlPoints[i.val]?
  | .forceCtl .left i => r.left.forceControlPoints[i.val]?
  | .forceCtl .right i => r.right.forceControlPoints[i.val]?
  | .baseVel => some r.baseLinearVelocity
  | .quatDer => some r.baseQuaternionDerivative
  | .jointVel => some r.jointsVelocity

/-- Number of elements of a label of the state. -/
def stateSize (d : Nat) {n : Nat} : NLP.SBlk n → Nat
  | .momentum => 6
  | .baseQuat => 4
  | .joints => d
  | _ => 3

/-- Number of elements of a label of the control. -/
def controlSize (d : Nat) {n : Nat} : NLP.CBlk n → Nat
  | .quatDer => 4
  | .jointVel => d
  | _ => 3

/-- **C29**, positions: each label has a range of its size and each position of the state vector is the `k`-th element of exactly one
label (so the symbolic positions (label, k) of the constraints and costs are different positions of the vector, and all of it). -/
theorem C29_state_positions [Zero K] {ls lc ls' lc' : Labeller K} {d n : Nat} {r : Ranges}
    (h : setVariablesStructure ls lc d n = some (ls', lc', r)) :
    (∀ b : NLP.SBlk n, ∃ off, stateRange r b = some ⟨off, stateSize d b⟩ ∧ off + stateSize d b ≤ r.stateDimension) ∧
    ∀ i < r.stateDimension, ∃! p : NLP.SBlk n × Nat, p.2 < stateSize d p.1 ∧ ∃ rg, stateRange r p.1 = some rg ∧ rg.offset + p.2 = i := by
  obtain rfl := ranges_eq h
  have key : ∀ b : NLP.SBlk n, stateRange (rangesAt d n) b = some ⟨match b with
      | .force .left i => 6 * i.val | .force .right i => 6 * n + 6 * i.val | .pos .left i => 6 * i.val + 3
      | .pos .right i => 6 * n + 6 * i.val + 3 | .momentum => 12 * n | .com => 12 * n + 6 | .basePos => 12 * n + 9 | .baseQuat => 12 * n + 12
      | .joints => 12 * n + 16, stateSize d b⟩ := by
    intro b
    rcases b with ⟨_ | _, i⟩ | ⟨_ | _, i⟩ | _ | _ | _ | _ | _ <;> simp [stateRange, rangesAt, footAt, stateSize]
  constructor
  · intro b
    refine ⟨_, key b, ?_⟩
    rcases b with ⟨_ | _, i⟩ | ⟨_ | _, i⟩ | _ | _ | _ | _ | _ <;> simp only [stateSize, rangesAt] <;> omega
  · intro i hi
    have hi : i < 12 * n + 16 + d := hi
    refine existsUnique_of_exists_of_unique ?_ ?_
    · by_cases h1 : i < 6 * n
      · by_cases h2 : i % 6 < 3
        · exact ⟨(.force .left ⟨i / 6, by omega⟩, i % 6), by simpa [stateSize] using h2, _, key _, by dsimp only; omega⟩
        · exact ⟨(.pos .left ⟨i / 6, by omega⟩, i % 6 - 3), by simp only [stateSize]; omega, _, key _, by dsimp only; omega⟩
      · by_cases h3 : i < 12 * n
        · by_cases h2 : (i - 6 * n) % 6 < 3
          · exact ⟨(.force .right ⟨(i - 6 * n) / 6, by omega⟩, (i - 6 * n) % 6), by simpa [stateSize] using h2, _, key _, by dsimp only; omega⟩
          · exact ⟨(.pos .right ⟨(i - 6 * n) / 6, by omega⟩, (i - 6 * n) % 6 - 3), by simp only [stateSize]; omega, _, key _, by dsimp only; omega⟩
        · by_cases h4 : i < 12 * n + 6
          · exact ⟨(.momentum, i - 12 * n), by simp only [stateSize]; omega, _, key _, by dsimp only; omega⟩
          · by_cases h5 : i < 12 * n + 9
            · exact ⟨(.com, i - (12 * n + 6)), by simp only [stateSize]; omega, _, key _, by dsimp only; omega⟩
            · by_cases h6 : i < 12 * n + 12
              · exact ⟨(.basePos, i - (12 * n + 9)), by simp only [stateSize]; omega, _, key _, by dsimp only; omega⟩
              · by_cases h7 : i < 12 * n + 16
                · exact ⟨(.baseQuat, i - (12 * n + 12)), by simp only [stateSize]; omega, _, key _, by dsimp only; omega⟩
                · exact ⟨(.joints, i - (12 * n + 16)), by simp only [stateSize]; omega, _, key _, by dsimp only; omega⟩
    · rintro ⟨b, k⟩ ⟨b', k'⟩ ⟨hk, rg, hr, ho⟩ ⟨hk', rg', hr', ho'⟩
      dsimp only at hk hk' hr hr' ho ho'
      rw [key] at hr hr'
      obtain rfl := Option.some.inj hr
      obtain rfl := Option.some.inj hr'
      dsimp only at ho ho'
      rcases b with ⟨_ | _, i⟩ | ⟨_ | _, i⟩ | _ | _ | _ | _ | _ <;> rcases b' with ⟨_ | _, i'⟩ | ⟨_ | _, i'⟩ | _ | _ | _ | _ | _ <;>
        simp only [stateSize] at hk hk' ho ho' <;>
        first
        | (exfalso; omega)
        | (rw [Prod.mk.injEq]; refine ⟨?_, by omega⟩; first | rfl | (congr 1; apply Fin.ext; omega))

/-- **C29**, positions of the control vector. -/
theorem C29_control_positions [Zero K] {ls lc ls' lc' : Labeller K} {d n : Nat} {r : Ranges}
    (h : setVariablesStructure ls lc d n = some (ls', lc', r)) :
    (∀ b : NLP.CBlk n, ∃ off, controlRange r b = some ⟨off, controlSize d b⟩ ∧ off + controlSize d b ≤ r.controlDimension) ∧
    ∀ i < r.controlDimension, ∃! p : NLP.CBlk n × Nat, p.2 < controlSize d p.1 ∧ ∃ rg, controlRange r p.1 = some rg ∧ rg.offset + p.2 = i := by
  obtain rfl := ranges_eq h
  have key : ∀ b : NLP.CBlk n, controlRange (rangesAt d n) b = some ⟨match b with
      | .velCtl .left i => 6 * i.val | .velCtl .right i => 6 * n + 6 * i.val | .forceCtl .left i => 6 * i.val + 3
      | .forceCtl .right i => 6 * n + 6 * i.val + 3 | .baseVel => 12 * n | .quatDer => 12 * n + 3 | .jointVel => 12 * n + 7, controlSize d b⟩ := by
    intro b
    rcases b with ⟨_ | _, i⟩ | ⟨_ | _, i⟩ | _ | _ | _ <;> simp [controlRange, rangesAt, footAt, controlSize]
  constructor
  · intro b
    refine ⟨_, key b, ?_⟩
    rcases b with ⟨_ | _, i⟩ | ⟨_ | _, i⟩ | _ | _ | _ <;> simp only [controlSize, rangesAt] <;> omega
  · intro i hi
    have hi : i < 12 * n + 7 + d := hi
    refine existsUnique_of_exists_of_unique ?_ ?_
    · by_cases h1 : i < 6 * n
      · by_cases h2 : i % 6 < 3
        · exact ⟨(.velCtl .left ⟨i / 6, by omega⟩, i % 6), by simpa [controlSize] using h2, _, key _, by dsimp only; omega⟩
        · exact ⟨(.forceCtl .left ⟨i / 6, by omega⟩, i % 6 - 3), by simp only [controlSize]; omega, _, key _, by dsimp only; omega⟩
      · by_cases h3 : i < 12 * n
        · by_cases h2 : (i - 6 * n) % 6 < 3
          · exact ⟨(.velCtl .right ⟨(i - 6 * n) / 6, by omega⟩, (i - 6 * n) % 6), by simpa [controlSize] using h2, _, key _, by dsimp only; omega⟩
          · exact ⟨(.forceCtl .right ⟨(i - 6 * n) / 6, by omega⟩, (i - 6 * n) % 6 - 3), by simp only [controlSize]; omega, _, key _,
              by dsimp only; omega⟩
        · by_cases h4 : i < 12 * n + 3
          · exact ⟨(.baseVel, i - 12 * n), by simp only [controlSize]; omega, _, key _, by dsimp only; omega⟩
          · by_cases h5 : i < 12 * n + 7
            · exact ⟨(.quatDer, i - (12 * n + 3)), by simp only [controlSize]; omega, _, key _, by dsimp only; omega⟩
            · exact ⟨(.jointVel, i - (12 * n + 7)), by simp only [controlSize]; omega, _, key _, by dsimp only; omega⟩
    · rintro ⟨b, k⟩ ⟨b', k'⟩ ⟨hk, rg, hr, ho⟩ ⟨hk', rg', hr', ho'⟩
      dsimp only at hk hk' hr hr' ho ho'
      rw [key] at hr hr'
      obtain rfl := Option.some.inj hr
      obtain rfl := Option.some.inj hr'
      dsimp only at ho ho'
      rcases b with ⟨_ | _, i⟩ | ⟨_ | _, i⟩ | _ | _ | _ <;> rcases b' with ⟨_ | _, i'⟩ | ⟨_ | _, i'⟩ | _ | _ | _ <;>
        simp only [controlSize] at hk hk' ho ho' <;>
        first
        | (exfalso; omega)
        | (rw [Prod.mk.injEq]; refine ⟨?_, by omega⟩; first | rfl | (congr 1; apply Fin.ext; omega))

theorem checkSize_iff (s : State K) (d n : Nat) : s.checkSize d n = true ↔ StateSize d n s := by
  unfold State.checkSize
  simp only [Bool.and_eq_true, beq_iff_eq]
  exact ⟨fun h => ⟨h.1.1, h.1.2, h.2⟩, fun h => ⟨⟨h.left, h.right⟩, h.joints⟩⟩

theorem checkSizeC_iff (s : Control K) (d n : Nat) : s.checkSize d n = true ↔ ControlSize d n s := by
  unfold Control.checkSize
  simp only [Bool.and_eq_true, beq_iff_eq]
  exact ⟨fun h => ⟨h.1.1, h.1.2, h.2⟩, fun h => ⟨⟨h.left, h.right⟩, h.joints⟩⟩

/-- **C31**, states: whatever the user's object answers, and whatever was answered before (`buffer`), the guess given to the optimiser is
valid exactly when the answer was declared valid and has the size of the problem, and then it is its layout; otherwise it is the null
vector.  In both cases it has the length of the optimisation vector. -/
theorem C31_state_guess [Zero K] (asQuat : M3 K → V4 K) {ls lc ls' lc' : Labeller K} {d n : Nat} {r : Ranges}
    (h : setVariablesStructure ls lc d n = some (ls', lc', r)) (buffer : List K) (hb : buffer.length = r.stateDimension) (answer : State K × Bool) :
    ∃ v valid, stateGuessGet asQuat r buffer answer = some (v, valid) ∧ v.length = r.stateDimension ∧
      (valid = true ↔ answer.2 = true ∧ StateSize d n answer.1) ∧
      (valid = true → v = stateVector answer.1 (asQuat answer.1.base.rot)) ∧ (valid = false → v = List.replicate r.stateDimension 0) := by
  obtain rfl := ranges_eq h
  unfold stateGuessGet
  have hsz := checkSize_iff answer.1 d n
  have e1 : (rangesAt d n).jointsPosition.size = d := rfl
  have e2 : (rangesAt d n).left.positionPoints.length = n := by simp [rangesAt, footAt]
  rw [e1, e2]
  cases h2 : answer.2 with
  | false => exact ⟨_, _, rfl, by simp [hb], by simp, by simp, by simp [hb]⟩
  | true =>
    cases h3 : answer.1.checkSize d n with
    | false => exact ⟨_, _, rfl, by simp [hb], by simpa [h3] using hsz, by simp, by simp [hb]⟩
    | true =>
      have hS := hsz.1 h3
      rw [if_neg (by simp), if_neg (by simp), packState_ok asQuat d n _ hS buffer hb]
      exact ⟨_, _, rfl, stateVector_length hS _, by simpa using hS, by simp, by simp⟩

/-- **C31**, controls. -/
theorem C31_control_guess [Zero K] {ls lc ls' lc' : Labeller K} {d n : Nat} {r : Ranges}
    (h : setVariablesStructure ls lc d n = some (ls', lc', r)) (buffer : List K) (hb : buffer.length = r.controlDimension) (answer : Control K × Bool) :
    ∃ v valid, controlGuessGet r buffer answer = some (v, valid) ∧ v.length = r.controlDimension ∧
      (valid = true ↔ answer.2 = true ∧ ControlSize d n answer.1) ∧
      (valid = true → v = controlVector answer.1) ∧ (valid = false → v = List.replicate r.controlDimension 0) := by
  obtain rfl := ranges_eq h
  unfold controlGuessGet
  have hsz := checkSizeC_iff answer.1 d n
  have e1 : (rangesAt d n).jointsPosition.size = d := rfl
  have e2 : (rangesAt d n).left.positionPoints.length = n := by simp [rangesAt, footAt]
  rw [e1, e2]
  cases h2 : answer.2 with
  | false => exact ⟨_, _, rfl, by simp [hb], by simp, by simp, by simp [hb]⟩
  | true =>
    cases h3 : answer.1.checkSize d n with
    | false => exact ⟨_, _, rfl, by simp [hb], by simpa [h3] using hsz, by simp, by simp [hb]⟩
    | true =>
      have hS := hsz.1 h3
      rw [if_neg (by simp), if_neg (by simp), packControl_ok d n _ hS buffer hb]
      exact ⟨_, _, rfl, controlVector_length hS, by simpa using hS, by simp, by simp⟩

/-- A control with one point per foot and two joints. -/
def someControl : Control ℚ := ⟨[⟨⟨1, 2, 3⟩, ⟨4, 5, 6⟩⟩], [⟨⟨7, 8, 9⟩, ⟨10, 11, 12⟩⟩], ⟨13, 14, 15⟩, ⟨16, 17, 18, 19⟩, [20, 21], 22⟩

example : ∃ r, (setVariablesStructure (Labeller.init ℚ) (Labeller.init ℚ) 2 1).map (·.2.2) = some r ∧
    packControl r someControl (List.replicate 21 0) = some [4, 5, 6, 1, 2, 3, 10, 11, 12, 7, 8, 9, 13, 14, 15, 16, 17, 18, 19, 20, 21] ∧
    controlVector someControl = [4, 5, 6, 1, 2, 3, 10, 11, 12, 7, 8, 9, 13, 14, 15, 16, 17, 18, 19, 20, 21] := by
  refine ⟨rangesAt 2 1, ?_, rfl, rfl⟩
  obtain ⟨a, b, e, -⟩ := structure_ok (Labeller.init ℚ) (Labeller.init ℚ) 2 1
  rw [e]; rfl

/-- The identity rotation and its quaternion meet the condition of the round trip. -/
example : rotationOf (fun x : ℚ => x) ⟨1, 0, 0, 0⟩ = (identityTransform ℚ).rot := by
  apply rotationOf_unit _ rfl _ (by norm_num)
  ext i j
  fin_cases i <;> fin_cases j <;>
    simp [Quaternion.rotationFromQuaternion, Quaternion.skew, Quaternion.im, identityTransform, Matrix.one_apply]

end Verif.SolverM
