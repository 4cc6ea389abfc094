import Verif.Lemmas.Packing2
import Verif.Model.Bounds
import Verif.Spec.Bounds
import Verif.Tac
/- Closed form of the bounds. -/
set_option linter.unusedSectionVars false
set_option linter.unusedSimpArgs false
namespace Verif.SolverM
open StateM Spec
open Labeller (Labeller Range slice overwrite)
variable {K : Type}

theorem setPart_at {off size k e : Nat} {pre l x : List K} (h1 : off = pre.length + e) (h2 : e + size ≤ l.length) (h3 : k + x.length ≤ size) :
    setPart ⟨off, size⟩ k x (pre ++ l) = some (pre ++ overwrite l (e + k) x) := by
  subst h1
  unfold setPart
  rw [if_pos ⟨by simp; omega, h3⟩]
  unfold overwrite
  dsimp only
  rw [List.take_append, List.drop_append, List.take_of_length_le (by omega), List.drop_eq_nil_of_le (by omega)]
  rw [show pre.length + e + k - pre.length = e + k by omega, show pre.length + e + k + x.length - pre.length = e + k + x.length by omega]
  simp

theorem setSegment_at {off size e : Nat} {pre l x : List K} (h1 : off = pre.length + e) (h2 : e + size ≤ l.length) (h3 : x.length = size) :
    setSegment ⟨off, size⟩ x (pre ++ l) = some (pre ++ overwrite l e x) := by
  subst h1
  unfold setSegment
  rw [if_pos ⟨by simp; omega, h3⟩]
  unfold overwrite
  dsimp only
  rw [List.take_append, List.drop_append, List.take_of_length_le (by omega), List.drop_eq_nil_of_le (by omega)]
  rw [show pre.length + e - pre.length = e by omega, show pre.length + e + x.length - pre.length = e + x.length by omega]
  simp

theorem replicate6 (n : Nat) (m : K) : List.replicate (6 * (n + 1)) m = [m, m, m, m, m, m] ++ List.replicate (6 * n) m := by
  rw [Nat.mul_add, Nat.add_comm, List.replicate_add]
  rfl

/-- Bounds of the points of one foot. -/
def lowPoint [Zero K] (m : K) : PointState K := ⟨⟨m, m, 0⟩, ⟨m, m, 0⟩⟩

theorem footBounds_ok [Zero K] [Neg K] (force velocity : V3 K) (m1 m2 m3 : K) (n : Nat) (off : Nat) (pre1 pre2 pre3 post1 post2 post3 su : List K)
    (h1 : pre1.length = off) (h2 : pre2.length = off) (h3 : pre3.length = off) :
    footBounds force velocity (footAt off n).positionPoints (footAt off n).forcePoints (footAt off n).forceControlPoints
      (footAt off n).velocityControlPoints
      ⟨pre1 ++ (List.replicate (6 * n) m1 ++ post1), su, pre2 ++ (List.replicate (6 * n) m2 ++ post2), pre3 ++ (List.replicate (6 * n) m3 ++ post3)⟩ =
    some ⟨pre1 ++ ((List.replicate n (lowPoint m1)).flatMap pointState ++ post1), su,
      pre2 ++ ((List.replicate n ⟨⟨-force.x, -force.y, -force.z⟩, ⟨-velocity.x, -velocity.y, -velocity.z⟩⟩).flatMap pointControl ++ post2),
      pre3 ++ ((List.replicate n ⟨force, velocity⟩).flatMap pointControl ++ post3)⟩ := by
  unfold footAt
  dsimp only
  induction n generalizing off pre1 pre2 pre3 with
  | zero => simp [footBounds]
  | succ n ih =>
    rw [positions_succ, firsts_succ]
    unfold footBounds
    simp only [replicate6, List.append_assoc, List.cons_append, List.nil_append]
    rw [setPart_at (e := 3) (by omega) (by simp <;> omega) (by simp)]
    simp only [Option.bind_eq_bind, Option.bind_some]
    rw [setPart_at (e := 0) (by omega) (by simp [overwrite]) (by simp)]
    simp only [Option.bind_some]
    rw [setPart_at (e := 3) (by omega) (by simp <;> omega) (by simp)]
    simp only [Option.bind_some]
    rw [setPart_at (e := 3) (by omega) (by simp <;> omega) (by simp)]
    simp only [Option.bind_some]
    rw [setPart_at (e := 3) (by omega) (by simp [overwrite]) (by simp)]
    simp only [Option.bind_some]
    rw [setPart_at (e := 3) (by omega) (by simp [overwrite]) (by simp)]
    simp only [Option.bind_some]
    rw [setSegment_at (e := 0) (by omega) (by simp [overwrite]) (by simp)]
    simp only [Option.bind_some]
    rw [setSegment_at (e := 0) (by omega) (by simp [overwrite]) (by simp)]
    simp only [Option.bind_some]
    have := ih (off + 6) (pre1 ++ pointState (lowPoint m1))
      (pre2 ++ pointControl ⟨⟨-force.x, -force.y, -force.z⟩, ⟨-velocity.x, -velocity.y, -velocity.z⟩⟩) (pre3 ++ pointControl ⟨force, velocity⟩)
      (by simp [pointState, h1]) (by simp [pointControl, h2]) (by simp [pointControl, h3])
    simp only [List.append_assoc] at this
    simp only [List.replicate_succ, List.flatMap_cons, List.append_assoc]
    rw [← this]
    simp [overwrite, pointState, pointControl, lowPoint]

theorem jointBounds_ok (lims : List (K × K)) (off d j : Nat) (pre1 pre2 done1 done2 mid1 mid2 : List K) (hd : d = j + lims.length)
    (h1 : pre1.length = off) (h2 : pre2.length = off) (h3 : done1.length = j) (h4 : done2.length = j)
    (h5 : mid1.length = lims.length) (h6 : mid2.length = lims.length) :
    jointBounds ⟨off, d⟩ j lims (pre1 ++ (done1 ++ mid1), pre2 ++ (done2 ++ mid2)) =
      some (pre1 ++ (done1 ++ lims.map (·.1)), pre2 ++ (done2 ++ lims.map (·.2))) := by
  induction lims generalizing j done1 done2 mid1 mid2 with
  | nil =>
    obtain rfl : mid1 = [] := List.length_eq_zero_iff.1 h5
    obtain rfl : mid2 = [] := List.length_eq_zero_iff.1 h6
    simp [jointBounds]
  | cons l lims ih =>
    obtain ⟨x, mid1, rfl⟩ := List.exists_cons_of_length_eq_add_one h5
    obtain ⟨y, mid2, rfl⟩ := List.exists_cons_of_length_eq_add_one h6
    unfold jointBounds
    rw [setPart_at (e := 0) (by omega) (by simp at *; omega) (by simp at *; omega),
      setPart_at (e := 0) (by omega) (by simp at *; omega) (by simp at *; omega)]
    simp only [Option.bind_eq_bind, Option.bind_some]
    have := ih (j + 1) (done1 ++ [l.1]) (done2 ++ [l.2]) mid1 mid2 (by simp at hd; omega) (by simp [h3]) (by simp [h4]) (by simpa using h5)
      (by simpa using h6)
    simp only [List.append_assoc, List.cons_append, List.nil_append] at this
    rw [List.map_cons, List.map_cons, ← this]
    congr 3
    · simp [overwrite, List.take_append, List.drop_append, h3]
    · simp [overwrite, List.take_append, List.drop_append, h4]

theorem footFrozen_ok [Zero K] (n : Nat) (off : Nat) (xs ys : List (PointControl K)) (hx : xs.length = n) (hy : ys.length = n)
    (pre1 pre2 post1 post2 : List K) (h1 : pre1.length = off) (h2 : pre2.length = off) :
    footFrozen (footAt off n).velocityControlPoints (footAt off n).forceControlPoints
      (pre1 ++ (xs.flatMap pointControl ++ post1), pre2 ++ (ys.flatMap pointControl ++ post2)) =
    some (pre1 ++ ((List.replicate n ⟨⟨0, 0, 0⟩, ⟨0, 0, 0⟩⟩).flatMap pointControl ++ post1),
      pre2 ++ ((List.replicate n ⟨⟨0, 0, 0⟩, ⟨0, 0, 0⟩⟩).flatMap pointControl ++ post2)) := by
  unfold footAt
  dsimp only
  induction n generalizing off pre1 pre2 xs ys with
  | zero =>
    obtain rfl : xs = [] := List.length_eq_zero_iff.1 hx
    obtain rfl : ys = [] := List.length_eq_zero_iff.1 hy
    simp [footFrozen]
  | succ n ih =>
    obtain ⟨x, xs, rfl⟩ := List.exists_cons_of_length_eq_add_one hx
    obtain ⟨y, ys, rfl⟩ := List.exists_cons_of_length_eq_add_one hy
    rw [positions_succ, firsts_succ]
    unfold footFrozen
    simp only [List.flatMap_cons, pointControl, List.append_assoc, List.cons_append, List.nil_append]
    rw [setSegment_at (e := 0) (by omega) (by simp) (by simp), setSegment_at (e := 0) (by omega) (by simp) (by simp)]
    simp only [Option.bind_eq_bind, Option.bind_some]
    rw [setSegment_at (e := 3) (by omega) (by simp [overwrite] <;> omega) (by simp), setSegment_at (e := 3) (by omega) (by simp [overwrite] <;> omega) (by simp)]
    simp only [Option.bind_some]
    have := ih (off + 6) xs ys (by simpa using hx) (by simpa using hy) (pre1 ++ [0, 0, 0, 0, 0, 0]) (pre2 ++ [0, 0, 0, 0, 0, 0])
      (by simp [h1]) (by simp [h2])
    simp only [List.append_assoc, pointControl] at this
    simp only [List.replicate_succ, List.flatMap_cons, List.append_assoc]
    simp only [pointControl, List.cons_append, List.nil_append] at this ⊢
    rw [← this]
    simp [overwrite]

/-- Lower bounds of the state. -/
def lowState [Zero K] [Neg K] (n : Nat) (m h a : K) (js : List K) : State K :=
  { left := List.replicate n (lowPoint m), right := List.replicate n (lowPoint m), linearMomentum := ⟨m, m, m⟩, angularMomentum := ⟨-a, -a, -a⟩
    com := ⟨m, m, h⟩, base := ⟨⟨⟨m, m, m⟩, ⟨m, m, m⟩, ⟨m, m, m⟩⟩, ⟨m, m, m⟩⟩, joints := js, time := m }

/-- Upper bounds of the state. -/
def highState (n : Nat) (m a : K) (js : List K) : State K :=
  { left := List.replicate n ⟨⟨m, m, m⟩, ⟨m, m, m⟩⟩, right := List.replicate n ⟨⟨m, m, m⟩, ⟨m, m, m⟩⟩, linearMomentum := ⟨m, m, m⟩
    angularMomentum := ⟨a, a, a⟩, com := ⟨m, m, m⟩, base := ⟨⟨⟨m, m, m⟩, ⟨m, m, m⟩, ⟨m, m, m⟩⟩, ⟨m, m, m⟩⟩, joints := js, time := m }

/-- Bounds of the control with the same bounds for all points. -/
def boundControl (n : Nat) (m : K) (p : PointControl K) (js : List K) : Control K :=
  { left := List.replicate n p, right := List.replicate n p, baseLinearVelocity := ⟨m, m, m⟩, baseQuaternionDerivative := ⟨m, m, m, m⟩
    jointsVelocity := js, time := m }

/-- The velocity limits as a vector. -/
def velocityLimits {R : Type} (st : Settings.SettingsStruct K R) : V3 K :=
  ⟨st.velocityMaximumDerivative.1, st.velocityMaximumDerivative.2.1, st.velocityMaximumDerivative.2.2⟩

theorem replicate_state (n d : Nat) (m : K) : List.replicate (12 * n + 16 + d) m =
    List.replicate (6 * n) m ++ (List.replicate (6 * n) m ++ ([m, m, m, m, m, m, m, m, m, m, m, m, m, m, m, m] ++ List.replicate d m)) := by
  rw [show [m, m, m, m, m, m, m, m, m, m, m, m, m, m, m, m] = List.replicate 16 m from rfl, ← List.replicate_add, ← List.replicate_add,
    ← List.replicate_add]
  congr 1
  omega

theorem replicate_control (n d : Nat) (m : K) : List.replicate (12 * n + 7 + d) m =
    List.replicate (6 * n) m ++ (List.replicate (6 * n) m ++ ([m, m, m, m, m, m, m] ++ List.replicate d m)) := by
  rw [show [m, m, m, m, m, m, m] = List.replicate 7 m from rfl, ← List.replicate_add, ← List.replicate_add, ← List.replicate_add]
  congr 1
  omega

theorem replicate_points (n : Nat) (m : K) : (List.replicate n (⟨⟨m, m, m⟩, ⟨m, m, m⟩⟩ : PointState K)).flatMap pointState = List.replicate (6 * n) m := by
  induction n with
  | zero => rfl
  | succ n ih => rw [replicate6, List.replicate_succ, List.flatMap_cons, ih]; rfl

theorem len_points (n : Nat) (p : PointState K) : ((List.replicate n p).flatMap pointState).length = 6 * n := by
  rw [flatMap_point_length, List.length_replicate]

theorem len_pointsC (n : Nat) (p : PointControl K) : ((List.replicate n p).flatMap pointControl).length = 6 * n := by
  rw [flatMap_pointControl_length, List.length_replicate]

theorem firstBounds_ok [Field K] {R : Type} (m p : K) (d n : Nat) (st : Settings.SettingsStruct K R) (ex : BoundExtras K)
    (hl : st.jointsLimits.length = d) (hv : st.jointsVelocityLimits.length = d) :
    firstBounds m p (rangesAt d n) st ex = some
      ⟨stateVector (lowState n m st.minimumCoMHeight st.maximumAngularMomentum (st.jointsLimits.map (·.1))) ⟨m, m, m, m⟩,
       stateVector (highState n p st.maximumAngularMomentum (st.jointsLimits.map (·.2))) ⟨p, p, p, p⟩,
       controlVector (boundControl n m
        ⟨⟨-ex.forceMaximumDerivative.x, -ex.forceMaximumDerivative.y, -ex.forceMaximumDerivative.z⟩,
         ⟨-(velocityLimits st).x, -(velocityLimits st).y, -(velocityLimits st).z⟩⟩ (st.jointsVelocityLimits.map (·.1))),
       controlVector (boundControl n p ⟨ex.forceMaximumDerivative, velocityLimits st⟩ (st.jointsVelocityLimits.map (·.2)))⟩ := by
  unfold firstBounds
  have e1 := footBounds_ok ex.forceMaximumDerivative (velocityLimits st) m m p n 0 [] [] []
    (List.replicate (6 * n) m ++ ([m, m, m, m, m, m, m, m, m, m, m, m, m, m, m, m] ++ List.replicate d m))
    (List.replicate (6 * n) m ++ ([m, m, m, m, m, m, m] ++ List.replicate d m))
    (List.replicate (6 * n) p ++ ([p, p, p, p, p, p, p] ++ List.replicate d p))
    (List.replicate (12 * n + 16 + d) p) rfl rfl rfl
  simp only [List.nil_append] at e1
  rw [← replicate_state, ← replicate_control, ← replicate_control] at e1
  have e2 := footBounds_ok ex.forceMaximumDerivative (velocityLimits st) m m p n (6 * n)
    ((List.replicate n (lowPoint m)).flatMap pointState)
    ((List.replicate n ⟨⟨-ex.forceMaximumDerivative.x, -ex.forceMaximumDerivative.y, -ex.forceMaximumDerivative.z⟩,
      ⟨-(velocityLimits st).x, -(velocityLimits st).y, -(velocityLimits st).z⟩⟩).flatMap pointControl)
    ((List.replicate n ⟨ex.forceMaximumDerivative, velocityLimits st⟩).flatMap pointControl)
    ([m, m, m, m, m, m, m, m, m, m, m, m, m, m, m, m] ++ List.replicate d m) ([m, m, m, m, m, m, m] ++ List.replicate d m)
    ([p, p, p, p, p, p, p] ++ List.replicate d p) (List.replicate (12 * n + 16 + d) p) (len_points n _) (len_pointsC n _) (len_pointsC n _)
  have r1 : (rangesAt d n).left = footAt 0 n := rfl
  have r2 : (rangesAt d n).right = footAt (6 * n) n := rfl
  have r3 : (rangesAt d n).stateDimension = 12 * n + 16 + d := rfl
  have r4 : (rangesAt d n).controlDimension = 12 * n + 7 + d := rfl
  have r5 : (rangesAt d n).comPosition = ⟨12 * n + 6, 3⟩ := rfl
  have r6 : (rangesAt d n).momentum = ⟨12 * n, 6⟩ := rfl
  have r7 : (rangesAt d n).jointsPosition = ⟨12 * n + 16, d⟩ := rfl
  have r8 : (rangesAt d n).jointsVelocity = ⟨12 * n + 7, d⟩ := rfl
  have ev : (⟨st.velocityMaximumDerivative.1, st.velocityMaximumDerivative.2.1, st.velocityMaximumDerivative.2.2⟩ : V3 K) = velocityLimits st := rfl
  simp only [r1, r2, r3, r4, r5, r6, r7, r8, ev]
  rw [e1]
  simp only [Option.bind_eq_bind, Option.bind_some]
  rw [e2]
  simp only [Option.bind_some]
  have lp := len_points n (lowPoint m)
  have lc1 := len_pointsC n (⟨⟨-ex.forceMaximumDerivative.x, -ex.forceMaximumDerivative.y, -ex.forceMaximumDerivative.z⟩,
      ⟨-(velocityLimits st).x, -(velocityLimits st).y, -(velocityLimits st).z⟩⟩ : PointControl K)
  have lc2 := len_pointsC n (⟨ex.forceMaximumDerivative, velocityLimits st⟩ : PointControl K)
  have lh := len_points n (⟨⟨p, p, p⟩, ⟨p, p, p⟩⟩ : PointState K)
  have hst : stateVector (highState n p st.maximumAngularMomentum (st.jointsLimits.map (·.2))) ⟨p, p, p, p⟩ =
    List.replicate (6 * n) p ++ (List.replicate (6 * n) p ++ ([p, p, p, st.maximumAngularMomentum, st.maximumAngularMomentum,
      st.maximumAngularMomentum, p, p, p, p, p, p, p, p, p, p] ++ st.jointsLimits.map (·.2))) := by
    simp only [stateVector, highState, replicate_points, List.append_assoc, List.cons_append, List.nil_append]
  rw [hst, replicate_state]
  generalize hA : (List.replicate n (lowPoint m)).flatMap pointState = A at *
  rw [← List.append_assoc A A, setPart_at (e := 6) (by simp <;> omega) (by simp <;> omega) (by simp)]
  simp only [Option.bind_some]
  rw [setPart_at (e := 0) (by simp <;> omega) (by simp [overwrite] <;> omega) (by simp)]
  simp only [Option.bind_some]
  rw [← List.append_assoc (List.replicate (6 * n) p), setPart_at (e := 0) (by simp <;> omega) (by simp <;> omega) (by simp)]
  simp only [Option.bind_some]
  have lA : (A ++ A).length = 12 * n := by rw [List.length_append, lp]; omega
  have j1 := jointBounds_ok st.jointsLimits (12 * n + 16) d 0
    (A ++ A ++ [m, m, m, -st.maximumAngularMomentum, -st.maximumAngularMomentum, -st.maximumAngularMomentum, m, m, st.minimumCoMHeight,
      m, m, m, m, m, m, m])
    (List.replicate (6 * n) p ++ List.replicate (6 * n) p ++ [p, p, p, st.maximumAngularMomentum, st.maximumAngularMomentum,
      st.maximumAngularMomentum, p, p, p, p, p, p, p, p, p, p]) [] [] (List.replicate d m) (List.replicate d p) (by omega)
    (by rw [List.length_append, lA]; rfl) (by simp <;> omega) rfl rfl (by simp [hl]) (by simp [hl])
  generalize hB : (List.replicate n (⟨⟨-ex.forceMaximumDerivative.x, -ex.forceMaximumDerivative.y, -ex.forceMaximumDerivative.z⟩,
      ⟨-(velocityLimits st).x, -(velocityLimits st).y, -(velocityLimits st).z⟩⟩ : PointControl K)).flatMap pointControl = B at *
  generalize hC : (List.replicate n (⟨ex.forceMaximumDerivative, velocityLimits st⟩ : PointControl K)).flatMap pointControl = C at *
  have j2 := jointBounds_ok st.jointsVelocityLimits (12 * n + 7) d 0 (B ++ (B ++ [m, m, m, m, m, m, m])) (C ++ (C ++ [p, p, p, p, p, p, p]))
    [] [] (List.replicate d m) (List.replicate d p) (by omega) (by simp <;> omega) (by simp <;> omega) rfl rfl (by simp [hv]) (by simp [hv])
  simp only [List.nil_append, List.append_assoc, List.cons_append] at j1 j2
  simp only [overwrite, List.take_succ_cons, List.take_zero, List.drop_succ_cons, List.drop_zero, List.nil_append, List.append_assoc,
    List.cons_append, Nat.reduceAdd, Nat.zero_add, List.length_cons, List.length_nil]
  rw [j1, Option.bind_some, j2, Option.bind_some]
  simp [stateVector, controlVector, lowState, boundControl, hB, hC, hA]

end Verif.SolverM
