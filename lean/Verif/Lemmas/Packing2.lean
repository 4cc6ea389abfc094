import Verif.Lemmas.Packing
import Verif.Spec.Packing
/- Writing and reading the optimisation vector. -/
set_option linter.unusedSectionVars false
set_option linter.unusedSimpArgs false
namespace Verif.SolverM
open StateM Spec
open Labeller (Labeller Range slice overwrite)
variable {K : Type}

theorem setSegment_mid {off size : Nat} {pre mid post x : List K} (h1 : off = pre.length) (h2 : size = x.length) (h3 : mid.length = x.length) :
    setSegment ⟨off, size⟩ x (pre ++ mid ++ post) = some (pre ++ x ++ post) := by
  subst h1 h2
  unfold setSegment
  rw [if_pos ⟨by simp [h3], rfl⟩]
  unfold overwrite
  dsimp only
  rw [List.append_assoc pre mid post, List.take_left, ← h3, ← List.length_append, ← List.append_assoc, List.drop_left]

theorem segment_mid {off size : Nat} {pre post x : List K} (h1 : off = pre.length) (h2 : size = x.length) :
    segment ⟨off, size⟩ (pre ++ x ++ post) = some x := by
  subst h1 h2
  unfold segment
  rw [if_pos (by simp)]
  unfold slice
  dsimp only
  rw [List.append_assoc, List.drop_left, List.take_left]

theorem positions_succ (off n : Nat) : (List.range (n + 1)).map (fun i => (⟨off + 6 * i + 3, 3⟩ : Range)) =
    ⟨off + 3, 3⟩ :: (List.range n).map fun i => ⟨off + 6 + 6 * i + 3, 3⟩ := by
  rw [List.range_succ_eq_map, List.map_cons, List.map_map]
  refine congrArg₂ _ rfl (List.map_congr_left fun i _ => ?_)
  simp only [Function.comp, Range.mk.injEq, and_true]
  omega

theorem firsts_succ (off n : Nat) : (List.range (n + 1)).map (fun i => (⟨off + 6 * i, 3⟩ : Range)) =
    ⟨off, 3⟩ :: (List.range n).map fun i => ⟨off + 6 + 6 * i, 3⟩ := by
  rw [List.range_succ_eq_map, List.map_cons, List.map_map]
  refine congrArg₂ _ rfl (List.map_congr_left fun i _ => ?_)
  simp only [Function.comp, Range.mk.injEq, and_true]
  omega

theorem split_list (l : List K) (a b : Nat) (h : l.length = a + b) : ∃ x y, l = x ++ y ∧ x.length = a ∧ y.length = b :=
  ⟨l.take a, l.drop a, (List.take_append_drop a l).symm, by simp [h], by simp [h]⟩

theorem packPoints_ok (n : Nat) (xs : List (PointState K)) (hx : xs.length = n) (off : Nat) (pre mid post : List K) (hpre : pre.length = off)
    (hmid : mid.length = 6 * n) :
    packPoints (footAt off n).positionPoints (footAt off n).forcePoints xs (pre ++ mid ++ post) = some (pre ++ xs.flatMap pointState ++ post) := by
  unfold footAt
  dsimp only
  induction n generalizing xs off pre mid with
  | zero =>
    have h1 : xs = [] := by simpa using hx
    have h2 : mid = [] := by simpa using hmid
    subst h1 h2
    simp [packPoints]
  | succ n ih =>
    obtain ⟨x, xs, rfl⟩ : ∃ a b, xs = a :: b := by
      cases xs with
      | nil => simp at hx
      | cons a b => exact ⟨a, b, rfl⟩
    obtain ⟨m1, r1, rfl, l1, hr1⟩ := split_list mid 3 (3 + 6 * n) (by omega)
    obtain ⟨m2, m3, rfl, l2, l3⟩ := split_list r1 3 (6 * n) hr1
    rw [positions_succ, firsts_succ]
    unfold packPoints
    have e1 : setSegment ⟨off + 3, 3⟩ (list3 x.position) (pre ++ (m1 ++ (m2 ++ m3)) ++ post) =
        some (pre ++ m1 ++ list3 x.position ++ (m3 ++ post)) := by
      rw [← setSegment_mid (pre := pre ++ m1) (mid := m2) (post := m3 ++ post) (x := list3 x.position) (off := off + 3) (size := 3)
        (by simp [hpre, l1]) rfl (by simp [l2, list3])]
      simp
    have e2 : setSegment ⟨off, 3⟩ (list3 x.force) (pre ++ m1 ++ list3 x.position ++ (m3 ++ post)) =
        some (pre ++ list3 x.force ++ list3 x.position ++ (m3 ++ post)) := by
      have := setSegment_mid (pre := pre) (mid := m1) (post := list3 x.position ++ (m3 ++ post)) (x := list3 x.force) (off := off) (size := 3)
        hpre.symm rfl (by simp [l1, list3])
      simpa [List.append_assoc] using this
    rw [e1]
    dsimp only
    rw [e2]
    dsimp only
    have := ih xs (by simpa using hx) (off + 6) (pre ++ list3 x.force ++ list3 x.position) m3 (by simp [hpre, list3]) l3
    rw [List.append_assoc _ m3 post] at this
    rw [this]
    simp [pointState, list3]

theorem packPointsControl_ok (n : Nat) (xs : List (PointControl K)) (hx : xs.length = n) (off : Nat) (pre mid post : List K)
    (hpre : pre.length = off) (hmid : mid.length = 6 * n) :
    packPointsControl (footAt off n).forceControlPoints (footAt off n).velocityControlPoints xs (pre ++ mid ++ post) =
      some (pre ++ xs.flatMap pointControl ++ post) := by
  unfold footAt
  dsimp only
  induction n generalizing xs off pre mid with
  | zero =>
    have h1 : xs = [] := by simpa using hx
    have h2 : mid = [] := by simpa using hmid
    subst h1 h2
    simp [packPointsControl]
  | succ n ih =>
    obtain ⟨x, xs, rfl⟩ : ∃ a b, xs = a :: b := by
      cases xs with
      | nil => simp at hx
      | cons a b => exact ⟨a, b, rfl⟩
    obtain ⟨m1, r1, rfl, l1, hr1⟩ := split_list mid 3 (3 + 6 * n) (by omega)
    obtain ⟨m2, m3, rfl, l2, l3⟩ := split_list r1 3 (6 * n) hr1
    rw [positions_succ, firsts_succ]
    unfold packPointsControl
    have e1 : setSegment ⟨off + 3, 3⟩ (list3 x.forceControl) (pre ++ (m1 ++ (m2 ++ m3)) ++ post) =
        some (pre ++ m1 ++ list3 x.forceControl ++ (m3 ++ post)) := by
      rw [← setSegment_mid (pre := pre ++ m1) (mid := m2) (post := m3 ++ post) (x := list3 x.forceControl) (off := off + 3) (size := 3)
        (by simp [hpre, l1]) rfl (by simp [l2, list3])]
      simp
    have e2 : setSegment ⟨off, 3⟩ (list3 x.velocityControl) (pre ++ m1 ++ list3 x.forceControl ++ (m3 ++ post)) =
        some (pre ++ list3 x.velocityControl ++ list3 x.forceControl ++ (m3 ++ post)) := by
      have := setSegment_mid (pre := pre) (mid := m1) (post := list3 x.forceControl ++ (m3 ++ post)) (x := list3 x.velocityControl) (off := off)
        (size := 3) hpre.symm rfl (by simp [l1, list3])
      simpa [List.append_assoc] using this
    rw [e1]
    dsimp only
    rw [e2]
    dsimp only
    have := ih xs (by simpa using hx) (off + 6) (pre ++ list3 x.velocityControl ++ list3 x.forceControl) m3 (by simp [hpre, list3]) l3
    rw [List.append_assoc _ m3 post] at this
    rw [this]
    simp [pointControl, list3]

theorem flatMap_point_length (xs : List (PointState K)) : (xs.flatMap pointState).length = 6 * xs.length := by
  induction xs with
  | nil => rfl
  | cons x xs ih => simp [pointState] at *; omega

theorem flatMap_pointControl_length (xs : List (PointControl K)) : (xs.flatMap pointControl).length = 6 * xs.length := by
  induction xs with
  | nil => rfl
  | cons x xs ih => simp [pointControl] at *; omega

theorem packState_ok (asQuat : M3 K → V4 K) (d n : Nat) (s : State K) (hs : StateSize d n s) (v : List K) (hv : v.length = 12 * n + 16 + d) :
    packState asQuat (rangesAt d n) s v = some (stateVector s (asQuat s.base.rot)) := by
  obtain ⟨p1, v, rfl, lp1, hv⟩ := split_list v (6 * n) (6 * n + 16 + d) (by omega)
  obtain ⟨p2, v, rfl, lp2, hv⟩ := split_list v (6 * n) (16 + d) (by omega)
  obtain ⟨m, v, rfl, lm, hv⟩ := split_list v 6 (10 + d) (by omega)
  obtain ⟨c, v, rfl, lc, hv⟩ := split_list v 3 (7 + d) (by omega)
  obtain ⟨b, v, rfl, lb, hv⟩ := split_list v 3 (4 + d) (by omega)
  obtain ⟨q, j, rfl, lq, lj⟩ := split_list v 4 d hv
  have f1 := flatMap_point_length s.left
  have f2 := flatMap_point_length s.right
  rw [hs.left] at f1
  rw [hs.right] at f2
  unfold packState
  have e1 := packPoints_ok n s.left hs.left 0 [] p1 (p2 ++ (m ++ (c ++ (b ++ (q ++ j))))) rfl lp1
  have e2 := packPoints_ok n s.right hs.right (6 * n) (s.left.flatMap pointState) p2 (m ++ (c ++ (b ++ (q ++ j)))) f1 lp2
  have e3 := setSegment_mid (off := 12 * n) (size := 6) (pre := s.left.flatMap pointState ++ s.right.flatMap pointState) (mid := m)
    (post := c ++ (b ++ (q ++ j))) (x := list3 s.linearMomentum ++ list3 s.angularMomentum) (by simp only [List.length_append]; omega)
    (by simp [list3]) (by simp [list3, lm])
  have e4 := setSegment_mid (off := 12 * n + 6) (size := 3) (pre := s.left.flatMap pointState ++ s.right.flatMap pointState ++
    (list3 s.linearMomentum ++ list3 s.angularMomentum)) (mid := c) (post := b ++ (q ++ j)) (x := list3 s.com)
    (by simp only [List.length_append, list3, List.length_cons, List.length_nil]; omega) (by simp [list3]) (by simp [list3, lc])
  have e5 := setSegment_mid (off := 12 * n + 9) (size := 3) (pre := s.left.flatMap pointState ++ s.right.flatMap pointState ++
    (list3 s.linearMomentum ++ list3 s.angularMomentum) ++ list3 s.com) (mid := b) (post := q ++ j) (x := list3 s.base.pos)
    (by simp only [List.length_append, list3, List.length_cons, List.length_nil]; omega) (by simp [list3]) (by simp [list3, lb])
  have e6 := setSegment_mid (off := 12 * n + 12) (size := 4) (pre := s.left.flatMap pointState ++ s.right.flatMap pointState ++
    (list3 s.linearMomentum ++ list3 s.angularMomentum) ++ list3 s.com ++ list3 s.base.pos) (mid := q) (post := j)
    (x := list4 (asQuat s.base.rot))
    (by simp only [List.length_append, list3, List.length_cons, List.length_nil]; omega) (by simp [list4]) (by simp [list4, lq])
  have e7 := setSegment_mid (off := 12 * n + 16) (size := d) (pre := s.left.flatMap pointState ++ s.right.flatMap pointState ++
    (list3 s.linearMomentum ++ list3 s.angularMomentum) ++ list3 s.com ++ list3 s.base.pos ++ list4 (asQuat s.base.rot)) (mid := j) (post := [])
    (x := s.joints)
    (by simp only [List.length_append, list3, list4, List.length_cons, List.length_nil]; omega) hs.joints.symm (by rw [lj, hs.joints])
  simp only [List.nil_append, List.append_nil, List.append_assoc] at e1 e2 e3 e4 e5 e6 e7
  unfold rangesAt
  simp only [e1, e2, e3, e4, e5, e6, e7, Option.bind_eq_bind, Option.bind_some]
  simp [stateVector, list3, list4]

theorem packControl_ok (d n : Nat) (s : Control K) (hs : ControlSize d n s) (v : List K) (hv : v.length = 12 * n + 7 + d) :
    packControl (rangesAt d n) s v = some (controlVector s) := by
  obtain ⟨p1, v, rfl, lp1, hv⟩ := split_list v (6 * n) (6 * n + 7 + d) (by omega)
  obtain ⟨p2, v, rfl, lp2, hv⟩ := split_list v (6 * n) (7 + d) (by omega)
  obtain ⟨b, v, rfl, lb, hv⟩ := split_list v 3 (4 + d) (by omega)
  obtain ⟨q, j, rfl, lq, lj⟩ := split_list v 4 d hv
  have f1 := flatMap_pointControl_length s.left
  have f2 := flatMap_pointControl_length s.right
  rw [hs.left] at f1
  rw [hs.right] at f2
  unfold packControl
  have e1 := packPointsControl_ok n s.left hs.left 0 [] p1 (p2 ++ (b ++ (q ++ j))) rfl lp1
  have e2 := packPointsControl_ok n s.right hs.right (6 * n) (s.left.flatMap pointControl) p2 (b ++ (q ++ j)) f1 lp2
  have e5 := setSegment_mid (off := 12 * n) (size := 3) (pre := s.left.flatMap pointControl ++ s.right.flatMap pointControl) (mid := b)
    (post := q ++ j) (x := list3 s.baseLinearVelocity) (by simp only [List.length_append]; omega) (by simp [list3]) (by simp [list3, lb])
  have e6 := setSegment_mid (off := 12 * n + 3) (size := 4) (pre := s.left.flatMap pointControl ++ s.right.flatMap pointControl ++
    list3 s.baseLinearVelocity) (mid := q) (post := j) (x := list4 s.baseQuaternionDerivative)
    (by simp only [List.length_append, list3, List.length_cons, List.length_nil]; omega) (by simp [list4]) (by simp [list4, lq])
  have e7 := setSegment_mid (off := 12 * n + 7) (size := d) (pre := s.left.flatMap pointControl ++ s.right.flatMap pointControl ++
    list3 s.baseLinearVelocity ++ list4 s.baseQuaternionDerivative) (mid := j) (post := []) (x := s.jointsVelocity)
    (by simp only [List.length_append, list3, list4, List.length_cons, List.length_nil]; omega) hs.joints.symm (by rw [lj, hs.joints])
  simp only [List.nil_append, List.append_nil, List.append_assoc] at e1 e2 e5 e6 e7
  unfold rangesAt
  simp only [e1, e2, e5, e6, e7, Option.bind_eq_bind, Option.bind_some]
  simp [controlVector, list3, list4]

theorem segment3_mid {off : Nat} {pre post : List K} (x : V3 K) (h1 : off = pre.length) :
    segment3 ⟨off, 3⟩ (pre ++ (list3 x ++ post)) = some x := by
  unfold segment3
  rw [← List.append_assoc, segment_mid (size := 3) (x := list3 x) h1 rfl]
  rfl

theorem segment4_mid {off : Nat} {pre post : List K} (x : V4 K) (h1 : off = pre.length) :
    segment4 ⟨off, 4⟩ (pre ++ (list4 x ++ post)) = some x := by
  unfold segment4
  rw [← List.append_assoc, segment_mid (size := 4) (x := list4 x) h1 rfl]
  rfl

theorem segment6_mid {off : Nat} {pre post : List K} (x y : V3 K) (h1 : off = pre.length) :
    segment6 ⟨off, 6⟩ (pre ++ (list3 x ++ (list3 y ++ post))) = some (x, y) := by
  unfold segment6
  rw [show pre ++ (list3 x ++ (list3 y ++ post)) = pre ++ (list3 x ++ list3 y) ++ post by simp, segment_mid (size := 6) (x := list3 x ++ list3 y) h1 rfl]
  rfl

theorem unpackPoints_ok (n : Nat) (xs : List (PointState K)) (hx : xs.length = n) (off : Nat) (pre post : List K) (hpre : pre.length = off)
    (dest : List (PointState K)) (hd : n ≤ dest.length) (v : List K) (hv : v = pre ++ xs.flatMap pointState ++ post) :
    unpackPoints v (footAt off n).positionPoints (footAt off n).forcePoints dest = some (xs ++ dest.drop n) := by
  unfold footAt
  dsimp only
  induction n generalizing xs off pre dest with
  | zero =>
    have h1 : xs = [] := by simpa using hx
    subst h1
    simp [unpackPoints]
  | succ n ih =>
    obtain ⟨x, xs, rfl⟩ : ∃ a b, xs = a :: b := by
      cases xs with
      | nil => simp at hx
      | cons a b => exact ⟨a, b, rfl⟩
    obtain ⟨y, dest, rfl⟩ : ∃ a b, dest = a :: b := by
      cases dest with
      | nil => simp at hd
      | cons a b => exact ⟨a, b, rfl⟩
    rw [positions_succ, firsts_succ]
    unfold unpackPoints
    have e0 : v = pre ++ (list3 x.force ++ (list3 x.position ++ (xs.flatMap pointState ++ post))) := by
      rw [hv]; simp [pointState, list3]
    have e1 : segment3 ⟨off + 3, 3⟩ v = some x.position := by
      rw [e0, ← List.append_assoc pre]
      exact segment3_mid _ (by simp [hpre, list3])
    have e2 : segment3 ⟨off, 3⟩ v = some x.force := by
      rw [e0]
      exact segment3_mid _ hpre.symm
    have e3 := ih xs (by simpa using hx) (off + 6) (pre ++ list3 x.force ++ list3 x.position) (by simp [hpre, list3]) dest (by simpa using hd)
      (by rw [e0]; simp)
    rw [e1, e2, e3]
    simp

theorem unpackPointsControl_ok (n : Nat) (xs : List (PointControl K)) (hx : xs.length = n) (off : Nat) (pre post : List K) (hpre : pre.length = off)
    (dest : List (PointControl K)) (hd : n ≤ dest.length) (v : List K) (hv : v = pre ++ xs.flatMap pointControl ++ post) :
    unpackPointsControl v (footAt off n).forceControlPoints (footAt off n).velocityControlPoints dest = some (xs ++ dest.drop n) := by
  unfold footAt
  dsimp only
  induction n generalizing xs off pre dest with
  | zero =>
    have h1 : xs = [] := by simpa using hx
    subst h1
    simp [unpackPointsControl]
  | succ n ih =>
    obtain ⟨x, xs, rfl⟩ : ∃ a b, xs = a :: b := by
      cases xs with
      | nil => simp at hx
      | cons a b => exact ⟨a, b, rfl⟩
    obtain ⟨y, dest, rfl⟩ : ∃ a b, dest = a :: b := by
      cases dest with
      | nil => simp at hd
      | cons a b => exact ⟨a, b, rfl⟩
    rw [positions_succ, firsts_succ]
    unfold unpackPointsControl
    have e0 : v = pre ++ (list3 x.velocityControl ++ (list3 x.forceControl ++ (xs.flatMap pointControl ++ post))) := by
      rw [hv]; simp [pointControl, list3]
    have e1 : segment3 ⟨off + 3, 3⟩ v = some x.forceControl := by
      rw [e0, ← List.append_assoc pre]
      exact segment3_mid _ (by simp [hpre, list3])
    have e2 : segment3 ⟨off, 3⟩ v = some x.velocityControl := by
      rw [e0]
      exact segment3_mid _ hpre.symm
    have e3 := ih xs (by simpa using hx) (off + 6) (pre ++ list3 x.velocityControl ++ list3 x.forceControl) (by simp [hpre, list3]) dest
      (by simpa using hd) (by rw [e0]; simp)
    rw [e1, e2, e3]
    simp

theorem unpackState_ok [Field K] [LinearOrder K] (sqrt : K → K) (d n : Nat) (s : State K) (hs : StateSize d n s) (q : V4 K) (time : K)
    (dest : State K) (hl : n ≤ dest.left.length) (hr : n ≤ dest.right.length) :
    unpackState sqrt (rangesAt d n) (stateVector s q) time dest =
      some { s with left := s.left ++ dest.left.drop n, right := s.right ++ dest.right.drop n, base := ⟨rotationOf sqrt q, s.base.pos⟩, time := time } := by
  have f1 := flatMap_point_length s.left
  have f2 := flatMap_point_length s.right
  rw [hs.left] at f1
  rw [hs.right] at f2
  have hv : stateVector s q = s.left.flatMap pointState ++ (s.right.flatMap pointState ++ (list3 s.linearMomentum ++ (list3 s.angularMomentum ++
      (list3 s.com ++ (list3 s.base.pos ++ (list4 q ++ s.joints)))))) := by simp [stateVector, list3, list4]
  set v := stateVector s q
  have e1 := unpackPoints_ok n s.left hs.left 0 [] (s.right.flatMap pointState ++ (list3 s.linearMomentum ++ (list3 s.angularMomentum ++
      (list3 s.com ++ (list3 s.base.pos ++ (list4 q ++ s.joints)))))) rfl dest.left hl v (by rw [hv]; simp)
  have e2 := unpackPoints_ok n s.right hs.right (6 * n) (s.left.flatMap pointState) (list3 s.linearMomentum ++ (list3 s.angularMomentum ++
      (list3 s.com ++ (list3 s.base.pos ++ (list4 q ++ s.joints))))) f1 dest.right hr v (by rw [hv]; simp)
  have e3 : segment6 ⟨12 * n, 6⟩ v = some (s.linearMomentum, s.angularMomentum) := by
    rw [hv, ← List.append_assoc]
    exact segment6_mid _ _ (by simp only [List.length_append]; omega)
  have e4 : segment3 ⟨12 * n + 6, 3⟩ v = some s.com := by
    rw [hv, ← List.append_assoc, ← List.append_assoc, ← List.append_assoc]
    exact segment3_mid _ (by simp only [List.length_append, list3, List.length_cons, List.length_nil]; omega)
  have e5 : segment3 ⟨12 * n + 9, 3⟩ v = some s.base.pos := by
    rw [hv, ← List.append_assoc, ← List.append_assoc, ← List.append_assoc, ← List.append_assoc]
    exact segment3_mid _ (by simp only [List.length_append, list3, List.length_cons, List.length_nil]; omega)
  have e6 : segment4 ⟨12 * n + 12, 4⟩ v = some q := by
    rw [hv, ← List.append_assoc, ← List.append_assoc, ← List.append_assoc, ← List.append_assoc, ← List.append_assoc]
    exact segment4_mid _ (by simp only [List.length_append, list3, List.length_cons, List.length_nil]; omega)
  have e7 : segment ⟨12 * n + 16, d⟩ v = some s.joints := by
    rw [hv, ← List.append_assoc, ← List.append_assoc, ← List.append_assoc, ← List.append_assoc, ← List.append_assoc, ← List.append_assoc]
    have := segment_mid (off := 12 * n + 16) (size := d) (pre := s.left.flatMap pointState ++ s.right.flatMap pointState ++ list3 s.linearMomentum ++
      list3 s.angularMomentum ++ list3 s.com ++ list3 s.base.pos ++ list4 q) (post := []) (x := s.joints)
      (by simp only [List.length_append, list3, list4, List.length_cons, List.length_nil]; omega) hs.joints.symm
    simpa only [List.append_nil, ← List.append_assoc] using this
  unfold unpackState rangesAt
  simp only [e1, e2, e3, e4, e5, e6, e7, Option.bind_eq_bind, Option.bind_some]

theorem unpackControl_ok (d n : Nat) (s : Control K) (hs : ControlSize d n s) (time : K)
    (dest : Control K) (hl : n ≤ dest.left.length) (hr : n ≤ dest.right.length) :
    unpackControl (rangesAt d n) (controlVector s) time dest =
      some { s with left := s.left ++ dest.left.drop n, right := s.right ++ dest.right.drop n, time := time } := by
  have f1 := flatMap_pointControl_length s.left
  have f2 := flatMap_pointControl_length s.right
  rw [hs.left] at f1
  rw [hs.right] at f2
  have hv : controlVector s = s.left.flatMap pointControl ++ (s.right.flatMap pointControl ++ (list3 s.baseLinearVelocity ++
      (list4 s.baseQuaternionDerivative ++ s.jointsVelocity))) := by simp [controlVector, list3, list4]
  set v := controlVector s
  have e1 := unpackPointsControl_ok n s.left hs.left 0 [] (s.right.flatMap pointControl ++ (list3 s.baseLinearVelocity ++
      (list4 s.baseQuaternionDerivative ++ s.jointsVelocity))) rfl dest.left hl v (by rw [hv]; simp)
  have e2 := unpackPointsControl_ok n s.right hs.right (6 * n) (s.left.flatMap pointControl) (list3 s.baseLinearVelocity ++
      (list4 s.baseQuaternionDerivative ++ s.jointsVelocity)) f1 dest.right hr v (by rw [hv]; simp)
  have e5 : segment3 ⟨12 * n, 3⟩ v = some s.baseLinearVelocity := by
    rw [hv, ← List.append_assoc]
    exact segment3_mid _ (by simp only [List.length_append]; omega)
  have e6 : segment4 ⟨12 * n + 3, 4⟩ v = some s.baseQuaternionDerivative := by
    rw [hv, ← List.append_assoc, ← List.append_assoc]
    exact segment4_mid _ (by simp only [List.length_append, list3, List.length_cons, List.length_nil]; omega)
  have e7 : segment ⟨12 * n + 7, d⟩ v = some s.jointsVelocity := by
    rw [hv, ← List.append_assoc, ← List.append_assoc, ← List.append_assoc]
    have := segment_mid (off := 12 * n + 7) (size := d) (pre := s.left.flatMap pointControl ++ s.right.flatMap pointControl ++
      list3 s.baseLinearVelocity ++ list4 s.baseQuaternionDerivative) (post := []) (x := s.jointsVelocity)
      (by simp only [List.length_append, list3, list4, List.length_cons, List.length_nil]; omega) hs.joints.symm
    simpa only [List.append_nil, ← List.append_assoc] using this
  unfold unpackControl rangesAt
  simp only [e1, e2, e5, e6, e7, Option.bind_eq_bind, Option.bind_some]

end Verif.SolverM
