import Verif.Lemmas.Bounds
/- What being between the bounds means. -/
set_option linter.unusedSectionVars false
set_option linter.unusedSimpArgs false
namespace Verif.SolverM
open StateM Spec
open Labeller (Labeller Range slice overwrite)
variable {K : Type}

theorem forall2_append_iff {α β : Type} {S : α → β → Prop} {a a2 : List α} {b b2 : List β} (h : a.length = b.length) :
    List.Forall₂ S (a ++ a2) (b ++ b2) ↔ List.Forall₂ S a b ∧ List.Forall₂ S a2 b2 := by
  induction a generalizing b with
  | nil => obtain rfl : b = [] := List.length_eq_zero_iff.1 h.symm; simp
  | cons x a ih =>
    obtain ⟨y, b, rfl⟩ := List.exists_cons_of_length_eq_add_one h.symm
    simp only [List.cons_append, List.forall₂_cons]
    rw [ih (by simpa using h), and_assoc]

theorem forall2_replicate_left {α β : Type} {S : α → β → Prop} {n : Nat} {x : α} {l : List β} (h : l.length = n) :
    List.Forall₂ S (List.replicate n x) l ↔ ∀ y ∈ l, S x y := by
  subst h
  induction l with
  | nil => simp
  | cons y l ih => simp [List.replicate_succ, ih]

theorem forall2_replicate_right {α β : Type} {S : α → β → Prop} {n : Nat} {x : β} {l : List α} (h : l.length = n) :
    List.Forall₂ S l (List.replicate n x) ↔ ∀ y ∈ l, S y x := by
  subst h
  induction l with
  | nil => simp
  | cons y l ih => simp [List.replicate_succ, ih]

theorem forall2_flatMap {α β : Type} {S : β → β → Prop} (f : α → List β) (k : Nat) (hf : ∀ a, (f a).length = k) {x y : List α} (h : x.length = y.length) :
    List.Forall₂ S (x.flatMap f) (y.flatMap f) ↔ List.Forall₂ (fun a b => List.Forall₂ S (f a) (f b)) x y := by
  induction x generalizing y with
  | nil => obtain rfl : y = [] := List.length_eq_zero_iff.1 h.symm; simp
  | cons a x ih =>
    obtain ⟨b, y, rfl⟩ := List.exists_cons_of_length_eq_add_one h.symm
    simp only [List.flatMap_cons, List.forall₂_cons]
    rw [forall2_append_iff (by rw [hf, hf]), ih (by simpa using h)]

/-- Comparison of two vectors of states, block by block. -/
theorem forall2_stateVector {S : K → K → Prop} {d n : Nat} {a b : State K} (ha : StateSize d n a) (hb : StateSize d n b) (q q' : V4 K) :
    List.Forall₂ S (stateVector a q) (stateVector b q') ↔
      List.Forall₂ (fun x y => List.Forall₂ S (pointState x) (pointState y)) a.left b.left ∧
      List.Forall₂ (fun x y => List.Forall₂ S (pointState x) (pointState y)) a.right b.right ∧
      List.Forall₂ S [a.linearMomentum.x, a.linearMomentum.y, a.linearMomentum.z, a.angularMomentum.x, a.angularMomentum.y, a.angularMomentum.z,
        a.com.x, a.com.y, a.com.z, a.base.pos.x, a.base.pos.y, a.base.pos.z, q.w, q.x, q.y, q.z]
        [b.linearMomentum.x, b.linearMomentum.y, b.linearMomentum.z, b.angularMomentum.x, b.angularMomentum.y, b.angularMomentum.z,
        b.com.x, b.com.y, b.com.z, b.base.pos.x, b.base.pos.y, b.base.pos.z, q'.w, q'.x, q'.y, q'.z] ∧
      List.Forall₂ S a.joints b.joints := by
  have e : ∀ (s : State K) (q : V4 K), stateVector s q = s.left.flatMap pointState ++ (s.right.flatMap pointState ++
      ([s.linearMomentum.x, s.linearMomentum.y, s.linearMomentum.z, s.angularMomentum.x, s.angularMomentum.y, s.angularMomentum.z,
        s.com.x, s.com.y, s.com.z, s.base.pos.x, s.base.pos.y, s.base.pos.z, q.w, q.x, q.y, q.z] ++ s.joints)) := by
    intro s q
    simp [stateVector]
  rw [e, e, forall2_append_iff (by rw [flatMap_point_length, flatMap_point_length, ha.left, hb.left]),
    forall2_append_iff (by rw [flatMap_point_length, flatMap_point_length, ha.right, hb.right]), forall2_append_iff (by rfl),
    forall2_flatMap _ 6 (fun _ => rfl) (by rw [ha.left, hb.left]), forall2_flatMap _ 6 (fun _ => rfl) (by rw [ha.right, hb.right])]

/-- Comparison of two vectors of controls, block by block. -/
theorem forall2_controlVector {S : K → K → Prop} {d n : Nat} {a b : Control K} (ha : ControlSize d n a) (hb : ControlSize d n b) :
    List.Forall₂ S (controlVector a) (controlVector b) ↔
      List.Forall₂ (fun x y => List.Forall₂ S (pointControl x) (pointControl y)) a.left b.left ∧
      List.Forall₂ (fun x y => List.Forall₂ S (pointControl x) (pointControl y)) a.right b.right ∧
      List.Forall₂ S [a.baseLinearVelocity.x, a.baseLinearVelocity.y, a.baseLinearVelocity.z,
        a.baseQuaternionDerivative.w, a.baseQuaternionDerivative.x, a.baseQuaternionDerivative.y, a.baseQuaternionDerivative.z]
        [b.baseLinearVelocity.x, b.baseLinearVelocity.y, b.baseLinearVelocity.z,
        b.baseQuaternionDerivative.w, b.baseQuaternionDerivative.x, b.baseQuaternionDerivative.y, b.baseQuaternionDerivative.z] ∧
      List.Forall₂ S a.jointsVelocity b.jointsVelocity := by
  have e : ∀ s : Control K, controlVector s = s.left.flatMap pointControl ++ (s.right.flatMap pointControl ++
      ([s.baseLinearVelocity.x, s.baseLinearVelocity.y, s.baseLinearVelocity.z,
        s.baseQuaternionDerivative.w, s.baseQuaternionDerivative.x, s.baseQuaternionDerivative.y, s.baseQuaternionDerivative.z] ++ s.jointsVelocity)) := by
    intro s
    simp [controlVector]
  rw [e, e, forall2_append_iff (by rw [flatMap_pointControl_length, flatMap_pointControl_length, ha.left, hb.left]),
    forall2_append_iff (by rw [flatMap_pointControl_length, flatMap_pointControl_length, ha.right, hb.right]), forall2_append_iff (by rfl),
    forall2_flatMap _ 6 (fun _ => rfl) (by rw [ha.left, hb.left]), forall2_flatMap _ 6 (fun _ => rfl) (by rw [ha.right, hb.right])]

theorem secondBounds_ok [Field K] (m p : K) (d n : Nat) (sl su : List K) (x y : PointControl K) (jl ju : List K) :
    secondBounds (rangesAt d n) ⟨sl, su, controlVector (boundControl n m x jl), controlVector (boundControl n p y ju)⟩ =
      some ⟨sl, su, controlVector (boundControl n m ⟨⟨0, 0, 0⟩, ⟨0, 0, 0⟩⟩ jl), controlVector (boundControl n p ⟨⟨0, 0, 0⟩, ⟨0, 0, 0⟩⟩ ju)⟩ := by
  unfold secondBounds
  have e : ∀ (m : K) (x : PointControl K) (j : List K), controlVector (boundControl n m x j) =
      (List.replicate n x).flatMap pointControl ++ ((List.replicate n x).flatMap pointControl ++ ([m, m, m, m, m, m, m] ++ j)) := by
    intro m x j
    simp [controlVector, boundControl]
  have r1 : (rangesAt d n).left = footAt 0 n := rfl
  have r2 : (rangesAt d n).right = footAt (6 * n) n := rfl
  rw [r1, r2]
  dsimp only
  simp only [e]
  have f1 := footFrozen_ok n 0 (List.replicate n x) (List.replicate n y) List.length_replicate List.length_replicate [] []
    ((List.replicate n x).flatMap pointControl ++ ([m, m, m, m, m, m, m] ++ jl)) ((List.replicate n y).flatMap pointControl ++ ([p, p, p, p, p, p, p] ++ ju))
    rfl rfl
  have f2 := footFrozen_ok n (6 * n) (List.replicate n x) (List.replicate n y) List.length_replicate List.length_replicate
    ((List.replicate n ⟨⟨0, 0, 0⟩, ⟨0, 0, 0⟩⟩).flatMap pointControl) ((List.replicate n ⟨⟨0, 0, 0⟩, ⟨0, 0, 0⟩⟩).flatMap pointControl)
    ([m, m, m, m, m, m, m] ++ jl) ([p, p, p, p, p, p, p] ++ ju) (len_pointsC n _) (len_pointsC n _)
  simp only [List.nil_append] at f1
  rw [f1]
  simp only [Option.bind_eq_bind, Option.bind_some]
  rw [f2]
  rfl

end Verif.SolverM
