import Verif.Lemmas.Logger
/- Lemmas for the saved variables: the commands. -/
namespace Verif.Logger
open Verif.StateM Verif.SolverM Spec
variable {K : Type}

/-- What is given to the method. -/
structure Input (K : Type) where
  asQuat : M3 K → V4 K
  states : List (State K)
  controls : List (Control K)
  times : List K
  costs : List K

namespace Input
variable (d : Input K)

/-- The columns of a quantity. -/
def columns : Q → List (Option (List K))
  | .state q => d.states.map fun s => q.value d.asQuat s
  | .control q => d.controls.map fun s => q.value s
  | .computationalTime => d.times.map fun t => some [t]
  | .cost => d.costs.map fun t => some [t]

def creates : List (Cmd K) :=
  createStates d.states ++ createControls d.controls ++ createValues "computationalTime" d.times ++ createValues "costValue" d.costs

def puts : List (Cmd K) :=
  ((List.range d.states.length).flatMap fun i => putState d.asQuat d.states i) ++ ((List.range d.controls.length).flatMap fun i => putControl d.controls i) ++
    putValues "computationalTime" d.times ++ putValues "costValue" d.costs

theorem save_eq (junk : String → Nat → Nat → K) : saveSolutionVectors junk d.asQuat d.states d.controls d.times d.costs =
    (d.creates.foldlM (Cmd.run junk) fun _ => none).bind fun m => d.puts.foldlM (Cmd.run junk) m := by
  rw [saveSolutionVectors, creates, puts]
  simp only [List.append_assoc, List.foldlM_append]
  simp only [Option.bind_eq_bind, Option.bind_assoc]

/-- The quantity has a column in the first item. -/
def First (q : Q) (v : List K) : Prop := ∃ rest, d.columns q = some v :: rest

theorem mem_createStates {x : Cmd K} : x ∈ createStates d.states ↔
    ∃ q v, d.First (.state q) v ∧ x = .create q.name v.length d.states.length := by
  cases h : d.states with
  | nil => simp [createStates, First, columns, h]
  | cons front rest =>
    have e : ∀ (q : StateQ) (v : List K), d.First (.state q) v ↔ q.value d.asQuat front = some v := by
      intro q v; simp [First, columns, h]
    simp only [e]
    simp only [createStates, List.mem_append, List.mem_flatMap, List.mem_range, List.mem_cons, List.not_mem_nil, or_false]
    constructor
    · rintro ((⟨p, hp, rfl | rfl⟩ | ⟨p, hp, rfl | rfl⟩) | rfl | rfl | rfl | rfl | rfl | rfl)
      · exact ⟨.force .left p, three front.left[p].force, by simp [StateQ.value, Foot.points, hp], rfl⟩
      · exact ⟨.position .left p, three front.left[p].position, by simp [StateQ.value, Foot.points, hp], rfl⟩
      · exact ⟨.force .right p, three front.right[p].force, by simp [StateQ.value, Foot.points, hp], rfl⟩
      · exact ⟨.position .right p, three front.right[p].position, by simp [StateQ.value, Foot.points, hp], rfl⟩
      · exact ⟨.momentum, _, rfl, rfl⟩
      · exact ⟨.com, _, rfl, rfl⟩
      · exact ⟨.basePosition, _, rfl, rfl⟩
      · exact ⟨.baseQuaternion, _, rfl, rfl⟩
      · exact ⟨.joints, _, rfl, rfl⟩
      · exact ⟨.time, _, rfl, rfl⟩
    · rintro ⟨q, v, hv, rfl⟩
      rcases q with ⟨f, p⟩ | ⟨f, p⟩ | _ | _ | _ | _ | _ | _
      · obtain ⟨s, hs, rfl⟩ := Option.map_eq_some_iff.1 hv
        have hp := (List.getElem?_eq_some_iff.1 hs).1
        cases f
        · exact Or.inl (Or.inl ⟨p, hp, Or.inl rfl⟩)
        · exact Or.inl (Or.inr ⟨p, hp, Or.inl rfl⟩)
      · obtain ⟨s, hs, rfl⟩ := Option.map_eq_some_iff.1 hv
        have hp := (List.getElem?_eq_some_iff.1 hs).1
        cases f
        · exact Or.inl (Or.inl ⟨p, hp, Or.inr rfl⟩)
        · exact Or.inl (Or.inr ⟨p, hp, Or.inr rfl⟩)
      all_goals
        cases hv
        simp [StateQ.name, three, four]

theorem mem_createControls {x : Cmd K} : x ∈ createControls d.controls ↔
    ∃ q v, d.First (.control q) v ∧ x = .create q.name v.length d.controls.length := by
  cases h : d.controls with
  | nil => simp [createControls, First, columns, h]
  | cons front rest =>
    have e : ∀ (q : ControlQ) (v : List K), d.First (.control q) v ↔ q.value front = some v := by
      intro q v; simp [First, columns, h]
    simp only [e]
    simp only [createControls, List.mem_append, List.mem_flatMap, List.mem_range, List.mem_cons, List.not_mem_nil, or_false]
    constructor
    · rintro ((⟨p, hp, rfl | rfl⟩ | ⟨p, hp, rfl | rfl⟩) | rfl | rfl | rfl | rfl)
      · exact ⟨.force .left p, three front.left[p].forceControl, by simp [ControlQ.value, Foot.controls, hp], rfl⟩
      · exact ⟨.velocity .left p, three front.left[p].velocityControl, by simp [ControlQ.value, Foot.controls, hp], rfl⟩
      · exact ⟨.force .right p, three front.right[p].forceControl, by simp [ControlQ.value, Foot.controls, hp], rfl⟩
      · exact ⟨.velocity .right p, three front.right[p].velocityControl, by simp [ControlQ.value, Foot.controls, hp], rfl⟩
      · exact ⟨.baseVelocity, _, rfl, rfl⟩
      · exact ⟨.quaternionDerivative, _, rfl, rfl⟩
      · exact ⟨.jointsVelocity, _, rfl, rfl⟩
      · exact ⟨.time, _, rfl, rfl⟩
    · rintro ⟨q, v, hv, rfl⟩
      rcases q with ⟨f, p⟩ | ⟨f, p⟩ | _ | _ | _ | _
      · obtain ⟨s, hs, rfl⟩ := Option.map_eq_some_iff.1 hv
        have hp := (List.getElem?_eq_some_iff.1 hs).1
        cases f
        · exact Or.inl (Or.inl ⟨p, hp, Or.inl rfl⟩)
        · exact Or.inl (Or.inr ⟨p, hp, Or.inl rfl⟩)
      · obtain ⟨s, hs, rfl⟩ := Option.map_eq_some_iff.1 hv
        have hp := (List.getElem?_eq_some_iff.1 hs).1
        cases f
        · exact Or.inl (Or.inl ⟨p, hp, Or.inr rfl⟩)
        · exact Or.inl (Or.inr ⟨p, hp, Or.inr rfl⟩)
      all_goals
        cases hv
        simp [ControlQ.name, three, four]

theorem mem_creates {x : Cmd K} : x ∈ d.creates ↔ ∃ q v, d.First q v ∧ x = .create q.name v.length (d.columns q).length := by
  have hv : ∀ (values : List K) (name : String), x ∈ createValues name values ↔ values ≠ [] ∧ x = .create name 1 values.length := by
    intro values name
    cases values <;> simp [createValues]
  rw [creates, List.mem_append, List.mem_append, List.mem_append, mem_createStates, mem_createControls, hv, hv]
  constructor
  · rintro (((⟨q, v, h, rfl⟩ | ⟨q, v, h, rfl⟩) | ⟨h, rfl⟩) | ⟨h, rfl⟩)
    · exact ⟨.state q, v, h, by simp [columns, Q.name]⟩
    · exact ⟨.control q, v, h, by simp [columns, Q.name]⟩
    · obtain ⟨t, l, hl⟩ := List.exists_cons_of_ne_nil h
      exact ⟨.computationalTime, [t], ⟨l.map fun t => some [t], by simp [columns, hl]⟩, by simp [columns, Q.name]⟩
    · obtain ⟨t, l, hl⟩ := List.exists_cons_of_ne_nil h
      exact ⟨.cost, [t], ⟨l.map fun t => some [t], by simp [columns, hl]⟩, by simp [columns, Q.name]⟩
  · rintro ⟨q, v, h, rfl⟩
    rcases q with q | q | _ | _
    · exact Or.inl (Or.inl (Or.inl ⟨q, v, h, by simp [columns, Q.name]⟩))
    · exact Or.inl (Or.inl (Or.inr ⟨q, v, h, by simp [columns, Q.name]⟩))
    · obtain ⟨rest, h⟩ := h
      cases hl : d.times with
      | nil => simp [columns, hl] at h
      | cons t l =>
        simp only [columns, hl, List.map_cons, List.cons.injEq, Option.some.injEq] at h
        exact Or.inl (Or.inr ⟨by simp, by simp [columns, Q.name, hl, ← h.1]⟩)
    · obtain ⟨rest, h⟩ := h
      cases hl : d.costs with
      | nil => simp [columns, hl] at h
      | cons t l =>
        simp only [columns, hl, List.map_cons, List.cons.injEq, Option.some.injEq] at h
        exact Or.inr ⟨by simp, by simp [columns, Q.name, hl, ← h.1]⟩

theorem mem_putStates {x : Cmd K} : x ∈ ((List.range d.states.length).flatMap fun i => putState d.asQuat d.states i) ↔
    ∃ q v w i, d.First (.state q) v ∧ (d.columns (.state q))[i]? = some w ∧ x = .put q.name w i := by
  cases h : d.states with
  | nil => simp [First, columns, h]
  | cons front rest =>
    have e : ∀ (q : StateQ) (v : List K), d.First (.state q) v ↔ q.value d.asQuat front = some v := by
      intro q v; simp [First, columns, h]
    simp only [e]
    rw [← h]
    have hfront : d.states.head? = some front := by rw [h]; rfl
    simp only [List.mem_flatMap, List.mem_range, putState, hfront, Option.map_some, Option.getD_some, List.mem_append, List.mem_cons, List.not_mem_nil, or_false]
    have e2 : ∀ (q : StateQ) (w : Option (List K)) (i : Nat), (d.columns (.state q))[i]? = some w ↔ ∃ s, d.states[i]? = some s ∧ q.value d.asQuat s = w := by
      intro q w i; simp [columns]
    simp only [e2]
    constructor
    · rintro ⟨i, hi, hx⟩
      have hs : d.states[i]? = some d.states[i] := List.getElem?_eq_getElem hi
      simp only [hs] at hx
      rcases hx with (⟨p, hp, rfl | rfl⟩ | ⟨p, hp, rfl | rfl⟩) | rfl | rfl | rfl | rfl | rfl | rfl
      · refine ⟨.force .left p, three front.left[p].force, _, i, by simp [StateQ.value, Foot.points, hp], ⟨_, hs, rfl⟩, ?_⟩
        simp [StateQ.value, Foot.points, StateQ.name, Foot.name, Option.map_eq_bind, three, list3]
      · refine ⟨.position .left p, three front.left[p].position, _, i, by simp [StateQ.value, Foot.points, hp], ⟨_, hs, rfl⟩, ?_⟩
        simp [StateQ.value, Foot.points, StateQ.name, Foot.name, Option.map_eq_bind, three, list3]
      · refine ⟨.force .right p, three front.right[p].force, _, i, by simp [StateQ.value, Foot.points, hp], ⟨_, hs, rfl⟩, ?_⟩
        simp [StateQ.value, Foot.points, StateQ.name, Foot.name, Option.map_eq_bind, three, list3]
      · refine ⟨.position .right p, three front.right[p].position, _, i, by simp [StateQ.value, Foot.points, hp], ⟨_, hs, rfl⟩, ?_⟩
        simp [StateQ.value, Foot.points, StateQ.name, Foot.name, Option.map_eq_bind, three, list3]
      · exact ⟨.momentum, _, _, i, rfl, ⟨_, hs, rfl⟩, rfl⟩
      · exact ⟨.com, _, _, i, rfl, ⟨_, hs, rfl⟩, rfl⟩
      · exact ⟨.basePosition, _, _, i, rfl, ⟨_, hs, rfl⟩, rfl⟩
      · exact ⟨.baseQuaternion, _, _, i, rfl, ⟨_, hs, rfl⟩, rfl⟩
      · exact ⟨.joints, _, _, i, rfl, ⟨_, hs, rfl⟩, rfl⟩
      · exact ⟨.time, _, _, i, rfl, ⟨_, hs, rfl⟩, rfl⟩
    · rintro ⟨q, v, w, i, hv, ⟨s, hs, rfl⟩, rfl⟩
      refine ⟨i, (List.getElem?_eq_some_iff.1 hs).1, ?_⟩
      simp only [hs]
      rcases q with ⟨f, p⟩ | ⟨f, p⟩ | _ | _ | _ | _ | _ | _
      · obtain ⟨s, hs, rfl⟩ := Option.map_eq_some_iff.1 hv
        have hp := (List.getElem?_eq_some_iff.1 hs).1
        cases f
        · exact Or.inl (Or.inl ⟨p, hp, Or.inl (by simp [StateQ.value, Foot.points, StateQ.name, Foot.name, Option.map_eq_bind, three, list3])⟩)
        · exact Or.inl (Or.inr ⟨p, hp, Or.inl (by simp [StateQ.value, Foot.points, StateQ.name, Foot.name, Option.map_eq_bind, three, list3])⟩)
      · obtain ⟨s, hs, rfl⟩ := Option.map_eq_some_iff.1 hv
        have hp := (List.getElem?_eq_some_iff.1 hs).1
        cases f
        · exact Or.inl (Or.inl ⟨p, hp, Or.inr (by simp [StateQ.value, Foot.points, StateQ.name, Foot.name, Option.map_eq_bind, three, list3])⟩)
        · exact Or.inl (Or.inr ⟨p, hp, Or.inr (by simp [StateQ.value, Foot.points, StateQ.name, Foot.name, Option.map_eq_bind, three, list3])⟩)
      all_goals simp [StateQ.name, StateQ.value, three, four, list3, list4]

theorem mem_putControls {x : Cmd K} : x ∈ ((List.range d.controls.length).flatMap fun i => putControl d.controls i) ↔
    ∃ q v w i, d.First (.control q) v ∧ (d.columns (.control q))[i]? = some w ∧ x = .put q.name w i := by
  cases h : d.controls with
  | nil => simp [First, columns, h]
  | cons front rest =>
    have e : ∀ (q : ControlQ) (v : List K), d.First (.control q) v ↔ q.value front = some v := by
      intro q v; simp [First, columns, h]
    simp only [e]
    rw [← h]
    have hfront : d.controls.head? = some front := by rw [h]; rfl
    simp only [List.mem_flatMap, List.mem_range, putControl, hfront, Option.map_some, Option.getD_some, List.mem_append, List.mem_cons, List.not_mem_nil, or_false]
    have e2 : ∀ (q : ControlQ) (w : Option (List K)) (i : Nat), (d.columns (.control q))[i]? = some w ↔ ∃ s, d.controls[i]? = some s ∧ q.value s = w := by
      intro q w i; simp [columns]
    simp only [e2]
    constructor
    · rintro ⟨i, hi, hx⟩
      have hs : d.controls[i]? = some d.controls[i] := List.getElem?_eq_getElem hi
      simp only [hs] at hx
      rcases hx with (⟨p, hp, rfl | rfl⟩ | ⟨p, hp, rfl | rfl⟩) | rfl | rfl | rfl | rfl
      · refine ⟨.force .left p, three front.left[p].forceControl, _, i, by simp [ControlQ.value, Foot.controls, hp], ⟨_, hs, rfl⟩, ?_⟩
        simp [ControlQ.value, Foot.controls, ControlQ.name, Foot.name, Option.map_eq_bind, three, list3]
      · refine ⟨.velocity .left p, three front.left[p].velocityControl, _, i, by simp [ControlQ.value, Foot.controls, hp], ⟨_, hs, rfl⟩, ?_⟩
        simp [ControlQ.value, Foot.controls, ControlQ.name, Foot.name, Option.map_eq_bind, three, list3]
      · refine ⟨.force .right p, three front.right[p].forceControl, _, i, by simp [ControlQ.value, Foot.controls, hp], ⟨_, hs, rfl⟩, ?_⟩
        simp [ControlQ.value, Foot.controls, ControlQ.name, Foot.name, Option.map_eq_bind, three, list3]
      · refine ⟨.velocity .right p, three front.right[p].velocityControl, _, i, by simp [ControlQ.value, Foot.controls, hp], ⟨_, hs, rfl⟩, ?_⟩
        simp [ControlQ.value, Foot.controls, ControlQ.name, Foot.name, Option.map_eq_bind, three, list3]
      · exact ⟨.baseVelocity, _, _, i, rfl, ⟨_, hs, rfl⟩, rfl⟩
      · exact ⟨.quaternionDerivative, _, _, i, rfl, ⟨_, hs, rfl⟩, rfl⟩
      · exact ⟨.jointsVelocity, _, _, i, rfl, ⟨_, hs, rfl⟩, rfl⟩
      · exact ⟨.time, _, _, i, rfl, ⟨_, hs, rfl⟩, rfl⟩
    · rintro ⟨q, v, w, i, hv, ⟨s, hs, rfl⟩, rfl⟩
      refine ⟨i, (List.getElem?_eq_some_iff.1 hs).1, ?_⟩
      simp only [hs]
      rcases q with ⟨f, p⟩ | ⟨f, p⟩ | _ | _ | _ | _
      · obtain ⟨s, hs, rfl⟩ := Option.map_eq_some_iff.1 hv
        have hp := (List.getElem?_eq_some_iff.1 hs).1
        cases f
        · exact Or.inl (Or.inl ⟨p, hp, Or.inl (by simp [ControlQ.value, Foot.controls, ControlQ.name, Foot.name, Option.map_eq_bind, three, list3])⟩)
        · exact Or.inl (Or.inr ⟨p, hp, Or.inl (by simp [ControlQ.value, Foot.controls, ControlQ.name, Foot.name, Option.map_eq_bind, three, list3])⟩)
      · obtain ⟨s, hs, rfl⟩ := Option.map_eq_some_iff.1 hv
        have hp := (List.getElem?_eq_some_iff.1 hs).1
        cases f
        · exact Or.inl (Or.inl ⟨p, hp, Or.inr (by simp [ControlQ.value, Foot.controls, ControlQ.name, Foot.name, Option.map_eq_bind, three, list3])⟩)
        · exact Or.inl (Or.inr ⟨p, hp, Or.inr (by simp [ControlQ.value, Foot.controls, ControlQ.name, Foot.name, Option.map_eq_bind, three, list3])⟩)
      all_goals simp [ControlQ.name, ControlQ.value, three, four, list3, list4]

theorem mem_puts {x : Cmd K} : x ∈ d.puts ↔ ∃ q v w i, d.First q v ∧ (d.columns q)[i]? = some w ∧ x = .put q.name w i := by
  have hv : ∀ (values : List K) (name : String), x ∈ putValues name values ↔ ∃ i t, values[i]? = some t ∧ x = .put name (some [t]) i := by
    intro values name
    simp only [putValues, List.mem_map, List.mem_range]
    constructor
    · rintro ⟨i, hi, rfl⟩; exact ⟨i, values[i], List.getElem?_eq_getElem hi, by simp [hi]⟩
    · rintro ⟨i, t, ht, rfl⟩; exact ⟨i, (List.getElem?_eq_some_iff.1 ht).1, by simp [ht]⟩
  have hfirst : ∀ {values : List K} {i : Nat} {t : K}, values[i]? = some t → ∃ v rest, (values.map fun t => some [t]) = some v :: rest := by
    intro values i t h
    cases values with
    | nil => simp at h
    | cons a l => exact ⟨[a], _, rfl⟩
  rw [puts, List.mem_append, List.mem_append, List.mem_append, mem_putStates, mem_putControls, hv, hv]
  constructor
  · rintro (((⟨q, v, w, i, h1, h2, rfl⟩ | ⟨q, v, w, i, h1, h2, rfl⟩) | ⟨i, t, h, rfl⟩) | ⟨i, t, h, rfl⟩)
    · exact ⟨.state q, v, w, i, h1, h2, rfl⟩
    · exact ⟨.control q, v, w, i, h1, h2, rfl⟩
    · obtain ⟨v, rest, hr⟩ := hfirst h
      exact ⟨.computationalTime, v, some [t], i, ⟨rest, hr⟩, by simp [columns, h], rfl⟩
    · obtain ⟨v, rest, hr⟩ := hfirst h
      exact ⟨.cost, v, some [t], i, ⟨rest, hr⟩, by simp [columns, h], rfl⟩
  · rintro ⟨q, v, w, i, h1, h2, rfl⟩
    rcases q with q | q | _ | _
    · exact Or.inl (Or.inl (Or.inl ⟨q, v, w, i, h1, h2, rfl⟩))
    · exact Or.inl (Or.inl (Or.inr ⟨q, v, w, i, h1, h2, rfl⟩))
    · simp only [columns, List.getElem?_map, Option.map_eq_some_iff] at h2
      obtain ⟨t, ht, rfl⟩ := h2
      exact Or.inl (Or.inr ⟨i, t, ht, rfl⟩)
    · simp only [columns, List.getElem?_map, Option.map_eq_some_iff] at h2
      obtain ⟨t, ht, rfl⟩ := h2
      exact Or.inr ⟨i, t, ht, rfl⟩

end Input
end Verif.Logger
