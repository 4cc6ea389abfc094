import Verif.Lemmas.Logger2
/- C74: the variables that the logger saves. -/
namespace Verif.Logger
open Verif.StateM Verif.SolverM Spec
variable {K : Type}

namespace Input
variable (d : Input K)

/-- Every column exists and is as long as the first one. -/
def Even : Prop := ∀ q v, d.First q v → ∀ w ∈ d.columns q, ∃ u, w = some u ∧ u.length = v.length

theorem creates_run (junk : String → Nat → Nat → K) : ∃ m, (d.creates.foldlM (Cmd.run junk) fun _ => none) = some m ∧
    (∀ q v, d.First q v → m q.name = some ⟨v.length, (d.columns q).length, junk q.name⟩) ∧
    ∀ name, (∀ q v, d.First q v → name ≠ q.name) → m name = none := by
  have h0 : ∃ cs : List (String × Nat × Nat), d.creates = cs.map fun c => Cmd.create c.1 c.2.1 c.2.2 := by
    have : ∀ l : List (Cmd K), (∀ x ∈ l, x ∈ d.creates) → ∃ cs : List (String × Nat × Nat), l = cs.map fun c => Cmd.create c.1 c.2.1 c.2.2 := by
      intro l hl
      induction l with
      | nil => exact ⟨[], rfl⟩
      | cons x l ih =>
        obtain ⟨cs, rfl⟩ := ih fun y hy => hl y (List.mem_cons_of_mem _ hy)
        obtain ⟨q, v, _, rfl⟩ := d.mem_creates.1 (hl x List.mem_cons_self)
        exact ⟨(q.name, v.length, (d.columns q).length) :: cs, rfl⟩
    exact this _ fun _ h => h
  obtain ⟨cs, hcs⟩ := h0
  have hmem : ∀ n r c, (n, r, c) ∈ cs ↔ Cmd.create n r c ∈ d.creates := by
    intro n r c
    rw [hcs, List.mem_map]
    constructor
    · exact fun h => ⟨_, h, rfl⟩
    · rintro ⟨⟨n', r', c'⟩, h, e⟩
      simp only [Cmd.create.injEq] at e
      obtain ⟨rfl, rfl, rfl⟩ := e
      exact h
  obtain ⟨m, h1, h2, h3⟩ := run_creates junk cs (fun _ => none)
  rw [← hcs] at h1
  refine ⟨m, h1, ?_, ?_⟩
  · intro q v hv
    refine h3 _ _ _ ((hmem _ _ _).2 (d.mem_creates.2 ⟨q, v, hv, rfl⟩)) ?_
    intro r c h
    obtain ⟨q', v', hv', e⟩ := d.mem_creates.1 ((hmem _ _ _).1 h)
    simp only [Cmd.create.injEq] at e
    obtain ⟨e1, rfl, rfl⟩ := e
    obtain rfl := name_inj e1
    obtain ⟨rest, hr⟩ := hv
    obtain ⟨rest', hr'⟩ := hv'
    rw [hr] at hr'
    cases hr'
    exact ⟨rfl, rfl⟩
  · intro name hn
    refine h2 name ?_
    intro h
    obtain ⟨⟨n, r, c⟩, hc, rfl⟩ := List.mem_map.1 h
    obtain ⟨q, v, hv, e⟩ := d.mem_creates.1 ((hmem _ _ _).1 hc)
    simp only [Cmd.create.injEq] at e
    exact hn q v hv e.1

theorem puts_list : ∃ ps : List (String × Option (List K) × Nat), (d.puts = ps.map fun p => Cmd.put p.1 p.2.1 p.2.2) ∧
    ∀ n w i, (n, w, i) ∈ ps ↔ ∃ q v, d.First q v ∧ (d.columns q)[i]? = some w ∧ n = q.name := by
  have h0 : ∃ ps : List (String × Option (List K) × Nat), d.puts = ps.map fun p => Cmd.put p.1 p.2.1 p.2.2 := by
    have : ∀ l : List (Cmd K), (∀ x ∈ l, x ∈ d.puts) → ∃ ps : List (String × Option (List K) × Nat), l = ps.map fun p => Cmd.put p.1 p.2.1 p.2.2 := by
      intro l hl
      induction l with
      | nil => exact ⟨[], rfl⟩
      | cons x l ih =>
        obtain ⟨ps, rfl⟩ := ih fun y hy => hl y (List.mem_cons_of_mem _ hy)
        obtain ⟨q, v, w, i, _, _, rfl⟩ := d.mem_puts.1 (hl x List.mem_cons_self)
        exact ⟨(q.name, w, i) :: ps, rfl⟩
    exact this _ fun _ h => h
  obtain ⟨ps, hps⟩ := h0
  refine ⟨ps, hps, fun n w i => ?_⟩
  have : (n, w, i) ∈ ps ↔ Cmd.put n w i ∈ d.puts := by
    rw [hps, List.mem_map]
    constructor
    · exact fun h => ⟨_, h, rfl⟩
    · rintro ⟨⟨n', r', c'⟩, h, e⟩
      simp only [Cmd.put.injEq] at e
      obtain ⟨rfl, rfl, rfl⟩ := e
      exact h
  rw [this, d.mem_puts]
  constructor
  · rintro ⟨q, v, w', i', h1, h2, e⟩
    simp only [Cmd.put.injEq] at e
    obtain ⟨rfl, rfl, rfl⟩ := e
    exact ⟨q, v, h1, h2, rfl⟩
  · rintro ⟨q, v, h1, h2, rfl⟩
    exact ⟨q, v, w, i, h1, h2, rfl⟩

/-- If the columns are assigned without failures, they fit. -/
theorem puts_fit (junk : String → Nat → Nat → K) (ps : List (String × Option (List K) × Nat)) (m m' : Logged K)
    (h : (ps.map fun p => Cmd.put p.1 p.2.1 p.2.2).foldlM (Cmd.run junk) m = some m') :
    ∀ p ∈ ps, ∃ v a, p.2.1 = some v ∧ m p.1 = some a ∧ p.2.2 < a.cols ∧ v.length = a.rows := by
  induction ps generalizing m with
  | nil => simp
  | cons p ps ih =>
    rw [List.map_cons, List.foldlM_cons] at h
    obtain ⟨m1, h1, h2⟩ := Option.bind_eq_some_iff.1 h
    obtain ⟨n, w, c⟩ := p
    simp only [Cmd.run] at h1
    obtain ⟨v, hv, h1⟩ := Option.bind_eq_some_iff.1 h1
    obtain ⟨a, ha, h1⟩ := Option.bind_eq_some_iff.1 h1
    split_ifs at h1 with hc
    · intro p hp
      rcases List.mem_cons.1 hp with rfl | hp
      · exact ⟨v, a, hv, ha, hc⟩
      · obtain ⟨v', a', e1, e2, e3, e4⟩ := ih m1 h2 p hp
        simp only [Option.some.injEq] at h1
        subst h1
        by_cases hn : p.1 = n
        · rw [hn, Function.update_self] at e2
          cases e2
          exact ⟨v', a, e1, by rw [hn]; exact ha, e3, e4⟩
        · rw [Function.update_of_ne hn] at e2
          exact ⟨v', a', e1, e2, e3, e4⟩

theorem save_some (junk : String → Nat → Nat → K) (he : d.Even) :
    ∃ m, saveSolutionVectors junk d.asQuat d.states d.controls d.times d.costs = some m ∧
      (∀ q v, d.First q v → ∃ a, m q.name = some a ∧ a.rows = v.length ∧ a.cols = (d.columns q).length ∧
        ∀ (i : Nat) (u : List K), (d.columns q)[i]? = some (some u) → ∀ (r : Nat) (x : K), u[r]? = some x → a.val r i = x) ∧
      ∀ name, (∀ q v, d.First q v → name ≠ q.name) → m name = none := by
  obtain ⟨m, h1, h2, h3⟩ := d.creates_run junk
  obtain ⟨ps, hps, hmem⟩ := d.puts_list
  obtain ⟨m', g1, g2, g3⟩ := run_puts junk ps m (by
    rintro ⟨n, w, i⟩ hp
    obtain ⟨q, v, hv, hw, rfl⟩ := (hmem _ _ _).1 hp
    obtain ⟨u, rfl, hu⟩ := he q v hv w (List.mem_of_getElem? hw)
    exact ⟨u, _, rfl, h2 q v hv, (List.getElem?_eq_some_iff.1 hw).1, hu⟩)
  refine ⟨m', ?_, ?_, ?_⟩
  · rw [save_eq, h1, hps]; exact g1
  · intro q v hv
    have hs := g2 q.name
    rw [h2 q v hv] at hs
    obtain ⟨a, ha, hs⟩ := Option.map_eq_some_iff.1 hs
    simp only [Prod.mk.injEq] at hs
    refine ⟨a, ha, hs.1, hs.2, fun i u hu r x hx => ?_⟩
    refine g3 q.name i u (Or.inl ((hmem _ _ _).2 ⟨q, v, hv, hu, rfl⟩)) ?_ a ha r x hx
    intro v' hv'
    obtain ⟨q', v'', _, k2, k3⟩ := (hmem _ _ _).1 hv'
    obtain rfl := name_inj k3
    rw [hu] at k2
    cases k2
    rfl
  · intro name hn
    have hs := g2 name
    rw [h3 name hn] at hs
    exact Option.map_eq_none_iff.1 hs

theorem save_even (junk : String → Nat → Nat → K) {m : Logged K} (h : saveSolutionVectors junk d.asQuat d.states d.controls d.times d.costs = some m) : d.Even := by
  obtain ⟨m0, h1, h2, h3⟩ := d.creates_run junk
  obtain ⟨ps, hps, hmem⟩ := d.puts_list
  rw [save_eq, h1, hps] at h
  intro q v hv w hw
  obtain ⟨i, hi⟩ := List.getElem?_of_mem hw
  obtain ⟨u, a, e1, e2, e3, e4⟩ := puts_fit junk ps m0 m h (q.name, w, i) ((hmem _ _ _).2 ⟨q, v, hv, hi, rfl⟩)
  rw [h2 q v hv] at e2
  cases e2
  exact ⟨u, e1, e4⟩

end Input

/-- Specification: every state has at least the contact points of the first one and as many joints, and so every control. -/
def Uniform (states : List (State K)) (controls : List (Control K)) : Prop :=
  (∀ front ∈ states.head?, ∀ s ∈ states, front.left.length ≤ s.left.length ∧ front.right.length ≤ s.right.length ∧ s.joints.length = front.joints.length) ∧
  ∀ front ∈ controls.head?, ∀ s ∈ controls, front.left.length ≤ s.left.length ∧ front.right.length ≤ s.right.length ∧
    s.jointsVelocity.length = front.jointsVelocity.length

theorem Input.even_iff (d : Input K) : d.Even ↔ Uniform d.states d.controls := by
  have hS : ∀ front, front ∈ d.states.head? → ∀ q v, d.First (.state q) v ↔ q.value d.asQuat front = some v := by
    intro front hf q v
    cases h : d.states with
    | nil => simp [h] at hf
    | cons a l =>
      obtain rfl : a = front := by simpa [h] using hf
      simp [First, columns, h]
  have hC : ∀ front, front ∈ d.controls.head? → ∀ q v, d.First (.control q) v ↔ q.value front = some v := by
    intro front hf q v
    cases h : d.controls with
    | nil => simp [h] at hf
    | cons a l =>
      obtain rfl : a = front := by simpa [h] using hf
      simp [First, columns, h]
  constructor
  · intro he
    refine ⟨fun front hf s hs => ?_, fun front hf s hs => ?_⟩
    · have key : ∀ (q : StateQ) (v : List K), q.value d.asQuat front = some v → ∃ u, q.value d.asQuat s = some u ∧ u.length = v.length := fun q v hv =>
        he (.state q) v ((hS front hf q v).2 hv) _ (List.mem_map.2 ⟨s, hs, rfl⟩)
      refine ⟨?_, ?_, ?_⟩
      · by_contra hlt
        have hlt := not_le.1 hlt
        obtain ⟨u, hu, _⟩ := key (.force .left s.left.length) (three front.left[s.left.length].force) (by simp [StateQ.value, Foot.points, hlt])
        simp [StateQ.value, Foot.points] at hu
      · by_contra hlt
        have hlt := not_le.1 hlt
        obtain ⟨u, hu, _⟩ := key (.force .right s.right.length) (three front.right[s.right.length].force) (by simp [StateQ.value, Foot.points, hlt])
        simp [StateQ.value, Foot.points] at hu
      · obtain ⟨u, hu, hl⟩ := key .joints _ rfl
        cases hu
        exact hl
    · have key : ∀ (q : ControlQ) (v : List K), q.value front = some v → ∃ u, q.value s = some u ∧ u.length = v.length := fun q v hv =>
        he (.control q) v ((hC front hf q v).2 hv) _ (List.mem_map.2 ⟨s, hs, rfl⟩)
      refine ⟨?_, ?_, ?_⟩
      · by_contra hlt
        have hlt := not_le.1 hlt
        obtain ⟨u, hu, _⟩ := key (.force .left s.left.length) (three front.left[s.left.length].forceControl) (by simp [ControlQ.value, Foot.controls, hlt])
        simp [ControlQ.value, Foot.controls] at hu
      · by_contra hlt
        have hlt := not_le.1 hlt
        obtain ⟨u, hu, _⟩ := key (.force .right s.right.length) (three front.right[s.right.length].forceControl) (by simp [ControlQ.value, Foot.controls, hlt])
        simp [ControlQ.value, Foot.controls] at hu
      · obtain ⟨u, hu, hl⟩ := key .jointsVelocity _ rfl
        cases hu
        exact hl
  · rintro ⟨hs, hc⟩ q v hv w hw
    rcases q with q | q | _ | _
    · obtain ⟨s, hmem, rfl⟩ := List.mem_map.1 hw
      obtain ⟨front, hf⟩ : ∃ front, front ∈ d.states.head? := by
        cases h : d.states with
        | nil => simp [h] at hmem
        | cons a l => exact ⟨a, rfl⟩
      rw [hS front hf] at hv
      obtain ⟨h1, h2, h3⟩ := hs front hf s hmem
      rcases q with ⟨f, p⟩ | ⟨f, p⟩ | _ | _ | _ | _ | _ | _
      · obtain ⟨t, ht, rfl⟩ := Option.map_eq_some_iff.1 hv
        have hp := (List.getElem?_eq_some_iff.1 ht).1
        cases f
        · exact ⟨three (s.left[p]'(lt_of_lt_of_le hp h1)).force, by simp [StateQ.value, Foot.points, lt_of_lt_of_le hp h1], rfl⟩
        · exact ⟨three (s.right[p]'(lt_of_lt_of_le hp h2)).force, by simp [StateQ.value, Foot.points, lt_of_lt_of_le hp h2], rfl⟩
      · obtain ⟨t, ht, rfl⟩ := Option.map_eq_some_iff.1 hv
        have hp := (List.getElem?_eq_some_iff.1 ht).1
        cases f
        · exact ⟨three (s.left[p]'(lt_of_lt_of_le hp h1)).position, by simp [StateQ.value, Foot.points, lt_of_lt_of_le hp h1], rfl⟩
        · exact ⟨three (s.right[p]'(lt_of_lt_of_le hp h2)).position, by simp [StateQ.value, Foot.points, lt_of_lt_of_le hp h2], rfl⟩
      all_goals
        cases hv
        first | exact ⟨_, rfl, rfl⟩ | exact ⟨_, rfl, h3⟩
    · obtain ⟨s, hmem, rfl⟩ := List.mem_map.1 hw
      obtain ⟨front, hf⟩ : ∃ front, front ∈ d.controls.head? := by
        cases h : d.controls with
        | nil => simp [h] at hmem
        | cons a l => exact ⟨a, rfl⟩
      rw [hC front hf] at hv
      obtain ⟨h1, h2, h3⟩ := hc front hf s hmem
      rcases q with ⟨f, p⟩ | ⟨f, p⟩ | _ | _ | _ | _
      · obtain ⟨t, ht, rfl⟩ := Option.map_eq_some_iff.1 hv
        have hp := (List.getElem?_eq_some_iff.1 ht).1
        cases f
        · exact ⟨three (s.left[p]'(lt_of_lt_of_le hp h1)).forceControl, by simp [ControlQ.value, Foot.controls, lt_of_lt_of_le hp h1], rfl⟩
        · exact ⟨three (s.right[p]'(lt_of_lt_of_le hp h2)).forceControl, by simp [ControlQ.value, Foot.controls, lt_of_lt_of_le hp h2], rfl⟩
      · obtain ⟨t, ht, rfl⟩ := Option.map_eq_some_iff.1 hv
        have hp := (List.getElem?_eq_some_iff.1 ht).1
        cases f
        · exact ⟨three (s.left[p]'(lt_of_lt_of_le hp h1)).velocityControl, by simp [ControlQ.value, Foot.controls, lt_of_lt_of_le hp h1], rfl⟩
        · exact ⟨three (s.right[p]'(lt_of_lt_of_le hp h2)).velocityControl, by simp [ControlQ.value, Foot.controls, lt_of_lt_of_le hp h2], rfl⟩
      all_goals
        cases hv
        first | exact ⟨_, rfl, rfl⟩ | exact ⟨_, rfl, h3⟩
    · obtain ⟨t, _, rfl⟩ := List.mem_map.1 hw
      obtain ⟨rest, hv⟩ := hv
      cases h : d.times with
      | nil => simp [Input.columns, h] at hv
      | cons a l =>
        simp only [Input.columns, h, List.map_cons, List.cons.injEq, Option.some.injEq] at hv
        exact ⟨_, rfl, by simp [← hv.1]⟩
    · obtain ⟨t, _, rfl⟩ := List.mem_map.1 hw
      obtain ⟨rest, hv⟩ := hv
      cases h : d.costs with
      | nil => simp [Input.columns, h] at hv
      | cons a l =>
        simp only [Input.columns, h, List.map_cons, List.cons.injEq, Option.some.injEq] at hv
        exact ⟨_, rfl, by simp [← hv.1]⟩

/-- C74: the solution can be saved exactly when every state has the contact points of the first one and as many joints, and every control too. -/
theorem C74_saves_iff (junk : String → Nat → Nat → K) (asQuat : M3 K → V4 K) (states : List (State K)) (controls : List (Control K)) (times costs : List K) :
    (∃ m, saveSolutionVectors junk asQuat states controls times costs = some m) ↔ Uniform states controls := by
  let d : Input K := ⟨asQuat, states, controls, times, costs⟩
  constructor
  · rintro ⟨m, h⟩; exact d.even_iff.1 (d.save_even junk h)
  · intro h
    obtain ⟨m, hm, _⟩ := d.save_some junk (d.even_iff.2 h)
    exact ⟨m, hm⟩

/-- C74: then each quantity of the first state is saved for all the states in order, each quantity of the first control for all the controls, and the times
and the costs. -/
theorem C74_saved (junk : String → Nat → Nat → K) (asQuat : M3 K → V4 K) (states : List (State K)) (controls : List (Control K)) (times costs : List K)
    {m : Logged K} (h : saveSolutionVectors junk asQuat states controls times costs = some m) :
    (∀ front ∈ states.head?, ∀ q : StateQ, (q.value asQuat front).isSome → Holds m q.name states fun s => q.value asQuat s) ∧
    (∀ front ∈ controls.head?, ∀ q : ControlQ, (q.value front).isSome → Holds m q.name controls fun s => q.value s) ∧
    (times ≠ [] → Holds m "computationalTime" times fun t => some [t]) ∧ (costs ≠ [] → Holds m "costValue" costs fun t => some [t]) := by
  let d : Input K := ⟨asQuat, states, controls, times, costs⟩
  have he : d.Even := d.save_even junk h
  obtain ⟨m', h1, h2, -⟩ := d.save_some junk he
  have h3 : saveSolutionVectors junk asQuat states controls times costs = some m' := h1
  rw [h] at h3
  cases h3
  have key : ∀ {α : Type} (items : List α) (value : α → Option (List K)) (q : Q) (v : List K), d.columns q = items.map value → d.First q v →
      Holds m q.name items value := by
    intro α items value q v hcol hv
    obtain ⟨a, ha, hr, hc, hval⟩ := h2 q v hv
    refine ⟨a, ha, by rw [hc, hcol, List.length_map], fun i item hi => ?_⟩
    have hi' : (d.columns q)[i]? = some (value item) := by rw [hcol, List.getElem?_map, hi]; rfl
    obtain ⟨u, hu, hl⟩ := he q v hv _ (List.mem_of_getElem? hi')
    exact ⟨u, hu, by rw [hl, hr], hval i u (by rw [hi', hu])⟩
  refine ⟨fun front hf q hq => ?_, fun front hf q hq => ?_, fun ht => ?_, fun ht => ?_⟩
  · obtain ⟨v, hv⟩ := Option.isSome_iff_exists.1 hq
    refine key states _ (.state q) v rfl ?_
    cases hs : states with
    | nil => simp [hs] at hf
    | cons a l =>
      obtain rfl : a = front := by simpa [hs] using hf
      exact ⟨l.map fun s => q.value asQuat s, by simp [d, Input.columns, hs, hv]⟩
  · obtain ⟨v, hv⟩ := Option.isSome_iff_exists.1 hq
    refine key controls _ (.control q) v rfl ?_
    cases hs : controls with
    | nil => simp [hs] at hf
    | cons a l =>
      obtain rfl : a = front := by simpa [hs] using hf
      exact ⟨l.map fun s => q.value s, by simp [d, Input.columns, hs, hv]⟩
  · obtain ⟨t, l, hl⟩ := List.exists_cons_of_ne_nil ht
    exact key times _ .computationalTime [t] rfl ⟨l.map fun t => some [t], by simp [d, Input.columns, hl]⟩
  · obtain ⟨t, l, hl⟩ := List.exists_cons_of_ne_nil ht
    exact key costs _ .cost [t] rfl ⟨l.map fun t => some [t], by simp [d, Input.columns, hl]⟩

/-- C74: nothing else is saved. -/
theorem C74_nothing_else (junk : String → Nat → Nat → K) (asQuat : M3 K → V4 K) (states : List (State K)) (controls : List (Control K)) (times costs : List K)
    {m : Logged K} (h : saveSolutionVectors junk asQuat states controls times costs = some m) (name : String) (hn : m name ≠ none) :
    (∃ front ∈ states.head?, ∃ q : StateQ, (q.value asQuat front).isSome ∧ name = q.name) ∨
    (∃ front ∈ controls.head?, ∃ q : ControlQ, (q.value front).isSome ∧ name = q.name) ∨
    (times ≠ [] ∧ name = "computationalTime") ∨ (costs ≠ [] ∧ name = "costValue") := by
  let d : Input K := ⟨asQuat, states, controls, times, costs⟩
  obtain ⟨m', h1, -, h2⟩ := d.save_some junk (d.save_even junk h)
  have h3 : saveSolutionVectors junk asQuat states controls times costs = some m' := h1
  rw [h] at h3
  cases h3
  by_contra hno
  refine hn (h2 name fun q v hv hname => hno ?_)
  obtain ⟨rest, hv⟩ := hv
  rcases q with q | q | _ | _
  · cases hs : states with
    | nil => simp [d, Input.columns, hs] at hv
    | cons a l =>
      simp only [d, Input.columns, hs, List.map_cons, List.cons.injEq] at hv
      exact Or.inl ⟨a, rfl, q, by simp [hv.1], hname⟩
  · cases hs : controls with
    | nil => simp [d, Input.columns, hs] at hv
    | cons a l =>
      simp only [d, Input.columns, hs, List.map_cons, List.cons.injEq] at hv
      exact Or.inr (Or.inl ⟨a, rfl, q, by simp [hv.1], hname⟩)
  · refine Or.inr (Or.inr (Or.inl ⟨?_, hname⟩))
    rintro rfl
    simp [d, Input.columns] at hv
  · refine Or.inr (Or.inr (Or.inr ⟨?_, hname⟩))
    rintro rfl
    simp [d, Input.columns] at hv

/-- C74: different quantities have different names, so none of them hides another. -/
theorem C74_names (p q : StateQ) (c e : ControlQ) : (p.name = q.name → p = q) ∧ (c.name = e.name → c = e) ∧ p.name ≠ c.name ∧
    p.name ≠ "computationalTime" ∧ p.name ≠ "costValue" ∧ c.name ≠ "computationalTime" ∧ c.name ≠ "costValue" := by
  refine ⟨fun h => ?_, fun h => ?_, fun h => ?_, fun h => ?_, fun h => ?_, fun h => ?_, fun h => ?_⟩
  · have := name_inj (a := .state p) (b := .state q) h; cases this; rfl
  · have := name_inj (a := .control c) (b := .control e) h; cases this; rfl
  · have := name_inj (a := .state p) (b := .control c) h; cases this
  · have := name_inj (a := .state p) (b := .computationalTime) h; cases this
  · have := name_inj (a := .state p) (b := .cost) h; cases this
  · have := name_inj (a := .control c) (b := .computationalTime) h; cases this
  · have := name_inj (a := .control c) (b := .cost) h; cases this

/-! ### The hypotheses are met -/

def sampleStates : List (State Rat) :=
  let s : State Rat :=
    { left := [⟨⟨0, 0, 50⟩, ⟨1, 1, 0⟩⟩, ⟨⟨0, 0, 20⟩, ⟨3, 1, 0⟩⟩]
      right := [⟨⟨0, 0, 10⟩, ⟨0, -1, 0⟩⟩]
      linearMomentum := ⟨1, 2, 3⟩
      angularMomentum := 0
      com := ⟨1, 0, 1⟩
      base := identityTransform Rat
      joints := [0, 1]
      time := 0 }
  [s, { s with left := s.left ++ s.right, com := ⟨2, 0, 1⟩, time := 1 / 2 }]

def sampleControls : List (Control Rat) :=
  [{ left := [⟨⟨0, 0, 5⟩, ⟨1, 1, 0⟩⟩]
     right := []
     baseLinearVelocity := ⟨1, 0, 0⟩
     baseQuaternionDerivative := ⟨0, 1, 0, 0⟩
     jointsVelocity := [7, 8]
     time := 1 }]

theorem sample_uniform : Uniform sampleStates sampleControls := by
  constructor
  · intro front hf s hs
    simp only [sampleStates, List.head?_cons, Option.mem_def, Option.some.injEq] at hf
    subst hf
    simp only [sampleStates, List.mem_cons, List.not_mem_nil, or_false] at hs
    rcases hs with rfl | rfl <;> simp
  · intro front hf s hs
    simp only [sampleControls, List.head?_cons, Option.mem_def, Option.some.injEq] at hf
    subst hf
    simp only [sampleControls, List.mem_cons, List.not_mem_nil, or_false] at hs
    subst hs
    simp

example (junk : String → Nat → Nat → Rat) : ∃ m, saveSolutionVectors junk (fun _ => ⟨1, 0, 0, 0⟩) sampleStates sampleControls [3, 4] [5] = some m ∧
    Holds m "leftPoint1Force" sampleStates (fun s => s.left[1]?.map fun p => three p.force) ∧ m "leftPoint2Force" = none := by
  obtain ⟨m, hm⟩ := (C74_saves_iff junk (fun _ => ⟨1, 0, 0, 0⟩) sampleStates sampleControls [3, 4] [5]).2 sample_uniform
  refine ⟨m, hm, (C74_saved junk _ _ _ _ _ hm).1 _ rfl (.force .left 1) (by rfl), ?_⟩
  by_contra h
  have e : "leftPoint2Force" = (StateQ.force .left 2).name := by decide
  rw [e] at h
  rcases C74_nothing_else junk _ _ _ _ _ hm _ h with ⟨f, hf, q, hq, hn⟩ | ⟨f, hf, q, hq, hn⟩ | ⟨_, hn⟩ | ⟨_, hn⟩
  · obtain rfl := (C74_names _ q .time .time).1 hn
    simp only [sampleStates, List.head?_cons, Option.mem_def, Option.some.injEq] at hf
    subst hf
    simp [StateQ.value, Foot.points] at hq
  · exact (C74_names _ .time q q).2.2.1 hn
  · exact absurd hn (by decide)
  · exact absurd hn (by decide)

/-- C74 (finding): what is saved is decided by the first state; the contact points that only later states have are lost without any message. -/
theorem C74_finding_dropped (junk : String → Nat → Nat → K) (asQuat : M3 K → V4 K) (s t : State K) (hs : s.left = []) (p : PointState K) (ht : t.left = [p])
    (hr : s.right = t.right) (hj : s.joints = t.joints) :
    ∃ m, saveSolutionVectors junk asQuat [s, t] [] [] [] = some m ∧ m "leftPoint0Force" = none ∧ m "leftPoint0Position" = none := by
  obtain ⟨m, hm⟩ := (C74_saves_iff junk asQuat [s, t] [] [] []).2 (by
    refine ⟨fun front hf x hx => ?_, fun front hf => by simp at hf⟩
    simp only [List.head?_cons, Option.mem_def, Option.some.injEq] at hf
    subst hf
    simp only [List.mem_cons, List.not_mem_nil, or_false] at hx
    rcases hx with rfl | rfl
    · exact ⟨le_rfl, le_rfl, rfl⟩
    · exact ⟨by simp [hs], by simp [hr], by rw [hj]⟩)
  refine ⟨m, hm, ?_, ?_⟩ <;> by_contra h
  · have e : "leftPoint0Force" = (StateQ.force .left 0).name := by decide
    rw [e] at h
    rcases C74_nothing_else junk _ _ _ _ _ hm _ h with ⟨f, hf, q, hq, hn⟩ | ⟨f, hf, q, hq, hn⟩ | ⟨_, hn⟩ | ⟨_, hn⟩
    · obtain rfl := (C74_names _ q .time .time).1 hn
      simp only [List.head?_cons, Option.mem_def, Option.some.injEq] at hf
      subst hf
      simp [StateQ.value, Foot.points, hs] at hq
    · exact (C74_names _ .time q q).2.2.1 hn
    · exact absurd hn (by decide)
    · exact absurd hn (by decide)
  · have e : "leftPoint0Position" = (StateQ.position .left 0).name := by decide
    rw [e] at h
    rcases C74_nothing_else junk _ _ _ _ _ hm _ h with ⟨f, hf, q, hq, hn⟩ | ⟨f, hf, q, hq, hn⟩ | ⟨_, hn⟩ | ⟨_, hn⟩
    · obtain rfl := (C74_names _ q .time .time).1 hn
      simp only [List.head?_cons, Option.mem_def, Option.some.injEq] at hf
      subst hf
      simp [StateQ.value, Foot.points, hs] at hq
    · exact (C74_names _ .time q q).2.2.1 hn
    · exact absurd hn (by decide)
    · exact absurd hn (by decide)

end Verif.Logger
