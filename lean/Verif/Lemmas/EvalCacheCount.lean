import Verif.Lemmas.EvalCacheRun
import Verif.Spec.IDs
/- Lemmas: counting the IDs in use. -/
set_option linter.unusedSectionVars false
set_option linter.unusedSimpArgs false
set_option linter.unusedVariables false
namespace Verif.EvalCache
open Function
variable {V : Type}

/-- IDs given and not given back. -/
def used (h : Heap V) (i : Nat) : Int := ((h i).ids : Int) - (h i).bin.length

theorem Slots.used {h h' : Heap V} (s : Slots h h') (i : Nat) : used h' i = used h i := by
  unfold EvalCache.used
  rw [(s i).1, (s i).2]

/-- A heap in which more IDs have been given. -/
def Given (h h' : Heap V) (n : Nat → Nat) : Prop :=
  Shape h h' ∧ ∀ i, used h' i = used h i + n i ∧ (((h' i).ids : Int) ≤ (h i).ids ∨ ((h' i).ids : Int) ≤ used h' i)

theorem Given.refl (h : Heap V) : Given h h fun _ => 0 := ⟨Shape.refl h, fun i => ⟨by simp, Or.inl (Int.le_refl _)⟩⟩

theorem Given.trans {h h' h'' : Heap V} {n m : Nat → Nat} (a : Given h h' n) (b : Given h' h'' m) : Given h h'' fun i => n i + m i := by
  refine ⟨a.1.trans b.1, fun i => ?_⟩
  obtain ⟨a1, a2⟩ := a.2 i
  obtain ⟨b1, b2⟩ := b.2 i
  refine ⟨by push_cast; omega, ?_⟩
  omega

theorem given_new (h : Heap V) (j : Nat) : Given h (newCallerID h j).2 fun i => if i = j then 1 else 0 := by
  have key : ∀ nd : Node V, nd.kind = (h j).kind → nd.deps = (h j).deps →
      ((nd.ids : Int) - nd.bin.length = (h j).ids - (h j).bin.length + 1) → (nd.ids = (h j).ids ∨ nd.bin = []) →
      Given h (update h j nd) fun i => if i = j then 1 else 0 := by
    intro nd h1 h2 h3 h4
    refine ⟨fun i => ?_, fun i => ?_⟩
    · by_cases e : i = j
      · subst e; rw [update_self]; exact ⟨h1, h2⟩
      · rw [update_of_ne e]; exact ⟨rfl, rfl⟩
    · unfold used
      dsimp only
      by_cases e : i = j
      · subst e
        rw [update_self, if_pos rfl]
        refine ⟨by push_cast; omega, ?_⟩
        rcases h4 with h4 | h4
        · left; omega
        · right; rw [h4]; simp
      · rw [update_of_ne e, if_neg e]
        exact ⟨by simp, Or.inl (Int.le_refl _)⟩
  unfold newCallerID
  cases hb : (h j).bin with
  | nil =>
    refine key _ rfl rfl ?_ (Or.inr hb)
    simp [hb]
  | cons s rest =>
    refine key _ rfl rfl ?_ (Or.inl rfl)
    simp [hb]
    omega

theorem given_operands (ks : List Nat) : ∀ (acc : List (Nat × Nat)) (h : Heap V),
    (ks.foldl addOperand (acc, h)).1.map Prod.fst = acc.map Prod.fst ++ ks ∧ Given h (ks.foldl addOperand (acc, h)).2 fun i => ks.count i := by
  induction ks with
  | nil => intro acc h; exact ⟨by simp, by simpa using Given.refl h⟩
  | cons k ks ih =>
    intro acc h
    obtain ⟨h1, h2⟩ := ih (acc ++ [(k, (newCallerID h k).1)]) (newCallerID h k).2
    refine ⟨?_, ?_⟩
    · rw [List.foldl_cons]
      show ((ks.foldl addOperand (acc ++ [(k, (newCallerID h k).1)], (newCallerID h k).2)).1).map Prod.fst = _
      rw [h1]; simp
    · rw [List.foldl_cons]
      have := (given_new h k).trans h2
      have e : (fun i => (if i = k then 1 else 0) + ks.count i) = fun i => (k :: ks).count i := by
        funext i
        rw [List.count_cons]
        by_cases hc : i = k
        · subst hc; simp; omega
        · have : ¬ k = i := fun x => hc x.symm
          simp [hc, this]
      rw [← e]
      exact this

theorem given_deps (js : List Nat) : ∀ (acc : List (Nat × Nat)) (h : Heap V), ∃ new : List (Nat × Nat),
    (js.foldl addDependency (acc, h)).1 = acc ++ new ∧ Given h (js.foldl addDependency (acc, h)).2 fun i => (new.map Prod.fst).count i := by
  induction js with
  | nil => intro acc h; exact ⟨[], by simp, by simpa using Given.refl h⟩
  | cons k js ih =>
    intro acc h
    rw [List.foldl_cons]
    unfold addDependency
    dsimp only
    split
    · exact ih acc h
    · obtain ⟨new, h1, h2⟩ := ih (acc ++ [(k, (newCallerID h k).1)]) (newCallerID h k).2
      refine ⟨(k, (newCallerID h k).1) :: new, ?_, ?_⟩
      · have : js.foldl addDependency (acc ++ [(k, (newCallerID h k).1)], (newCallerID h k).2) = _ := rfl
        unfold addDependency at h1
        rw [h1]; simp
      · have := (given_new h k).trans h2
        have e : (fun i => (if i = k then 1 else 0) + (new.map Prod.fst).count i) = fun i => (((k, (newCallerID h k).1) :: new).map Prod.fst).count i := by
          funext i
          rw [List.map_cons, List.count_cons]
          by_cases hc : i = k
          · subst hc; simp; omega
          · have : ¬ k = i := fun x => hc x.symm
            simp [hc, this]
        rw [← e]
        exact this

/-- The part of `Spec.users` due to other evaluables. -/
def inner (h : Heap V) (n i : Nat) : Nat :=
  ((List.range n).map fun j => ((Spec.operands (h j)).map Prod.fst).count i + ((h j).deps.map Prod.fst).count i).sum

theorem users_eq (w : World V) (i : Nat) : Spec.users w i = (w.handles.map (Option.map Prod.fst)).count (some i) + inner w.heap w.size i := rfl

theorem inner_shape {h h' : Heap V} (s : Shape h h') (n i : Nat) : inner h' n i = inner h n i := by
  unfold inner Spec.operands
  simp only [(s _).1, (s _).2]

theorem inner_congr {h h' : Heap V} (n i : Nat) (s : ∀ j < n, h' j = h j) : inner h' n i = inner h n i := by
  unfold inner
  congr 1
  refine List.map_congr_left fun j hj => ?_
  rw [s j (List.mem_range.1 hj)]

theorem inner_place (h : Heap V) (n i : Nat) (nd : Node V) :
    inner (update h n nd) (n + 1) i = inner h n i + ((Spec.operands nd).map Prod.fst).count i + (nd.deps.map Prod.fst).count i := by
  have e : inner (update h n nd) (n + 1) i = inner (update h n nd) n i +
      (((Spec.operands (update h n nd n)).map Prod.fst).count i + ((update h n nd n).deps.map Prod.fst).count i) := by
    simp only [inner, List.range_succ, List.map_append, List.sum_append, List.map_cons, List.map_nil, List.sum_cons, List.sum_nil, Nat.add_zero]
  rw [e, update_self, inner_congr n i fun j hj => by rw [update_of_ne (by omega : j ≠ n)]]
  omega

theorem inner_old {h : Heap V} {own : Nat → Nat → Owner} {s : Spec.State V} (t : Static h own s) (n i : Nat) (hn : n ≤ i) : inner h n i = 0 := by
  unfold inner
  rw [List.sum_eq_zero]
  intro x hx
  obtain ⟨j, hj, rfl⟩ := List.mem_map.1 hx
  have hj := List.mem_range.1 hj
  have h1 : ((Spec.operands (h j)).map Prod.fst).count i = 0 := by
    rw [List.count_eq_zero]
    intro hm
    obtain ⟨k, hk, rfl⟩ := List.mem_map.1 hm
    unfold Spec.operands at hk
    cases hkind : (h j).kind with
    | var => rw [hkind] at hk; simp at hk
    | op f ch role =>
      rw [hkind] at hk
      have := ((t.op j f ch role hkind).2.2.2.1 k hk).1
      omega
  have h2 : ((h j).deps.map Prod.fst).count i = 0 := by
    rw [List.count_eq_zero]
    intro hm
    obtain ⟨k, hk, rfl⟩ := List.mem_map.1 hm
    cases hkind : (h j).kind with
    | var => have := (t.var j hkind).2.2 k hk; omega
    | op f ch role => have := ((t.op j f ch role hkind).2.2.2.2 k hk).1; omega
  rw [h1, h2]; rfl

theorem handles_old {w : World V} {own : Nat → Nat → Owner} {s : Spec.State V} (H : Held w own s) (i : Nat) (hn : w.size ≤ i) :
    (w.handles.map (Option.map Prod.fst)).count (some i) = 0 := by
  rw [List.count_eq_zero]
  intro hm
  obtain ⟨o, ho, he⟩ := List.mem_map.1 hm
  obtain ⟨p, hp⟩ := List.getElem?_of_mem ho
  cases o with
  | none => exact absurd he (by simp)
  | some k =>
    have : w.handle p = some k := by unfold World.handle; rw [hp]; rfl
    have h2 := (H.own p k this).2
    have h3 := H.size
    simp only [Option.map_some, Option.some.injEq] at he
    omega

/-- All IDs given are accounted for. -/
def Exact (w : World V) : Prop := ∀ i < w.size, used w.heap i = Spec.users w i

/-- A register grows only when all its IDs are in use. -/
def Grows (w w' : World V) : Prop := w.size ≤ w'.size ∧ ∀ i < w'.size, (i < w.size ∧ (w'.heap i).ids ≤ (w.heap i).ids) ∨ (w'.heap i).ids ≤ Spec.users w' i

theorem quiet {w w' : World V} (e : Exact w) (sh : Shape w.heap w'.heap) (sl : Slots w.heap w'.heap) (hs : w'.size = w.size) (hh : w'.handles = w.handles) :
    Exact w' ∧ Grows w w' := by
  have eu : ∀ i, Spec.users w' i = Spec.users w i := fun i => by rw [users_eq, users_eq, hh, hs, inner_shape sh]
  refine ⟨fun i hi => ?_, by omega, fun i hi => Or.inl ⟨by omega, by rw [(sl i).1]⟩⟩
  rw [sl.used, eu]
  exact e i (by omega)

theorem count_append (l : List (Option (Nat × Nat))) (k : Nat × Nat) (i : Nat) :
    ((l ++ [some k]).map (Option.map Prod.fst)).count (some i) = (l.map (Option.map Prod.fst)).count (some i) + if i = k.1 then 1 else 0 := by
  rw [List.map_append, List.count_append]
  by_cases e : i = k.1
  · simp [e]
  · have : ¬ k.1 = i := fun x => e x.symm
    simp [e, this]

theorem count_set (l : List (Option (Nat × Nat))) (p : Nat) (hp : p < l.length) (o : Option (Nat × Nat)) (i : Nat) :
    ((l.set p o).map (Option.map Prod.fst)).count (some i) + (if l[p].map Prod.fst = some i then 1 else 0) =
      (l.map (Option.map Prod.fst)).count (some i) + if o.map Prod.fst = some i then 1 else 0 := by
  induction l generalizing p with
  | nil => exact absurd hp (by simp)
  | cons x l ih =>
    cases p with
    | zero =>
      simp only [List.set_cons_zero, List.map_cons, List.count_cons, List.getElem_cons_zero, beq_iff_eq]
      omega
    | succ p =>
      have := ih p (by simpa using hp)
      simp only [List.set_cons_succ, List.map_cons, List.count_cons, List.getElem_cons_succ, beq_iff_eq]
      omega

theorem exact_place {w : World V} {s : Spec.State V} (R : Rel w s) (e : Exact w) {h : Heap V} {n : Nat → Nat} (g : Given w.heap h n) (nd : Node V)
    (hn : ∀ i, n i = if i = w.size then 0 else ((Spec.operands nd).map Prod.fst).count i + (nd.deps.map Prod.fst).count i)
    (hi : nd.bin = [] ∧ nd.ids = 1 + ((Spec.operands nd).map Prod.fst).count w.size + (nd.deps.map Prod.fst).count w.size) :
    Exact { heap := update h w.size nd, size := w.size + 1, handles := w.handles ++ [some (w.size, 0)] } ∧
      Grows w { heap := update h w.size nd, size := w.size + 1, handles := w.handles ++ [some (w.size, 0)] } := by
  obtain ⟨own, I, H⟩ := R
  have eu : ∀ i, Spec.users ({ heap := update h w.size nd, size := w.size + 1, handles := w.handles ++ [some (w.size, 0)] } : World V) i =
      Spec.users w i + (if i = w.size then 1 else 0) + (((Spec.operands nd).map Prod.fst).count i + (nd.deps.map Prod.fst).count i) := by
    intro i
    rw [users_eq, users_eq]
    dsimp only
    rw [count_append, inner_place, inner_shape g.1]
    dsimp only
    omega
  have e0 : Spec.users w w.size = 0 := by
    rw [users_eq, handles_old H w.size (Nat.le_refl _), inner_old I.st w.size w.size (Nat.le_refl _)]
  have hx : Exact ({ heap := update h w.size nd, size := w.size + 1, handles := w.handles ++ [some (w.size, 0)] } : World V) := by
    intro i hlt
    dsimp only at hlt
    rw [eu i]
    dsimp only
    unfold used
    by_cases c : i = w.size
    · rw [c, update_self, e0, if_pos rfl, hi.1, hi.2]
      simp
      omega
    · rw [update_of_ne c, if_neg c]
      have h1 := (g.2 i).1
      have h2 := e i (by omega)
      unfold used at h1 h2
      rw [hn i, if_neg c] at h1
      push_cast at *
      omega
  refine ⟨hx, by dsimp only; omega, fun i hlt => ?_⟩
  have h3 := hx i hlt
  dsimp only at hlt h3 ⊢
  unfold used at h3
  by_cases c : i = w.size
  · right
    rw [c, update_self, hi.1] at h3
    rw [c, update_self]
    simp at h3
    omega
  · rw [update_of_ne c] at h3 ⊢
    rcases (g.2 i).2 with h4 | h4
    · exact Or.inl ⟨by omega, by omega⟩
    · unfold used at h4
      right; omega

theorem evaluate_shape {w : World V} {s : Spec.State V} (R : Rel w s) (p : Nat) (k : Nat × Nat) (hp : w.handle p = some k) :
    Shape w.heap (evaluateID w.heap k.1 k.2).2 ∧ Slots w.heap (evaluateID w.heap k.1 k.2).2 := by
  obtain ⟨own, I, H⟩ := R
  obtain ⟨h1, h2⟩ := H.own p k hp
  have hlt : k.2 < (w.heap k.1).ids := by
    by_contra hc
    have := I.tb.ge k.1 k.2 (by omega)
    rw [h1] at this
    exact absurd this (by simp)
  obtain ⟨-, sh, sl, -⟩ := evaluateF_good (k.1 + 1) w.heap k.1 k.2 (by omega) I.st I.tb I.dy hlt (by rw [h1]; trivial)
  exact ⟨sh, sl⟩

/-- A position with an expression. -/
theorem handle_some {w : World V} {p : Nat} {k : Nat × Nat} (hp : w.handle p = some k) : ∃ hl : p < w.handles.length, w.handles[p] = some k := by
  unfold World.handle at hp
  by_cases hl : p < w.handles.length
  · refine ⟨hl, ?_⟩
    rw [List.getElem?_eq_getElem hl] at hp
    exact hp
  · rw [List.getElem?_eq_none (by omega)] at hp
    exact absurd hp (by simp)

theorem used_delete (h : Heap V) (j c i : Nat) : used (deleteID h j c) i = used h i - (if i = j then 1 else 0) ∧ ((deleteID h j c) i).ids = (h i).ids := by
  unfold used deleteID
  by_cases e : i = j
  · subst e
    rw [update_self, if_pos rfl]
    refine ⟨?_, rfl⟩
    rw [List.length_cons]
    push_cast
    omega
  · rw [update_of_ne e, if_neg e]
    exact ⟨by omega, rfl⟩

theorem delete_shape (h : Heap V) (j c : Nat) : Shape h (deleteID h j c) := relabel_shape h j c _ _

/-- Giving an ID back. -/
theorem exact_release {w : World V} (e : Exact w) (p : Nat) : Exact (release w p) ∧ Grows w (release w p) ∧ (release w p).size = w.size ∧
    ∀ i, ((release w p).heap i).ids = (w.heap i).ids := by
  unfold release
  cases hp : w.handle p with
  | none => exact ⟨e, ⟨Nat.le_refl _, fun i hi => Or.inl ⟨hi, Nat.le_refl _⟩⟩, rfl, fun _ => rfl⟩
  | some k =>
    obtain ⟨hl, hk⟩ := handle_some hp
    dsimp only
    refine ⟨fun i hi => ?_, ⟨Nat.le_refl _, fun i hi => Or.inl ⟨hi, ?_⟩⟩, rfl, fun i => (used_delete _ _ _ i).2⟩
    · have h0 := e i hi
      have h1 := (used_delete w.heap k.1 k.2 i).1
      have h2 := count_set w.handles p hl none i
      rw [hk] at h2
      rw [users_eq] at h0 ⊢
      dsimp only
      rw [inner_shape (delete_shape w.heap k.1 k.2)]
      simp only [Option.map_none, Option.map_some, reduceCtorEq, if_false, Option.some.injEq] at h2
      by_cases c : i = k.1
      · rw [if_pos c] at h1
        rw [if_pos c.symm] at h2
        omega
      · rw [if_neg c] at h1
        rw [if_neg fun x => c x.symm] at h2
        omega
    · exact Nat.le_of_eq (used_delete _ _ _ i).2

/-- Giving an ID of `j` to a new expression. -/
theorem exact_take {w w' : World V} (e : Exact w) (j : Nat) (hs : w'.size = w.size) (hh : w'.heap = (newCallerID w.heap j).2)
    (hc : ∀ i, (w'.handles.map (Option.map Prod.fst)).count (some i) = (w.handles.map (Option.map Prod.fst)).count (some i) + if i = j then 1 else 0) :
    Exact w' ∧ Grows w w' := by
  obtain ⟨sh, g⟩ := given_new w.heap j
  have hx : Exact w' := by
    intro i hi
    have h0 := e i (by omega)
    have h1 := (g i).1
    rw [users_eq] at h0 ⊢
    rw [hh, hs, inner_shape sh, hc i]
    push_cast at *
    omega
  refine ⟨hx, by omega, fun i hi => ?_⟩
  have h2 := hx i hi
  rw [hh] at h2 ⊢
  rcases (g i).2 with h3 | h3
  · exact Or.inl ⟨by omega, by omega⟩
  · exact Or.inr (by omega)

theorem exact_step {w : World V} {s : Spec.State V} (R : Rel w s) (e : Exact w) (o : Op V) : Exact (step w o).1 ∧ Grows w (step w o).1 := by
  have stay : Exact w ∧ Grows w w := ⟨e, Nat.le_refl _, fun i hi => Or.inl ⟨hi, Nat.le_refl _⟩⟩
  cases o with
  | newVar a v =>
    refine exact_place R e (Given.refl w.heap) (if a then { fresh .var [] v with deps := [(w.size, 1)], ids := 2 } else fresh .var [] v) (fun i => ?_) ?_
    · by_cases c : i = w.size
      · rw [if_pos c]
      · have : ¬ w.size = i := fun x => c x.symm
        cases a <;> simp [fresh, Spec.operands, c, this]
    · cases a <;> simp [fresh, Spec.operands]
  | build f ps role v =>
    simp only [step]
    cases hp : ps.mapM w.handle with
    | none => exact stay
    | some ks =>
      have R' := (rel_build R f ps role v).1
      simp only [step, hp] at R'
      dsimp only [build] at R' ⊢
      obtain ⟨h1, g1⟩ := given_operands (ks.map Prod.fst) [] w.heap
      generalize (ks.map Prod.fst).foldl addOperand ([], w.heap) = r at *
      obtain ⟨new, h2, g2⟩ := given_deps ((ks.map Prod.fst).flatMap (getDependencies r.2)) [] r.2
      generalize ((ks.map Prod.fst).flatMap (getDependencies r.2)).foldl addDependency ([], r.2) = d at *
      obtain ⟨own', I', H'⟩ := R'
      obtain ⟨-, -, -, t1, t2⟩ := I'.st.op w.size f r.1 role (by dsimp only; rw [update_self]; rfl)
      have c1 : (r.1.map Prod.fst).count w.size = 0 := by
        rw [List.count_eq_zero]
        intro hm
        obtain ⟨k, hk, hk'⟩ := List.mem_map.1 hm
        have := (t1 k hk).1
        omega
      have c2 : (d.1.map Prod.fst).count w.size = 0 := by
        rw [List.count_eq_zero]
        intro hm
        obtain ⟨k, hk, hk'⟩ := List.mem_map.1 hm
        have := (t2 k (by dsimp only; rw [update_self]; exact hk)).1
        omega
      simp only [List.map_nil, List.nil_append] at h1 h2
      refine exact_place R e (g1.trans g2) (fresh (.op f r.1 role) d.1 v) (fun i => ?_) ⟨rfl, ?_⟩
      · by_cases c : i = w.size
        · rw [if_pos c, c, ← h1, ← h2, c1, c2]
        · rw [if_neg c, ← h1, ← h2]; rfl
      · show 1 = 1 + (r.1.map Prod.fst).count w.size + (d.1.map Prod.fst).count w.size
        rw [c1, c2]
  | copy p =>
    simp only [step]
    cases hp : w.handle p with
    | none => exact stay
    | some k => exact exact_take e k.1 rfl rfl fun i => count_append _ _ _
  | drop p =>
    rw [← release_eq]
    exact ⟨(exact_release e p).1, (exact_release e p).2.1⟩
  | assign p v =>
    simp only [step]
    cases hp : w.handle p with
    | none => exact stay
    | some k =>
      dsimp only
      unfold assign
      split
      · exact stay
      · refine quiet e (fun i => ?_) (fun i => ?_) rfl rfl
        all_goals
          unfold reset
          rw [update_idem, update_self]
          dsimp only
          by_cases c : i = k.1
          · rw [c, update_self]; exact ⟨rfl, rfl⟩
          · rw [update_of_ne c]; exact ⟨rfl, rfl⟩
  | eval p =>
    simp only [step]
    cases hp : w.handle p with
    | none => exact stay
    | some k => exact quiet e (evaluate_shape R p k hp).1 (evaluate_shape R p k hp).2 rfl rfl
  | askNew p =>
    simp only [step]
    cases hp : w.handle p with
    | none => exact stay
    | some k =>
      obtain ⟨own, I, H⟩ := R
      obtain ⟨b, -⟩ := isNewF_spec (k.1 + 1) w.heap k.1 k.2 (by omega) I.dy.le I.st.older
      exact quiet e b.shape b.slots rfl rfl
  | become p q =>
    show Exact (become w p q) ∧ Grows w (become w p q)
    unfold become
    by_cases hl : p < w.handles.length
    · rw [if_pos hl]
      obtain ⟨e1, g1, s1, d1⟩ := exact_release e p
      cases hq : w.handle q with
      | none => exact ⟨e1, g1⟩
      | some k =>
        have hnone : (release w p).handle p = none := by rw [release_handle, if_pos rfl]
        have hl' : p < (release w p).handles.length := by rw [release_length]; exact hl
        have hget : (release w p).handles[p] = none := by
          unfold World.handle at hnone
          rw [List.getElem?_eq_getElem hl'] at hnone
          exact hnone
        have hset : (release w p).handles.set p (some (k.1, (newCallerID (release w p).heap k.1).1)) = w.handles.set p (some (k.1, (newCallerID (release w p).heap k.1).1)) := by
          unfold release
          cases w.handle p with
          | none => rfl
          | some k' => exact List.set_set ..
        obtain ⟨e2, g2⟩ := exact_take (w' := { release w p with heap := (newCallerID (release w p).heap k.1).2, handles := (release w p).handles.set p (some (k.1, (newCallerID (release w p).heap k.1).1)) }) e1 k.1 rfl rfl (fun i => by
          have := count_set (release w p).handles p hl' (some (k.1, (newCallerID (release w p).heap k.1).1)) i
          rw [hget] at this
          simp only [Option.map_none, Option.map_some, reduceCtorEq, if_false, Option.some.injEq] at this
          dsimp only
          by_cases c : i = k.1
          · rw [if_pos c.symm] at this; rw [if_pos c]; omega
          · rw [if_neg fun x => c x.symm] at this; rw [if_neg c]; omega)
        refine ⟨e2, ?_, fun i hi => ?_⟩
        · exact Nat.le_of_eq s1.symm
        · rcases g2.2 i hi with ⟨h1, h2⟩ | h1
          · refine Or.inl ⟨by rw [← s1]; exact h1, ?_⟩
            rw [← d1 i]; exact h2
          · exact Or.inr h1
    · rw [if_neg hl]; exact stay

end Verif.EvalCache
