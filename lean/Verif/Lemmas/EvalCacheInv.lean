import Verif.Lemmas.EvalCache
/- The invariant relating the evaluation cache to the evaluation without cache. -/
set_option linter.unusedSectionVars false
set_option linter.unusedSimpArgs false
set_option linter.unusedVariables false
namespace Verif.EvalCache
open Function
variable {V : Type}

/-- To whom a caller ID has been given. -/
inductive Owner
  | free
  | handle (p : Nat)
  | child
  | dep (i : Nat)

/-- IDs used to evaluate, as opposed to those used to be informed of changes. -/
def Owner.Comp : Owner → Prop
  | .handle _ | .child => True
  | _ => False

/-- Same objects, up to counters, registers and values. -/
def Shape (h h' : Heap V) : Prop := ∀ j, (h' j).kind = (h j).kind ∧ (h' j).deps = (h j).deps

def Slots (h h' : Heap V) : Prop := ∀ j, (h' j).ids = (h j).ids ∧ (h' j).bin = (h j).bin

theorem Shape.refl (h : Heap V) : Shape h h := fun _ => ⟨rfl, rfl⟩
theorem Shape.trans {h h' h'' : Heap V} (a : Shape h h') (b : Shape h' h'') : Shape h h'' :=
  fun j => ⟨(b j).1.trans (a j).1, (b j).2.trans (a j).2⟩
theorem Slots.refl (h : Heap V) : Slots h h := fun _ => ⟨rfl, rfl⟩
theorem Slots.trans {h h' h'' : Heap V} (a : Slots h h') (b : Slots h' h'') : Slots h h'' :=
  fun j => ⟨(b j).1.trans (a j).1, (b j).2.trans (a j).2⟩

theorem Shape.getDependencies {h h' : Heap V} (a : Shape h h') (i : Nat) : getDependencies h' i = getDependencies h i := by
  unfold EvalCache.getDependencies
  rw [(a i).1, (a i).2]

structure Static (h : Heap V) (own : Nat → Nat → Owner) (s : Spec.State V) : Prop where
  var : ∀ i, (h i).kind = .var → s.meaning i = (fun env => env i) ∧ s.isVar i = true ∧ ∀ d ∈ (h i).deps, d.1 = i
  op : ∀ i f ch role, (h i).kind = .op f ch role → i < s.size ∧ s.isVar i = false ∧
    (s.meaning i = fun env => f (ch.map fun k => s.meaning k.1 env)) ∧
    (∀ k ∈ ch, k.1 < i ∧ own k.1 k.2 = .child ∧ ∀ j ∈ getDependencies h k.1, ∃ d ∈ (h i).deps, d.1 = j) ∧
    ∀ d ∈ (h i).deps, d.1 < i ∧ ∃ k ∈ ch, d.1 ∈ getDependencies h k.1
  junk : ∀ i, s.size ≤ i → (h i).kind = .var ∧ (h i).deps = []
  dep : ∀ i, ∀ d ∈ (h i).deps, own d.1 d.2 = .dep i

structure Table (h : Heap V) (own : Nat → Nat → Owner) (s : Spec.State V) : Prop where
  ge : ∀ i c, (h i).ids ≤ c → own i c = .free
  bin : ∀ i, ∀ c ∈ (h i).bin, own i c = .free ∧ c < (h i).ids
  nodup : ∀ i, (h i).bin.Nodup
  junk : ∀ i c, s.size ≤ i → own i c = .free

structure Dyn (h : Heap V) (own : Nat → Nat → Owner) (s : Spec.State V) : Prop where
  le : RegLe h
  var : ∀ i, (h i).kind = .var → (h i).buffer = s.values i
  valid : ∀ i, Clean h i → ((h i).computed = true ∨ ∃ c, (own i c).Comp ∧ (h i).reg c = (h i).counter) →
    (h i).buffer = s.meaning i s.values

def Owner.Held : Owner → Prop
  | .handle _ => True
  | _ => False

/-- No ID in the hands of the user becomes up to date by chance. -/
def Tells (own : Nat → Nat → Owner) (E : Nat → Nat → Prop) (h h' : Heap V) : Prop :=
  ∀ j c, ¬ E j c → (own j c).Held → Clean h' j → (h' j).reg c = (h' j).counter → Clean h j ∧ (h j).reg c = (h j).counter

/-- IDs up to date stay so. -/
def Kept (own : Nat → Nat → Owner) (h h' : Heap V) : Prop :=
  ∀ j, Clean h j → Clean h' j ∧ ∀ c, (own j c).Held → (h j).reg c = (h j).counter → (h' j).reg c = (h' j).counter

theorem Tells.trans {own : Nat → Nat → Owner} {E : Nat → Nat → Prop} {h h' h'' : Heap V} (a : Tells own E h h') (b : Tells own E h' h'') :
    Tells own E h h'' := fun j c he ho hc hr => let ⟨x, y⟩ := b j c he ho hc hr; a j c he ho x y

theorem Tells.weaken {own : Nat → Nat → Owner} {E E' : Nat → Nat → Prop} {h h' : Heap V} (hE : ∀ j c, E j c → (own j c).Held → E' j c)
    (a : Tells own E h h') : Tells own E' h h' := fun j c he ho hc hr => a j c (fun x => he (hE j c x ho)) ho hc hr

theorem Tells.refl (own : Nat → Nat → Owner) (E : Nat → Nat → Prop) (h : Heap V) : Tells own E h h := fun _ _ _ _ x y => ⟨x, y⟩

theorem Kept.refl (own : Nat → Nat → Owner) (h : Heap V) : Kept own h h := fun _ x => ⟨x, fun _ _ y => y⟩
theorem Kept.trans {own : Nat → Nat → Owner} {h h' h'' : Heap V} (a : Kept own h h') (b : Kept own h' h'') : Kept own h h'' :=
  fun j hc => ⟨(b j (a j hc).1).1, fun c ho hr => (b j (a j hc).1).2 c ho ((a j hc).2 c ho hr)⟩

/-- Changes that do not concern counters, registers and dependencies. -/
theorem kept_of_same {own : Nat → Nat → Owner} {E : Nat → Nat → Prop} {h h' : Heap V} (hc : ∀ j, Clean h' j ↔ Clean h j)
    (hr : ∀ j, (h' j).reg = (h j).reg) (hn : ∀ j, (h' j).counter = (h j).counter) : Tells own E h h' ∧ Kept own h h' := by
  constructor
  · intro j c _ _ x y
    rw [hr, hn] at y
    exact ⟨(hc j).1 x, y⟩
  · intro j x
    refine ⟨(hc j).2 x, fun c _ y => ?_⟩
    rw [hr, hn]; exact y

theorem Static.congr {h h' : Heap V} {own : Nat → Nat → Owner} {s : Spec.State V} (a : Shape h h') (t : Static h own s) : Static h' own s := by
  refine ⟨fun i hk => ?_, fun i f ch role hk => ?_, fun i hi => ?_, fun i d hd => ?_⟩
  · rw [(a i).1] at hk; rw [(a i).2]; exact t.var i hk
  · rw [(a i).1] at hk
    obtain ⟨h1, h2, h3, h4, h5⟩ := t.op i f ch role hk
    refine ⟨h1, h2, h3, fun k hk => ?_, ?_⟩
    · rw [a.getDependencies, (a i).2]; exact h4 k hk
    · rw [(a i).2]
      intro d hd
      obtain ⟨x, k, hk, y⟩ := h5 d hd
      exact ⟨x, k, hk, by rw [a.getDependencies]; exact y⟩
  · rw [(a i).1, (a i).2]; exact t.junk i hi
  · rw [(a i).2] at hd; exact t.dep i d hd

theorem Table.congr {h h' : Heap V} {own : Nat → Nat → Owner} {s : Spec.State V} (a : Slots h h') (t : Table h own s) : Table h' own s := by
  refine ⟨fun i c hc => ?_, fun i c hc => ?_, fun i => ?_, t.junk⟩
  · rw [(a i).1] at hc; exact t.ge i c hc
  · rw [(a i).2] at hc; rw [(a i).1]; exact t.bin i c hc
  · rw [(a i).2]; exact t.nodup i

theorem Static.older {h : Heap V} {own : Nat → Nat → Owner} {s : Spec.State V} (t : Static h own s) : Older h := by
  intro i d hd
  cases hk : (h i).kind with
  | var => exact (t.var i hk).2.2 d hd |>.le
  | op f ch role => exact ((t.op i f ch role hk).2.2.2.2 d hd).1.le

theorem Bump.shape {h h' : Heap V} (b : Bump h h') : Shape h h' := by
  intro j
  rcases b j with e | ⟨-, c, -, e⟩ <;> rw [e] <;> exact ⟨rfl, rfl⟩

theorem Bump.slots {h h' : Heap V} (b : Bump h h') : Slots h h' := by
  intro j
  rcases b j with e | ⟨-, c, -, e⟩ <;> rw [e] <;> exact ⟨rfl, rfl⟩

theorem Bump.same {h h' : Heap V} (b : Bump h h') {i : Nat} (hc : Clean h i) : h' i = h i := by
  rcases b i with e | ⟨hn, -⟩
  · exact e
  · exact absurd hc hn

theorem Bump.dyn {h h' : Heap V} {own : Nat → Nat → Owner} {s : Spec.State V} (b : Bump h h') (d : Dyn h own s) : Dyn h' own s := by
  refine ⟨b.le d.le, fun i hk => ?_, fun i hc hv => ?_⟩
  · rw [(b.shape i).1] at hk
    have := d.var i hk
    rcases b i with e | ⟨-, c, -, e⟩ <;> rw [e] <;> exact this
  · have hc' := (b.clean d.le i).2 hc
    rw [b.same hc'] at hv ⊢
    exact d.valid i hc' hv

theorem Bump.tells {h h' : Heap V} (b : Bump h h') (l : RegLe h) (own : Nat → Nat → Owner) (E : Nat → Nat → Prop) : Tells own E h h' ∧ Kept own h h' := by
  constructor
  · intro j c _ _ x y
    have x' := (b.clean l j).2 x
    rw [b.same x'] at y
    exact ⟨x', y⟩
  · intro j x
    refine ⟨(b.clean l j).1 x, fun c _ y => ?_⟩
    rw [b.same x]; exact y

/-- Closed form of `dependenciesChecked`. -/
theorem checkAll (ds : List (Nat × Nat)) : ∀ (h : Heap V) (j : Nat), ds.foldl (fun h d => checkID h d.1 d.2) h j =
    { h j with reg := fun c => if (j, c) ∈ ds then (h j).counter else (h j).reg c } := by
  classical
  induction ds with
  | nil => intro h j; simp
  | cons d ds ih =>
    intro h j
    rw [List.foldl_cons, ih]
    unfold checkID
    by_cases hj : j = d.1
    · subst hj
      simp only [update_self]
      congr 1
      funext c
      by_cases h1 : (d.1, c) ∈ ds
      · simp [h1]
      · by_cases h2 : c = d.2
        · subst h2; simp [h1]
        · have : ¬ ((d.1, c) = d) := by intro e; exact h2 (by rw [← e])
          simp [h1, h2, this, update_of_ne]
    · rw [update_of_ne hj]
      dsimp only
      congr 1
      funext c
      have : ¬ ((j, c) = d) := by intro e; exact hj (by rw [← e])
      simp [this]

/-- Marking an ID used to evaluate does not change which objects are clean. -/
theorem clean_checkID {h : Heap V} {own : Nat → Nat → Owner} {s : Spec.State V} (t : Static h own s) {i c : Nat} (hc : (own i c).Comp) (P : Nat) :
    Clean (checkID h i c) P ↔ Clean h P := by
  have key : ∀ P, ∀ d ∈ (h P).deps, (((checkID h i c) d.1).reg d.2 = ((checkID h i c) d.1).counter ↔ (h d.1).reg d.2 = (h d.1).counter) := by
    intro P d hd
    unfold checkID
    by_cases hj : d.1 = i
    · have : d.2 ≠ c := by
        intro e
        have := t.dep P d hd
        rw [hj, e] at this
        rw [this] at hc
        exact hc
      rw [hj]
      simp only [update_self]
      rw [update_of_ne this]
    · rw [update_of_ne hj]
  have hdeps : ∀ P, ((checkID h i c) P).deps = (h P).deps := by
    intro P
    unfold checkID
    by_cases hj : P = i
    · subst hj; simp
    · rw [update_of_ne hj]
  constructor
  · intro hh
    induction hh with
    | mk P h1 h2 ih =>
      rw [hdeps] at h1 ih
      exact ⟨P, fun d hd hne => (key P d hd).1 (h1 d hd hne), fun d hd hne => ih d hd hne⟩
  · intro hh
    induction hh with
    | mk P h1 h2 ih =>
      refine ⟨P, ?_, ?_⟩ <;> rw [hdeps]
      · exact fun d hd hne => (key P d hd).2 (h1 d hd hne)
      · exact ih

/-- Marking the dependencies of `i` does not make other objects clean. -/
theorem clean_depCheck {h : Heap V} {own : Nat → Nat → Owner} {s : Spec.State V} (t : Static h own s) {i : Nat}
    (hi : Clean h i ∨ ∀ c P, own i c = .dep P → (h i).reg c < (h i).counter) (P : Nat) (hP : P ≠ i)
    (hc : Clean (dependenciesChecked h i) P) : Clean h P := by
  induction hc with
  | mk P h1 h2 ih =>
    have hd' : ((dependenciesChecked h i) P).deps = (h P).deps := by unfold dependenciesChecked; rw [checkAll]
    rw [hd'] at h1 h2 ih
    have hreg : ∀ d ∈ (h P).deps, d.1 ≠ P → (h d.1).reg d.2 = (h d.1).counter := by
      intro d hd hne
      have h1' := h1 d hd hne
      unfold dependenciesChecked at h1'
      rw [checkAll] at h1'
      have : (d.1, d.2) ∉ (h i).deps := by
        intro hh
        have a := t.dep i _ hh
        rw [t.dep P d hd] at a
        injection a with a
        exact hP a
      simpa [this] using h1'
    refine ⟨P, hreg, ?_⟩
    intro d hd hne
    by_cases hdi : d.1 = i
    · rw [hdi]
      rcases hi with hi | hi
      · exact hi
      · have a := hreg d hd hne
        have b := hi d.2 P (by rw [← hdi]; exact t.dep P d hd)
        rw [hdi] at a
        omega
    · exact ih d hd hne hdi

theorem clean_depCheck_mono {h : Heap V} {i : Nat} (P : Nat) (hc : Clean h P) : Clean (dependenciesChecked h i) P := by
  induction hc with
  | mk P h1 h2 ih =>
    have hd' : ((dependenciesChecked h i) P).deps = (h P).deps := by unfold dependenciesChecked; rw [checkAll]
    refine ⟨P, ?_, ?_⟩ <;> rw [hd']
    · intro d hd hne
      unfold dependenciesChecked
      rw [checkAll]
      dsimp only
      split_ifs
      · rfl
      · exact h1 d hd hne
    · exact ih

theorem depCheck_tells {h : Heap V} {own : Nat → Nat → Owner} {s : Spec.State V} (t : Static h own s) (E : Nat → Nat → Prop) {i : Nat}
    (hi : Clean h i ∨ ∀ c P, own i c = .dep P → (h i).reg c < (h i).counter)
    (hi2 : Clean h i ∨ ∀ c, ¬ E i c → (own i c).Held → (h i).reg c < (h i).counter) :
    Tells own E h (dependenciesChecked h i) ∧ Kept own h (dependenciesChecked h i) := by
  have hr : ∀ j c, (own j c).Held → ((dependenciesChecked h i) j).reg c = (h j).reg c := by
    intro j c ho
    unfold dependenciesChecked
    rw [checkAll]
    dsimp only
    rw [if_neg]
    intro hh
    have a := t.dep i _ hh
    dsimp only at a
    rw [a] at ho
    exact ho
  have hn : ∀ j, ((dependenciesChecked h i) j).counter = (h j).counter := by
    intro j
    unfold dependenciesChecked
    rw [checkAll]
  constructor
  · intro j c he ho x y
    rw [hr j c ho, hn] at y
    refine ⟨?_, y⟩
    by_cases hj : j = i
    · subst hj
      rcases hi2 with hi | hi
      · exact hi
      · have := hi c he ho
        omega
    · exact clean_depCheck t hi j hj x
  · intro j x
    refine ⟨clean_depCheck_mono j x, fun c ho y => ?_⟩
    rw [hr j c ho, hn]; exact y

theorem depCheck_shape (h : Heap V) (i : Nat) : Shape h (dependenciesChecked h i) ∧ Slots h (dependenciesChecked h i) := by
  constructor <;> intro j <;> unfold dependenciesChecked <;> rw [checkAll] <;> exact ⟨rfl, rfl⟩

theorem depCheck_buffer (h : Heap V) (i j : Nat) : ((dependenciesChecked h i) j).buffer = (h j).buffer := by
  unfold dependenciesChecked; rw [checkAll]

theorem depCheck_frame {h : Heap V} {i : Nat} (o : Older h) (j : Nat) (hj : i < j) : (dependenciesChecked h i) j = h j := by
  unfold dependenciesChecked; rw [checkAll]
  have : ∀ c, (j, c) ∉ (h i).deps := by
    intro c hc
    have := o i _ hc
    simp only at this
    omega
  simp [this]

/-- The last step of an evaluation keeps the invariant. -/
theorem depCheck_dyn {h : Heap V} {own : Nat → Nat → Owner} {s : Spec.State V} (t : Static h own s) {i : Nat}
    (hi : Clean h i ∨ ∀ c P, own i c = .dep P → (h i).reg c < (h i).counter)
    (hb : (h i).buffer = s.meaning i s.values) (d : Dyn h own s) : Dyn (dependenciesChecked h i) own s := by
  refine ⟨?_, ?_, ?_⟩
  · intro j c
    unfold dependenciesChecked; rw [checkAll]
    dsimp only
    split_ifs
    · rfl
    · exact d.le j c
  · intro j hk
    rw [((depCheck_shape h i).1 j).1] at hk
    rw [depCheck_buffer]; exact d.var j hk
  · intro j hc hv
    rw [depCheck_buffer]
    by_cases hj : j = i
    · rw [hj]; exact hb
    · have hc' := clean_depCheck t hi j hj hc
      refine d.valid j hc' ?_
      unfold dependenciesChecked at hv
      rw [checkAll] at hv
      rcases hv with hv | ⟨c, h1, h2⟩
      · exact Or.inl hv
      · refine Or.inr ⟨c, h1, ?_⟩
        have : (j, c) ∉ (h i).deps := by
          intro hh
          have a := t.dep i _ hh
          dsimp only at a
          rw [a] at h1
          exact h1
        simpa [this] using h2

theorem checkID_shape (h : Heap V) (i c : Nat) : Shape h (checkID h i c) ∧ Slots h (checkID h i c) := by
  constructor <;> intro j <;> unfold checkID <;> by_cases hj : j = i
  · subst hj; simp
  · rw [update_of_ne hj]; exact ⟨rfl, rfl⟩
  · subst hj; simp
  · rw [update_of_ne hj]; exact ⟨rfl, rfl⟩

theorem checkID_tells {h : Heap V} {own : Nat → Nat → Owner} {s : Spec.State V} (t : Static h own s) {i c : Nat} (hc : (own i c).Comp) :
    Tells own (fun j c' => j = i ∧ c' = c) h (checkID h i c) ∧ Kept own h (checkID h i c) := by
  have hn : ∀ j, ((checkID h i c) j).counter = (h j).counter := by
    intro j
    unfold checkID
    by_cases hj : j = i
    · subst hj; simp
    · rw [update_of_ne hj]
  have hr : ∀ j x, ¬ (j = i ∧ x = c) → ((checkID h i c) j).reg x = (h j).reg x := by
    intro j x hx
    unfold checkID
    by_cases hj : j = i
    · subst hj
      simp only [update_self]
      rw [update_of_ne (fun e => hx ⟨rfl, e⟩)]
    · rw [update_of_ne hj]
  constructor
  · intro j x he _ a b
    rw [hr j x he, hn] at b
    exact ⟨(clean_checkID t hc j).1 a, b⟩
  · intro j a
    refine ⟨(clean_checkID t hc j).2 a, fun x _ b => ?_⟩
    by_cases hx : j = i ∧ x = c
    · obtain ⟨rfl, rfl⟩ := hx
      simp [checkID]
    · rw [hr j x hx, hn]; exact b

theorem checkID_buffer (h : Heap V) (i c j : Nat) : ((checkID h i c) j).buffer = (h j).buffer := by
  unfold checkID; by_cases hj : j = i
  · subst hj; simp
  · rw [update_of_ne hj]

theorem checkID_dyn {h : Heap V} {own : Nat → Nat → Owner} {s : Spec.State V} (t : Static h own s) {i c : Nat} (hc : (own i c).Comp)
    (hb : (h i).buffer = s.meaning i s.values) (d : Dyn h own s) : Dyn (checkID h i c) own s := by
  refine ⟨?_, ?_, ?_⟩
  · intro j c'
    unfold checkID
    by_cases hj : j = i
    · subst hj
      simp only [update_self]
      by_cases h2 : c' = c
      · subst h2; simp
      · rw [update_of_ne h2]; exact d.le j c'
    · rw [update_of_ne hj]; exact d.le j c'
  · intro j hk
    rw [((checkID_shape h i c).1 j).1] at hk
    rw [checkID_buffer]; exact d.var j hk
  · intro j hcl hv
    rw [checkID_buffer]
    by_cases hj : j = i
    · rw [hj]; exact hb
    · refine d.valid j ((clean_checkID t hc j).1 hcl) ?_
      unfold checkID at hv
      rw [update_of_ne hj] at hv
      exact hv

end Verif.EvalCache
