import Verif.Lemmas.EvalCacheRun
/- An invariant of all the histories: the register of a caller that evaluates is up to date only in computed objects. -/
set_option linter.unusedSectionVars false
set_option linter.unusedSimpArgs false
set_option linter.unusedVariables false
namespace Verif.EvalCache
open Function
variable {V : Type}

/-- In an object not computed, the registers up to date are those of objects that depend on it. -/
def Told (h : Heap V) : Prop := ∀ i, (h i).computed = false → ∀ c, (h i).reg c = (h i).counter → ∃ j, (i, c) ∈ (h j).deps

/-- Same dependencies, and what is not computed was not so before, with older registers. -/
theorem Told.of {h h' : Heap V} (t : Told h) (hd : ∀ j, (h' j).deps = (h j).deps)
    (hh : ∀ i, (h' i).computed = false → ∀ c, (h' i).reg c = (h' i).counter →
      ((h i).computed = false ∧ (h i).reg c = (h i).counter) ∨ ∃ j, (i, c) ∈ (h j).deps) : Told h' := by
  intro i hi c hc
  rcases hh i hi c hc with ⟨a, b⟩ | ⟨j, hj⟩
  · obtain ⟨j, hj⟩ := t i a c b
    exact ⟨j, by rw [hd]; exact hj⟩
  · exact ⟨j, by rw [hd]; exact hj⟩

theorem Bump.told {h h' : Heap V} (b : Bump h h') (l : RegLe h) (t : Told h) : Told h' := by
  refine t.of b.deps fun i hi c hc => ?_
  rcases b i with e | ⟨-, n, hn, e⟩
  · rw [e] at hi hc; exact Or.inl ⟨hi, hc⟩
  · rw [e] at hc
    have := l i c
    dsimp only at hc
    omega

theorem told_depCheck {h : Heap V} (t : Told h) (i : Nat) : Told (dependenciesChecked h i) := by
  refine t.of (fun j => ((depCheck_shape h i).1 j).2) fun j hj c hc => ?_
  unfold dependenciesChecked at hj hc
  rw [checkAll] at hj hc
  dsimp only at hj hc
  split_ifs at hc with hm
  · exact Or.inr ⟨i, hm⟩
  · exact Or.inl ⟨hj, hc⟩

/-- An ID is checked in an object that is computed. -/
theorem told_check {h : Heap V} (t : Told h) (i c : Nat) (n : Node V) (hd : n.deps = (h i).deps) (hc : n.computed = true) : Told (update h i n) := by
  refine t.of (fun j => ?_) fun j hj x hx => ?_
  · by_cases h' : j = i
    · subst h'; rw [update_self]; exact hd
    · rw [update_of_ne h']
  · by_cases h' : j = i
    · subst h'; rw [update_self, hc] at hj; simp at hj
    · rw [update_of_ne h'] at hj hx
      exact Or.inl ⟨hj, hx⟩

theorem told_buffer {h : Heap V} (t : Told h) (i : Nat) (v : V) : Told (update h i { h i with buffer := v }) := by
  refine t.of (fun j => ?_) fun j hj x hx => ?_
  · by_cases h' : j = i
    · subst h'; rw [update_self]
    · rw [update_of_ne h']
  · by_cases h' : j = i
    · subst h'; rw [update_self] at hj hx; exact Or.inl ⟨hj, hx⟩
    · rw [update_of_ne h'] at hj hx
      exact Or.inl ⟨hj, hx⟩

theorem told_operands {own : Nat → Nat → Owner} {s : Spec.State V} (rec : Heap V → Nat → Nat → V × Heap V) (i : Nat)
    (hrec : ∀ (h : Heap V) (j c : Nat), j < i → Static h own s → Table h own s → Dyn h own s → c < (h j).ids → (own j c).Comp → Told h →
      Told (rec h j c).2 ∧ Shape h (rec h j c).2 ∧ Slots h (rec h j c).2 ∧ Dyn (rec h j c).2 own s)
    (ks : List (Nat × Nat)) (acc : List V × Heap V) (hs : Static acc.2 own s) (ht : Table acc.2 own s) (hd : Dyn acc.2 own s)
    (hk : ∀ k ∈ ks, k.1 < i ∧ own k.1 k.2 = .child) (t : Told acc.2) : Told (ks.foldl (operandStep rec) acc).2 := by
  induction ks generalizing acc with
  | nil => exact t
  | cons k ks ih =>
    obtain ⟨a, b⟩ := hk k (by simp)
    have hlt : k.2 < (acc.2 k.1).ids := by
      by_contra hc
      have := ht.ge k.1 k.2 (by omega)
      rw [b] at this
      exact absurd this (by simp)
    obtain ⟨x, sh, sl, dy⟩ := hrec acc.2 k.1 k.2 a hs ht hd hlt (by rw [b]; trivial) t
    rw [List.foldl_cons]
    exact ih _ (hs.congr sh) (ht.congr sl) dy (fun k hk' => hk k (by simp [hk'])) x

theorem told_evaluateF {own : Nat → Nat → Owner} {s : Spec.State V} (fuel : Nat) : ∀ (h : Heap V) (i c : Nat), i < fuel →
    Static h own s → Table h own s → Dyn h own s → c < (h i).ids → (own i c).Comp → Told h → Told (evaluateF fuel h i c).2 := by
  induction fuel with
  | zero => intro h i c hi; omega
  | succ fuel ih =>
    intro h i c hi hs ht hd hc ho t
    simp only [evaluateF]
    rw [if_pos hc]
    obtain ⟨b, -⟩ := isNewF_spec (i + 1) h i c (by omega) hd.le hs.older
    have t1 : Told (isNew h i c).2 := b.told hd.le t
    have hs1 : Static (isNew h i c).2 own s := hs.congr b.shape
    have ht1 : Table (isNew h i c).2 own s := ht.congr b.slots
    have hd1 : Dyn (isNew h i c).2 own s := b.dyn hd
    generalize hr : isNew h i c = r at *
    by_cases h1 : r.1 = true
    · rw [if_pos h1]
      by_cases h2 : (r.2 i).computed = true
      · rw [if_pos h2]
        exact told_depCheck (told_check t1 i c { r.2 i with reg := update (r.2 i).reg c (r.2 i).counter } rfl h2) i
      · rw [if_neg h2]
        refine told_depCheck ?_ i
        have tb : Told (body (evaluateF fuel) r.2 i) := by
          unfold body
          cases hk : (r.2 i).kind with
          | var => exact t1
          | op f ch role =>
            obtain ⟨-, -, -, hch, -⟩ := hs1.op i f ch role hk
            have := told_operands (own := own) (s := s) (evaluateF fuel) i (fun h j c hj hs ht hd hc ho t => by
              obtain ⟨-, sh, sl, dy, -⟩ := evaluateF_good fuel h j c (by omega) hs ht hd hc ho
              exact ⟨ih h j c (by omega) hs ht hd hc ho t, sh, sl, dy⟩) ch ([], r.2) hs1 ht1 hd1 (fun k hk => ⟨(hch k hk).1, (hch k hk).2.1⟩) t1
            exact told_buffer this i _
        generalize body (evaluateF fuel) r.2 i = h2 at tb
        unfold checkID
        rw [update_idem, update_self]
        exact told_check tb i c _ rfl rfl
    · rw [if_neg h1]
      exact t1

theorem told_relabel {h : Heap V} (t : Told h) (i c : Nat) (b : List Nat) (n : Nat) : Told (relabel h i c b n) := by
  refine t.of (fun j => (relabel_shape h i c b n j).2) fun j hj x hx => ?_
  unfold relabel at hj hx
  by_cases h' : j = i
  · subst h'
    rw [update_self] at hj hx
    dsimp only at hj hx
    by_cases hx' : x = c
    · subst hx'
      rw [update_self] at hx
      omega
    · rw [update_of_ne hx'] at hx
      exact Or.inl ⟨hj, hx⟩
  · rw [update_of_ne h'] at hj hx
    exact Or.inl ⟨hj, hx⟩

theorem told_alloc {h : Heap V} (t : Told h) (i : Nat) : Told (newCallerID h i).2 := by
  unfold newCallerID
  cases hb : (h i).bin with
  | nil =>
    have := told_relabel t i (h i).ids (h i).bin ((h i).ids + 1)
    exact this
  | cons x rest => exact told_relabel t i x rest (h i).ids

/-- A new object. -/
theorem told_place {h : Heap V} (t : Told h) (n : Nat) (hn : (h n).deps = []) (nd : Node V) (hnd : ∀ c, nd.reg c ≠ nd.counter) : Told (update h n nd) := by
  intro i hi c hc
  by_cases h' : i = n
  · subst h'; rw [update_self] at hc; exact absurd hc (hnd c)
  · rw [update_of_ne h'] at hi hc
    obtain ⟨j, hj⟩ := t i hi c hc
    have : j ≠ n := by
      intro e
      rw [e, hn] at hj
      simp at hj
    exact ⟨j, by rw [update_of_ne this]; exact hj⟩

theorem told_addOperand (ks : List Nat) (acc : List (Nat × Nat) × Heap V) (t : Told acc.2) : Told (ks.foldl addOperand acc).2 := by
  induction ks generalizing acc with
  | nil => exact t
  | cons k ks ih => exact ih _ (told_alloc t k)

theorem told_addDependency (ks : List Nat) (acc : List (Nat × Nat) × Heap V) (t : Told acc.2) : Told (ks.foldl addDependency acc).2 := by
  induction ks generalizing acc with
  | nil => exact t
  | cons k ks ih =>
    refine ih _ ?_
    unfold addDependency
    split_ifs
    · exact t
    · exact told_alloc t k

theorem told_step {w : World V} {s : Spec.State V} (R : Rel w s) (t : Told w.heap) (o : Op V) : Told (step w o).1.heap := by
  obtain ⟨own, I, H⟩ := R
  cases o with
  | newVar a v =>
    refine told_place t _ (I.st.junk _ (by rw [H.size])).2 _ ?_
    intro c
    cases a <;> simp [fresh]
  | build f ps role v =>
    simp only [step]
    cases hp : ps.mapM w.handle with
    | none => exact t
    | some ks =>
      dsimp only [build]
      have hks : ∀ k ∈ ks.map Prod.fst, k < s.size := by
        intro k hk
        obtain ⟨x, hx, rfl⟩ := List.mem_map.1 hk
        obtain ⟨p, hp'⟩ := mapM_mem ps ks hp x hx
        exact (H.own p x hp').2
      obtain ⟨own', I', sh, -⟩ := operands_inv I (ks.map Prod.fst) hks
      have t1 := told_addOperand (ks.map Prod.fst) ([], w.heap) t
      generalize (ks.map Prod.fst).foldl addOperand ([], w.heap) = r at *
      have hjs : ∀ j ∈ (ks.map Prod.fst).flatMap (getDependencies r.2), j < s.size := by
        intro j hj
        obtain ⟨k, hk, hj⟩ := List.mem_flatMap.1 hj
        have h1 := getDependencies_lt I'.st k j hj
        have h2 := hks k hk
        omega
      obtain ⟨own2, I2, sh2, -⟩ := deps_inv I' s.size _ hjs
      refine told_place (told_addDependency _ ([], r.2) t1) w.size (I2.st.junk w.size (by rw [H.size])).2 _ ?_
      intro c
      simp [fresh]
  | copy p =>
    simp only [step]
    cases hp : w.handle p with
    | none => exact t
    | some k => exact told_alloc t k.1
  | drop p =>
    simp only [step]
    cases hp : w.handle p with
    | none => exact t
    | some k => exact told_relabel t k.1 k.2 _ _
  | become p q =>
    have tr : Told (release w p).heap := by
      unfold release
      cases hp : w.handle p with
      | none => exact t
      | some k => exact told_relabel t k.1 k.2 _ _
    show Told (become w p q).heap
    unfold become
    split
    · cases hq : (w.handle q).map Prod.fst with
      | none => exact tr
      | some j => exact told_alloc tr j
    · exact t
  | assign p v =>
    simp only [step]
    cases hp : w.handle p with
    | none => exact t
    | some k =>
      dsimp only
      unfold assign
      have key : Told (reset (update w.heap k.1 { w.heap k.1 with buffer := v }) k.1) := by
        unfold reset
        rw [update_idem, update_self]
        refine t.of (fun j => ?_) fun j hj x hx => ?_
        · by_cases h' : j = k.1
          · subst h'; rw [update_self]
          · rw [update_of_ne h']
        · by_cases h' : j = k.1
          · subst h'
            rw [update_self] at hx
            dsimp only at hx
            have := I.dy.le k.1 x
            omega
          · rw [update_of_ne h'] at hj hx
            exact Or.inl ⟨hj, hx⟩
      split
      · exact t
      · exact key
  | eval p =>
    simp only [step]
    cases hp : w.handle p with
    | none => exact t
    | some k =>
      obtain ⟨h1, h2⟩ := H.own p k hp
      have hlt : k.2 < (w.heap k.1).ids := by
        by_contra hc
        have := I.tb.ge k.1 k.2 (by omega)
        rw [h1] at this
        exact absurd this (by simp)
      exact told_evaluateF (k.1 + 1) w.heap k.1 k.2 (by omega) I.st I.tb I.dy hlt (by rw [h1]; trivial) t
  | askNew p =>
    simp only [step]
    cases hp : w.handle p with
    | none => exact t
    | some k =>
      obtain ⟨b, -⟩ := isNewF_spec (k.1 + 1) w.heap k.1 k.2 (by omega) I.dy.le I.st.older
      exact b.told I.dy.le t

theorem told_after {w : World V} {s : Spec.State V} (R : Rel w s) (t : Told w.heap) (os : List (Op V)) : Told (after w os).heap := by
  induction os generalizing w s with
  | nil => exact t
  | cons o os ih => exact ih (rel_step R o).2 (told_step R t o)

theorem told_empty [Inhabited V] : Told (World.empty : World V).heap := by
  intro i _ c hc
  simp [World.empty, fresh] at hc

end Verif.EvalCache
