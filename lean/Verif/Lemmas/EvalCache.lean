import Verif.Spec.EvalCache
/- Invariant of the evaluation cache. -/
set_option linter.unusedSectionVars false
set_option linter.unusedSimpArgs false
namespace Verif.EvalCache
open Function
variable {V : Type}

/-- Nothing an object depends on has changed since it was last told. -/
inductive Clean (h : Heap V) : Nat → Prop
  | mk (i : Nat) (h1 : ∀ d ∈ (h i).deps, d.1 ≠ i → (h d.1).reg d.2 = (h d.1).counter)
      (h2 : ∀ d ∈ (h i).deps, d.1 ≠ i → Clean h d.1) : Clean h i

theorem clean_iff (h : Heap V) (i : Nat) :
    Clean h i ↔ ∀ d ∈ (h i).deps, d.1 ≠ i → (h d.1).reg d.2 = (h d.1).counter ∧ Clean h d.1 := by
  constructor
  · rintro ⟨_, h1, h2⟩ d hd hne
    exact ⟨h1 d hd hne, h2 d hd hne⟩
  · exact fun hh => ⟨i, fun d hd hne => (hh d hd hne).1, fun d hd hne => (hh d hd hne).2⟩

/-- Some objects that were not clean have been marked as new. -/
def Bump (h h' : Heap V) : Prop :=
  ∀ j, h' j = h j ∨ (¬ Clean h j ∧ ∃ c, (h j).counter < c ∧ h' j = { h j with counter := c, computed := false })

def RegLe (h : Heap V) : Prop := ∀ i c, (h i).reg c ≤ (h i).counter

theorem Bump.refl (h : Heap V) : Bump h h := fun _ => Or.inl rfl

theorem Bump.deps {h h' : Heap V} (b : Bump h h') (j : Nat) : (h' j).deps = (h j).deps := by
  rcases b j with e | ⟨-, c, -, e⟩ <;> rw [e]

theorem Bump.reg {h h' : Heap V} (b : Bump h h') (j : Nat) : (h' j).reg = (h j).reg := by
  rcases b j with e | ⟨-, c, -, e⟩ <;> rw [e]

theorem Bump.le {h h' : Heap V} (b : Bump h h') (l : RegLe h) : RegLe h' := by
  intro i c
  rcases b i with e | ⟨-, c', hc, e⟩
  · rw [e]; exact l i c
  · rw [e]; exact (l i c).trans hc.le

theorem Bump.clean {h h' : Heap V} (b : Bump h h') (l : RegLe h) (i : Nat) : Clean h i ↔ Clean h' i := by
  constructor
  · intro hc
    induction hc with
    | mk i h1 h2 ih =>
      have hs : ∀ d ∈ (h i).deps, d.1 ≠ i → h' d.1 = h d.1 := by
        intro d hd hne
        rcases b d.1 with e | ⟨hn, -⟩
        · exact e
        · exact absurd (h2 d hd hne) hn
      refine ⟨i, ?_, ?_⟩
      · intro d hd hne
        rw [b.deps] at hd
        rw [hs d hd hne]
        exact h1 d hd hne
      · intro d hd hne
        rw [b.deps] at hd
        exact ih d hd hne
  · intro hc
    induction hc with
    | mk i h1 h2 ih =>
      refine ⟨i, ?_, ?_⟩
      · intro d hd hne
        rw [← b.deps] at hd
        have := h1 d hd hne
        rcases b d.1 with e | ⟨-, c', hc, e⟩
        · rwa [e] at this
        · rw [e] at this
          exact absurd this (ne_of_lt (lt_of_le_of_lt (l _ _) hc))
      · intro d hd hne
        rw [← b.deps] at hd
        exact ih d hd hne

theorem Bump.trans {h h' h'' : Heap V} (l : RegLe h) (a : Bump h h') (b : Bump h' h'') : Bump h h'' := by
  intro j
  rcases a j with e | ⟨hn, c, hc, e⟩ <;> rcases b j with e' | ⟨hn', c', hc', e'⟩
  · exact Or.inl (e'.trans e)
  · refine Or.inr ⟨fun h => hn' ((a.clean l j).1 h), c', ?_, ?_⟩
    · rw [e] at hc'; exact hc'
    · rw [e', e]
  · exact Or.inr ⟨hn, c, hc, e'.trans e⟩
  · refine Or.inr ⟨hn, c', ?_, ?_⟩
    · rw [e] at hc'; exact hc.trans hc'
    · rw [e', e]

/-- Dependencies are older objects. -/
def Older (h : Heap V) : Prop := ∀ i, ∀ d ∈ (h i).deps, d.1 ≤ i

theorem Bump.older {h h' : Heap V} (b : Bump h h') (o : Older h) : Older h' := by
  intro i d hd
  rw [b.deps] at hd
  exact o i d hd

theorem newLoop (fuel i : Nat) (hf : i ≤ fuel)
    (ih : ∀ (h : Heap V) (j c : Nat), j < fuel → RegLe h → Older h →
      Bump h (isNewF fuel h j c).2 ∧ (∀ k > j, (isNewF fuel h j c).2 k = h k) ∧
      ((isNewF fuel h j c).1 = true ↔ ¬ (Clean h j ∧ (h j).reg c = (h j).counter)))
    (h : Heap V) (l : RegLe h) (o : Older h) (ds : List (Nat × Nat)) (hds : ∀ d ∈ ds, d.1 ≤ i) :
    let r := ds.foldl (newStep (isNewF fuel) i) (false, h)
    Bump h r.2 ∧ (∀ k ≥ i, r.2 k = h k) ∧
      (r.1 = true ↔ ∃ d ∈ ds, d.1 ≠ i ∧ ¬ (Clean h d.1 ∧ (h d.1).reg d.2 = (h d.1).counter)) := by
  induction ds using List.reverseRecOn with
  | nil => simp [Bump.refl]
  | append_singleton ds d ihd =>
    obtain ⟨b, fr, e⟩ := ihd fun d hd => hds d (List.mem_append_left _ hd)
    simp only [List.foldl_append, List.foldl_cons, List.foldl_nil]
    set r := ds.foldl (newStep (isNewF fuel) i) (false, h) with hr
    clear_value r
    unfold newStep
    by_cases h1 : r.1 = true
    · rw [if_pos h1]
      refine ⟨b, fr, ?_⟩
      constructor
      · intro _
        obtain ⟨d', hd', x⟩ := e.1 h1
        exact ⟨d', List.mem_append_left _ hd', x⟩
      · exact fun _ => h1
    · rw [if_neg h1]
      by_cases h2 : d.1 = i
      · rw [if_pos h2]
        refine ⟨b, fr, ?_⟩
        constructor
        · intro hh; exact absurd hh (by simp)
        · rintro ⟨d', hd', hne, x⟩
          rcases List.mem_append.1 hd' with h' | h'
          · exact absurd (e.2 ⟨d', h', hne, x⟩) h1
          · rw [List.mem_singleton.1 h'] at hne
            exact absurd h2 hne
      · rw [if_neg h2]
        have hlt : d.1 < i := lt_of_le_of_ne (hds d (by simp)) h2
        obtain ⟨b', fr', e'⟩ := ih r.2 d.1 d.2 (lt_of_lt_of_le hlt hf) (b.le l) (b.older o)
        refine ⟨b.trans l b', fun k hk => (fr' k (lt_of_lt_of_le hlt hk)).trans (fr k hk), ?_⟩
        rw [e']
        have key : (Clean r.2 d.1 ∧ (r.2 d.1).reg d.2 = (r.2 d.1).counter) ↔ (Clean h d.1 ∧ (h d.1).reg d.2 = (h d.1).counter) := by
          constructor
          · rintro ⟨x, y⟩
            have x' := (b.clean l d.1).2 x
            refine ⟨x', ?_⟩
            rcases b d.1 with z | ⟨z, -⟩
            · rwa [z] at y
            · exact absurd x' z
          · rintro ⟨x, y⟩
            refine ⟨(b.clean l d.1).1 x, ?_⟩
            rcases b d.1 with z | ⟨z, -⟩
            · rwa [z]
            · exact absurd x z
        rw [key]
        constructor
        · intro hh; exact ⟨d, by simp, h2, hh⟩
        · rintro ⟨d', hd', hne, x⟩
          rcases List.mem_append.1 hd' with h' | h'
          · exact absurd (e.2 ⟨d', h', hne, x⟩) h1
          · rw [List.mem_singleton.1 h'] at x
            exact x

/-- What `isNew` does: it tells whether the object, or something it depends on, is new, and marks as new only objects that are not
clean. -/
theorem isNewF_spec (fuel : Nat) : ∀ (h : Heap V) (i c : Nat), i < fuel → RegLe h → Older h →
    Bump h (isNewF fuel h i c).2 ∧ (∀ k > i, (isNewF fuel h i c).2 k = h k) ∧
    ((isNewF fuel h i c).1 = true ↔ ¬ (Clean h i ∧ (h i).reg c = (h i).counter)) ∧
    (¬ Clean h i → (h i).counter < ((isNewF fuel h i c).2 i).counter ∧ ((isNewF fuel h i c).2 i).computed = false) := by
  induction fuel with
  | zero => intro h i c hi; omega
  | succ fuel ih =>
    intro h i c hi l o
    obtain ⟨b, fr, e⟩ := newLoop fuel i (by omega) (fun h j c hj l o => let ⟨a, b, c, _⟩ := ih h j c hj l o; ⟨a, b, c⟩) h l o (h i).deps (o i)
    simp only [isNewF]
    set r := (h i).deps.foldl (newStep (isNewF fuel) i) (false, h) with hr
    clear_value r
    have hcl : r.1 = true ↔ ¬ Clean h i := by
      rw [e, clean_iff]
      push Not
      constructor
      · rintro ⟨d, hd, hne, x⟩; exact ⟨d, hd, hne, fun a b => x b a⟩
      · rintro ⟨d, hd, hne, x⟩; exact ⟨d, hd, hne, fun a b => x b a⟩
    have hi' : r.2 i = h i := fr i (le_refl i)
    by_cases hc : Clean h i
    · have hr1 : r.1 = false := by
        cases hr1 : r.1
        · rfl
        · exact absurd hc (hcl.1 hr1)
      simp only [hr1, Bool.false_eq_true, if_false]
      refine ⟨b, fun k hk => fr k (le_of_lt hk), ?_, fun x => absurd hc x⟩
      rw [hi']
      simp [hc]
    · have hr1 : r.1 = true := hcl.2 hc
      simp only [hr1, if_true]
      have hb : Bump h (reset r.2 i) := by
        intro j
        by_cases hj : j = i
        · subst hj
          refine Or.inr ⟨hc, (h j).counter + 1, by omega, ?_⟩
          simp only [reset, update_self, hi']
        · simp only [reset]
          rw [update_of_ne hj]
          exact b j
      refine ⟨hb, ?_, ?_, ?_⟩
      · intro k hk
        simp only [reset]
        rw [update_of_ne (by omega)]
        exact fr k (le_of_lt hk)
      · simp only [reset, update_self, hi', decide_eq_true_eq]
        have := l i c
        constructor
        · intro _ hh; exact hc hh.1
        · intro _; omega
      · intro _
        simp only [reset, update_self, hi']
        exact ⟨by omega, trivial⟩

end Verif.EvalCache
