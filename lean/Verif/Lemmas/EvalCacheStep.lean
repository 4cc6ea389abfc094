import Verif.Lemmas.EvalCacheWorld
/- Construction and assignment. -/
set_option linter.unusedSectionVars false
set_option linter.unusedSimpArgs false
set_option linter.unusedVariables false
namespace Verif.EvalCache
open Function
variable {V : Type}

/-- The value of an expression only depends on the variables constructed before it. -/
theorem Static.meaning_local {h : Heap V} {own : Nat → Nat → Owner} {s : Spec.State V} (t : Static h own s) (i : Nat) :
    ∀ env env' : Nat → V, (∀ j ≤ i, env j = env' j) → s.meaning i env = s.meaning i env' := by
  induction i using Nat.strong_induction_on with
  | _ i ih =>
    intro env env' he
    cases hk : (h i).kind with
    | var => rw [(t.var i hk).1]; exact he i le_rfl
    | op f ch role =>
      obtain ⟨-, -, hm, hch, -⟩ := t.op i f ch role hk
      rw [hm]
      dsimp only
      congr 1
      apply List.map_congr_left
      intro k hk
      exact ih k.1 (hch k hk).1 env env' fun j hj => he j (by have := (hch k hk).1; omega)

theorem getDependencies_update (h : Heap V) (n i : Nat) (nd : Node V) (hi : i ≠ n) :
    getDependencies (update h n nd) i = getDependencies h i := by
  unfold getDependencies
  rw [update_of_ne hi]

/-- Adding an object after all the others. -/
theorem place {h : Heap V} {own : Nat → Nat → Owner} {s : Spec.State V} (I : Inv h own s) (nd : Node V) (row : Nat → Owner)
    (m : (Nat → V) → V) (v : Bool) (values : Nat → V) (hs : List (Option Nat)) (ls : Nat → Option V) (hval : ∀ i, i ≠ s.size → values i = s.values i)
    (hcnt : nd.counter = 0) (hreg : nd.reg = fun _ => -1) (hcomp : nd.computed = false) (hbin : nd.bin = [])
    (hrow : ∀ c, nd.ids ≤ c → row c = .free)
    (hdep : ∀ d ∈ nd.deps, (d.1 < s.size ∧ own d.1 d.2 = .dep s.size) ∨ (d.1 = s.size ∧ row d.2 = .dep s.size))
    (hvar : nd.kind = .var → m = (fun env => env s.size) ∧ v = true ∧ nd.buffer = values s.size ∧ ∀ d ∈ nd.deps, d.1 = s.size)
    (hop : ∀ f ch role, nd.kind = .op f ch role → v = false ∧ (m = fun env => f (ch.map fun k => s.meaning k.1 env)) ∧
      (∀ k ∈ ch, k.1 < s.size ∧ own k.1 k.2 = .child ∧ ∀ j ∈ getDependencies h k.1, ∃ d ∈ nd.deps, d.1 = j) ∧ ∀ d ∈ nd.deps, d.1 < s.size ∧ ∃ k ∈ ch, d.1 ∈ getDependencies h k.1) :
    Inv (update h s.size nd) (update own s.size row)
      { meaning := update s.meaning s.size m, isVar := update s.isVar s.size v, values := values, size := s.size + 1, handles := hs, last := ls } ∧
      ∀ i, i ≠ s.size → (Clean (update h s.size nd) i ↔ Clean h i) := by
  have hltdep : ∀ i, i ≠ s.size → ∀ d ∈ (h i).deps, d.1 < s.size := by
    intro i hi d hd
    by_cases hlt : i < s.size
    · exact lt_of_le_of_lt (I.st.older i d hd) hlt
    · rw [(I.st.junk i (by omega)).2] at hd
      exact absurd hd (by simp)
  have hclean : ∀ i, i ≠ s.size → Clean (update h s.size nd) i → Clean h i := by
    intro i hi hc
    induction hc with
    | mk P h1 h2 ih =>
      rw [update_of_ne hi] at h1 ih
      refine ⟨P, fun d hd hne => ?_, fun d hd hne => ih d hd hne (by have := hltdep P hi d hd; omega)⟩
      have := h1 d hd hne
      rwa [update_of_ne (by have := hltdep P hi d hd; omega)] at this
  have hclean' : ∀ i, i ≠ s.size → Clean h i → Clean (update h s.size nd) i := by
    intro i hi hc
    induction hc with
    | mk P h1 h2 ih =>
      refine ⟨P, ?_, ?_⟩ <;> rw [update_of_ne hi]
      · intro d hd hne
        rw [update_of_ne (by have := hltdep P hi d hd; omega)]
        exact h1 d hd hne
      · exact fun d hd hne => ih d hd hne (by have := hltdep P hi d hd; omega)
  refine ⟨⟨⟨?_, ?_, ?_, ?_⟩, ⟨?_, ?_, ?_, ?_⟩, ⟨?_, ?_, ?_⟩⟩, fun i hi => ⟨hclean i hi, hclean' i hi⟩⟩
  · intro i hk
    by_cases hi : i = s.size
    · subst hi
      simp only [update_self] at hk ⊢
      obtain ⟨h1, h2, h3, h4⟩ := hvar hk
      exact ⟨h1, h2, h4⟩
    · rw [update_of_ne hi] at hk ⊢
      dsimp only
      rw [update_of_ne hi, update_of_ne hi]
      exact I.st.var i hk
  · intro i f ch role hk
    by_cases hi : i = s.size
    · subst hi
      simp only [update_self] at hk ⊢
      obtain ⟨h1, h2, h3, h4⟩ := hop f ch role hk
      refine ⟨by omega, h1, ?_, fun k hk => ?_, fun d hd => ?_⟩
      · rw [h2]
        funext env
        congr 1
        apply List.map_congr_left
        intro k hk
        rw [update_of_ne (by have := (h3 k hk).1; omega)]
      · have hlt := (h3 k hk).1
        rw [getDependencies_update _ _ _ _ (by omega), update_of_ne (by omega)]
        exact h3 k hk
      · obtain ⟨a, k, hk, b⟩ := h4 d hd
        exact ⟨a, k, hk, by rw [getDependencies_update _ _ _ _ (by have := (h3 k hk).1; omega)]; exact b⟩
    · rw [update_of_ne hi] at hk ⊢
      obtain ⟨h1, h2, h3, h4, h5⟩ := I.st.op i f ch role hk
      dsimp only
      rw [update_of_ne hi, update_of_ne hi]
      refine ⟨by omega, h2, ?_, fun k hk => ?_, fun d hd => ?_⟩
      · rw [h3]
        funext env
        congr 1
        apply List.map_congr_left
        intro k hk
        rw [update_of_ne (by have := (h4 k hk).1; omega)]
      · have hlt := (h4 k hk).1
        rw [getDependencies_update _ _ _ _ (by omega), update_of_ne (by omega)]
        exact h4 k hk
      · obtain ⟨a, k, hk, b⟩ := h5 d hd
        exact ⟨a, k, hk, by rw [getDependencies_update _ _ _ _ (by have := (h4 k hk).1; omega)]; exact b⟩
  · intro i hi
    dsimp only at hi
    rw [update_of_ne (by omega)]
    exact I.st.junk i (by omega)
  · intro i d hd
    by_cases hi : i = s.size
    · subst hi
      rw [update_self] at hd
      rcases hdep d hd with ⟨h1, h2⟩ | ⟨h1, h2⟩
      · rw [update_of_ne (by omega)]; exact h2
      · rw [h1, update_self]; exact h2
    · rw [update_of_ne hi] at hd
      have := hltdep i hi d hd
      rw [update_of_ne (by omega)]
      exact I.st.dep i d hd
  · intro i c hc
    by_cases hi : i = s.size
    · subst hi
      rw [update_self] at hc ⊢
      exact hrow c hc
    · rw [update_of_ne hi] at hc ⊢
      exact I.tb.ge i c hc
  · intro i c hc
    by_cases hi : i = s.size
    · subst hi
      rw [update_self, hbin] at hc
      exact absurd hc (by simp)
    · rw [update_of_ne hi] at hc ⊢
      rw [update_of_ne hi]
      exact I.tb.bin i c hc
  · intro i
    by_cases hi : i = s.size
    · subst hi
      rw [update_self, hbin]; exact List.nodup_nil
    · rw [update_of_ne hi]; exact I.tb.nodup i
  · intro i c hi
    dsimp only at hi
    rw [update_of_ne (by omega)]
    exact I.tb.junk i c (by omega)
  · intro i c
    by_cases hi : i = s.size
    · subst hi
      rw [update_self, hreg, hcnt]; norm_num
    · rw [update_of_ne hi]; exact I.dy.le i c
  · intro i hk
    by_cases hi : i = s.size
    · subst hi
      rw [update_self] at hk ⊢
      exact (hvar hk).2.2.1
    · rw [update_of_ne hi] at hk ⊢
      dsimp only
      rw [hval i hi]
      exact I.dy.var i hk
  · intro i hc hv
    by_cases hi : i = s.size
    · subst hi
      rw [update_self, hreg, hcnt, hcomp] at hv
      rcases hv with hv | ⟨c, -, hv⟩
      · exact absurd hv (by simp)
      · exact absurd hv (by norm_num)
    · rw [update_of_ne hi] at hv ⊢
      rw [update_of_ne hi] at hv
      dsimp only
      rw [update_of_ne hi, I.dy.valid i (hclean i hi hc) hv]
      by_cases hlt : i < s.size
      · exact I.st.meaning_local i _ _ fun j hj => (hval j (by omega)).symm
      · rw [(I.st.var i (I.st.junk i (by omega)).1).1]
        exact (hval i hi).symm

/-- Bumping the counter of an object makes all its dependants not clean. -/
theorem Static.meaning_safe {h h' : Heap V} {own : Nat → Nat → Owner} {s : Spec.State V} (t : Static h own s) (sh : Shape h h') (x : Nat)
    (hx : ∀ c, (h' x).reg c ≠ (h' x).counter) (env env' : Nat → V) (he : ∀ j, j ≠ x → env j = env' j) (i : Nat) :
    (∀ j ∈ getDependencies h i, j ≠ x ∧ Clean h' j) → s.meaning i env = s.meaning i env' := by
  induction i using Nat.strong_induction_on with
  | _ i ih =>
    intro hsafe
    cases hk : (h i).kind with
    | var =>
      rw [(t.var i hk).1]
      refine he i (hsafe i ?_).1
      simp [getDependencies, hk]
    | op f ch role =>
      obtain ⟨-, -, hm, hch, hlt⟩ := t.op i f ch role hk
      have hd : ∀ d ∈ (h i).deps, d.1 ≠ x ∧ Clean h' d.1 := by
        intro d hd
        have aux : i ∈ getDependencies h i → d.1 ≠ x ∧ Clean h' d.1 := by
          intro hi
          have hc := (clean_iff h' i).1 (hsafe i hi).2 d (by rw [(sh i).2]; exact hd) (by have := (hlt d hd).1; omega)
          refine ⟨?_, hc.2⟩
          intro e
          rw [e] at hc
          exact hx _ hc.1
        cases role with
        | plain =>
          refine hsafe d.1 ?_
          simp only [getDependencies, hk]
          exact List.mem_map_of_mem hd
        | «variable» b => exact aux (by cases b <;> simp [getDependencies, hk])
      rw [hm]
      dsimp only
      congr 1
      apply List.map_congr_left
      intro k hk
      refine ih k.1 (hch k hk).1 fun j hj => ?_
      obtain ⟨d, hd', e⟩ := (hch k hk).2.2 j hj
      rw [← e]
      exact hd d hd'

theorem Static.meaning_clean {h h' : Heap V} {own : Nat → Nat → Owner} {s : Spec.State V} (t : Static h own s) (sh : Shape h h') (x : Nat)
    (hx : ∀ c, (h' x).reg c ≠ (h' x).counter) (env env' : Nat → V) (he : ∀ j, j ≠ x → env j = env' j) (i : Nat) (hi : i ≠ x)
    (hc : Clean h' i) : s.meaning i env = s.meaning i env' := by
  cases hk : (h i).kind with
  | var =>
    rw [(t.var i hk).1]
    exact he i hi
  | op f ch role =>
    obtain ⟨-, -, hm, hch, hlt⟩ := t.op i f ch role hk
    rw [hm]
    dsimp only
    congr 1
    apply List.map_congr_left
    intro k hk
    refine t.meaning_safe sh x hx env env' he k.1 fun j hj => ?_
    obtain ⟨d, hd, e⟩ := (hch k hk).2.2 j hj
    have hc' := (clean_iff h' i).1 hc d (by rw [(sh i).2]; exact hd) (by have := (hlt d hd).1; omega)
    rw [← e]
    refine ⟨?_, hc'.2⟩
    intro e'
    rw [e'] at hc'
    exact hx _ hc'.1

/-- Assigning a variable. -/
theorem assign_inv {h : Heap V} {own : Nat → Nat → Owner} {s : Spec.State V} (I : Inv h own s) (x : Nat) (v : V) (values : Nat → V)
    (hval : ∀ j, j ≠ x → values j = s.values j) (hx : (h x).kind = .var → values x = v) (hx' : (h x).kind ≠ .var → values x = s.values x) :
    Inv (reset (update h x { h x with buffer := v }) x) own { s with values := values } ∧
    ∀ j c, Clean (reset (update h x { h x with buffer := v }) x) j →
      ((reset (update h x { h x with buffer := v }) x) j).reg c = ((reset (update h x { h x with buffer := v }) x) j).counter →
      Clean h j ∧ (h j).reg c = (h j).counter ∧ s.meaning j values = s.meaning j s.values := by
  have e : reset (update h x { h x with buffer := v }) x = update h x { h x with buffer := v, counter := (h x).counter + 1, computed := false } := by
    unfold reset
    simp
  rw [e]
  set h' := update h x { h x with buffer := v, counter := (h x).counter + 1, computed := false } with hh'
  have ne : ∀ j, j ≠ x → h' j = h j := fun j hj => by rw [hh', update_of_ne hj]
  have sx : h' x = { h x with buffer := v, counter := (h x).counter + 1, computed := false } := by rw [hh', update_self]
  clear_value h'
  have sh : Shape h h' := by
    intro j
    by_cases hj : j = x
    · subst hj; rw [sx]; exact ⟨rfl, rfl⟩
    · rw [ne j hj]; exact ⟨rfl, rfl⟩
  have sl : Slots h h' := by
    intro j
    by_cases hj : j = x
    · subst hj; rw [sx]; exact ⟨rfl, rfl⟩
    · rw [ne j hj]; exact ⟨rfl, rfl⟩
  have hreg : ∀ c, (h' x).reg c ≠ (h' x).counter := by
    intro c
    rw [sx]
    have := I.dy.le x c
    dsimp only
    omega
  have hclean : ∀ i, Clean h' i → Clean h i := by
    intro i hc
    induction hc with
    | mk P h1 h2 ih =>
      rw [(sh P).2] at h1 ih
      refine ⟨P, fun d hd hne => ?_, ih⟩
      have := h1 d hd hne
      by_cases hj : d.1 = x
      · rw [hj] at this; exact absurd this (hreg _)
      · rwa [ne _ hj] at this
  have st := I.st.congr sh
  refine ⟨⟨⟨st.var, st.op, st.junk, st.dep⟩, ⟨(I.tb.congr sl).ge, (I.tb.congr sl).bin, (I.tb.congr sl).nodup, (I.tb.congr sl).junk⟩, ⟨?_, ?_, ?_⟩⟩, ?_⟩
  · intro i c
    by_cases hi : i = x
    · subst hi
      rw [sx]
      have := I.dy.le i c
      dsimp only
      omega
    · rw [ne i hi]; exact I.dy.le i c
  · intro i hk
    rw [(sh i).1] at hk
    dsimp only
    by_cases hi : i = x
    · subst hi
      rw [sx, hx hk]
    · rw [ne i hi, hval i hi]; exact I.dy.var i hk
  · intro i hc hv
    by_cases hi : i = x
    · subst hi
      rcases hv with hv | ⟨c, -, hv⟩
      · rw [sx] at hv; exact absurd hv (by simp)
      · exact absurd hv (hreg c)
    · rw [ne i hi] at hv ⊢
      rw [I.dy.valid i (hclean i hc) hv]
      exact (I.st.meaning_clean sh x hreg values s.values hval i hi hc).symm
  · intro j c hc hr
    by_cases hj : j = x
    · subst hj; exact absurd hr (hreg c)
    · rw [ne j hj] at hr
      exact ⟨hclean j hc, hr, I.st.meaning_clean sh x hreg values s.values hval j hj hc⟩

end Verif.EvalCache
