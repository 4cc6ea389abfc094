import Verif.Lemmas.EvalCacheInv
/- Evaluation through the cache. -/
set_option linter.unusedSectionVars false
set_option linter.unusedSimpArgs false
set_option linter.unusedVariables false
namespace Verif.EvalCache
open Function
variable {V : Type}

/-- What an evaluation must do. -/
def Good (own : Nat → Nat → Owner) (s : Spec.State V) (h : Heap V) (i c : Nat) (r : V × Heap V) : Prop :=
  r.1 = s.meaning i s.values ∧ Shape h r.2 ∧ Slots h r.2 ∧ Dyn r.2 own s ∧ (∀ j > i, r.2 j = h j) ∧ Kept own h r.2 ∧
    Tells own (fun j c' => j = i ∧ c' = c) h r.2 ∧ Clean r.2 i ∧ (r.2 i).reg c = (r.2 i).counter

theorem operands_good {own : Nat → Nat → Owner} {s : Spec.State V} (rec : Heap V → Nat → Nat → V × Heap V) (i : Nat)
    (ih : ∀ h k c, k < i → Static h own s → Table h own s → Dyn h own s → c < (h k).ids → (own k c).Comp → Good own s h k c (rec h k c))
    (h : Heap V) (t : Static h own s) (d : Dyn h own s) (T : Table h own s) (ks : List (Nat × Nat))
    (hk : ∀ k ∈ ks, k.1 < i ∧ own k.1 k.2 = .child) :
    let r := ks.foldl (operandStep rec) ([], h)
    r.1 = ks.map (fun k => s.meaning k.1 s.values) ∧ Shape h r.2 ∧ Slots h r.2 ∧ Dyn r.2 own s ∧ (∀ j ≥ i, r.2 j = h j) ∧
      Kept own h r.2 ∧ Tells own (fun _ _ => False) h r.2 ∧ ∀ k ∈ ks, Clean r.2 k.1 := by
  induction ks using List.reverseRecOn with
  | nil => exact ⟨rfl, Shape.refl h, Slots.refl h, d, fun _ _ => rfl, Kept.refl own h, Tells.refl own _ h, by simp⟩
  | append_singleton ks k ihk =>
    obtain ⟨e, sh, sl, dy, fr, ke, te, cl⟩ := ihk fun k hk' => hk k (List.mem_append_left _ hk')
    simp only [List.foldl_append, List.foldl_cons, List.foldl_nil]
    set r := ks.foldl (operandStep rec) ([], h) with hr
    clear_value r
    obtain ⟨hlt, hown⟩ := hk k (by simp)
    have hids : k.2 < (r.2 k.1).ids := by
      rw [(sl k.1).1]
      by_contra hc
      have := T.ge k.1 k.2 (by omega)
      rw [hown] at this
      exact absurd this (by simp)
    obtain ⟨e', sh', sl', dy', fr', ke', te', cl', -⟩ := ih r.2 k.1 k.2 hlt (t.congr sh) (T.congr sl) dy hids (by rw [hown]; trivial)
    unfold operandStep
    refine ⟨?_, sh.trans sh', sl.trans sl', dy', fun j hj => (fr' j (by omega)).trans (fr j hj), ke.trans ke',
      te.trans (te'.weaken ?_), ?_⟩
    · dsimp only
      rw [e, e']
      simp
    · rintro j c ⟨rfl, rfl⟩ ho
      rw [hown] at ho
      exact ho
    · intro x hx
      rcases List.mem_append.1 hx with hx | hx
      · exact (ke' _ (cl x hx)).1
      · rw [List.mem_singleton.1 hx]; exact cl'

/-- `evaluate()` of an object that is not yet computed. -/
theorem body_good {own : Nat → Nat → Owner} {s : Spec.State V} (rec : Heap V → Nat → Nat → V × Heap V) (i : Nat)
    (ih : ∀ h k c, k < i → Static h own s → Table h own s → Dyn h own s → c < (h k).ids → (own k c).Comp → Good own s h k c (rec h k c))
    (h : Heap V) (t : Static h own s) (d : Dyn h own s) (T : Table h own s) :
    ((body rec h i) i).buffer = s.meaning i s.values ∧ Shape h (body rec h i) ∧ Slots h (body rec h i) ∧ Dyn (body rec h i) own s ∧
      (∀ j > i, (body rec h i) j = h j) ∧ Kept own h (body rec h i) ∧ Tells own (fun _ _ => False) h (body rec h i) ∧
      (∀ f ch role, (h i).kind = .op f ch role → ∀ k ∈ ch, Clean (body rec h i) k.1) ∧
      ((body rec h i) i).reg = (h i).reg ∧ ((body rec h i) i).counter = (h i).counter := by
  unfold body
  cases hk : (h i).kind with
  | var =>
    dsimp only
    refine ⟨?_, Shape.refl h, Slots.refl h, d, fun _ _ => rfl, Kept.refl own h, Tells.refl own _ h, ?_, rfl, rfl⟩
    · rw [d.var i hk, (t.var i hk).1]
    · intro f ch role hh; exact absurd hh (by simp)
  | op f ch role =>
    dsimp only
    obtain ⟨-, -, hm, hch, -⟩ := t.op i f ch role hk
    obtain ⟨e, sh, sl, dy, fr, ke, te, cl⟩ := operands_good rec i ih h t d T ch fun k hk => ⟨(hch k hk).1, (hch k hk).2.1⟩
    set r := ch.foldl (operandStep rec) ([], h) with hr
    clear_value r
    have hi : r.2 i = h i := fr i (le_refl i)
    set h' := update r.2 i { r.2 i with buffer := f r.1 } with hh'
    have same : ∀ j, h' j = { r.2 j with buffer := (h' j).buffer } := by
      intro j
      rw [hh']
      by_cases hj : j = i
      · subst hj; simp
      · rw [update_of_ne hj]
    have hbuf : ∀ j, j ≠ i → (h' j).buffer = (r.2 j).buffer := by
      intro j hj; rw [hh', update_of_ne hj]
    have hbi : (h' i).buffer = s.meaning i s.values := by
      rw [hh', update_self, hm, e]
    have hcl : ∀ j, Clean h' j ↔ Clean r.2 j := by
      intro j
      constructor
      · intro hc
        induction hc with
        | mk P h1 h2 ih =>
          rw [same P] at h1 ih
          refine ⟨P, fun d hd hne => ?_, fun d hd hne => ih d hd hne⟩
          have := h1 d hd hne
          rw [same d.1] at this
          exact this
      · intro hc
        induction hc with
        | mk P h1 h2 ih =>
          refine ⟨P, fun d hd hne => ?_, fun d hd hne => ?_⟩
          · rw [same P] at hd
            rw [same d.1]; exact h1 d hd hne
          · rw [same P] at hd
            exact ih d hd hne
    have kt := kept_of_same (own := own) (E := fun _ _ => False) hcl (fun j => by rw [same j]) (fun j => by rw [same j])
    have sh2 : Shape r.2 h' := fun j => by rw [same j]; exact ⟨rfl, rfl⟩
    have sl2 : Slots r.2 h' := fun j => by rw [same j]; exact ⟨rfl, rfl⟩
    refine ⟨hbi, sh.trans sh2, sl.trans sl2, ⟨?_, ?_, ?_⟩, ?_, ke.trans kt.2, te.trans kt.1, ?_, ?_, ?_⟩
    · intro j c; rw [same j]; exact dy.le j c
    · intro j hj
      have hji : j ≠ i := by
        rintro rfl
        rw [(sh2 j).1, (sh j).1, hk] at hj
        exact absurd hj (by simp)
      rw [hbuf j hji]
      rw [(sh2 j).1] at hj
      exact dy.var j hj
    · intro j hc hv
      by_cases hj : j = i
      · subst hj; exact hbi
      · rw [hbuf j hj]
        refine dy.valid j ((hcl j).1 hc) ?_
        rw [same j] at hv
        exact hv
    · intro j hj
      rw [hh', update_of_ne (by omega)]
      exact fr j (by omega)
    · intro f' ch' role' hh k hk
      obtain ⟨-, rfl, -⟩ := Kind.op.inj hh
      exact (hcl _).2 (cl k hk)
    · rw [same i]; dsimp only; rw [hi]
    · rw [same i]; dsimp only; rw [hi]

/-- Setting `m_alreadyComputed` on an object whose buffer is right. -/
theorem computed_dyn {own : Nat → Nat → Owner} {s : Spec.State V} (h : Heap V) (i : Nat) (d : Dyn h own s)
    (hb : (h i).buffer = s.meaning i s.values) :
    let h' := update h i { h i with computed := true }
    Shape h h' ∧ Slots h h' ∧ Dyn h' own s ∧ (∀ j, Clean h' j ↔ Clean h j) ∧ (∀ j, (h' j).buffer = (h j).buffer) ∧
      (∀ j, (h' j).reg = (h j).reg) ∧ (∀ j, (h' j).counter = (h j).counter) ∧ ∀ j, j ≠ i → h' j = h j := by
  intro h'
  have same : ∀ j, h' j = { h j with computed := (h' j).computed } := by
    intro j
    by_cases hj : j = i
    · subst hj; simp [h']
    · simp [h', update_of_ne hj]
  have hcl : ∀ j, Clean h' j ↔ Clean h j := by
    intro j
    constructor
    · intro hc
      induction hc with
      | mk P h1 h2 ih =>
        rw [same P] at h1 ih
        refine ⟨P, fun d hd hne => ?_, fun d hd hne => ih d hd hne⟩
        have := h1 d hd hne
        rw [same d.1] at this
        exact this
    · intro hc
      induction hc with
      | mk P h1 h2 ih =>
        refine ⟨P, fun d hd hne => ?_, fun d hd hne => ?_⟩
        · rw [same P] at hd
          rw [same d.1]; exact h1 d hd hne
        · rw [same P] at hd
          exact ih d hd hne
  refine ⟨fun j => by rw [same j]; exact ⟨rfl, rfl⟩, fun j => by rw [same j]; exact ⟨rfl, rfl⟩, ⟨?_, ?_, ?_⟩, hcl, fun j => by rw [same j],
    fun j => by rw [same j], fun j => by rw [same j], fun j hj => update_of_ne hj _ _⟩
  · intro j c; rw [same j]; exact d.le j c
  · intro j hj
    rw [same j] at hj ⊢
    exact d.var j hj
  · intro j hc hv
    by_cases hj : j = i
    · subst hj
      rw [same j]; exact hb
    · have : h' j = h j := update_of_ne hj _ _
      rw [this] at hv ⊢
      exact d.valid j ((hcl j).1 hc) hv

theorem reg_after {own : Nat → Nat → Owner} {s : Spec.State V} {h : Heap V} (t : Static h own s) {i c : Nat} (hc : (own i c).Comp)
    (hr : (h i).reg c = (h i).counter) : ((dependenciesChecked h i) i).reg c = ((dependenciesChecked h i) i).counter := by
  unfold dependenciesChecked
  rw [checkAll]
  dsimp only
  split_ifs
  · rfl
  · exact hr

/-- After its operands have been evaluated and its dependencies marked, an object is clean. -/
theorem clean_after {own : Nat → Nat → Owner} {s : Spec.State V} {h : Heap V} (t : Static h own s) {i : Nat}
    (hch : ∀ f ch role, (h i).kind = .op f ch role → ∀ k ∈ ch, Clean h k.1) : Clean (dependenciesChecked h i) i := by
  rw [clean_iff]
  have hd' : ((dependenciesChecked h i) i).deps = (h i).deps := by unfold dependenciesChecked; rw [checkAll]
  rw [hd']
  intro d hd hne
  constructor
  · unfold dependenciesChecked
    rw [checkAll]
    dsimp only
    rw [if_pos hd]
  · apply clean_depCheck_mono
    cases hk : (h i).kind with
    | var => exact absurd ((t.var i hk).2.2 d hd) hne
    | op f ch role =>
      obtain ⟨-, k, hk', hg⟩ := (t.op i f ch role hk).2.2.2.2 d hd
      have hck := hch f ch role hk k hk'
      have hdep : ∀ j ∈ (h k.1).deps.map Prod.fst, Clean h j := by
        intro j hj
        obtain ⟨e, he, rfl⟩ := List.mem_map.1 hj
        by_cases hee : e.1 = k.1
        · rw [hee]; exact hck
        · exact ((clean_iff h k.1).1 hck e he hee).2
      unfold getDependencies at hg
      split at hg
      · rw [List.mem_singleton.1 hg]; exact hck
      · exact hdep _ hg
      · rcases List.mem_append.1 hg with hg | hg
        · exact hdep _ hg
        · rw [List.mem_singleton.1 hg]; exact hck
      · rw [List.mem_singleton.1 hg]; exact hck

theorem evaluateF_good {own : Nat → Nat → Owner} {s : Spec.State V} (fuel : Nat) : ∀ (h : Heap V) (i c : Nat), i < fuel →
    Static h own s → Table h own s → Dyn h own s → c < (h i).ids → (own i c).Comp → Good own s h i c (evaluateF fuel h i c) := by
  induction fuel with
  | zero => intro h i c hi; omega
  | succ fuel ih =>
    intro h i c hi t T d hc hcomp
    simp only [evaluateF]
    rw [if_pos hc]
    obtain ⟨b, fr, e, un⟩ := isNewF_spec (i + 1) h i c (by omega) d.le t.older
    have hfold : isNewF (i + 1) h i c = isNew h i c := rfl
    rw [hfold] at b fr e un
    set r := isNew h i c with hr
    clear_value r
    have dy := b.dyn (own := own) d
    have tt := t.congr b.shape
    have TT := T.congr b.slots
    by_cases h1 : r.1 = true
    · rw [if_pos h1]
      by_cases h2 : (r.2 i).computed = true
      · rw [if_pos h2]
        have hcl : Clean h i := by
          by_contra hn
          rw [(un hn).2] at h2
          exact absurd h2 (by simp)
        have hcl' := (b.clean d.le i).1 hcl
        have hb := dy.valid i hcl' (Or.inl h2)
        have t2 := tt.congr (checkID_shape r.2 i c).1
        have d2 := checkID_dyn tt hcomp hb dy
        have hcl2 : Clean (checkID r.2 i c) i := (clean_checkID tt hcomp i).2 hcl'
        have hb2 : ((checkID r.2 i c) i).buffer = s.meaning i s.values := by rw [checkID_buffer]; exact hb
        have kt := depCheck_tells t2 (fun j c' => j = i ∧ c' = c) (Or.inl hcl2) (Or.inl hcl2)
        refine ⟨?_, ?_, ?_, depCheck_dyn t2 (Or.inl hcl2) hb2 d2, ?_, ?_, ?_, ?_, ?_⟩
        · dsimp only; rw [depCheck_buffer]; exact hb2
        · exact (b.shape.trans (checkID_shape r.2 i c).1).trans (depCheck_shape _ i).1
        · exact (b.slots.trans (checkID_shape r.2 i c).2).trans (depCheck_shape _ i).2
        · intro j hj
          dsimp only
          rw [depCheck_frame t2.older j hj]
          unfold checkID
          rw [update_of_ne (by omega)]
          exact fr j hj
        · exact ((b.tells d.le own (fun _ _ => False)).2.trans (checkID_tells tt hcomp).2).trans kt.2
        · exact ((b.tells d.le own _).1.trans (checkID_tells tt hcomp).1).trans kt.1
        · exact clean_depCheck_mono i hcl2
        · exact reg_after t2 hcomp (by simp [checkID])
      · rw [if_neg h2]
        obtain ⟨hb, bsh, bsl, bd, bfr, bke, bte, bch, breg, bcnt⟩ := body_good (evaluateF fuel) i (fun h' k c hk => ih h' k c (by omega)) r.2 tt dy TT
        set h3 := body (evaluateF fuel) r.2 i with hh3
        clear_value h3
        have t3 := tt.congr bsh
        have d4 := checkID_dyn t3 hcomp hb bd
        have hb4 : ((checkID h3 i c) i).buffer = s.meaning i s.values := by rw [checkID_buffer]; exact hb
        have t4 := t3.congr (checkID_shape h3 i c).1
        obtain ⟨sh5, sl5, d5, cl5, b5, reg5, cnt5, fr5⟩ := computed_dyn (checkID h3 i c) i d4 hb4
        set h5 := update (checkID h3 i c) i { (checkID h3 i c) i with computed := true } with hh5
        have hb5 : (h5 i).buffer = s.meaning i s.values := by rw [b5]; exact hb4
        have t5 := t4.congr sh5
        clear_value h5
        have kt5 := kept_of_same (own := own) (E := fun j c' => j = i ∧ c' = c) cl5 reg5 cnt5
        have kept5 : Kept own h h5 := (((b.tells d.le own (fun _ _ => False)).2.trans bke).trans (checkID_tells t3 hcomp).2).trans kt5.2
        have tells5 : Tells own (fun j c' => j = i ∧ c' = c) h h5 :=
          (((b.tells d.le own _).1.trans (bte.weaken fun _ _ x _ => x.elim)).trans (checkID_tells t3 hcomp).1).trans kt5.1
        have hor0 : Clean h5 i ∨ ∀ c', c' ≠ c → (h5 i).reg c' < (h5 i).counter := by
          by_cases hcl : Clean h i
          · exact Or.inl (kept5 i hcl).1
          · right
            intro c' hne
            rw [reg5, cnt5]
            unfold checkID
            rw [update_self]
            dsimp only
            rw [update_of_ne hne, breg, bcnt, b.reg i]
            exact lt_of_le_of_lt (d.le i c') (un hcl).1
        have hor : Clean h5 i ∨ ∀ c' P, own i c' = .dep P → (h5 i).reg c' < (h5 i).counter := by
          refine hor0.imp id fun hh c' P hP => hh c' ?_
          rintro rfl
          rw [hP] at hcomp
          exact hcomp
        have kt := depCheck_tells t5 (fun j c' => j = i ∧ c' = c) hor (hor0.imp id fun hh c' hE _ => hh c' fun e => hE ⟨rfl, e⟩)
        have hchild : ∀ f ch role, (h5 i).kind = .op f ch role → ∀ k ∈ ch, Clean h5 k.1 := by
          intro f ch role hk k hk'
          rw [(sh5 i).1, ((checkID_shape h3 i c).1 i).1, (bsh i).1] at hk
          exact (cl5 _).2 ((clean_checkID t3 hcomp _).2 (bch f ch role hk k hk'))
        refine ⟨?_, ?_, ?_, depCheck_dyn t5 hor hb5 d5, ?_, kept5.trans kt.2, tells5.trans kt.1, clean_after t5 hchild, ?_⟩
        · dsimp only; rw [depCheck_buffer]; exact hb5
        · exact (((b.shape.trans bsh).trans (checkID_shape h3 i c).1).trans sh5).trans (depCheck_shape _ i).1
        · exact (((b.slots.trans bsl).trans (checkID_shape h3 i c).2).trans sl5).trans (depCheck_shape _ i).2
        · intro j hj
          dsimp only
          rw [depCheck_frame t5.older j hj, fr5 j (by omega)]
          unfold checkID
          rw [update_of_ne (by omega), bfr j hj]
          exact fr j hj
        · refine reg_after t5 hcomp ?_
          rw [reg5, cnt5]
          simp [checkID]
    · rw [if_neg h1]
      have hh : Clean h i ∧ (h i).reg c = (h i).counter := by
        by_contra hn
        exact h1 (e.2 hn)
      refine ⟨?_, b.shape, b.slots, dy, fun j hj => fr j hj, (b.tells d.le own (fun _ _ => False)).2, (b.tells d.le own _).1,
        (b.clean d.le i).1 hh.1, by dsimp only; rw [b.same hh.1]; exact hh.2⟩
      dsimp only
      rw [b.same hh.1]
      exact d.valid i hh.1 (Or.inr ⟨c, hcomp, hh.2⟩)

end Verif.EvalCache
