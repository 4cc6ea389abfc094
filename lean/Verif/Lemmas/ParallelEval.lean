import Verif.Lemmas.ParallelSafe
/- The parallel evaluation keeps the invariant, whatever the other threads do. -/
set_option linter.unusedSectionVars false
set_option linter.unusedSimpArgs false
set_option linter.unusedVariables false
namespace Verif.Parallel
open Verif.EvalCache Function
variable {V : Type} {g : Heap V} {s : Spec.State V} {post : V → Prop} {t : Nat} {own : Nat → Nat → Owner}

theorem ask_fixed {j c : Nat} {b : Bool} {k : Bool → Prog V} {m : Mem V} (hc : Clean g j)
    (hst : ∀ m', Rely g s t m m' → J g s m' → decide ((m'.heap j).reg c ≠ (m'.heap j).counter) = b)
    (hm : ∀ m', Rely g s t m m' → J g s m' → MayReg g t m' j c)
    (hk : ∀ m', Rely g s t m m' → J g s m' → Safe g s post t (k b) m') : Safe g s post t (askReg j c k) m := by
  refine safe_readReg fun m1 r1 j1 => ⟨hm m1 r1 j1, safe_readCounter fun m2 r2 j2 => ⟨Or.inr hc, ?_⟩⟩
  have e : (m2.heap j).counter = (m1.heap j).counter := by rw [(j1.fixed j hc).1, (j2.fixed j hc).1]
  rw [e, hst m1 r1 j1]
  exact hk m2 (r1.trans r2) j2

theorem deps_fixed (C : Ctx g own s) (fuel j : Nat) (hlt : j ≤ fuel) (hc : Clean g j) (hin : ∃ l, ∃ d ∈ (g l).deps, d.1 = j ∧ d.1 ≠ l)
    (ih : ∀ (j' c : Nat) (b : Bool) (k : Bool → Prog V) (m : Mem V), j' < fuel → Clean g j' → (∃ l, ∃ d ∈ (g l).deps, d.1 = j' ∧ d.1 ≠ l) →
      (∀ m', Rely g s t m m' → J g s m' → decide ((m'.heap j').reg c ≠ (m'.heap j').counter) = b) →
      (∀ m', Rely g s t m m' → J g s m' → MayReg g t m' j' c) →
      (∀ m', Rely g s t m m' → J g s m' → Safe g s post t (k b) m') → Safe g s post t (isNewP g fuel j' c k) m)
    (ds : List (Nat × Nat)) (hds : ∀ d ∈ ds, d ∈ (g j).deps) (m : Mem V) (k : Bool → Prog V)
    (hk : ∀ m', Rely g s t m m' → J g s m' → Safe g s post t (k false) m') : Safe g s post t (newDeps (isNewP g fuel) j k ds) m := by
  induction ds generalizing m with
  | nil => exact safe_intro hk
  | cons d ds ihd =>
    have ih' := ihd fun d hd => hds d (by simp [hd])
    have hd := hds d (by simp)
    simp only [newDeps]
    by_cases e : d.1 = j
    · rw [if_pos e]; exact ih' m hk
    · rw [if_neg e]
      have hv : (g j).kind ≠ .var := fun hv => e ((C.st.var j hv).2.2 d hd)
      refine ih d.1 d.2 false _ m (by have := C.st.older j d hd; omega) (C.ready j d hd e) ⟨j, d, hd, rfl, e⟩ ?_ ?_ ?_
      · intro m' _ j'
        have := (j'.fixed j hc).2 d hd e
        simp [this]
      · intro m' _ _
        exact Or.inr ⟨j, hd, Or.inr ⟨hv, hin⟩⟩
      · intro m' r j'
        simp only [Bool.false_eq_true, if_false]
        exact ih' m' fun m'' r' j'' => hk m'' (r.trans r') j''

/-- `isNew` of an object that is not waiting for a change. -/
theorem isNew_fixed (C : Ctx g own s) (fuel : Nat) : ∀ (j c : Nat) (b : Bool) (k : Bool → Prog V) (m : Mem V), j < fuel → Clean g j →
      (∃ l, ∃ d ∈ (g l).deps, d.1 = j ∧ d.1 ≠ l) →
      (∀ m', Rely g s t m m' → J g s m' → decide ((m'.heap j).reg c ≠ (m'.heap j).counter) = b) →
      (∀ m', Rely g s t m m' → J g s m' → MayReg g t m' j c) →
      (∀ m', Rely g s t m m' → J g s m' → Safe g s post t (k b) m') → Safe g s post t (isNewP g fuel j c k) m := by
  induction fuel with
  | zero => intro j c b k m hj; omega
  | succ fuel ih =>
    intro j c b k m hj hc hin hst hm hk
    simp only [isNewP]
    refine deps_fixed C fuel j (by omega) hc hin ih _ (fun d hd => hd) m _ fun m' r j' => ?_
    simp only [Bool.false_eq_true, if_false]
    exact ask_fixed hc (fun m'' r' => hst m'' (r.trans r')) (fun m'' r' => hm m'' (r.trans r')) fun m'' r' => hk m'' (r.trans r')

/-- The loop of `isNew`, for an object that `t` has locked. -/
theorem deps_own (C : Ctx g own s) (fuel i : Nat) (hlt : i ≤ fuel) (ds : List (Nat × Nat)) (hds : ∀ d ∈ ds, d ∈ (g i).deps) (m : Mem V) (k : Bool → Prog V)
    (h0 : J g s m) (hl : m.lock i = some t)
    (hF : (∀ d ∈ ds, d.1 ≠ i → (m.heap d.1).reg d.2 = (m.heap d.1).counter) → ∀ m', Rely g s t m m' → J g s m' → Safe g s post t (k false) m')
    (hT : (∃ d ∈ ds, d.1 ≠ i ∧ (m.heap d.1).reg d.2 ≠ (m.heap d.1).counter) → ∀ m', Rely g s t m m' → J g s m' → Safe g s post t (k true) m') :
    Safe g s post t (newDeps (isNewP g fuel) i k ds) m := by
  induction ds generalizing m with
  | nil => exact safe_intro (hF (by simp))
  | cons d ds ihd =>
    have ih' := ihd fun d hd => hds d (by simp [hd])
    have hd := hds d (by simp)
    simp only [newDeps]
    by_cases e : d.1 = i
    · rw [if_pos e]
      refine ih' m h0 hl (fun a => hF ?_) (fun ⟨x, hx, a⟩ => hT ⟨x, by simp [hx], a⟩)
      intro x hx hne
      rcases List.mem_cons.1 hx with rfl | hx
      · exact absurd e hne
      · exact a x hx hne
    · rw [if_neg e]
      have hc := C.ready i d hd e
      have stable : ∀ {e' : Nat × Nat}, e' ∈ (g i).deps → e'.1 ≠ i → ∀ m', Rely g s t m m' → J g s m' →
          (m'.heap e'.1).reg e'.2 = (m.heap e'.1).reg e'.2 ∧ (m'.heap e'.1).counter = (m.heap e'.1).counter := by
        intro e' he' hne m' r j'
        have hc := C.ready i e' he' hne
        exact ⟨(r.loc i hl).deps e' he', by rw [(h0.fixed _ hc).1, (j'.fixed _ hc).1]⟩
      refine isNew_fixed C fuel d.1 d.2 (decide ((m.heap d.1).reg d.2 ≠ (m.heap d.1).counter)) _ m (by have := C.st.older i d hd; omega) hc ⟨i, d, hd, rfl, e⟩ ?_ ?_ ?_
      · intro m' r j'
        obtain ⟨a, b⟩ := stable hd e m' r j'
        rw [a, b]
      · intro m' r _
        exact Or.inr ⟨i, hd, Or.inl ((r.lock i).1 hl)⟩
      · intro m' r j'
        by_cases hn : (m.heap d.1).reg d.2 ≠ (m.heap d.1).counter
        · rw [if_pos (by simpa using hn)]
          exact hT ⟨d, by simp, e, hn⟩ m' r j'
        · rw [if_neg (by simpa using hn)]
          refine ih' m' j' ((r.lock i).1 hl) (fun a m'' r' j'' => hF ?_ m'' (r.trans r') j'') (fun ⟨x, hx, hne, a⟩ m'' r' j'' => hT ⟨x, by simp [hx], hne, ?_⟩ m'' (r.trans r') j'')
          · intro x hx hne
            rcases List.mem_cons.1 hx with rfl | hx
            · exact not_not.1 hn
            · have := a x hx hne
              obtain ⟨p, q⟩ := stable (hds x (by simp [hx])) hne m' r j'
              rwa [p, q] at this
          · obtain ⟨p, q⟩ := stable (hds x (by simp [hx])) hne m' r j'
            rwa [p, q] at a

/-- `isNew` of an object that `t` has locked. -/
theorem isNew_own (C : Ctx g own s) (i c : Nat) (hc : (own i c).Comp) (m0 m : Mem V) (k : Bool → Prog V) (h0 : J g s m) (sub : Sub g s t i m0 m)
    (hF : UpTo g m.heap i → ∀ m', Rely g s t m m' → J g s m' → Safe g s post t (k (decide ((m.heap i).reg c ≠ (m.heap i).counter))) m')
    (hT : ∀ m', Sub g s t i m0 m' → J g s m' → (m'.heap i).computed = false → Safe g s post t (k true) m') :
    Safe g s post t (isNewP g (i + 1) i c k) m := by
  simp only [isNewP]
  have hl := sub.held
  refine deps_own C i i le_rfl _ (fun d hd => hd) m _ h0 hl ?_ ?_
  · intro up m1 r1 j1
    simp only [Bool.false_eq_true, if_false]
    refine safe_readReg fun m2 r2 j2 => ⟨Or.inl ⟨((r1.trans r2).lock i).1 hl, comp_free C hc⟩, safe_readCounter fun m3 r3 j3 => ⟨Or.inl (((r1.trans r2).trans r3).lock i |>.1 hl), ?_⟩⟩
    have a := ((r1.trans r2).loc i hl).reg c (comp_free C hc)
    have b := (((r1.trans r2).trans r3).loc i hl).counter
    rw [a, b]
    exact hF up m3 ((r1.trans r2).trans r3) j3
  · rintro ⟨d, hd, hne, hn⟩ m1 r1 j1
    simp only [if_true]
    have nup : ¬ UpTo g m.heap i := fun up => hn (up d hd hne)
    have ncl : ¬ Clean g i := fun hcl => nup (h0.fixed i hcl).2
    have nvar : (g i).kind ≠ .var := fun hv => nup (upTo_var C hv _)
    have nset : ∀ m', Rely g s t m m' → J g s m' → ¬ Settled g s m' i := by
      intro m' r j' hset
      rcases hset with hv | ⟨up, -⟩
      · exact nvar hv
      · exact nup ((upTo_rely C h0 j' hl r).1 up)
    refine safe_readCounter fun m2 r2 j2 => ⟨Or.inl ((r1.trans r2).lock i |>.1 hl), ?_⟩
    have r12 := r1.trans r2
    have l2 := (r12.lock i).1 hl
    refine safe_write (f := fun m' => m'.modify i { m'.heap i with counter := (m2.heap i).counter + 1 }) (fun _ => rfl) (fun _ h => by simp at h) fun m3 r3 j3 => ?_
    have r13 := r12.trans r3
    have l3 := (r13.lock i).1 hl
    have hcnt : (m3.heap i).counter = (m2.heap i).counter := (r3.loc i l2).counter
    obtain ⟨j4, o4, up4⟩ := own_write C j3 l3 { m3.heap i with counter := (m2.heap i).counter + 1 } rfl rfl rfl rfl
      (fun c => by have := j3.le i c; dsimp only; omega) (fun _ => rfl) (fun h => absurd h ncl) (fun _ _ _ => rfl) (fun h => absurd h (nset m3 r13 j3))
    have sub4 := (sub.rely r13).mine o4
    refine ⟨⟨l3, ncl⟩, j4, o4.guar l3, ?_⟩
    set m4 := m3.modify i { m3.heap i with counter := (m2.heap i).counter + 1 } with hm4
    have nup4 : ¬ UpTo g m4.heap i := fun up => nup ((upTo_rely C h0 j3 hl r13).1 ((up4 i).1 up))
    have reg4 : (m4.heap i).reg c < (m4.heap i).counter := by
      have e : m4.heap i = { m3.heap i with counter := (m2.heap i).counter + 1 } := update_self _ _ _
      rw [e]
      have := j3.le i c
      dsimp only
      omega
    refine safe_write (f := fun m' => m'.modify i { m'.heap i with computed := false }) (fun _ => rfl) (fun _ h => by simp at h) fun m5 r5 j5 => ?_
    have l4 := sub4.held
    have l5 := (r5.lock i).1 l4
    have nset5 : ¬ Settled g s m5 i := by
      intro hset
      rcases hset with hv | ⟨up, -⟩
      · exact nvar hv
      · exact nup4 ((upTo_rely C j4 j5 l4 r5).1 up)
    obtain ⟨j6, o6, up6⟩ := own_write C j5 l5 { m5.heap i with computed := false } rfl rfl rfl rfl (fun c => j5.le i c) (fun _ => rfl) (fun _ => rfl) (fun _ _ _ => rfl)
      (fun h => absurd h nset5)
    have sub6 := (sub4.rely r5).mine o6
    refine ⟨l5, j6, o6.guar l5, ?_⟩
    set m6 := m5.modify i { m5.heap i with computed := false } with hm6
    have e6 : m6.heap i = { m5.heap i with computed := false } := update_self _ _ _
    have reg6 : (m6.heap i).reg c < (m6.heap i).counter := by
      rw [e6]
      have a := (r5.loc i l4).reg c (comp_free C hc)
      have b := (r5.loc i l4).counter
      dsimp only
      rw [a, b]; exact reg4
    have cp6 : (m6.heap i).computed = false := by rw [e6]
    have l6 := sub6.held
    refine safe_readReg fun m7 r7 j7 => ⟨Or.inl ⟨(r7.lock i).1 l6, comp_free C hc⟩, safe_readCounter fun m8 r8 j8 => ⟨Or.inl ((r7.trans r8).lock i |>.1 l6), ?_⟩⟩
    have a := (r7.loc i l6).reg c (comp_free C hc)
    have b := ((r7.trans r8).loc i l6).counter
    have c8 := ((r7.trans r8).loc i l6).computed
    rw [a, b, decide_eq_true (by omega : (m6.heap i).reg c ≠ (m6.heap i).counter)]
    exact hT m8 (sub6.rely (r7.trans r8)) j8 (by rw [c8, cp6])

/-- `checkID` of an object that `t` has locked. -/
theorem check_own (C : Ctx g own s) (i c : Nat) (hc : (own i c).Comp) (m0 m : Mem V) (k : Prog V) (sub : Sub g s t i m0 m)
    (hk : ∀ m', Sub g s t i m0 m' → J g s m' → (m'.heap i).computed = (m.heap i).computed → (m'.heap i).buffer = (m.heap i).buffer → Safe g s post t k m') :
    Safe g s post t (checkP i c k) m := by
  have l := sub.held
  refine safe_readCounter fun m1 r1 j1 => ⟨Or.inl ((r1.lock i).1 l), ?_⟩
  have l1 := (r1.lock i).1 l
  refine safe_write (f := fun m' => m'.modify i { m'.heap i with reg := update (m'.heap i).reg c (m1.heap i).counter }) (fun _ => rfl) (fun _ h => by simp at h) fun m2 r2 j2 => ?_
  have l2 := (r2.lock i).1 l1
  have hcnt := (r2.loc i l1).counter
  obtain ⟨j3, o3, up3⟩ := own_write C j2 l2 { m2.heap i with reg := update (m2.heap i).reg c (m1.heap i).counter } rfl rfl rfl rfl
    (fun x => by
      dsimp only
      by_cases e : x = c
      · subst e; rw [update_self]; omega
      · rw [update_of_ne e]; exact j2.le i x) (fun _ => rfl) (fun _ => rfl)
    (fun x l hx => by
      dsimp only
      have : x ≠ c := fun e => comp_free C hc l (e ▸ hx)
      rw [update_of_ne this])
    (fun hset => by
      rcases hset with hv | ⟨-, y, -⟩
      · exact Or.inr hv
      · exact Or.inl ⟨y, rfl⟩)
  refine ⟨Or.inl ⟨l2, comp_free C hc⟩, j3, o3.guar l2, hk _ ((sub.rely (r1.trans r2)).mine o3) j3 ?_ ?_⟩
  · have e : (m2.modify i { m2.heap i with reg := update (m2.heap i).reg c (m1.heap i).counter }).heap i = { m2.heap i with reg := update (m2.heap i).reg c (m1.heap i).counter } := update_self _ _ _
    rw [e]
    exact ((r1.trans r2).loc i l).computed
  · have e : (m2.modify i { m2.heap i with reg := update (m2.heap i).reg c (m1.heap i).counter }).heap i = { m2.heap i with reg := update (m2.heap i).reg c (m1.heap i).counter } := update_self _ _ _
    rw [e]
    exact ((r1.trans r2).loc i l).buffer

/-- `dependenciesChecked` of an object that `t` has locked. -/
theorem checkAll_own (C : Ctx g own s) (i : Nat) (m0 : Mem V) (k : Prog V)
    (hk : ∀ m', Sub g s t i m0 m' → J g s m' → (m'.heap i).computed = true → (m'.heap i).buffer = val s i → UpTo g m'.heap i → Safe g s post t k m')
    (ds : List (Nat × Nat)) (hds : ∀ d ∈ ds, d ∈ (g i).deps) (m : Mem V) (h0 : J g s m) (sub : Sub g s t i m0 m)
    (hc : (m.heap i).computed = true) (hb : (m.heap i).buffer = val s i)
    (hu : ∀ d ∈ (g i).deps, d.1 ≠ i → d ∈ ds ∨ (m.heap d.1).reg d.2 = (m.heap d.1).counter) : Safe g s post t (checkAllP k ds) m := by
  induction ds generalizing m with
  | nil => exact hk m sub h0 hc hb fun d hd hne => by simpa using hu d hd hne
  | cons d ds ih =>
    have hd := hds d (by simp)
    have l := sub.held
    have stable : ∀ {m1 m2 : Mem V}, J g s m1 → J g s m2 → m1.lock i = some t → Rely g s t m1 m2 → ∀ e ∈ (g i).deps, (m2.heap e.1).reg e.2 = (m1.heap e.1).reg e.2 ∧ (m2.heap e.1).counter = (m1.heap e.1).counter := by
      intro m1 m2 j1 j2 l1 r e he
      refine ⟨(r.loc i l1).deps e he, ?_⟩
      by_cases hne : e.1 = i
      · rw [hne]; exact (r.loc i l1).counter
      · have hc := C.ready i e he hne
        rw [(j1.fixed _ hc).1, (j2.fixed _ hc).1]
    simp only [checkAllP, checkP]
    refine safe_readCounter fun m1 r1 j1 => ⟨?_, ?_⟩
    · by_cases hne : d.1 = i
      · rw [hne]; exact Or.inl ((r1.lock i).1 l)
      · exact Or.inr (C.ready i d hd hne)
    have l1 := (r1.lock i).1 l
    refine safe_write (f := fun m' => m'.modify d.1 { m'.heap d.1 with reg := update (m'.heap d.1).reg d.2 (m1.heap d.1).counter }) (fun _ => rfl) (fun _ h => by simp at h) fun m2 r2 j2 => ?_
    have l2 := (r2.lock i).1 l1
    rw [← (stable j1 j2 l1 r2 d hd).2]
    obtain ⟨j3, o3, rest, reg⟩ := dep_write C j2 l2 d hd
    have r := r1.trans r2
    refine ⟨Or.inr ⟨i, hd, Or.inl l2⟩, j3, o3.guar l2, ih (fun d hd => hds d (by simp [hd])) _ j3 ((sub.rely r).mine o3) ?_ ?_ ?_⟩
    · rw [(rest i).2.1, (r.loc i l).computed]; exact hc
    · rw [(rest i).2.2, (r.loc i l).buffer]; exact hb
    · intro e he hne
      rw [reg, (rest e.1).1]
      by_cases hed : (e.1, e.2) = d
      · rw [if_pos hed]; exact Or.inr rfl
      · rw [if_neg hed]
        rcases hu e he hne with h | h
        · rcases List.mem_cons.1 h with h | h
          · exact absurd h hed
          · exact Or.inl h
        · refine Or.inr ?_
          obtain ⟨a, b⟩ := stable h0 j2 l r e he
          rw [a, b]; exact h

/-- The end of an evaluation. -/
theorem finish (C : Ctx g own s) (i : Nat) (m0 m : Mem V) (k : Prog V) (sub : Sub g s t i m0 m) (h0 : J g s m) (q : Quiet g s m i) (hset : Settled g s m i)
    (hk : ∀ m', Rely g s t m0 m' → J g s m' → Settled g s m' i → Safe g s post t k m') : Safe g s post t (.unlock i k) m := by
  have l := sub.held
  refine safe_unlock fun m1 r j1 => ⟨(r.lock i).1 l, ⟨?_, ?_⟩, ?_⟩
  · intro hcomp c hreg
    by_cases hx : ∃ j, (i, c) ∈ (g j).deps
    · exact hx
    · have := (r.loc i l).reg c (fun j hj => hx ⟨j, hj⟩)
      rw [this, (r.loc i l).counter] at hreg
      exact q.told (by rw [← (r.loc i l).computed]; exact hcomp) c hreg
  · intro up hcomp
    rw [(r.loc i l).buffer]
    exact q.valid ((upTo_rely C h0 j1 l r).1 up) (by rw [← (r.loc i l).computed]; exact hcomp)
  · have sub1 := sub.rely r
    have hs1 := r.settled i hset
    refine safe_intro fun m2 r2 j2 => ?_
    refine hk m2 ?_ j2 (r2.settled i (Settled.heap (m := m1) rfl hs1))
    refine Rely.trans ⟨?_, ?_, ?_⟩ r2
    · intro j
      by_cases hj : j = i
      · subst hj
        simp only [unlocked, update_self]
        exact ⟨fun h => absurd h sub.free, fun h => by simp at h⟩
      · simp only [unlocked, update_of_ne hj]
        exact sub1.locks j hj
    · intro j hj
      exact (sub1.loc j hj).trans (Loc.heap rfl)
    · intro j hj
      exact Settled.heap (m := m1) rfl (sub1.settled j hj)

/-- The buffers of the operands are read. -/
theorem reads_safe (C : Ctx g own s) (js : List Nat) (m : Mem V) (k : List V → Prog V) (hs : ∀ j ∈ js, Settled g s m j)
    (hk : ∀ m', Rely g s t m m' → J g s m' → Safe g s post t (k (js.map (val s))) m') : Safe g s post t (readsP k js) m := by
  induction js generalizing m k with
  | nil => exact safe_intro hk
  | cons j js ih =>
    refine safe_readBuffer fun m1 r1 j1 => ⟨r1.settled j (hs j (by simp)), ?_⟩
    rw [Settled.value C j1 (r1.settled j (hs j (by simp)))]
    exact ih m1 _ (fun j hj => r1.settled j (hs j (by simp [hj]))) fun m2 r2 j2 => hk m2 (r1.trans r2) j2

/-- What an evaluation of `j` does. -/
def EvalSafe (g : Heap V) (s : Spec.State V) (post : V → Prop) (t : Nat) (own : Nat → Nat → Owner) (rec : Nat → Nat → Prog V → Prog V) (i : Nat) : Prop :=
  ∀ (j c : Nat) (k : Prog V) (m : Mem V), j < i → (own j c).Comp → (∀ l, m.lock l = some t → j < l) →
    (∀ m', Rely g s t m m' → J g s m' → Settled g s m' j → Safe g s post t k m') → Safe g s post t (rec j c k) m

theorem operands_safe {rec : Nat → Nat → Prog V → Prog V} {i : Nat} (hrec : EvalSafe g s post t own rec i) (ch : List (Nat × Nat))
    (hch : ∀ x ∈ ch, x.1 < i ∧ own x.1 x.2 = .child) (m : Mem V) (k : Prog V) (hlk : ∀ l, m.lock l = some t → i ≤ l)
    (hk : ∀ m', Rely g s t m m' → J g s m' → (∀ x ∈ ch, Settled g s m' x.1) → Safe g s post t k m') : Safe g s post t (operandsP rec k ch) m := by
  induction ch generalizing m with
  | nil => exact safe_intro fun m' r j' => hk m' r j' (by simp)
  | cons x ch ih =>
    obtain ⟨a, b⟩ := hch x (by simp)
    refine hrec x.1 x.2 _ m a (by rw [b]; trivial) (fun l hl => by have := hlk l hl; omega) fun m1 r1 j1 s1 => ?_
    refine ih (fun x hx => hch x (by simp [hx])) m1 (fun l hl => hlk l ((r1.lock l).2 hl)) fun m2 r2 j2 s2 => hk m2 (r1.trans r2) j2 ?_
    intro y hy
    rcases List.mem_cons.1 hy with rfl | hy
    · exact r2.settled _ s1
    · exact s2 y hy

/-- A write to the buffer of an object that `t` has locked, not computed. -/
theorem buffer_own (C : Ctx g own s) {i : Nat} {f : List V → V} {ch : List (Nat × Nat)} {role : Role} (hkind : (g i).kind = .op f ch role) (v : V) (m0 m : Mem V) (k : Prog V)
    (sub : Sub g s t i m0 m) (hc : (m.heap i).computed = false)
    (hk : ∀ m', Sub g s t i m0 m' → J g s m' → (m'.heap i).computed = false → (m'.heap i).buffer = v → (∀ j, Settled g s m j → Settled g s m' j) →
      (∀ l, m.lock l = some t ↔ m'.lock l = some t) → Safe g s post t k m') :
    Safe g s post t (.writeBuffer i v k) m := by
  have l := sub.held
  refine safe_write (f := fun m' => m'.modify i { m'.heap i with buffer := v }) (fun _ => rfl) (fun _ h => by simp at h) fun m1 r1 j1 => ?_
  have l1 := (r1.lock i).1 l
  have c1 : (m1.heap i).computed = false := by rw [(r1.loc i l).computed]; exact hc
  have ns : ¬ Settled g s m1 i := by
    rintro (h | ⟨-, h, -⟩)
    · rw [hkind] at h; simp at h
    · rw [c1] at h; simp at h
  obtain ⟨j2, o2, -⟩ := own_write C j1 l1 { m1.heap i with buffer := v } rfl rfl rfl rfl (fun c => j1.le i c) (fun h => by rw [hkind] at h; simp at h) (fun _ => rfl)
    (fun _ _ _ => rfl) (fun h => absurd h ns)
  have e : (m1.modify i { m1.heap i with buffer := v }).heap i = { m1.heap i with buffer := v } := update_self _ _ _
  refine ⟨⟨l1, ns⟩, j2, o2.guar l1, hk _ ((sub.rely r1).mine o2) j2 (by rw [e]; exact c1) (by rw [e]) (fun j hj => o2.settled j (r1.settled j hj)) fun l => ?_⟩
  rw [o2.lock]
  exact r1.lock l

theorem each_safe (C : Ctx g own s) {rec : Nat → Nat → Prog V → Prog V} {i : Nat} (hrec : EvalSafe g s post t own rec i) {f : List V → V} {ch0 : List (Nat × Nat)} {role : Role}
    (hkind : (g i).kind = .op f ch0 role) (part : V) (ch : List (Nat × Nat))
    (hch : ∀ x ∈ ch, x.1 < i ∧ own x.1 x.2 = .child) (m0 m : Mem V) (k : List V → Prog V) (hlk : ∀ l, m.lock l = some t → i ≤ l) (h0 : J g s m)
    (sub : Sub g s t i m0 m) (hc : (m.heap i).computed = false)
    (hk : ∀ m', Sub g s t i m0 m' → J g s m' → (m'.heap i).computed = false → Safe g s post t (k (ch.map fun x => val s x.1)) m') :
    Safe g s post t (eachP rec i part k ch) m := by
  induction ch generalizing m k with
  | nil => exact hk m sub h0 hc
  | cons x ch ih =>
    obtain ⟨a, b⟩ := hch x (by simp)
    have l := sub.held
    refine hrec x.1 x.2 _ m a (by rw [b]; trivial) (fun l hl => by have := hlk l hl; omega) fun m1 r1 j1 s1 => ?_
    refine safe_readBuffer fun m2 r2 j2 => ⟨r2.settled _ s1, ?_⟩
    rw [Settled.value C j2 (r2.settled _ s1)]
    have r := r1.trans r2
    refine buffer_own C hkind part m0 m2 _ (sub.rely r) (by rw [(r.loc i l).computed]; exact hc) fun m3 sub3 j3 c3 _ _ lk3 => ?_
    exact ih (fun x hx => hch x (by simp [hx])) m3 _ (fun l hl => hlk l ((r.lock l).2 ((lk3 l).2 hl))) j3 sub3 c3 fun m4 sub4 j4 c4 => hk m4 sub4 j4 c4

/-- `evaluate()` of an object that `t` has locked, not computed. -/
theorem body_safe (C : Ctx g own s) (y : Style V) {rec : Nat → Nat → Prog V → Prog V} {i : Nat} (hrec : EvalSafe g s post t own rec i) (m0 m : Mem V) (k : Prog V)
    (hlk : ∀ l, m.lock l = some t → i ≤ l) (h0 : J g s m) (sub : Sub g s t i m0 m) (hc : (m.heap i).computed = false)
    (hk : ∀ m', Sub g s t i m0 m' → J g s m' → (m'.heap i).computed = false → (m'.heap i).buffer = val s i → Safe g s post t k m') :
    Safe g s post t (bodyP g y rec i k) m := by
  unfold bodyP
  cases hkind : (g i).kind with
  | var => exact hk m sub h0 hc (by rw [val_var C hkind]; exact h0.var i hkind)
  | op f ch role =>
    obtain ⟨-, -, hmean, hch, -⟩ := C.st.op i f ch role hkind
    have hch' : ∀ x ∈ ch, x.1 < i ∧ own x.1 x.2 = .child := fun x hx => ⟨(hch x hx).1, (hch x hx).2.1⟩
    have hval : f (ch.map fun x => val s x.1) = val s i := by unfold val; rw [hmean]
    dsimp only
    by_cases he : y.each i = true
    · rw [if_pos he]
      refine each_safe C hrec hkind _ ch hch' m0 m _ hlk h0 sub hc fun m1 sub1 j1 c1 => ?_
      rw [hval]
      exact buffer_own C hkind _ m0 m1 _ sub1 c1 fun m2 sub2 j2 c2 b2 _ _ => hk m2 sub2 j2 c2 b2
    · rw [if_neg he]
      refine operands_safe hrec ch hch' m _ hlk fun m1 r1 j1 s1 => ?_
      refine reads_safe C _ m1 _ (fun j hj => ?_) fun m2 r2 j2 => ?_
      · obtain ⟨x, hx, rfl⟩ := List.mem_map.1 hj
        exact s1 x hx
      · rw [List.map_map]
        rw [show (List.map (val s ∘ Prod.fst) ch) = ch.map fun x => val s x.1 from rfl, hval]
        have l := sub.held
        have r := r1.trans r2
        refine buffer_own C hkind _ m0 m2 _ (sub.rely r) (by rw [(r.loc i l).computed]; exact hc) fun m3 sub3 j3 c3 _ _ _ => ?_
        exact buffer_own C hkind _ m0 m3 _ sub3 c3 fun m4 sub4 j4 c4 b4 _ _ => hk m4 sub4 j4 c4 b4

/-- `evaluateID` gives its value to the buffer of `i`, whatever the others do. -/
theorem evaluate_safe (C : Ctx g own s) (y : Style V) (fuel : Nat) : EvalSafe g s post t own (evaluateP g y fuel) fuel := by
  induction fuel with
  | zero => intro j c k m hj; omega
  | succ fuel ih =>
    intro i c k m0 hi hc hlk hk
    simp only [evaluateP]
    have hids : c < (g i).ids := by
      by_contra h
      have := C.tb.ge i c (by omega)
      rw [this] at hc
      exact hc
    rw [if_pos hids]
    have hrec : EvalSafe g s post t own (evaluateP g y fuel) i := fun j c k m hj => ih j c k m (by omega)
    refine safe_lock fun m1 r1 j1 l1 => ?_
    refine safe_intro fun m r j => ?_
    have q1 := j1.quiet i l1
    have fr : m0.lock i ≠ some t := fun h => by have := hlk i h; omega
    have sub1 : Sub g s t i m0 (locked m1 i t) := by
      refine ⟨fun j hj => ?_, by simp [locked], fr, fun j hj => (r1.loc j hj).trans (Loc.heap rfl), fun j hj => Settled.heap (m := m1) rfl (r1.settled j hj)⟩
      simp only [locked, update_of_ne hj]
      exact r1.lock j
    have hl1 := sub1.held
    have sub : Sub g s t i m0 m := sub1.rely r
    have low : ∀ {m : Mem V}, Sub g s t i m0 m → ∀ l, m.lock l = some t → i ≤ l := by
      intro m sub l hl
      by_cases e : l = i
      · omega
      · exact (hlk l ((sub.locks l e).2 hl)).le
    -- the object is as it was when nobody had locked it
    have q : Quiet g s m i := by
      have up : UpTo g m.heap i → UpTo g m1.heap i := by
        intro up d hd hne
        have := up d hd hne
        have hcl := C.ready i d hd hne
        rw [(j.fixed _ hcl).1, (r.loc i hl1).deps d hd] at this
        rw [(j1.fixed _ hcl).1]
        exact this
      constructor
      · intro hcomp x hreg
        by_cases hx : ∃ j, (i, x) ∈ (g j).deps
        · exact hx
        · have a := (r.loc i hl1).reg x (fun j hj => hx ⟨j, hj⟩)
          rw [a, (r.loc i hl1).counter] at hreg
          exact q1.told (by rw [(r.loc i hl1).computed] at hcomp; exact hcomp) x hreg
      · intro u hcomp
        rw [(r.loc i hl1).buffer]
        exact q1.valid (up u) (by rw [(r.loc i hl1).computed] at hcomp; exact hcomp)
    have hl := sub.held
    -- the part after the answer of `isNew`, when the object is new and not computed
    have compute : ∀ m', Sub g s t i m0 m' → J g s m' → (m'.heap i).computed = false →
        Safe g s post t (bodyP g y (evaluateP g y fuel) i (checkP i c (.writeComputed i true (checkAllP (.unlock i k) (g i).deps)))) m' := by
      intro m' sub' j' c'
      refine body_safe C y hrec m0 m' _ (low sub') j' sub' c' fun m2 sub2 j2 c2 b2 => ?_
      refine check_own C i c hc m0 m2 _ sub2 fun m3 sub3 j3 c3 b3 => ?_
      refine safe_write (f := fun m' => m'.modify i { m'.heap i with computed := true }) (fun _ => rfl) (fun _ h => by simp at h) fun m4 r4 j4 => ?_
      have l4 := (r4.lock i).1 sub3.held
      obtain ⟨j5, o5, -⟩ := own_write C j4 l4 { m4.heap i with computed := true } rfl rfl rfl rfl (fun c => j4.le i c) (fun _ => rfl) (fun _ => rfl) (fun _ _ _ => rfl)
        (fun h => Or.inl ⟨rfl, rfl⟩)
      have e : (m4.modify i { m4.heap i with computed := true }).heap i = { m4.heap i with computed := true } := update_self _ _ _
      refine ⟨l4, j5, o5.guar l4, checkAll_own C i m0 _ ?_ _ (fun d hd => hd) _ j5 ((sub3.rely r4).mine o5) (by rw [e]) ?_ fun d hd _ => Or.inl hd⟩
      · intro m6 sub6 j6 c6 b6 u6
        exact finish C i m0 m6 k sub6 j6 ⟨fun h => by rw [c6] at h; simp at h, fun _ _ => b6⟩ (Or.inr ⟨u6, c6, b6⟩) hk
      · rw [e]
        dsimp only
        rw [(r4.loc i sub3.held).buffer, b3]
        exact b2
    refine isNew_own C i c hc m0 m _ j sub ?_ ?_
    · intro up m2 r2 j2
      have sub2 := sub.rely r2
      by_cases hn : (m.heap i).reg c ≠ (m.heap i).counter
      · rw [if_pos (by simpa using hn)]
        refine safe_readComputed fun m3 r3 j3 => ⟨(r3.lock i).1 sub2.held, ?_⟩
        have sub3 := sub2.rely r3
        have r23 := r2.trans r3
        cases hcomp : (m3.heap i).computed with
        | false =>
          simp only [Bool.false_eq_true, if_false]
          exact compute m3 sub3 j3 hcomp
        | true =>
          simp only [if_true]
          have cm : (m.heap i).computed = true := by rw [← (r23.loc i hl).computed]; exact hcomp
          have bm := q.valid up cm
          have st3 : Settled g s m3 i := r23.settled i (Or.inr ⟨up, cm, bm⟩)
          refine check_own C i c hc m0 m3 _ sub3 fun m4 sub4 j4 c4 b4 => ?_
          refine checkAll_own C i m0 _ ?_ _ (fun d hd => hd) m4 j4 sub4 (by rw [c4]; exact hcomp) ?_ fun d hd _ => Or.inl hd
          · intro m6 sub6 j6 c6 b6 u6
            exact finish C i m0 m6 k sub6 j6 ⟨fun h => by rw [c6] at h; simp at h, fun _ _ => b6⟩ (Or.inr ⟨u6, c6, b6⟩) hk
          · rw [b4, (r23.loc i hl).buffer]; exact bm
      · rw [if_neg (by simpa using hn)]
        have cm : (m.heap i).computed = true := by
          by_contra h
          obtain ⟨x, hx⟩ := q.told (by simpa using h) c (not_not.1 hn)
          exact comp_free C hc x hx
        have bm := q.valid up cm
        have c2 : (m2.heap i).computed = true := by rw [(r2.loc i hl).computed]; exact cm
        have b2 : (m2.heap i).buffer = val s i := by rw [(r2.loc i hl).buffer]; exact bm
        exact finish C i m0 m2 k sub2 j2 ⟨fun h => by rw [c2] at h; simp at h, fun _ _ => b2⟩ (r2.settled i (Or.inr ⟨up, cm, bm⟩)) hk
    · intro m2 sub2 j2 c2
      simp only [if_true]
      refine safe_readComputed fun m3 r3 j3 => ⟨(r3.lock i).1 sub2.held, ?_⟩
      have c3 : (m3.heap i).computed = false := by rw [(r3.loc i sub2.held).computed]; exact c2
      rw [c3]
      simp only [Bool.false_eq_true, if_false]
      exact compute m3 (sub2.rely r3) j3 c3

end Verif.Parallel
