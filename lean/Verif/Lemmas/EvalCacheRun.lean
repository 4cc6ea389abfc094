import Verif.Lemmas.EvalCacheStep
/- The evaluation cache simulates the evaluation without cache. -/
set_option linter.unusedSectionVars false
set_option linter.unusedSimpArgs false
set_option linter.unusedVariables false
namespace Verif.EvalCache
open Function
variable {V : Type}

/-- The expressions in the hands of the user. -/
structure Held (w : World V) (own : Nat → Nat → Owner) (s : Spec.State V) : Prop where
  size : w.size = s.size
  handles : s.handles = w.handles.map (Option.map Prod.fst)
  own : ∀ p k, w.handle p = some k → own k.1 k.2 = .handle p ∧ k.1 < s.size
  last : ∀ p k, w.handle p = some k → Clean w.heap k.1 → (w.heap k.1).reg k.2 = (w.heap k.1).counter →
    s.last p = some (s.meaning k.1 s.values)

/-- An expression that would not answer to be new. -/
def Up (w : World V) (p : Nat) : Prop :=
  ∃ k, w.handle p = some k ∧ Clean w.heap k.1 ∧ (w.heap k.1).reg k.2 = (w.heap k.1).counter

theorem handle_of_append (w : World V) (h : Heap V) (n : Nat) (x : Option (Nat × Nat)) (p : Nat) (k : Nat × Nat) (hp : w.handle p = some k) :
    World.handle { heap := h, size := n, handles := w.handles ++ [x] } p = some k := by
  unfold World.handle at *
  dsimp only
  rw [List.getElem?_append]
  by_cases hl : p < w.handles.length
  · rw [if_pos hl]; exact hp
  · rw [List.getElem?_eq_none (by omega)] at hp
    simp at hp

theorem Held.own_held {w : World V} {own : Nat → Nat → Owner} {s : Spec.State V} (H : Held w own s) {p : Nat} {k : Nat × Nat}
    (hp : w.handle p = some k) : (own k.1 k.2).Held := by
  rw [(H.own p k hp).1]; trivial

def Rel (w : World V) (s : Spec.State V) : Prop := ∃ own, Inv w.heap own s ∧ Held w own s

theorem Held.handle {w : World V} {own : Nat → Nat → Owner} {s : Spec.State V} (H : Held w own s) (p : Nat) :
    s.handle p = (w.handle p).map Prod.fst := by
  unfold Spec.State.handle World.handle
  rw [H.handles, List.getElem?_map]
  cases w.handles[p]? with
  | none => rfl
  | some o => cases o <;> rfl

theorem handle_append (w : World V) (h : Heap V) (n : Nat) (x : Nat × Nat) (p : Nat) (k : Nat × Nat)
    (hp : World.handle { heap := h, size := n, handles := w.handles ++ [some x] } p = some k) :
    w.handle p = some k ∨ (p = w.handles.length ∧ k = x) := by
  unfold World.handle at *
  dsimp only at hp
  rw [List.getElem?_append] at hp
  by_cases hl : p < w.handles.length
  · rw [if_pos hl] at hp; exact Or.inl hp
  · rw [if_neg hl] at hp
    cases hq : p - w.handles.length with
    | zero =>
      rw [hq] at hp
      simp at hp
      exact Or.inr ⟨by omega, hp.symm⟩
    | succ q => rw [hq] at hp; simp at hp

theorem mapM_handle {w : World V} {own : Nat → Nat → Owner} {s : Spec.State V} (H : Held w own s) (ps : List Nat) :
    ps.mapM s.handle = (ps.mapM w.handle).map (List.map Prod.fst) := by
  induction ps with
  | nil => rfl
  | cons p ps ih =>
    rw [List.mapM_cons, List.mapM_cons, ih, H.handle p]
    cases w.handle p with
    | none => rfl
    | some k => cases ps.mapM w.handle <;> rfl

theorem mapM_mem {w : World V} (ps : List Nat) : ∀ ks, ps.mapM w.handle = some ks → ∀ k ∈ ks, ∃ p, w.handle p = some k := by
  induction ps with
  | nil => intro ks h k hk; simp at h; rw [h] at hk; exact absurd hk (by simp)
  | cons p ps ih =>
    intro ks h k hk
    rw [List.mapM_cons] at h
    cases hp : w.handle p with
    | none => rw [hp] at h; exact absurd h (by simp)
    | some a =>
      cases hps : ps.mapM w.handle with
      | none => rw [hp, hps] at h; exact absurd h (by simp)
      | some as =>
        rw [hp, hps] at h
        simp at h
        rw [← h] at hk
        rcases List.mem_cons.1 hk with rfl | hk
        · exact ⟨p, hp⟩
        · exact ih as hps k hk

theorem getDependencies_lt {h : Heap V} {own : Nat → Nat → Owner} {s : Spec.State V} (t : Static h own s) (i : Nat) :
    ∀ j ∈ getDependencies h i, j ≤ i := by
  intro j hj
  unfold getDependencies at hj
  have hd : ∀ j ∈ (h i).deps.map Prod.fst, j ≤ i := by
    intro j hj
    obtain ⟨d, hd, rfl⟩ := List.mem_map.1 hj
    exact t.older i d hd
  split at hj
  · simp at hj; omega
  · exact hd j hj
  · rcases List.mem_append.1 hj with hj | hj
    · exact hd j hj
    · simp at hj; omega
  · simp at hj; omega

theorem rel_newVar {w : World V} {s : Spec.State V} (R : Rel w s) (a : Bool) (v : V) :
    Rel (newVar w a v) (Spec.step s (.newVar a v)).1 ∧ ∀ p, Up w p → Up (newVar w a v) p := by
  obtain ⟨own, I, H⟩ := R
  have P : Inv (newVar w a v).heap
      (update own s.size (fun c => if c = 0 then .handle w.handles.length else if c = 1 ∧ a = true then .dep s.size else .free))
      (Spec.step s (.newVar a v)).1 ∧ ∀ i, i ≠ s.size → (Clean (newVar w a v).heap i ↔ Clean w.heap i) := by
    simp only [newVar, Spec.step]
    rw [H.size]
    apply place I
    · intro i hi; rw [update_of_ne hi]
    · cases a <;> rfl
    · cases a <;> rfl
    · cases a <;> rfl
    · cases a <;> rfl
    · intro c hc
      cases a with
      | false => simp [fresh] at hc ⊢; omega
      | true =>
        simp [fresh] at hc ⊢
        rw [if_neg (by omega), if_neg (by omega)]
    · intro d hd
      cases a with
      | false => simp [fresh] at hd
      | true => simp [fresh] at hd; subst hd; right; simp
    · intro _
      refine ⟨rfl, rfl, ?_, ?_⟩
      · cases a <;> simp [fresh]
      · intro d hd
        cases a with
        | false => simp [fresh] at hd
        | true => simp [fresh] at hd; subst hd; rfl
    · intro f ch role hk
      cases a <;> simp [fresh] at hk
  obtain ⟨P, C⟩ := P
  have hne : ∀ j, j ≠ s.size → (newVar w a v).heap j = w.heap j := by
    intro j hj
    simp only [newVar]
    rw [H.size, update_of_ne hj]
  refine ⟨⟨_, P, ?_, ?_, ?_, ?_⟩, ?_⟩
  · simp [newVar, Spec.step, H.size]
  · simp [newVar, Spec.step, H.size, H.handles]
  · intro p k hp
    rcases handle_append w _ _ _ p k hp with hp | ⟨rfl, rfl⟩
    · obtain ⟨h1, h2⟩ := H.own p k hp
      rw [update_of_ne (by omega)]
      exact ⟨h1, by simp only [Spec.step]; omega⟩
    · rw [H.size, update_self]
      simp [Spec.step]
  · intro p k hp hc hr
    rcases handle_append w _ _ _ p k hp with hp | ⟨rfl, rfl⟩
    · obtain ⟨h1, h2⟩ := H.own p k hp
      have hk : k.1 ≠ s.size := by omega
      rw [hne _ hk] at hr
      have := H.last p k hp ((C _ hk).1 hc) hr
      simp only [Spec.step]
      rw [this, update_of_ne hk]
      congr 1
      exact I.st.meaning_local k.1 _ _ fun j hj => by rw [update_of_ne (by omega)]
    · exfalso
      simp only [newVar] at hr
      rw [H.size, update_self] at hr
      cases a <;> simp [fresh] at hr
  · rintro p ⟨k, hp, hc, hr⟩
    have h2 := (H.own p k hp).2
    have hk : k.1 ≠ s.size := by omega
    refine ⟨k, handle_of_append w _ _ _ p k hp, (C _ hk).2 hc, ?_⟩
    rw [hne _ hk]; exact hr

theorem rel_build {w : World V} {s : Spec.State V} (R : Rel w s) (f : List V → V) (ps : List Nat) (role : Role) (v : V) :
    Rel (step w (.build f ps role v)).1 (Spec.step s (.build f ps role v)).1 ∧ ∀ p, Up w p → Up (step w (.build f ps role v)).1 p := by
  obtain ⟨own, I, H⟩ := R
  simp only [step, Spec.step, mapM_handle H ps]
  cases hps : ps.mapM w.handle with
  | none => exact ⟨⟨own, I, H⟩, fun _ x => x⟩
  | some kk =>
    simp only [Option.map_some]
    have hks : ∀ k ∈ kk.map Prod.fst, k < s.size := by
      intro k hk
      obtain ⟨k', hk', rfl⟩ := List.mem_map.1 hk
      obtain ⟨p, hp⟩ := mapM_mem ps kk hps k' hk'
      exact (H.own p k' hp).2
    set ks := kk.map Prod.fst with hks'
    clear_value ks
    obtain ⟨o1, I1, sh1, te1, kp1, ke1, e1, c1⟩ := operands_inv I ks hks
    simp only [build]
    set r := ks.foldl addOperand ([], w.heap) with hr
    clear_value r
    have hjs : ∀ j ∈ ks.flatMap (getDependencies r.2), j < s.size := by
      intro j hj
      obtain ⟨k, hk, hj⟩ := List.mem_flatMap.1 hj
      exact lt_of_le_of_lt (getDependencies_lt I1.st k j hj) (hks k hk)
    obtain ⟨o2, I2, sh2, te2, kp2, ke2, e2, c2⟩ := deps_inv I1 s.size _ hjs
    set q := (ks.flatMap (getDependencies r.2)).foldl addDependency ([], r.2) with hq
    clear_value q
    have hqlt : ∀ d ∈ q.1, d.1 < s.size := fun d hd => hjs d.1 ((e2 d.1).2 ⟨d, hd, rfl⟩)
    have te := te1.trans (te2.keeps ke1)
    have kp := kp1.trans (kp2.keeps ke1)
    rw [H.size]
    have P := place I2 (fresh (.op f r.1 role) q.1 v) (fun c => if c = 0 then .handle w.handles.length else .free)
      (fun env => f (ks.map fun k => s.meaning k env)) false s.values (s.handles ++ [some s.size]) s.last (fun i hi => rfl) rfl rfl rfl rfl
      (by intro c hc; simp [fresh] at hc ⊢; omega)
      (by intro d hd; exact Or.inl ⟨hqlt d hd, c2 d hd⟩)
      (by intro hk; simp [fresh] at hk)
      (by
        intro f' ch role' hk
        simp only [fresh, Kind.op.injEq] at hk
        obtain ⟨rfl, rfl, rfl⟩ := hk
        refine ⟨rfl, ?_, ?_, ?_⟩
        · funext env
          rw [← e1, List.map_map]
          rfl
        · intro k hk
          have hmem : k.1 ∈ ks := by rw [← e1]; exact List.mem_map_of_mem hk
          refine ⟨hks _ hmem, ?_, ?_⟩
          · rw [ke2 k.1 k.2 (by rw [c1 k hk]; simp)]; exact c1 k hk
          · intro j hj
            rw [sh2.getDependencies] at hj
            exact (e2 j).1 (List.mem_flatMap.2 ⟨k.1, hmem, hj⟩)
        · intro d hd
          refine ⟨hqlt d hd, ?_⟩
          obtain ⟨k, hk, hj⟩ := List.mem_flatMap.1 ((e2 d.1).2 ⟨d, hd, rfl⟩)
          rw [← e1] at hk
          obtain ⟨k', hk', rfl⟩ := List.mem_map.1 hk
          exact ⟨k', hk', by rw [sh2.getDependencies]; exact hj⟩)
    obtain ⟨P, C⟩ := P
    refine ⟨⟨_, P, ?_, ?_, ?_, ?_⟩, ?_⟩
    · simp [H.size]
    · simp [H.size, H.handles]
    · intro p k hp
      rcases handle_append w _ _ _ p k hp with hp | ⟨rfl, rfl⟩
      · obtain ⟨h1, h2⟩ := H.own p k hp
        rw [update_of_ne (by omega)]
        have n1 : own k.1 k.2 ≠ .free := by rw [h1]; simp
        rw [(ke1.trans ke2) k.1 k.2 n1]
        exact ⟨h1, by dsimp only; omega⟩
      · rw [update_self]
        simp
    · intro p k hp hc hr
      dsimp only at hc hr ⊢
      rcases handle_append w _ _ _ p k hp with hp | ⟨rfl, rfl⟩
      · obtain ⟨h1, h2⟩ := H.own p k hp
        have hk : k.1 ≠ s.size := by omega
        rw [update_of_ne hk] at hr
        obtain ⟨x, y⟩ := te k.1 k.2 id (H.own_held hp) ((C _ hk).1 hc) hr
        rw [update_of_ne hk]
        exact H.last p k hp x y
      · exfalso
        rw [update_self] at hr
        simp [fresh] at hr
    · rintro p ⟨k, hp, hc, hr⟩
      have h2 := (H.own p k hp).2
      have hk : k.1 ≠ s.size := by omega
      obtain ⟨x, y⟩ := kp k.1 hc
      refine ⟨k, handle_of_append w _ _ _ p k hp, (C _ hk).2 x, ?_⟩
      dsimp only
      rw [update_of_ne hk]
      exact y k.2 (H.own_held hp) hr

theorem rel_copy {w : World V} {s : Spec.State V} (R : Rel w s) (p : Nat) :
    Rel (step w (.copy p)).1 (Spec.step s (.copy p)).1 ∧ ∀ q, Up w q → Up (step w (.copy p)).1 q := by
  obtain ⟨own, I, H⟩ := R
  simp only [step, Spec.step, H.handle p]
  cases hp : w.handle p with
  | none => exact ⟨⟨own, I, H⟩, fun _ x => x⟩
  | some k =>
    simp only [Option.map_some]
    obtain ⟨hf, sh, I', te, kp, hn⟩ := alloc I k.1 (H.own p k hp).2 (.handle w.handles.length)
    refine ⟨⟨_, ⟨⟨I'.st.var, I'.st.op, I'.st.junk, I'.st.dep⟩, ⟨I'.tb.ge, I'.tb.bin, I'.tb.nodup, I'.tb.junk⟩, ⟨I'.dy.le, I'.dy.var, I'.dy.valid⟩⟩, H.size, ?_, ?_, ?_⟩, ?_⟩
    · simp [H.handles]
    · intro p' k' hp'
      rcases handle_append w _ _ _ p' k' hp' with hp' | ⟨rfl, rfl⟩
      · obtain ⟨h1, h2⟩ := H.own p' k' hp'
        rw [Keeps.give _ hf _ _ (by rw [h1]; simp)]
        exact ⟨h1, h2⟩
      · exact ⟨give_self _ _ _ _, (H.own p k hp).2⟩
    · intro p' k' hp' hc hr
      rcases handle_append w _ _ _ p' k' hp' with hp' | ⟨rfl, rfl⟩
      · obtain ⟨x, y⟩ := te _ _ id (H.own_held hp') hc hr
        exact H.last p' k' hp' x y
      · exact absurd hr hn
    · rintro q ⟨k', hp', hc, hr⟩
      obtain ⟨x, y⟩ := kp _ hc
      exact ⟨k', handle_of_append w _ _ _ q k' hp', x, y _ (H.own_held hp') hr⟩

theorem rel_drop {w : World V} {s : Spec.State V} (R : Rel w s) (p : Nat) :
    Rel (step w (.drop p)).1 (Spec.step s (.drop p)).1 ∧ ∀ q, q ≠ p → Up w q → Up (step w (.drop p)).1 q := by
  obtain ⟨own, I, H⟩ := R
  simp only [step, Spec.step]
  cases hp : w.handle p with
  | none =>
    refine ⟨⟨own, ⟨⟨I.st.var, I.st.op, I.st.junk, I.st.dep⟩, ⟨I.tb.ge, I.tb.bin, I.tb.nodup, I.tb.junk⟩, ⟨I.dy.le, I.dy.var, I.dy.valid⟩⟩, H.size, ?_, H.own, H.last⟩, fun _ _ x => x⟩
    dsimp only
    have : s.handle p = none := by rw [H.handle p, hp]; rfl
    unfold Spec.State.handle at this
    rw [← H.handles]
    apply List.ext_getElem?
    intro q
    rw [List.getElem?_set]
    by_cases hq : p = q
    · subst hq
      rw [if_pos rfl]
      by_cases hl : p < s.handles.length
      · rw [if_pos hl]
        rw [List.getElem?_eq_getElem hl] at this ⊢
        simp at this
        rw [this]
      · rw [if_neg hl, List.getElem?_eq_none (by omega)]
    · rw [if_neg hq]
  | some k =>
    obtain ⟨I', te, kp⟩ := dealloc I k.1 k.2 p (H.own p k hp).1
    have hget : ∀ p' k', p' ≠ p → (World.handle { w with heap := deleteID w.heap k.1 k.2, handles := w.handles.set p none } p' = some k' ↔ w.handle p' = some k') := by
      intro p' k' hne
      unfold World.handle
      dsimp only
      rw [List.getElem?_set, if_neg (fun e => hne e.symm)]
    refine ⟨⟨_, ⟨⟨I'.st.var, I'.st.op, I'.st.junk, I'.st.dep⟩, ⟨I'.tb.ge, I'.tb.bin, I'.tb.nodup, I'.tb.junk⟩, ⟨I'.dy.le, I'.dy.var, I'.dy.valid⟩⟩, H.size, ?_, ?_, ?_⟩, ?_⟩
    · dsimp only
      rw [H.handles, List.map_set]
      rfl
    · intro p' k' hp'
      unfold World.handle at hp'
      dsimp only at hp'
      rw [List.getElem?_set] at hp'
      by_cases hq : p = p'
      · subst hq
        rw [if_pos rfl] at hp'
        split_ifs at hp' <;> simp at hp'
      · rw [if_neg hq] at hp'
        obtain ⟨h1, h2⟩ := H.own p' k' hp'
        rw [give_ne]
        · exact ⟨h1, h2⟩
        · rintro ⟨e1, e2⟩
          rw [e1, e2, (H.own p k hp).1] at h1
          injection h1 with h1
          exact hq h1
    · intro p' k' hp' hc hr
      have hne : p' ≠ p := by
        rintro rfl
        unfold World.handle at hp'
        dsimp only at hp'
        rw [List.getElem?_set, if_pos rfl] at hp'
        split_ifs at hp' <;> simp at hp'
      have hp'' := (hget p' k' hne).1 hp'
      obtain ⟨x, y⟩ := te _ _ id (H.own_held hp'') hc hr
      exact H.last p' k' hp'' x y
    · rintro q hne ⟨k', hp', hc, hr⟩
      obtain ⟨x, y⟩ := kp _ hc
      refine ⟨k', (hget q k' hne).2 hp', x, y _ ?_ hr⟩
      rintro ⟨e1, e2⟩
      have a := (H.own q k' hp').1
      rw [e1, e2, (H.own p k hp).1] at a
      injection a with a
      exact hne a.symm

theorem rel_assign {w : World V} {s : Spec.State V} (R : Rel w s) (p : Nat) (v : V) :
    Rel (step w (.assign p v)).1 (Spec.step s (.assign p v)).1 := by
  obtain ⟨own, I, H⟩ := R
  simp only [step, Spec.step, H.handle p]
  cases hp : w.handle p with
  | none => exact ⟨own, I, H⟩
  | some k =>
    simp only [Option.map_some]
    cases hk : (w.heap k.1).kind with
    | var =>
      rw [if_pos (I.st.var _ hk).2.1]
      have hA : assign w k.1 v = { w with heap := reset (update w.heap k.1 { w.heap k.1 with buffer := v }) k.1 } := by
        unfold assign
        split
        · next heq => rw [hk] at heq; exact absurd heq (by simp)
        · rfl
      rw [hA]
      obtain ⟨A, B⟩ := assign_inv I k.1 v (update s.values k.1 v) (fun j hj => update_of_ne hj _ _) (fun _ => update_self _ _ _) (fun h => absurd hk h)
      refine ⟨own, A, H.size, H.handles, H.own, ?_⟩
      intro p' k' hp' hc hr
      obtain ⟨x, y, z⟩ := B _ _ hc hr
      dsimp only
      rw [z]
      exact H.last p' k' hp' x y
    | op f ch role =>
      have := (I.st.op _ f ch role hk).2.1
      rw [if_neg (by rw [this]; simp)]
      cases role with
      | plain =>
        have hA : assign w k.1 v = w := by
          unfold assign
          split
          · rfl
          · next hne => exact absurd hk (hne _ _)
        rw [hA]
        exact ⟨own, I, H⟩
      | «variable» b =>
        have := assign_inv I k.1 v s.values (fun _ _ => rfl) (fun h => by rw [hk] at h; exact absurd h (by simp)) (fun _ => rfl)
        have hA : assign w k.1 v = { w with heap := reset (update w.heap k.1 { w.heap k.1 with buffer := v }) k.1 } := by
          unfold assign
          split
          · next heq => rw [hk] at heq; exact absurd heq (by simp)
          · rfl
        rw [hA]
        refine ⟨own, this.1, H.size, H.handles, H.own, ?_⟩
        intro p' k' hp' hc hr
        obtain ⟨x, y, z⟩ := this.2 _ _ hc hr
        exact H.last p' k' hp' x y

theorem rel_eval {w : World V} {s : Spec.State V} (R : Rel w s) (p : Nat) :
    (step w (.eval p)).2 = (Spec.step s (.eval p)).2 ∧ Rel (step w (.eval p)).1 (Spec.step s (.eval p)).1 ∧
      (∀ q, Up w q → Up (step w (.eval p)).1 q) ∧ (w.handle p ≠ none → Up (step w (.eval p)).1 p) := by
  obtain ⟨own, I, H⟩ := R
  simp only [step, Spec.step, H.handle p]
  cases hp : w.handle p with
  | none => exact ⟨rfl, ⟨own, I, H⟩, fun _ x => x, fun x => absurd rfl x⟩
  | some k =>
    simp only [Option.map_some]
    obtain ⟨h1, h2⟩ := H.own p k hp
    have hlt : k.2 < (w.heap k.1).ids := by
      by_contra hc
      have := I.tb.ge k.1 k.2 (by omega)
      rw [h1] at this
      exact absurd this (by simp)
    obtain ⟨e, sh, sl, dy, fr, ke, te, cl, rg⟩ := evaluateF_good (k.1 + 1) w.heap k.1 k.2 (by omega) I.st I.tb I.dy hlt (by rw [h1]; trivial)
    have I' : Inv (evaluateID w.heap k.1 k.2).2 own s := ⟨I.st.congr sh, I.tb.congr sl, dy⟩
    refine ⟨by rw [← e]; rfl, ⟨own, ⟨⟨I'.st.var, I'.st.op, I'.st.junk, I'.st.dep⟩, ⟨I'.tb.ge, I'.tb.bin, I'.tb.nodup, I'.tb.junk⟩, ⟨I'.dy.le, I'.dy.var, I'.dy.valid⟩⟩,
      H.size, H.handles, H.own, ?_⟩, ?_, ?_⟩
    · intro p' k' hp' hc hr
      dsimp only
      have hp' : w.handle p' = some k' := hp'
      by_cases hpp : p' = p
      · subst hpp
        rw [update_self]
        rw [hp] at hp'
        rw [Option.some.inj hp']
      · rw [update_of_ne hpp]
        obtain ⟨x, y⟩ := te k'.1 k'.2 (by
          rintro ⟨e1, e2⟩
          have a := (H.own p' k' hp').1
          rw [e1, e2, h1] at a
          injection a with a
          exact hpp a.symm) (H.own_held hp') hc hr
        exact H.last p' k' hp' x y
    · rintro q ⟨k', hp', hc, hr⟩
      obtain ⟨x, y⟩ := ke _ hc
      exact ⟨k', hp', x, y _ (H.own_held hp') hr⟩
    · intro _
      exact ⟨k, hp, cl, rg⟩

theorem rel_askNew {w : World V} {s : Spec.State V} (R : Rel w s) (p : Nat) :
    Rel (step w (.askNew p)).1 (Spec.step s (.askNew p)).1 ∧ ∀ q, Up w q → Up (step w (.askNew p)).1 q := by
  obtain ⟨own, I, H⟩ := R
  simp only [step, Spec.step]
  cases hp : w.handle p with
  | none => exact ⟨⟨own, I, H⟩, fun _ x => x⟩
  | some k =>
    obtain ⟨b, -⟩ := isNewF_spec (k.1 + 1) w.heap k.1 k.2 (by omega) I.dy.le I.st.older
    obtain ⟨te, ke⟩ := b.tells I.dy.le own (fun _ _ => False)
    refine ⟨⟨own, ⟨I.st.congr b.shape, I.tb.congr b.slots, b.dyn I.dy⟩, H.size, H.handles, H.own, ?_⟩, ?_⟩
    · intro p' k' hp' hc hr
      obtain ⟨x, y⟩ := te _ _ id (H.own_held hp') hc hr
      exact H.last p' k' hp' x y
    · rintro q ⟨k', hp', hc, hr⟩
      obtain ⟨x, y⟩ := ke _ hc
      exact ⟨k', hp', x, y _ (H.own_held hp') hr⟩

/-- Nothing at a position of `last` without expression matters. -/
theorem rel_last {w : World V} {s : Spec.State V} (R : Rel w s) (p : Nat) (h : w.handle p = none) : Rel w { s with last := update s.last p none } := by
  obtain ⟨own, I, H⟩ := R
  refine ⟨own, ⟨⟨I.st.var, I.st.op, I.st.junk, I.st.dep⟩, ⟨I.tb.ge, I.tb.bin, I.tb.nodup, I.tb.junk⟩, ⟨I.dy.le, I.dy.var, I.dy.valid⟩⟩, H.size, H.handles, H.own, ?_⟩
  intro p' k hp hc hr
  have hne : p' ≠ p := by
    rintro rfl
    rw [h] at hp
    exact absurd hp (by simp)
  dsimp only
  rw [update_of_ne hne]
  exact H.last p' k hp hc hr

/-- A new expression on the object `j` at an empty position. -/
theorem rel_fill {w : World V} {s : Spec.State V} (R : Rel w s) (p j : Nat) (hl : p < w.handles.length) (hp : w.handle p = none) (hj : j < s.size) :
    Rel { w with heap := (newCallerID w.heap j).2, handles := w.handles.set p (some (j, (newCallerID w.heap j).1)) } { s with handles := s.handles.set p (some j) } ∧
      ∀ q, q ≠ p → Up w q → Up { w with heap := (newCallerID w.heap j).2, handles := w.handles.set p (some (j, (newCallerID w.heap j).1)) } q := by
  obtain ⟨own, I, H⟩ := R
  obtain ⟨hf, sh, I', te, kp, hn⟩ := alloc I j hj (.handle p)
  have hget : ∀ p' k', World.handle { w with heap := (newCallerID w.heap j).2, handles := w.handles.set p (some (j, (newCallerID w.heap j).1)) } p' = some k' →
      (p' ≠ p ∧ w.handle p' = some k') ∨ (p' = p ∧ k' = (j, (newCallerID w.heap j).1)) := by
    intro p' k' h
    unfold World.handle at h
    dsimp only at h
    rw [List.getElem?_set] at h
    by_cases hq : p = p'
    · subst hq
      rw [if_pos rfl, if_pos hl] at h
      exact Or.inr ⟨rfl, (Option.some.inj h).symm⟩
    · rw [if_neg hq] at h
      exact Or.inl ⟨fun e => hq e.symm, h⟩
  refine ⟨⟨_, ⟨⟨I'.st.var, I'.st.op, I'.st.junk, I'.st.dep⟩, ⟨I'.tb.ge, I'.tb.bin, I'.tb.nodup, I'.tb.junk⟩, ⟨I'.dy.le, I'.dy.var, I'.dy.valid⟩⟩, H.size, ?_, ?_, ?_⟩, ?_⟩
  · dsimp only
    rw [H.handles, List.map_set]
    rfl
  · intro p' k' hp'
    rcases hget p' k' hp' with ⟨-, hp'⟩ | ⟨rfl, rfl⟩
    · obtain ⟨h1, h2⟩ := H.own p' k' hp'
      rw [Keeps.give _ hf _ _ (by rw [h1]; simp)]
      exact ⟨h1, h2⟩
    · exact ⟨give_self _ _ _ _, hj⟩
  · intro p' k' hp' hc hr
    rcases hget p' k' hp' with ⟨-, hp'⟩ | ⟨rfl, rfl⟩
    · obtain ⟨x, y⟩ := te _ _ id (H.own_held hp') hc hr
      exact H.last p' k' hp' x y
    · exact absurd hr hn
  · rintro q hne ⟨k', hp', hc, hr⟩
    obtain ⟨x, y⟩ := kp _ hc
    refine ⟨k', ?_, x, y _ (H.own_held hp') hr⟩
    unfold World.handle
    dsimp only
    rw [List.getElem?_set, if_neg fun e => hne e.symm]
    exact hp'

theorem release_handle (w : World V) (p q : Nat) : (release w p).handle q = if q = p then none else w.handle q := by
  unfold release
  cases hp : w.handle p with
  | none =>
    by_cases hq : q = p
    · rw [if_pos hq, hq]; exact hp
    · rw [if_neg hq]
  | some k =>
    show ((w.handles.set p none)[q]?).join = _
    rw [List.getElem?_set]
    by_cases hq : p = q
    · subst hq
      rw [if_pos rfl, if_pos rfl]
      by_cases hl : p < w.handles.length
      · rw [if_pos hl]; rfl
      · rw [if_neg hl]; rfl
    · rw [if_neg hq, if_neg fun e => hq e.symm]; rfl

theorem release_eq (w : World V) (p : Nat) : release w p = (step w (.drop p)).1 := by
  simp only [release, step]
  cases w.handle p <;> rfl

theorem release_length (w : World V) (p : Nat) : (release w p).handles.length = w.handles.length := by
  unfold release
  cases w.handle p with
  | none => rfl
  | some k => exact List.length_set

theorem rel_become {w : World V} {s : Spec.State V} (R : Rel w s) (p q : Nat) :
    Rel (step w (.become p q)).1 (Spec.step s (.become p q)).1 ∧ ∀ t, t ≠ p → Up w t → Up (step w (.become p q)).1 t := by
  have hlen : s.handles.length = w.handles.length := by
    obtain ⟨own, I, H⟩ := R
    rw [H.handles, List.length_map]
  have hh : ∀ t, s.handle t = (w.handle t).map Prod.fst := by
    obtain ⟨own, I, H⟩ := R
    exact H.handle
  have hsz : ∀ t k, w.handle t = some k → k.1 < s.size := by
    obtain ⟨own, I, H⟩ := R
    exact fun t k h => (H.own t k h).2
  show Rel (become w p q) { s with handles := s.handles.set p (s.handle q), last := update s.last p none } ∧ ∀ t, t ≠ p → Up w t → Up (become w p q) t
  unfold become
  by_cases hl : p < w.handles.length
  · rw [if_pos hl]
    obtain ⟨R1, U1⟩ := rel_drop R p
    rw [← release_eq] at R1
    have hp : (release w p).handle p = none := by rw [release_handle, if_pos rfl]
    have R2 := rel_last R1 p hp
    cases hq : w.handle q with
    | none =>
      have e : s.handle q = none := by rw [hh q, hq]; rfl
      rw [e]
      refine ⟨R2, fun t ht hu => ?_⟩
      show Up (release w p) t
      rw [release_eq]; exact U1 t ht hu
    | some k =>
      have e : s.handle q = some k.1 := by rw [hh q, hq]; rfl
      rw [e]
      have F := rel_fill R2 p k.1 (by rw [release_length]; exact hl) hp (hsz q k hq)
      refine ⟨?_, fun t ht hu => F.2 t ht ?_⟩
      · have := F.1
        have es : (s.handles.set p none).set p (some k.1) = s.handles.set p (some k.1) := List.set_set ..
        simp only [Spec.step, es] at this
        exact this
      · rw [release_eq]; exact U1 t ht hu
  · rw [if_neg hl]
    have hn : w.handle p = none := by
      unfold World.handle
      rw [List.getElem?_eq_none (by omega)]; rfl
    have es : s.handles.set p (s.handle q) = s.handles := List.set_eq_of_length_le (by omega)
    rw [es]
    exact ⟨rel_last R p hn, fun t _ h => h⟩

theorem rel_step {w : World V} {s : Spec.State V} (R : Rel w s) (o : Op V) :
    (step w o).2 = (Spec.step s o).2 ∧ Rel (step w o).1 (Spec.step s o).1 := by
  cases o with
  | newVar a v => exact ⟨rfl, (rel_newVar R a v).1⟩
  | build f ps role v =>
    refine ⟨?_, (rel_build R f ps role v).1⟩
    simp only [step, Spec.step]
    cases ps.mapM w.handle <;> cases ps.mapM s.handle <;> rfl
  | copy p =>
    refine ⟨?_, (rel_copy R p).1⟩
    simp only [step, Spec.step]
    cases w.handle p <;> cases s.handle p <;> rfl
  | drop p =>
    refine ⟨?_, (rel_drop R p).1⟩
    simp only [step, Spec.step]
    cases w.handle p <;> rfl
  | assign p v =>
    refine ⟨?_, rel_assign R p v⟩
    simp only [step, Spec.step]
    cases w.handle p <;> cases s.handle p <;> rfl
  | eval p => exact ⟨(rel_eval R p).1, (rel_eval R p).2.1⟩
  | askNew p =>
    refine ⟨?_, (rel_askNew R p).1⟩
    simp only [step, Spec.step]
    cases w.handle p <;> rfl
  | become p q => exact ⟨rfl, (rel_become R p q).1⟩

theorem rel_after {w : World V} {s : Spec.State V} (R : Rel w s) (os : List (Op V)) : Rel (after w os) (Spec.after s os) := by
  induction os generalizing w s with
  | nil => exact R
  | cons o os ih => exact ih (rel_step R o).2

theorem isNew_iff {w : World V} {s : Spec.State V} (R : Rel w s) (p : Nat) : w.isNew p = some false ↔ Up w p := by
  obtain ⟨own, I, H⟩ := R
  unfold World.isNew Up
  cases hp : w.handle p with
  | none => simp
  | some k =>
    obtain ⟨-, -, e, -⟩ := isNewF_spec (k.1 + 1) w.heap k.1 k.2 (by omega) I.dy.le I.st.older
    simp only [Option.map_some, Option.some.injEq]
    have : (isNew w.heap k.1 k.2).1 = false ↔ Clean w.heap k.1 ∧ (w.heap k.1).reg k.2 = (w.heap k.1).counter := by
      rw [← Bool.not_eq_true]
      unfold isNew
      rw [e]
      exact not_not
    rw [this]
    constructor
    · exact fun h => ⟨k, rfl, h⟩
    · rintro ⟨k', rfl, h⟩; exact h

theorem up_last {w : World V} {s : Spec.State V} (R : Rel w s) (p : Nat) (h : Up w p) : s.value p ≠ none ∧ s.last p = s.value p := by
  obtain ⟨own, I, H⟩ := R
  obtain ⟨k, hp, hc, hr⟩ := h
  have := H.last p k hp hc hr
  unfold Spec.State.value
  rw [H.handle p, hp, this]
  simp

theorem up_after {w : World V} {s : Spec.State V} (R : Rel w s) (p : Nat) (os : List (Op V)) (hq : ∀ o ∈ os, Spec.Quiet p o) (h : Up w p) :
    Up (after w os) p := by
  induction os generalizing w s with
  | nil => exact h
  | cons o os ih =>
    refine ih (rel_step R o).2 (fun o' ho' => hq o' (by simp [ho'])) ?_
    have := hq o (by simp)
    cases o with
    | newVar a v => exact (rel_newVar R a v).2 p h
    | build f ps role v => exact (rel_build R f ps role v).2 p h
    | copy q => exact (rel_copy R q).2 p h
    | drop q => exact (rel_drop R q).2 p (fun e => this e.symm) h
    | assign q v => exact absurd this id
    | eval q => exact (rel_eval R q).2.2.1 p h
    | askNew q => exact (rel_askNew R q).2 p h
    | become q t => exact (rel_become R q t).2 p (fun e => this e.symm) h

theorem rel_empty [Inhabited V] : Rel (World.empty : World V) Spec.State.empty := by
  refine ⟨fun _ _ => .free, ⟨⟨?_, ?_, ?_, ?_⟩, ⟨?_, ?_, ?_, ?_⟩, ⟨?_, ?_, ?_⟩⟩, rfl, rfl, ?_, ?_⟩
  · intro i _; exact ⟨rfl, rfl, by simp [World.empty, fresh]⟩
  · intro i f ch role hk; simp [World.empty, fresh] at hk
  · intro i _; exact ⟨rfl, rfl⟩
  · intro i d hd; simp [World.empty, fresh] at hd
  · intro i c _; rfl
  · intro i c hc; simp [World.empty, fresh] at hc
  · intro i; simp [World.empty, fresh]
  · intro i c _; rfl
  · intro i c; simp [World.empty, fresh]
  · intro i _; rfl
  · intro i _ _; rfl
  · intro p k hp; simp [World.handle, World.empty] at hp
  · intro p k hp; simp [World.handle, World.empty] at hp

theorem run_eq {w : World V} {s : Spec.State V} (R : Rel w s) (os : List (Op V)) : run w os = Spec.run s os := by
  induction os generalizing w s with
  | nil => rfl
  | cons o os ih =>
    obtain ⟨e, R'⟩ := rel_step R o
    simp only [run, Spec.run]
    rw [e, ih R']

end Verif.EvalCache
