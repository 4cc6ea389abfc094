import Verif.Lemmas.ParallelEval
import Verif.Spec.Parallel
import Mathlib.Logic.Hydra
/- Threads evaluating expressions, in any order. -/
set_option linter.unusedSectionVars false
set_option linter.unusedSimpArgs false
set_option linter.unusedVariables false
namespace Verif.Parallel
open Verif.EvalCache Function
variable {V : Type}

theorem step_inv {s s' : State V} {t : Nat} (h : s.step t = some s') :
    ∃ p r, s.threads[t]? = some p ∧ p.step t s.mem = some r ∧ s' = ⟨r.1, s.threads.set t r.2⟩ := by
  unfold State.step at h
  cases hp : s.threads[t]? with
  | none => rw [hp] at h; simp at h
  | some p =>
    rw [hp] at h
    cases hr : p.step t s.mem with
    | none => simp [hr] at h
    | some r => exact ⟨p, r, rfl, hr, by simpa [hr] using h.symm⟩

theorem step_some {s : State V} {t : Nat} {p : Prog V} {r : Mem V × Prog V} (hp : s.threads[t]? = some p) (hr : p.step t s.mem = some r) :
    s.step t = some ⟨r.1, s.threads.set t r.2⟩ := by
  simp [State.step, hp, hr]

/-- What every step keeps holds all along. -/
theorem run_induct {P : State V → Prop} (hs : ∀ s t s', P s → s.step t = some s' → P s') (s : State V) (h : P s) (l : List Nat) : P (s.run l) := by
  induction l generalizing s with
  | nil => exact h
  | cons t l ih =>
    refine ih _ ?_
    cases hst : s.step t with
    | none => exact h
    | some s' => exact hs s t s' h hst

theorem run_append (s : State V) (l l' : List Nat) : s.run (l ++ l') = (s.run l).run l' := by
  induction l generalizing s with
  | nil => rfl
  | cons t l ih => exact ih _

/-! ### Values -/

section
variable {g : Heap V} {own : Nat → Nat → Owner} {sp : Spec.State V}

structure Good (g : Heap V) (sp : Spec.State V) (post : Nat → V → Prop) (s : State V) : Prop where
  mem : J g sp s.mem
  safe : ∀ t p, s.threads[t]? = some p → Safe g sp (post t) t p s.mem

theorem good_step {post : Nat → V → Prop} (s : State V) (t : Nat) (s' : State V) (h : Good g sp post s) (hst : s.step t = some s') : Good g sp post s' := by
  obtain ⟨p, r, hp, hr, rfl⟩ := step_inv hst
  obtain ⟨_, _, h1, h2, h3, h4, h5⟩ := h.safe t p hp
  have rf := Rely.refl g sp t s.mem
  refine ⟨h2 _ rf h.mem r hr, fun u q hq => ?_⟩
  by_cases hu : u = t
  · subst hu
    have hlt : u < s.threads.length := by
      by_contra hc
      rw [List.getElem?_eq_none (by omega)] at hp
      simp at hp
    have : q = r.2 := by
      have hq : (s.threads.set u r.2)[u]? = some q := hq
      rw [List.getElem?_set_self hlt] at hq
      exact (Option.some.inj hq).symm
    rw [this]
    exact h4 _ rf h.mem r hr
  · have hq : (s.threads.set t r.2)[u]? = some q := hq
    rw [List.getElem?_set_ne (fun e => hu e.symm)] at hq
    exact (h.safe u q hq).mono ((h3 _ rf h.mem r hr).rely hu)

theorem upTo_clean (C : Ctx g own sp) {i : Nat} (h : UpTo g g i) : Clean g i :=
  (clean_iff g i).2 fun d hd hne => ⟨h d hd hne, C.ready i d hd hne⟩

theorem good_start (C : Ctx g own sp) (y : Style V) (roots : List (Nat × Nat)) (hroots : ∀ k ∈ roots, (own k.1 k.2).Comp) :
    Good g sp (fun t v => ∀ k, roots[t]? = some k → v = val sp k.1) (start g y roots) := by
  have j0 : J g sp ⟨g, fun _ => none⟩ := by
    refine ⟨Shape.refl g, Slots.refl g, C.dy.le, C.dy.var, fun i hc => ⟨rfl, fun d hd hne => ((clean_iff g i).1 hc d hd hne).1⟩, fun i _ => ⟨C.told i, ?_⟩⟩
    intro up hc
    exact C.dy.valid i (upTo_clean C up) (Or.inl hc)
  refine ⟨j0, fun t p hp => ?_⟩
  have hp : (roots.map (threadP g y))[t]? = some p := hp
  rw [List.getElem?_map] at hp
  cases hk : roots[t]? with
  | none => rw [hk] at hp; simp at hp
  | some k =>
    rw [hk] at hp
    rw [← Option.some.inj hp]
    refine evaluate_safe C y (k.1 + 1) k.1 k.2 _ _ (by omega) (hroots k (List.mem_of_getElem? hk)) (fun l hl => by simp [start] at hl) fun m r j st => ?_
    refine safe_readBuffer fun m' r' j' => ⟨r'.settled _ st, safe_done ?_⟩
    intro k' hk'
    rw [← Option.some.inj hk']
    exact Settled.value C j' (r'.settled _ st)

/-- Whatever the schedule, what a thread returns is the value of its expression. -/
theorem value_of_result (C : Ctx g own sp) (y : Style V) (roots : List (Nat × Nat)) (hroots : ∀ k ∈ roots, (own k.1 k.2).Comp) (l : List Nat) (t : Nat) (k : Nat × Nat)
    (hk : roots[t]? = some k) (v : V) (hv : ((start g y roots).run l).threads[t]? = some (.done v)) : v = val sp k.1 := by
  have h := run_induct (fun s t s' => good_step s t s') _ (good_start C y roots hroots) l
  obtain ⟨_, _, -, -, -, -, h5⟩ := h.safe t _ hv
  exact h5 _ (Rely.refl _ _ _ _) h.mem v rfl k hk

theorem length_run (s : State V) (l : List Nat) : (s.run l).threads.length = s.threads.length := by
  refine run_induct (P := fun s' => s'.threads.length = s.threads.length) ?_ s rfl l
  intro s1 t s2 h1 h2
  obtain ⟨p, r, -, -, rfl⟩ := step_inv h2
  simpa using h1

theorem result_done {p : Prog V} {v : V} (h : p.result = some v) : p = .done v := by
  cases p <;> simp [Prog.result] at h
  rw [h]

theorem mapM_some_iff {A B : Type} (f : A → Option B) (l : List A) : ∀ r, l.mapM f = some r ↔ r.length = l.length ∧ ∀ (n : Nat) (a : A), l[n]? = some a → ∃ b, f a = some b ∧ r[n]? = some b := by
  induction l with
  | nil => intro r; simp [List.mapM_nil, eq_comm]
  | cons x l ih =>
    intro r
    rw [List.mapM_cons]
    constructor
    · intro h
      cases hx : f x with
      | none => rw [hx] at h; simp at h
      | some b =>
        rw [hx] at h
        cases hl : l.mapM f with
        | none => rw [hl] at h; simp at h
        | some r' =>
          rw [hl] at h
          have h : b :: r' = r := by simpa using h
          subst h
          obtain ⟨h1, h2⟩ := (ih r').1 hl
          refine ⟨by simp [h1], fun n a hn => ?_⟩
          cases n with
          | zero =>
            have : x = a := by simpa using hn
            subst this
            exact ⟨b, hx, rfl⟩
          | succ n => exact h2 n a (by simpa using hn)
    · rintro ⟨h1, h2⟩
      cases r with
      | nil => simp at h1
      | cons b r' =>
        obtain ⟨b', hb, e⟩ := h2 0 x rfl
        have : b = b' := by simpa using e
        subst this
        have hl := (ih r').2 ⟨by simpa using h1, fun n a hn => by simpa using h2 (n + 1) a (by simpa using hn)⟩
        rw [hb, hl]
        rfl

/-! ### Mutexes -/

/-- The mutexes in `L`, last locked first, are locked; mutexes are locked in decreasing order, and unlocked before the end. -/
def Disc : List Nat → Prog V → Prop
  | L, .done _ => L = []
  | L, .lock i k => (∀ j ∈ L, i < j) ∧ Disc (i :: L) k
  | L, .unlock i k => ∃ L', L = i :: L' ∧ Disc L' k
  | L, .readCounter _ k => ∀ x, Disc L (k x)
  | L, .writeCounter _ _ k => Disc L k
  | L, .readReg _ _ k => ∀ x, Disc L (k x)
  | L, .writeReg _ _ _ k => Disc L k
  | L, .readComputed _ k => ∀ x, Disc L (k x)
  | L, .writeComputed _ _ k => Disc L k
  | L, .readBuffer _ k => ∀ x, Disc L (k x)
  | L, .writeBuffer _ _ k => Disc L k

theorem disc_ask {L : List Nat} {i c : Nat} {k : Bool → Prog V} (h : ∀ b, Disc L (k b)) : Disc L (askReg i c k) := fun _ _ => h _

theorem disc_newDeps {L : List Nat} {rec : Nat → Nat → (Bool → Prog V) → Prog V} (hrec : ∀ j c k, (∀ b, Disc L (k b)) → Disc L (rec j c k)) (i : Nat) (k : Bool → Prog V)
    (h : ∀ b, Disc L (k b)) (ds : List (Nat × Nat)) : Disc L (newDeps rec i k ds) := by
  induction ds with
  | nil => exact h false
  | cons d ds ih =>
    simp only [newDeps]
    split_ifs
    · exact ih
    · refine hrec _ _ _ fun b => ?_
      cases b
      · exact ih
      · exact h true

theorem disc_isNew (g : Heap V) {L : List Nat} (fuel : Nat) : ∀ (i c : Nat) (k : Bool → Prog V), (∀ b, Disc L (k b)) → Disc L (isNewP g fuel i c k) := by
  induction fuel with
  | zero => intro i c k h; exact h false
  | succ fuel ih =>
    intro i c k h
    refine disc_newDeps ih i _ (fun b => ?_) _
    cases b
    · exact disc_ask h
    · exact fun _ => disc_ask (c := c) h

theorem disc_check {L : List Nat} {i c : Nat} {k : Prog V} (h : Disc L k) : Disc L (checkP i c k) := fun _ => h

theorem disc_checkAll {L : List Nat} {k : Prog V} (h : Disc L k) (ds : List (Nat × Nat)) : Disc L (checkAllP k ds) := by
  induction ds with
  | nil => exact h
  | cons d ds ih => exact disc_check ih

theorem disc_operands {L : List Nat} {rec : Nat → Nat → Prog V → Prog V} {ch : List (Nat × Nat)} (hrec : ∀ x ∈ ch, ∀ k, Disc L k → Disc L (rec x.1 x.2 k)) {k : Prog V} (h : Disc L k) :
    Disc L (operandsP rec k ch) := by
  induction ch with
  | nil => exact h
  | cons x ch ih => exact hrec x (by simp) _ (ih fun x hx => hrec x (by simp [hx]))

theorem disc_reads {L : List Nat} (js : List Nat) : ∀ {k : List V → Prog V}, (∀ l, Disc L (k l)) → Disc L (readsP k js) := by
  induction js with
  | nil => intro k h; exact h []
  | cons j js ih => intro k h v; exact ih fun l => h _

theorem disc_each {L : List Nat} {rec : Nat → Nat → Prog V → Prog V} (i : Nat) (part : V) (ch : List (Nat × Nat)) : ∀ {k : List V → Prog V},
    (∀ x ∈ ch, ∀ k, Disc L k → Disc L (rec x.1 x.2 k)) → (∀ l, Disc L (k l)) → Disc L (eachP rec i part k ch) := by
  induction ch with
  | nil => intro k _ h; exact h []
  | cons x ch ih => intro k hrec h; exact hrec x (by simp) _ fun v => ih (fun x hx => hrec x (by simp [hx])) fun l => h _

theorem disc_body (g : Heap V) (y : Style V) {L : List Nat} {rec : Nat → Nat → Prog V → Prog V} (i : Nat)
    (hrec : ∀ f ch role, (g i).kind = .op f ch role → ∀ x ∈ ch, ∀ k, Disc L k → Disc L (rec x.1 x.2 k)) {k : Prog V} (h : Disc L k) : Disc L (bodyP g y rec i k) := by
  unfold bodyP
  cases hk : (g i).kind with
  | var => exact h
  | op f ch role =>
    dsimp only
    split_ifs
    · exact disc_each i _ ch (hrec f ch role hk) fun _ => h
    · exact disc_operands (hrec f ch role hk) (disc_reads _ fun _ => h)

theorem disc_evaluate (g : Heap V) (hg : ∀ i f ch role, (g i).kind = .op f ch role → ∀ x ∈ ch, x.1 < i) (y : Style V) (fuel : Nat) :
    ∀ (L : List Nat) (i c : Nat) (k : Prog V), (∀ j ∈ L, i < j) → Disc L k → Disc L (evaluateP g y fuel i c k) := by
  induction fuel with
  | zero => intro L i c k _ h; exact h
  | succ fuel ih =>
    intro L i c k hL h
    refine ⟨hL, ?_⟩
    have hu : Disc (i :: L) (.unlock i k) := ⟨L, rfl, h⟩
    have hb : ∀ k', Disc (i :: L) k' → Disc (i :: L) (bodyP g y (evaluateP g y fuel) i k') := fun k' hk' =>
      disc_body g y i (fun f ch role hk x hx k hk2 => ih (i :: L) x.1 x.2 k (fun j hj => by
        have h1 := hg i f ch role hk x hx
        rcases List.mem_cons.1 hj with rfl | hj
        · exact h1
        · have := hL j hj; omega) hk2) hk'
    split_ifs
    · refine disc_isNew g _ _ _ _ fun b => ?_
      cases b
      · exact hu
      · intro b
        cases b
        · exact hb _ (disc_check (k := .writeComputed _ _ _) (disc_checkAll hu _))
        · exact disc_check (disc_checkAll hu _)
    · exact hb _ hu

theorem disc_thread (g : Heap V) (hg : ∀ i f ch role, (g i).kind = .op f ch role → ∀ x ∈ ch, x.1 < i) (y : Style V) (k : Nat × Nat) : Disc [] (threadP g y k) :=
  disc_evaluate g hg y _ [] _ _ _ (by simp) fun _ => rfl

/-- Who has locked what. -/
structure Mutexes (L : Nat → List Nat) (s : State V) : Prop where
  disc : ∀ t p, s.threads[t]? = some p → Disc (L t) p
  lock : ∀ i t, s.mem.lock i = some t ↔ t < s.threads.length ∧ i ∈ L t

theorem mutexes_step (s : State V) (t : Nat) (s' : State V) (h : ∃ L, Mutexes L s ∧ ∀ u, (L u).Nodup) (hst : s.step t = some s') : ∃ L, Mutexes L s' ∧ ∀ u, (L u).Nodup := by
  obtain ⟨p, r, hp, hr, rfl⟩ := step_inv hst
  obtain ⟨L, hL, nd⟩ := h
  have hlt : t < s.threads.length := by
    by_contra hc
    rw [List.getElem?_eq_none (by omega)] at hp
    simp at hp
  have hd := hL.disc t p hp
  -- a step that locks and unlocks nothing
  have same : ∀ (m : Mem V) (k : Prog V), m.lock = s.mem.lock → Disc (L t) k → ∃ L, Mutexes L ⟨m, s.threads.set t k⟩ ∧ ∀ u, (L u).Nodup := by
    intro m k hm hk
    refine ⟨L, ⟨fun u q hq => ?_, fun i u => ?_⟩, nd⟩
    · dsimp only at hq
      by_cases hu : u = t
      · subst hu
        rw [List.getElem?_set_self hlt] at hq
        rw [← Option.some.inj hq]; exact hk
      · rw [List.getElem?_set_ne (fun e => hu e.symm)] at hq
        exact hL.disc u q hq
    · simp only [List.length_set]
      rw [hm]; exact hL.lock i u
  -- a step that changes the mutexes of `t`
  have other : ∀ (m : Mem V) (k : Prog V) (L' : List Nat), L'.Nodup → Disc L' k → (∀ i u, m.lock i = some u ↔ u < s.threads.length ∧ i ∈ update L t L' u) →
      ∃ L, Mutexes L ⟨m, s.threads.set t k⟩ ∧ ∀ u, (L u).Nodup := by
    intro m k L' nd' hk hm
    refine ⟨update L t L', ⟨fun u q hq => ?_, fun i u => ?_⟩, fun u => ?_⟩
    · dsimp only at hq
      by_cases hu : u = t
      · subst hu
        rw [List.getElem?_set_self hlt] at hq
        rw [← Option.some.inj hq, update_self]; exact hk
      · rw [List.getElem?_set_ne (fun e => hu e.symm)] at hq
        rw [update_of_ne hu]
        exact hL.disc u q hq
    · simp only [List.length_set]
      exact hm i u
    · by_cases hu : u = t
      · subst hu; rw [update_self]; exact nd'
      · rw [update_of_ne hu]; exact nd u
  cases p with
  | done v => simp [Prog.step] at hr
  | lock i k =>
    simp only [Prog.step] at hr
    split_ifs at hr with hn
    have hr := (Option.some.inj hr).symm
    subst hr
    have hni : ∀ u, u < s.threads.length → i ∉ L u := by
      intro u hu hi
      have := (hL.lock i u).2 ⟨hu, hi⟩
      rw [hn] at this
      simp at this
    refine other _ k (i :: L t) (List.nodup_cons.2 ⟨hni t hlt, nd t⟩) hd.2 fun j u => ?_
    dsimp only
    by_cases hj : j = i
    · subst hj
      rw [update_self]
      constructor
      · intro e
        rw [← Option.some.inj e]
        exact ⟨hlt, by simp⟩
      · rintro ⟨hu, hm⟩
        by_cases e : u = t
        · rw [e]
        · rw [update_of_ne e] at hm
          exact absurd hm (hni u hu)
    · rw [update_of_ne hj, hL.lock]
      by_cases e : u = t
      · subst e; rw [update_self]; simp [hj]
      · rw [update_of_ne e]
  | unlock i k =>
    simp only [Prog.step] at hr
    have hr := (Option.some.inj hr).symm
    subst hr
    obtain ⟨L', hL', hk⟩ := hd
    have nd' := nd t
    rw [hL'] at nd'
    obtain ⟨n1, n2⟩ := List.nodup_cons.1 nd'
    have hli : s.mem.lock i = some t := (hL.lock i t).2 ⟨hlt, by rw [hL']; simp⟩
    refine other _ k L' n2 hk fun j u => ?_
    dsimp only
    by_cases hj : j = i
    · subst hj
      rw [update_self]
      constructor
      · intro e; simp at e
      · rintro ⟨hu, hm⟩
        by_cases e : u = t
        · subst e; rw [update_self] at hm; exact absurd hm n1
        · rw [update_of_ne e] at hm
          have := (hL.lock j u).2 ⟨hu, hm⟩
          rw [hli] at this
          exact absurd (Option.some.inj this).symm e
    · rw [update_of_ne hj, hL.lock]
      by_cases e : u = t
      · subst e; rw [update_self, hL']; simp [hj]
      · rw [update_of_ne e]
  | readCounter i k => simp only [Prog.step] at hr; have hr := (Option.some.inj hr).symm; subst hr; exact same _ _ rfl (hd _)
  | writeCounter i x k => simp only [Prog.step] at hr; have hr := (Option.some.inj hr).symm; subst hr; exact same _ _ rfl hd
  | readReg i c k => simp only [Prog.step] at hr; have hr := (Option.some.inj hr).symm; subst hr; exact same _ _ rfl (hd _)
  | writeReg i c x k => simp only [Prog.step] at hr; have hr := (Option.some.inj hr).symm; subst hr; exact same _ _ rfl hd
  | readComputed i k => simp only [Prog.step] at hr; have hr := (Option.some.inj hr).symm; subst hr; exact same _ _ rfl (hd _)
  | writeComputed i b k => simp only [Prog.step] at hr; have hr := (Option.some.inj hr).symm; subst hr; exact same _ _ rfl hd
  | readBuffer i k => simp only [Prog.step] at hr; have hr := (Option.some.inj hr).symm; subst hr; exact same _ _ rfl (hd _)
  | writeBuffer i v k => simp only [Prog.step] at hr; have hr := (Option.some.inj hr).symm; subst hr; exact same _ _ rfl hd

theorem mutexes_start (g : Heap V) (hg : ∀ i f ch role, (g i).kind = .op f ch role → ∀ x ∈ ch, x.1 < i) (y : Style V) (roots : List (Nat × Nat)) :
    ∃ L, Mutexes L (start g y roots) ∧ ∀ u, (L u).Nodup := by
  refine ⟨fun _ => [], ⟨fun t p hp => ?_, fun i t => by simp [start]⟩, fun _ => List.nodup_nil⟩
  have hp : (roots.map (threadP g y))[t]? = some p := hp
  rw [List.getElem?_map] at hp
  cases hk : roots[t]? with
  | none => rw [hk] at hp; simp at hp
  | some k =>
    rw [hk] at hp
    rw [← Option.some.inj hp]
    exact disc_thread g hg y k

/-- If a thread has not finished, some thread can go on. -/
theorem no_deadlock {s : State V} (h : ∃ L, Mutexes L s ∧ ∀ u, (L u).Nodup) {t : Nat} {p : Prog V} (hp : s.threads[t]? = some p) (hr : p.result = none) :
    ∃ u, s.step u ≠ none := by
  obtain ⟨L, hL, -⟩ := h
  by_contra hc
  push Not at hc
  have stuck : ∀ (t : Nat) (p : Prog V), s.threads[t]? = some p → p.step t s.mem = none := by
    intro t p hp
    cases hq : p.step t s.mem with
    | none => rfl
    | some r => have := hc t; rw [step_some hp hq] at this; simp at this
  have form : ∀ (t : Nat) (p : Prog V), s.threads[t]? = some p → (∃ v, p = .done v) ∨ ∃ i k, p = .lock i k ∧ s.mem.lock i ≠ none := by
    intro t p hp
    have := stuck t p hp
    cases p <;> simp only [Prog.step] at this <;> try simp at this
    · exact Or.inl ⟨_, rfl⟩
    · exact Or.inr ⟨_, _, rfl, this⟩
  have key : ∀ (i t : Nat) (k : Prog V), s.threads[t]? = some (.lock i k) → False := by
    intro i
    induction i using Nat.strong_induction_on with
    | _ i ih =>
      intro t k hk
      rcases form t _ hk with ⟨v, hv⟩ | ⟨i', k', e, hne⟩
      · simp at hv
      · injection e with e1 e2
        subst e1
        cases hl : s.mem.lock i with
        | none => exact hne hl
        | some u =>
          obtain ⟨hu, hi⟩ := (hL.lock i u).1 hl
          have hq : s.threads[u]? = some s.threads[u] := List.getElem?_eq_getElem hu
          have hd := hL.disc u _ hq
          rcases form u _ hq with ⟨v, hv⟩ | ⟨j, k2, hv, -⟩
          · rw [hv] at hd
            have hd : L u = [] := hd
            rw [hd] at hi
            simp at hi
          · rw [hv] at hd hq
            exact ih j (hd.1 i hi) u k2 hq
  rcases form t p hp with ⟨v, rfl⟩ | ⟨i, k, rfl, -⟩
  · simp [Prog.result] at hr
  · exact key i t k hp

/-! ### Termination -/

/-- What is left of a program after an access. -/
def Shorter (q p : Prog V) : Prop := ∃ t m m', p.step t m = some (m', q)

theorem shorter_wf : WellFounded (Shorter (V := V)) := by
  constructor
  intro p
  induction p with
  | done v => exact ⟨_, fun q ⟨t, m, m', h⟩ => by simp [Prog.step] at h⟩
  | lock i k ih =>
    refine ⟨_, fun q ⟨t, m, m', h⟩ => ?_⟩
    simp only [Prog.step] at h
    split_ifs at h
    rw [← (Prod.mk.inj (Option.some.inj h)).2]; exact ih
  | unlock i k ih => exact ⟨_, fun q ⟨t, m, m', h⟩ => by rw [← (Prod.mk.inj (Option.some.inj h)).2]; exact ih⟩
  | readCounter i k ih => exact ⟨_, fun q ⟨t, m, m', h⟩ => by rw [← (Prod.mk.inj (Option.some.inj h)).2]; exact ih _⟩
  | writeCounter i x k ih => exact ⟨_, fun q ⟨t, m, m', h⟩ => by rw [← (Prod.mk.inj (Option.some.inj h)).2]; exact ih⟩
  | readReg i c k ih => exact ⟨_, fun q ⟨t, m, m', h⟩ => by rw [← (Prod.mk.inj (Option.some.inj h)).2]; exact ih _⟩
  | writeReg i c x k ih => exact ⟨_, fun q ⟨t, m, m', h⟩ => by rw [← (Prod.mk.inj (Option.some.inj h)).2]; exact ih⟩
  | readComputed i k ih => exact ⟨_, fun q ⟨t, m, m', h⟩ => by rw [← (Prod.mk.inj (Option.some.inj h)).2]; exact ih _⟩
  | writeComputed i b k ih => exact ⟨_, fun q ⟨t, m, m', h⟩ => by rw [← (Prod.mk.inj (Option.some.inj h)).2]; exact ih⟩
  | readBuffer i k ih => exact ⟨_, fun q ⟨t, m, m', h⟩ => by rw [← (Prod.mk.inj (Option.some.inj h)).2]; exact ih _⟩
  | writeBuffer i v k ih => exact ⟨_, fun q ⟨t, m, m', h⟩ => by rw [← (Prod.mk.inj (Option.some.inj h)).2]; exact ih⟩

theorem step_wf : WellFounded (fun s' s : State V => ∃ t, s.step t = some s') := by
  refine Subrelation.wf ?_ (InvImage.wf (fun s : State V => (s.threads : Multiset (Prog V))) shorter_wf.cutExpand)
  rintro s' s ⟨t, h⟩
  obtain ⟨p, r, hp, hr, rfl⟩ := step_inv h
  refine ⟨{r.2}, p, ?_, ?_⟩
  · intro q hq
    rw [Multiset.mem_singleton.1 hq]
    exact ⟨t, s.mem, r.1, hr⟩
  · have hlt : t < s.threads.length := by
      by_contra hc
      rw [List.getElem?_eq_none (by omega)] at hp
      simp at hp
    have e : s.threads = s.threads.take t ++ p :: s.threads.drop (t + 1) := by
      have h1 : s.threads[t] = p := by
        rw [List.getElem?_eq_getElem hlt] at hp
        exact Option.some.inj hp
      rw [← h1]
      simp
    have e2 : s.threads.set t r.2 = s.threads.take t ++ r.2 :: s.threads.drop (t + 1) := List.set_eq_take_append_cons_drop .. |>.trans (by rw [if_pos hlt])
    dsimp only
    rw [e2]
    conv_rhs => rw [e]
    rw [← Multiset.coe_add, ← Multiset.coe_add, ← Multiset.cons_coe, ← Multiset.cons_coe, ← Multiset.singleton_add, ← Multiset.singleton_add]
    simp only [add_assoc, add_comm, add_left_comm]

/-- The threads can always finish. -/
theorem can_finish (s : State V) (h : ∃ L, Mutexes L s ∧ ∀ u, (L u).Nodup) : ∃ l, ((s.run l).results).isSome := by
  induction s using step_wf.induction with
  | _ s ih =>
    by_cases hd : ∀ (t : Nat) (p : Prog V), s.threads[t]? = some p → p.result ≠ none
    · refine ⟨[], ?_⟩
      have : ∃ r, s.threads.mapM Prog.result = some r := by
        refine ⟨s.threads.filterMap Prog.result, (mapM_some_iff _ _ _).2 ?_⟩
        generalize s.threads = l at hd
        induction l with
        | nil => simp
        | cons x l ihl =>
          obtain ⟨h1, h2⟩ := ihl fun t p hp => hd (t + 1) p (by simpa using hp)
          cases hx : x.result with
          | none => exact absurd hx (hd 0 x rfl)
          | some v =>
            rw [List.filterMap_cons_some hx]
            refine ⟨by simp [h1], fun n a hn => ?_⟩
            cases n with
            | zero =>
              have : x = a := by simpa using hn
              subst this
              exact ⟨v, hx, rfl⟩
            | succ n => exact h2 n a (by simpa using hn)
      obtain ⟨r, hr⟩ := this
      show (s.threads.mapM Prog.result).isSome
      rw [hr]; rfl
    · push Not at hd
      obtain ⟨t, p, hp, hr⟩ := hd
      obtain ⟨u, hu⟩ := no_deadlock h hp hr
      cases hs : s.step u with
      | none => exact absurd hs hu
      | some s' =>
        obtain ⟨l, hl⟩ := ih s' ⟨u, hs⟩ (mutexes_step s u s' h hs)
        exact ⟨u :: l, by simpa [State.run, hs] using hl⟩

end
end Verif.Parallel
