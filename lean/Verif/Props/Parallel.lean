import Verif.Lemmas.ParallelRun
/- C90: several expressions evaluated at the same time. -/
set_option linter.unusedSectionVars false
set_option linter.unusedSimpArgs false
set_option linter.unusedVariables false
namespace Verif.Parallel
open Verif.EvalCache Function
variable {V : Type}

/-- Objects depend on variables, some of them made from expressions. -/
theorem dep_kind {h : Heap V} {own : Nat → Nat → Owner} {s : EvalCache.Spec.State V} (t : Static h own s) (i : Nat) :
    ∀ d ∈ (h i).deps, d.1 ≠ i → (h d.1).kind = .var ∨ ∃ f ch b, (h d.1).kind = .op f ch (.variable b) := by
  induction i using Nat.strong_induction_on with
  | _ i ih =>
    intro d hd hne
    cases hk : (h i).kind with
    | var => exact absurd ((t.var i hk).2.2 d hd) hne
    | op f ch role =>
      obtain ⟨-, -, -, hch, hdeps⟩ := t.op i f ch role hk
      obtain ⟨-, k, hkm, hdk⟩ := hdeps d hd
      have hlt := (hch k hkm).1
      have inside : d.1 ∈ (h k.1).deps.map Prod.fst → (h k.1).kind ≠ .var → (h d.1).kind = .var ∨ ∃ f ch b, (h d.1).kind = .op f ch (.variable b) := by
        intro hm hv
        obtain ⟨e, he, heq⟩ := List.mem_map.1 hm
        rw [← heq]
        refine ih k.1 hlt e he ?_
        cases hk' : (h k.1).kind with
        | var => exact absurd hk' hv
        | op f' ch' role' => exact (((t.op k.1 f' ch' role' hk').2.2.2.2 e he).1).ne
      unfold getDependencies at hdk
      cases hk' : (h k.1).kind with
      | var =>
        rw [hk'] at hdk
        have e : d.1 = k.1 := by simpa using hdk
        rw [e]; exact Or.inl hk'
      | op f' ch' role' =>
        rw [hk'] at hdk
        cases role' with
        | plain => exact inside hdk (by rw [hk']; simp)
        | «variable» b =>
          cases b with
          | true =>
            rcases List.mem_append.1 hdk with hm | hm
            · exact inside hm (by rw [hk']; simp)
            · rw [List.mem_singleton.1 hm]; exact Or.inr ⟨f', ch', true, hk'⟩
          | false =>
            have e : d.1 = k.1 := by simpa using hdk
            rw [e]; exact Or.inr ⟨f', ch', false, hk'⟩

theorem ready {w : World V} {s : EvalCache.Spec.State V} {own : Nat → Nat → Owner} (I : Inv w.heap own s) (H : Held w own s) (hv : Spec.VariablesCurrent w) :
    ∀ i, ∀ d ∈ (w.heap i).deps, d.1 ≠ i → Clean w.heap d.1 := by
  intro i d hd hne
  rcases dep_kind I.st i d hd hne with hk | ⟨f, ch, b, hk⟩
  · exact (clean_iff _ _).2 fun e he hne' => absurd ((I.st.var _ hk).2.2 e he) hne'
  · obtain ⟨p, c, hp, hn⟩ := hv d.1 f ch b hk
    obtain ⟨k, hk', hc, -⟩ := (isNew_iff ⟨own, I, H⟩ p).1 hn
    rw [hp] at hk'
    rw [← Option.some.inj hk'] at hc
    exact hc

/-- The mutexes, in any history. -/
theorem launch_mutexes {w : World V} {s : EvalCache.Spec.State V} (R : Rel w s) {y : Style V} {ps : List Nat} {st : State V} (h : launch w y ps = some st) :
    ∃ L, Mutexes L st ∧ ∀ u, (L u).Nodup := by
  obtain ⟨own, I, H⟩ := R
  unfold launch at h
  cases hp : ps.mapM w.handle with
  | none => rw [hp] at h; simp at h
  | some roots =>
    rw [hp] at h
    rw [← Option.some.inj h]
    exact mutexes_start w.heap (fun i f ch role hk x hx => ((I.st.op i f ch role hk).2.2.2.1 x hx).1) y roots

theorem launch_good {w : World V} {s : EvalCache.Spec.State V} {own : Nat → Nat → Owner} (I : Inv w.heap own s) (H : Held w own s) (T : Told w.heap) (hv : Spec.VariablesCurrent w)
    {y : Style V} {ps : List Nat} {st : State V} (h : launch w y ps = some st) :
    Ctx w.heap own s ∧ ∃ roots, ps.mapM w.handle = some roots ∧ st = start w.heap y roots ∧ ∀ k ∈ roots, (own k.1 k.2).Comp := by
  unfold launch at h
  cases hp : ps.mapM w.handle with
  | none => rw [hp] at h; simp at h
  | some roots =>
    rw [hp] at h
    refine ⟨⟨I.st, I.tb, I.dy, T, ready I H hv⟩, roots, rfl, (Option.some.inj h).symm, fun k hk => ?_⟩
    obtain ⟨p, hp'⟩ := mapM_mem ps roots hp k hk
    rw [(H.own p k hp').1]
    trivial

theorem phase_value {w : World V} {s : EvalCache.Spec.State V} (R : Rel w s) (T : Told w.heap) (hv : Spec.VariablesCurrent w) {y : Style V} {ps : List Nat} {st : State V}
    (h : launch w y ps = some st) (schedule : List Nat) (t p : Nat) (hp : ps[t]? = some p) (v : V) (hd : (st.run schedule).threads[t]? = some (.done v)) :
    s.value p = some v := by
  obtain ⟨own, I, H⟩ := R
  obtain ⟨C, roots, hr, rfl, hc⟩ := launch_good I H T hv h
  obtain ⟨h1, h2⟩ := (mapM_some_iff _ _ _).1 hr
  obtain ⟨k, hk, hk'⟩ := h2 t p hp
  rw [value_of_result C y roots hc schedule t k hk' v hd]
  unfold EvalCache.Spec.State.value
  rw [H.handle p, hk]
  rfl

/-- Once all the threads have finished, the expressions are in order. -/
theorem phase_rel {w : World V} {s : EvalCache.Spec.State V} (R : Rel w s) (T : Told w.heap) (hv : Spec.VariablesCurrent w) {y : Style V} {ps : List Nat} {st : State V}
    (h : launch w y ps = some st) (schedule : List Nat) (l : List V) (hl : (st.run schedule).results = some l) :
    Rel { w with heap := (st.run schedule).mem.heap } { s with last := s.value } ∧ Told (st.run schedule).mem.heap ∧ Shape w.heap (st.run schedule).mem.heap := by
  have hm := launch_mutexes R h
  obtain ⟨own, I, H⟩ := R
  obtain ⟨C, roots, hr, rfl, hc⟩ := launch_good I H T hv h
  have G := run_induct (fun s t s' => good_step s t s') _ (good_start C y roots hc) schedule
  obtain ⟨L, hL, -⟩ := run_induct (P := fun s => ∃ L, Mutexes L s ∧ ∀ u, (L u).Nodup) (fun s t s' => mutexes_step s t s') _ hm schedule
  have free : ∀ i, ((start w.heap y roots).run schedule).mem.lock i = none := by
    intro i
    cases hi : ((start w.heap y roots).run schedule).mem.lock i with
    | none => rfl
    | some t =>
      obtain ⟨ht, hm⟩ := (hL.lock i t).1 hi
      have hp := List.getElem?_eq_getElem ht
      obtain ⟨v, hv, -⟩ := ((mapM_some_iff _ _ _).1 hl).2 t _ hp
      have hd := hL.disc t _ hp
      rw [result_done hv] at hd
      have hd : L t = [] := hd
      rw [hd] at hm
      simp at hm
  generalize (start w.heap y roots).run schedule = st at *
  have j := G.mem
  have up : ∀ i, Clean st.mem.heap i → UpTo w.heap st.mem.heap i := by
    intro i hcl d hd hne
    exact ((clean_iff _ _).1 hcl d (by rw [(j.shape i).2]; exact hd) hne).1
  have st' := I.st.congr j.shape
  have tb' := I.tb.congr j.slots
  refine ⟨⟨own, ⟨⟨st'.var, st'.op, st'.junk, st'.dep⟩, ⟨tb'.ge, tb'.bin, tb'.nodup, tb'.junk⟩, ⟨j.le, fun i hk => ?_, fun i hcl hx => ?_⟩⟩, H.size, H.handles, H.own, fun p k hp _ _ => ?_⟩, fun i hcomp c hreg => ?_, j.shape⟩
  · exact j.var i (by rw [← (j.shape i).1]; exact hk)
  · have q := j.quiet i (free i)
    refine q.valid (up i hcl) ?_
    rcases hx with hx | ⟨c, hcc, hreg⟩
    · exact hx
    · by_contra hcomp
      obtain ⟨x, hx⟩ := q.told (by simpa using hcomp) c hreg
      exact comp_free C hcc x hx
  · have hp : w.handle p = some k := hp
    show s.value p = _
    unfold EvalCache.Spec.State.value
    rw [H.handle p, hp]
    rfl
  · obtain ⟨x, hx⟩ := (j.quiet i (free i)).told hcomp c hreg
    exact ⟨x, by rw [(j.shape x).2]; exact hx⟩

/-- All operators are seen through their dependencies. -/
def Plain (h : Heap V) : Prop := ∀ i f ch role, (h i).kind = .op f ch role → role = .plain

theorem Plain.shape {h h' : Heap V} (a : Plain h) (sh : Shape h h') : Plain h' := fun i f ch role hk => a i f ch role (by rw [← (sh i).1]; exact hk)

theorem Plain.current {w : World V} (a : Plain w.heap) : Spec.VariablesCurrent w := fun i f ch b hk => by simpa using a i f ch _ hk

theorem Plain.place {h : Heap V} (a : Plain h) (n : Nat) (nd : Node V) (hn : ∀ f ch role, nd.kind = .op f ch role → role = .plain) : Plain (update h n nd) := by
  intro i f ch role hk
  by_cases e : i = n
  · subst e; rw [update_self] at hk; exact hn f ch role hk
  · rw [update_of_ne e] at hk; exact a i f ch role hk

theorem plain_step {w : World V} {s : EvalCache.Spec.State V} (R : Rel w s) (P : Plain w.heap) (o : Op V) (ho : Spec.NoVariables (.op o)) : Plain (step w o).1.heap := by
  obtain ⟨own, I, H⟩ := R
  cases o with
  | newVar a v =>
    refine P.place _ _ fun f ch role hk => ?_
    cases a <;> simp [fresh] at hk
  | build f ps role v =>
    cases role with
    | «variable» b => exact absurd ho (by simp [Spec.NoVariables])
    | plain =>
      simp only [step]
      cases hp : ps.mapM w.handle with
      | none => exact P
      | some ks =>
        dsimp only [build]
        have hks : ∀ k ∈ ks.map Prod.fst, k < s.size := by
          intro k hk
          obtain ⟨x, hx, rfl⟩ := List.mem_map.1 hk
          obtain ⟨p, hp'⟩ := mapM_mem ps ks hp x hx
          exact (H.own p x hp').2
        obtain ⟨own', I', sh, -⟩ := operands_inv I (ks.map Prod.fst) hks
        generalize (ks.map Prod.fst).foldl addOperand ([], w.heap) = r at *
        have hjs : ∀ j ∈ (ks.map Prod.fst).flatMap (getDependencies r.2), j < s.size := by
          intro j hj
          obtain ⟨k, hk, hj⟩ := List.mem_flatMap.1 hj
          have h1 := getDependencies_lt I'.st k j hj
          have h2 := hks k hk
          omega
        obtain ⟨own2, I2, sh2, -⟩ := deps_inv I' s.size _ hjs
        refine ((P.shape sh).shape sh2).place w.size _ fun f' ch' role' hk => ?_
        simp only [fresh, Kind.op.injEq] at hk
        exact hk.2.2.symm
  | copy p =>
    simp only [step]
    cases hp : w.handle p with
    | none => exact P
    | some k => exact P.shape (alloc I k.1 (H.own p k hp).2 .child).2.1
  | drop p =>
    simp only [step]
    cases hp : w.handle p with
    | none => exact P
    | some k => exact P.shape (relabel_shape w.heap k.1 k.2 _ _)
  | assign p v =>
    simp only [step]
    cases hp : w.handle p with
    | none => exact P
    | some k =>
      dsimp only
      unfold assign
      have key : Plain (reset (update w.heap k.1 { w.heap k.1 with buffer := v }) k.1) := by
        unfold reset
        rw [update_idem, update_self]
        exact P.place _ _ fun f ch role hk => P k.1 f ch role hk
      split
      · exact P
      · exact key
  | eval p =>
    simp only [step]
    cases hp : w.handle p with
    | none => exact P
    | some k =>
      obtain ⟨h1, h2⟩ := H.own p k hp
      have hlt : k.2 < (w.heap k.1).ids := by
        by_contra hc
        have := I.tb.ge k.1 k.2 (by omega)
        rw [h1] at this
        exact absurd this (by simp)
      obtain ⟨-, sh, -⟩ := evaluateF_good (k.1 + 1) w.heap k.1 k.2 (by omega) I.st I.tb I.dy hlt (by rw [h1]; trivial)
      exact P.shape sh
  | askNew p =>
    simp only [step]
    cases hp : w.handle p with
    | none => exact P
    | some k =>
      obtain ⟨b, -⟩ := isNewF_spec (k.1 + 1) w.heap k.1 k.2 (by omega) I.dy.le I.st.older
      exact P.shape b.shape
  | become p q =>
    have pr : Plain (release w p).heap := by
      unfold release
      cases hp : w.handle p with
      | none => exact P
      | some k => exact P.shape (relabel_shape w.heap k.1 k.2 _ _)
    show Plain (become w p q).heap
    unfold become
    split
    · cases hq : w.handle q with
      | none => exact pr
      | some k =>
        have R1 := (rel_drop ⟨own, I, H⟩ p).1
        rw [← release_eq] at R1
        obtain ⟨own', I', H'⟩ := R1
        have hk : k.1 < (Spec.step s (.drop p)).1.size := (H.own q k hq).2
        exact pr.shape (alloc I' k.1 hk .child).2.1
    · exact P

theorem plain_after {w : World V} {s : EvalCache.Spec.State V} (R : Rel w s) (P : Plain w.heap) (os : List (Op V)) (ho : ∀ o ∈ os, Spec.NoVariables (.op o)) : Plain (after w os).heap := by
  induction os generalizing w s with
  | nil => exact P
  | cons o os ih => exact ih (rel_step R o).2 (plain_step R P o (ho o (by simp))) fun o' ho' => ho o' (by simp [ho'])

theorem plain_empty [Inhabited V] : Plain (World.empty : World V).heap := by
  intro i f ch role hk
  simp [World.empty, fresh] at hk

theorem specStep_last (s : EvalCache.Spec.State V) (last : Nat → Option V) (o : Op V) :
    (EvalCache.Spec.step { s with last := last } o).2 = (EvalCache.Spec.step s o).2 ∧
      ∃ last', (EvalCache.Spec.step { s with last := last } o).1 = { (EvalCache.Spec.step s o).1 with last := last' } := by
  have hh : ∀ p, EvalCache.Spec.State.handle { s with last := last } p = s.handle p := fun _ => rfl
  cases o with
  | newVar a v => exact ⟨rfl, last, rfl⟩
  | build f ps role v =>
    simp only [EvalCache.Spec.step]
    rw [show (EvalCache.Spec.State.handle { s with last := last }) = s.handle from rfl]
    cases ps.mapM s.handle with
    | none => exact ⟨rfl, last, rfl⟩
    | some ks => exact ⟨rfl, last, rfl⟩
  | copy p =>
    simp only [EvalCache.Spec.step, hh]
    cases s.handle p with
    | none => exact ⟨by first | rfl | trivial, last, rfl⟩
    | some k => exact ⟨by first | rfl | trivial, last, rfl⟩
  | drop p => exact ⟨rfl, last, rfl⟩
  | assign p v =>
    simp only [EvalCache.Spec.step, hh]
    cases s.handle p with
    | none => exact ⟨rfl, last, rfl⟩
    | some k =>
      dsimp only
      split_ifs
      · exact ⟨by first | rfl | trivial, last, rfl⟩
      · exact ⟨by first | rfl | trivial, last, rfl⟩
  | eval p =>
    simp only [EvalCache.Spec.step, hh]
    cases s.handle p with
    | none => exact ⟨rfl, last, rfl⟩
    | some k => exact ⟨rfl, _, rfl⟩
  | askNew p => exact ⟨rfl, last, rfl⟩
  | become p q => exact ⟨rfl, _, rfl⟩

theorem specRun_last (s : EvalCache.Spec.State V) (last : Nat → Option V) (os : List (Op V)) : EvalCache.Spec.run { s with last := last } os = EvalCache.Spec.run s os := by
  induction os generalizing s last with
  | nil => rfl
  | cons o os ih =>
    obtain ⟨h1, last', h2⟩ := specStep_last s last o
    simp only [EvalCache.Spec.run]
    rw [h1, h2, ih]

theorem phase_list {w : World V} {s : EvalCache.Spec.State V} (R : Rel w s) (T : Told w.heap) (hv : Spec.VariablesCurrent w) {y : Style V} {ps : List Nat} {st : State V}
    (h : launch w y ps = some st) (schedule : List Nat) (l : List V) (hl : (st.run schedule).results = some l) : ps.mapM s.value = some l := by
  obtain ⟨h1, h2⟩ := (mapM_some_iff _ _ _).1 hl
  have hlen : (st.run schedule).threads.length = ps.length := by
    rw [length_run]
    unfold launch at h
    cases hp : ps.mapM w.handle with
    | none => rw [hp] at h; simp at h
    | some roots =>
      rw [hp] at h
      rw [← Option.some.inj h]
      simp [start, ((mapM_some_iff _ _ _).1 hp).1]
  refine (mapM_some_iff _ _ _).2 ⟨h1.trans hlen, fun n p hn => ?_⟩
  have hlt : n < (st.run schedule).threads.length := by
    rw [hlen]
    by_contra hc
    rw [List.getElem?_eq_none (by omega)] at hn
    simp at hn
  have hp := List.getElem?_eq_getElem hlt
  obtain ⟨v, hv', hr⟩ := h2 n _ hp
  rw [result_done hv'] at hp
  exact ⟨v, phase_value R T hv h schedule n p hn v hp, hr⟩

theorem mapM_all {A B : Type} {f : A → Option B} (l : List A) (h : ∀ a ∈ l, ∃ b, f a = some b) : ∃ r, l.mapM f = some r := by
  induction l with
  | nil => exact ⟨[], rfl⟩
  | cons a l ih =>
    obtain ⟨b, hb⟩ := h a (by simp)
    obtain ⟨r, hr⟩ := ih fun x hx => h x (by simp [hx])
    exact ⟨b :: r, by rw [List.mapM_cons, hb, hr]; rfl⟩

theorem acts_eq {w : World V} {s : EvalCache.Spec.State V} (last : Nat → Option V) (R : Rel w { s with last := last }) (T : Told w.heap) (P : Plain w.heap) (l : List (Act V))
    (hl : ∀ a ∈ l, Spec.NoVariables a) (out : List (List V)) (ho : acts w l = some out) : out = Spec.acts s l := by
  induction l generalizing w s last out with
  | nil => simpa [acts, Spec.acts] using ho.symm
  | cons a l ih =>
    simp only [acts] at ho
    cases ha : act w a with
    | none => rw [ha] at ho; simp at ho
    | some r =>
      rw [ha] at ho
      cases hb : acts r.1 l with
      | none => simp [hb] at ho
      | some vs =>
        have ho : r.2 :: vs = out := by simpa [hb] using ho
        rw [← ho]
        simp only [Spec.acts]
        have hl' : ∀ a ∈ l, Spec.NoVariables a := fun a h => hl a (by simp [h])
        have ha0 := hl a (by simp)
        cases a with
        | op o =>
          have ha : r = ((step w o).1, (step w o).2.toList) := by simpa [act] using ha.symm
          subst ha
          obtain ⟨h1, h2⟩ := rel_step R o
          obtain ⟨e1, last', e2⟩ := specStep_last s last o
          rw [e2] at h2
          rw [e1] at h1
          rw [ih last' h2 (told_step R T o) (plain_step R P o ha0) hl' vs hb]
          simp only [Spec.act, h1]
        | parallel y ps schedule =>
          simp only [act] at ha
          cases hs : launch w y ps with
          | none =>
            rw [hs] at ha
            have ha : r = (w, []) := by simpa using ha.symm
            subst ha
            rw [ih last R T P hl' vs hb]
            have : ps.mapM s.value = none := by
              cases hm : ps.mapM s.value with
              | none => rfl
              | some l =>
                unfold launch at hs
                cases hp : ps.mapM w.handle with
                | some roots => rw [hp] at hs; simp at hs
                | none =>
                  exfalso
                  obtain ⟨h1, h2⟩ := (mapM_some_iff _ _ _).1 hm
                  obtain ⟨own, I, H⟩ := R
                  have : ∃ roots, ps.mapM w.handle = some roots := by
                    have each : ∀ p ∈ ps, ∃ k, w.handle p = some k := by
                      intro p hp
                      obtain ⟨n, hn⟩ := List.mem_iff_getElem?.1 hp
                      obtain ⟨b, hb, -⟩ := h2 n p hn
                      have e := H.handle p
                      have hb : (EvalCache.Spec.State.handle { s with last := last } p).map (fun k => s.meaning k s.values) = some b := hb
                      rw [e] at hb
                      cases hw : w.handle p with
                      | none => rw [hw] at hb; simp at hb
                      | some k => exact ⟨k, rfl⟩
                    exact mapM_all ps each
                  rw [hp] at this
                  simp at this
            simp [Spec.act, this]
          | some st =>
            rw [hs] at ha
            dsimp only at ha
            cases hr : (st.run schedule).results with
            | none => rw [hr] at ha; simp at ha
            | some out' =>
              rw [hr] at ha
              have ha : r = ({ w with heap := (st.run schedule).mem.heap }, out') := by simpa using ha.symm
              subst ha
              obtain ⟨h1, h2, h3⟩ := phase_rel R T P.current hs schedule out' hr
              have hv := phase_list R T P.current hs schedule out' hr
              rw [ih (s := s) _ h1 h2 (P.shape h3) hl' vs hb]
              have hv : ps.mapM s.value = some out' := hv
              simp [Spec.act, hv]

/-! ### The property -/

/-- C90. Whatever expressions have been constructed, assigned and evaluated before, if no variable made from an expression is waiting for a change, what each thread returns
is the value of its expression, for every order in which the threads access the memory.  Missing: it does not hold when such a variable has to be updated
(`C90_stale_variable`). -/
theorem C90_parallel_values_partial [Inhabited V] (os : List (Op V)) (hv : Spec.VariablesCurrent (after World.empty os)) (y : Style V) (ps : List Nat) (st : State V)
    (hs : launch (after World.empty os) y ps = some st) (schedule : List Nat) (t p : Nat) (hp : ps[t]? = some p) (v : V)
    (hd : (st.run schedule).threads[t]? = some (.done v)) : (EvalCache.Spec.after EvalCache.Spec.State.empty os).value p = some v :=
  phase_value (rel_after rel_empty os) (told_after rel_empty told_empty os) hv hs schedule t p hp v hd

/-- Once all the threads have finished, everything done afterwards returns what it should. -/
theorem C90_later_partial [Inhabited V] (os : List (Op V)) (hv : Spec.VariablesCurrent (after World.empty os)) (y : Style V) (ps : List Nat) (st : State V)
    (hs : launch (after World.empty os) y ps = some st) (schedule : List Nat) (l : List V) (hd : (st.run schedule).results = some l) (os' : List (Op V)) :
    run { after World.empty os with heap := (st.run schedule).mem.heap } os' = EvalCache.Spec.run (EvalCache.Spec.after EvalCache.Spec.State.empty os) os' := by
  rw [run_eq (phase_rel (rel_after rel_empty os) (told_after rel_empty told_empty os) hv hs schedule l hd).1, specRun_last]

/-- Without variables made from expressions: any history, in which expressions are also evaluated in parallel, returns the values of an evaluation without cache. -/
theorem C90_histories_partial [Inhabited V] (l : List (Act V)) (hl : ∀ a ∈ l, Spec.NoVariables a) (out : List (List V)) (ho : acts World.empty l = some out) :
    out = Spec.acts EvalCache.Spec.State.empty l :=
  acts_eq (s := EvalCache.Spec.State.empty) _ rel_empty told_empty plain_empty l hl out ho

/-- Without variables made from expressions, the threads have no data races (so that the memory is sequentially consistent, as modelled). -/
theorem C90_no_race_partial [Inhabited V] (os : List (Op V)) (hos : ∀ o ∈ os, Spec.NoVariables (.op o)) (y : Style V) (ps : List Nat) (st : State V)
    (hs : launch (after World.empty os) y ps = some st) (schedule : List Nat) : ¬ Spec.Race (st.run schedule) := by
  have R := rel_after (rel_empty (V := V)) os
  have P := plain_after (rel_empty (V := V)) plain_empty os hos
  have T := told_after (rel_empty (V := V)) told_empty os
  generalize after World.empty os = w at *
  generalize EvalCache.Spec.after EvalCache.Spec.State.empty os = sp at *
  obtain ⟨own, I, H⟩ := R
  obtain ⟨C, roots, hr, rfl, hc⟩ := launch_good I H T P.current hs
  have G := run_induct (fun s t s' => good_step s t s') _ (good_start C y roots hc) schedule
  generalize (start w.heap y roots).run schedule = st at *
  rintro ⟨t, u, p, q, loc, a, b, htu, hp, hq, hnp, hnq, hab⟩
  have mp : May w.heap sp t st.mem p := by
    obtain ⟨_, _, h1, -⟩ := G.safe t p hp
    exact h1 _ (Rely.refl _ _ _ _) G.mem
  have mq : May w.heap sp u st.mem q := by
    obtain ⟨_, _, h1, -⟩ := G.safe u q hq
    exact h1 _ (Rely.refl _ _ _ _) G.mem
  have inner : ∀ i, ¬ Inner w.heap i := by
    rintro i ⟨hk, l, d, hd, rfl, hne⟩
    rcases dep_kind I.st l d hd hne with hv | ⟨f, ch, b, hv⟩
    · exact hk hv
    · have := P _ _ _ _ hv
      simp at this
  have one : ∀ {i : Nat}, st.mem.lock i = some t → st.mem.lock i = some u → False := by
    intro i h1 h2
    rw [h1] at h2
    exact htu (Option.some.inj h2)
  have reg : ∀ {i c : Nat}, MayReg w.heap t st.mem i c → MayReg w.heap u st.mem i c → False := by
    intro i c h1 h2
    rcases h1 with ⟨l1, n1⟩ | ⟨j1, d1, l1⟩ <;> rcases h2 with ⟨l2, n2⟩ | ⟨j2, d2, l2⟩
    · exact one l1 l2
    · exact n1 _ d2
    · exact n2 _ d1
    · have e := dep_unique C d1 d2
      subst e
      rcases l1 with l1 | l1
      · rcases l2 with l2 | l2
        · exact one l1 l2
        · exact inner _ l2
      · exact inner _ l1
  cases p <;> simp only [Spec.next] at hnp <;> try simp at hnp
  all_goals
    obtain ⟨rfl, rfl⟩ := hnp
    cases q <;> simp only [Spec.next] at hnq <;> try simp at hnq
  all_goals
    first
      | (simp only [Spec.Location.counter.injEq, Spec.Location.reg.injEq, Spec.Location.computed.injEq, Spec.Location.buffer.injEq] at hnq)
      | skip
  all_goals obtain ⟨e, rfl⟩ := hnq
  all_goals try (simp at hab; done)
  all_goals first | subst e | (obtain ⟨rfl, rfl⟩ := e)
  all_goals simp only [May] at mp mq
  all_goals
    first
      | exact reg mp mq
      | exact one mp mq
      | exact one mp.1 mq.1
      | exact mp.2 mq
      | exact mq.2 mp
      | (rcases mp with mp | mp
         · exact one mp mq.1
         · exact mq.2 mp)
      | (rcases mq with mq | mq
         · exact one mp.1 mq
         · exact mp.2 mq)

/-- The threads never wait for each other, whatever the expressions: as long as one of them has not finished, one of them can go on. -/
theorem C90_no_deadlock [Inhabited V] (os : List (Op V)) (y : Style V) (ps : List Nat) (st : State V) (hs : launch (after World.empty os) y ps = some st) (schedule : List Nat)
    (hd : (st.run schedule).results = none) : ∃ t, (st.run schedule).step t ≠ none := by
  have M := run_induct (P := fun s => ∃ L, Mutexes L s ∧ ∀ u, (L u).Nodup) (fun s t s' => mutexes_step s t s') _ (launch_mutexes (rel_after (rel_empty (V := V)) os) hs) schedule
  by_contra hc
  obtain ⟨l, hl⟩ := can_finish _ M
  have stuck : ∀ l, ((st.run schedule).run l) = st.run schedule := by
    intro l
    induction l with
    | nil => rfl
    | cons t l ih =>
      have : (st.run schedule).step t = none := by
        by_contra h
        exact hc ⟨t, h⟩
      simp only [State.run, this, Option.getD_none]
      exact ih
  rw [stuck, hd] at hl
  simp at hl

/-- And they do not go on forever, in whatever order. -/
theorem C90_terminates [Inhabited V] (os : List (Op V)) (y : Style V) (ps : List Nat) (st : State V) (hs : launch (after World.empty os) y ps = some st) :
    (¬ ∃ f : Nat → State V, f 0 = st ∧ ∀ n, ∃ t, (f n).step t = some (f (n + 1))) ∧
      ∀ schedule, ∃ schedule', ((st.run (schedule ++ schedule')).results).isSome := by
  refine ⟨?_, fun schedule => ?_⟩
  · rintro ⟨f, -, h⟩
    have key : ∀ s n, f n = s → False := by
      intro s
      induction s using (step_wf (V := V)).induction with
      | _ s ih =>
        intro n hn
        subst hn
        exact ih (f (n + 1)) (h n) (n + 1) rfl
    exact key (f 0) 0 rfl
  · have M := run_induct (P := fun s => ∃ L, Mutexes L s ∧ ∀ u, (L u).Nodup) (fun s t s' => mutexes_step s t s') _ (launch_mutexes (rel_after (rel_empty (V := V)) os) hs) schedule
    obtain ⟨l, hl⟩ := can_finish _ M
    exact ⟨l, by rw [run_append]; exact hl⟩

end Verif.Parallel
