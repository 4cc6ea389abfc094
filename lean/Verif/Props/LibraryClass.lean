import Verif.Lemmas.LibraryClass
/- C100: objects of shared libraries. -/
namespace Verif.LibClass
open Spec

theorem set_factory {given given' : List Nat} {lost : Nat → Nat} {w : World} (hi : Inv given lost w) {f : Nat} {F : Factory} (hF : w.factories[f]? = some F) (F' : Factory) (hk : ∀ g ∈ given', g ∈ given ∨ g = f)
    (hr : F'.refs = (if f ∈ given' then 0 else 1) + (holders w f : Int) + lost f) (ho : ∀ g, g ≠ f → (g ∈ given' ↔ g ∈ given)) (ha : F'.alive = true ↔ F'.refs ≠ 0) :
    Inv given' lost ⟨w.factories.set f F', w.objects, w.handles⟩ := by
  refine ⟨?_, ?_, hi.apart, hi.once, ?_, ?_, fun g hg => hi.unlost g (by simpa using hg)⟩
  · intro g hg
    rcases hk g hg with h | rfl
    · simpa using hi.known g h
    · simpa using lt_of_get hF
  · intro h x o hx hc
    obtain ⟨g, h1, h2, h3⟩ := hi.held h x o hx hc
    exact ⟨g, h1, by simpa using h2, h3⟩
  · intro g G hG
    rcases get_set hG with ⟨rfl, rfl⟩ | ⟨hne, hG⟩
    · exact hr
    · simp only [ho g hne]
      exact hi.refs g G hG
  · intro g G hG
    rcases get_set hG with ⟨rfl, rfl⟩ | ⟨hne, hG⟩
    · exact ha
    · exact hi.alive g G hG

/-- The references given up in a history. -/
def givenUp : List Nat → List Op → List Nat
  | given, [] => given
  | given, .release f :: l => givenUp (f :: given) l
  | given, _ :: l => givenUp given l

theorem run_ok : ∀ (l : List Op) (given : List Nat) (lost : Nat → Nat) (w : World), Inv given lost w → Fair w.factories.length given l →
    ∃ w' lost', run w l = some w' ∧ Inv (givenUp given l) lost' w' ∧ (Working l → Tidy lost w → Tidy lost' w') := by
  intro l
  induction l with
  | nil => intro given lost w hi _; exact ⟨w, lost, rfl, hi, fun _ h => h⟩
  | cons op l ih =>
    intro given lost w hi hf
    -- the work of one step
    have next : ∀ (given' : List Nat) (lost1 : Nat → Nat) (w1 : World), step w op = some w1 → Inv given' lost1 w1 → Fair w1.factories.length given' l → givenUp given (op :: l) = givenUp given' l →
        (Working (op :: l) → Tidy lost w → Tidy lost1 w1) → ∃ w' lost', run w (op :: l) = some w' ∧ Inv (givenUp given (op :: l)) lost' w' ∧ (Working (op :: l) → Tidy lost w → Tidy lost' w') := by
      intro given' lost1 w1 hs hi1 hf1 hg ht
      obtain ⟨w', lost', h1, h2, h3⟩ := ih given' lost1 w1 hi1 hf1
      refine ⟨w', lost', ?_, by rw [hg]; exact h2, fun hw h => h3 (fun o ho => hw o (List.mem_cons_of_mem _ ho)) (ht hw h)⟩
      simp only [run, hs, Option.bind_some]
      exact h1
    cases op with
    | newFactory valid =>
      refine next given lost ⟨w.factories ++ [⟨1, valid, true⟩], w.objects, w.handles⟩ rfl ?_ (by simpa [Fair] using hf) rfl fun hw ht => ⟨?_, ht.kept, ht.freed⟩
      · have new : ∀ (f : Nat) (F : Factory), (w.factories ++ [⟨1, valid, true⟩])[f]? = some F → w.factories[f]? = some F ∨ (f = w.factories.length ∧ F = ⟨1, valid, true⟩) := fun f F hF => by
          rcases Nat.lt_or_ge f w.factories.length with hlt | hge
          · rw [List.getElem?_append_left hlt] at hF
            exact .inl hF
          · rw [List.getElem?_append_right hge, List.getElem?_singleton] at hF
            split_ifs at hF with e
            cases hF
            exact .inr ⟨by omega, rfl⟩
        refine ⟨?_, ?_, hi.apart, hi.once, ?_, ?_, ?_⟩
        · intro f h
          have := hi.known f h
          simp only [List.length_append, List.length_singleton]
          omega
        · intro h x o hx hc
          obtain ⟨g, h1, h2, h3⟩ := hi.held h x o hx hc
          refine ⟨g, h1, ?_, h3⟩
          simp only [List.length_append, List.length_singleton]
          omega
        · intro f F hF
          rcases new f F hF with hF | ⟨rfl, rfl⟩
          · exact hi.refs f F hF
          · have h0 : w.factories.length ∉ given := fun h => absurd (hi.known _ h) (Nat.lt_irrefl _)
            have h1 := no_holders hi (Nat.le_refl _)
            have h1 : holders ⟨w.factories ++ [⟨1, valid, true⟩], w.objects, w.handles⟩ w.factories.length = 0 := h1
            rw [if_neg h0, h1, hi.unlost _ (Nat.le_refl _)]
            rfl
        · intro f F hF
          rcases new f F hF with hF | ⟨rfl, rfl⟩
          · exact hi.alive f F hF
          · simp
        · intro f h
          refine hi.unlost f ?_
          simp only [List.length_append, List.length_singleton] at h
          omega
      · intro f F hF
        rcases Nat.lt_or_ge f w.factories.length with hlt | hge
        · exact ht.valid f F (by simpa [List.getElem?_append_left hlt] using hF)
        · have hF : (w.factories ++ [⟨1, valid, true⟩])[f]? = some F := hF
          rw [List.getElem?_append_right hge, List.getElem?_singleton] at hF
          split_ifs at hF
          cases hF
          exact hw _ List.mem_cons_self
    | reopen f valid =>
      cases hF : w.factories[f]? with
      | none => exact next given lost w (by simp [step, hF]) hi hf.2 rfl fun _ h => h
      | some F =>
        have hr := hi.refs f F hF
        have hal : F.alive = true := (hi.alive f F hF).2 (by rw [if_neg hf.1] at hr; omega)
        refine next given lost ⟨w.factories.set f ⟨F.refs, valid, F.alive⟩, w.objects, w.handles⟩ (by simp [step, hF, hal]) (set_factory hi hF _ (fun g h => .inl h) hr (fun _ _ => Iff.rfl) (hi.alive f F hF))
          (by simpa using hf.2) rfl fun hw ht => ⟨?_, ht.kept, ht.freed⟩
        intro g G hG
        rcases get_set hG with ⟨rfl, rfl⟩ | ⟨hne, hG⟩
        · exact hw _ List.mem_cons_self
        · exact ht.valid g G hG
    | release f =>
      obtain ⟨hlt, hng, hf⟩ := hf
      obtain ⟨F, hF⟩ : ∃ F, w.factories[f]? = some F := ⟨_, List.getElem?_eq_getElem hlt⟩
      have hr := hi.refs f F hF
      rw [if_neg hng] at hr
      have hal : F.alive = true := (hi.alive f F hF).2 (by omega)
      refine next (f :: given) lost ⟨w.factories.set f (removeRef F), w.objects, w.handles⟩ (by simp [step, hF, hal]) (set_factory hi hF _ ?_ ?_ ?_ ?_) (by simpa using hf) rfl fun hw ht => ⟨?_, ht.kept, ht.freed⟩
      · intro g hg
        rcases List.mem_cons.1 hg with h | h
        · exact .inr h
        · exact .inl h
      · simp only [removeRef, List.mem_cons, true_or, if_true]
        omega
      · intro g hne
        simp [hne]
      · simp [removeRef]
      · intro g G hG
        rcases get_set hG with ⟨rfl, rfl⟩ | ⟨hne, hG⟩
        · exact ht.valid g F hF
        · exact ht.valid g G hG
    | newHandle =>
      have old : ∀ (h : Nat) (x : Handle) (o : Nat), (w.handles ++ [some emptyHandle])[h]? = some (some x) → x.content = some o → w.handles[h]? = some (some x) := fun h x o hx hc => by
        rcases Nat.lt_or_ge h w.handles.length with hlt | hge
        · rw [List.getElem?_append_left hlt] at hx
          exact hx
        · rw [List.getElem?_append_right hge, List.getElem?_singleton] at hx
          split_ifs at hx
          cases hx
          cases hc
      refine next given lost ⟨w.factories, w.objects, w.handles ++ [some emptyHandle]⟩ rfl ⟨hi.known, fun h x o hx hc => hi.held h x o (old h x o hx hc) hc,
        fun h h' x x' o hx hx' hc hc' => hi.apart h h' x x' o (old h x o hx hc) (old h' x' o hx' hc') hc hc', hi.once, ?_, hi.alive, hi.unlost⟩ hf rfl fun hw ht => ⟨ht.valid, ht.kept, ?_⟩
      · intro f F hF
        have : holders ⟨w.factories, w.objects, w.handles ++ [some emptyHandle]⟩ f = holders w f := by
          simp [holders, List.countP_append, holdsOf, emptyHandle]
        rw [this]
        exact hi.refs f F hF
      · intro o b hb h0
        obtain ⟨h, x, hx, hc⟩ := ht.freed o b hb h0
        refine ⟨h, x, ?_, hc⟩
        show (w.handles ++ [some emptyHandle])[h]? = _
        rw [List.getElem?_append_left (lt_of_get hx)]
        exact hx
    | openHandle h f made =>
      match hx : w.handles[h]?, hF : w.factories[f]? with
      | some (some x), some F =>
        obtain ⟨w1, c1, i1, e1, l1, t1⟩ := close_ok hi hx
        have hx1 : w1.handles[h]? = some (some emptyHandle) := by
          rw [e1, List.getElem?_set_self (lt_of_get hx)]
        obtain ⟨w2, lost2, c2, i2, l2, t2⟩ := fill_ok i1 hx1 (by rw [l1]; exact lt_of_get hF) hf.1 made
        exact next given lost2 w2 (by simp only [step, hx, hF, c1, Option.bind_some, c2]) i2 (by rw [l2, l1]; exact hf.2) rfl fun hw ht => t2 (hw _ List.mem_cons_self) (t1 ht)
      | some none, some F => exact next given lost w (by simp only [step, hx, hF]) hi hf.2 rfl fun _ h => h
      | none, some F => exact next given lost w (by simp only [step, hx, hF]) hi hf.2 rfl fun _ h => h
      | some (some x), none => exact next given lost w (by simp only [step, hx, hF]) hi hf.2 rfl fun _ h => h
      | some none, none => exact next given lost w (by simp only [step, hx, hF]) hi hf.2 rfl fun _ h => h
      | none, none => exact next given lost w (by simp only [step, hx, hF]) hi hf.2 rfl fun _ h => h
    | closeHandle h =>
      match hx : w.handles[h]? with
      | some (some x) =>
        obtain ⟨w1, c1, i1, e1, l1, t1⟩ := close_ok hi hx
        exact next given lost w1 (by simp only [step, hx, c1]) i1 (by rw [l1]; exact hf) rfl fun _ ht => t1 ht
      | some none => exact next given lost w (by simp only [step, hx]) hi hf rfl fun _ h => h
      | none => exact next given lost w (by simp only [step, hx]) hi hf rfl fun _ h => h
    | deleteHandle h =>
      match hx : w.handles[h]? with
      | some (some x) =>
        obtain ⟨w1, c1, i1, e1, l1, t1⟩ := close_ok hi hx
        have hx1 : w1.handles[h]? = some (some emptyHandle) := by
          rw [e1, List.getElem?_set_self (lt_of_get hx)]
        have old : ∀ (k : Nat) (y : Handle), (w1.handles.set h none)[k]? = some (some y) → w1.handles[k]? = some (some y) := fun k y hy => by
          rcases get_set hy with ⟨_, e⟩ | ⟨_, hy⟩
          · cases e
          · exact hy
        refine next given lost ⟨w1.factories, w1.objects, w1.handles.set h none⟩ (by simp only [step, hx, c1, Option.bind_some]) ⟨i1.known, fun k y o hy hc => i1.held k y o (old k y hy) hc,
          fun k k' y y' o hy hy' hc hc' => i1.apart k k' y y' o (old k y hy) (old k' y' hy') hc hc', i1.once, ?_, i1.alive, i1.unlost⟩ (by rw [l1]; exact hf) rfl
          fun _ ht => ⟨(t1 ht).valid, (t1 ht).kept, ?_⟩
        · intro f F hF
          have : holders ⟨w1.factories, w1.objects, w1.handles.set h none⟩ f = holders w1 f := by
            have := countP_replace (holdsOf f) w1.handles h _ none hx1
            simp only [holdsOf, emptyHandle, Bool.false_eq_true, if_false] at this
            exact this
          rw [this]
          exact i1.refs f F hF
        · intro o b hb h0
          obtain ⟨k, y, hy, hc⟩ := (t1 ht).freed o b hb h0
          refine ⟨k, y, ?_, hc⟩
          have hne : h ≠ k := by
            rintro rfl
            rw [hx1] at hy
            cases hy
            cases hc
          show (w1.handles.set h none)[k]? = _
          rw [List.getElem?_set_ne hne]
          exact hy
      | some none => exact next given lost w (by simp only [step, hx]) hi hf rfl fun _ h => h
      | none => exact next given lost w (by simp only [step, hx]) hi hf rfl fun _ h => h
    | copyHandle h => exact hf.elim

theorem mem_givenUp (l : List Op) (given : List Nat) (f : Nat) : f ∈ givenUp given l ↔ f ∈ given ∨ Op.release f ∈ l := by
  induction l generalizing given with
  | nil => simp [givenUp]
  | cons op l ih =>
    cases op <;> simp only [givenUp, ih, List.mem_cons, reduceCtorEq, false_or, Op.release.injEq]
    rw [or_comm (a := f = _), or_assoc]

theorem holders_iff {given : List Nat} {lost : Nat → Nat} {w : World} (hi : Inv given lost w) (f : Nat) : holders w f ≠ 0 ↔ ∃ h o b, Holds w h o ∧ IsObject w o f b := by
  constructor
  · intro hne
    have : 0 < w.handles.countP (holdsOf f) := Nat.pos_of_ne_zero hne
    obtain ⟨x, hx, hh⟩ := List.countP_pos_iff.1 this
    obtain ⟨h, hx⟩ := List.getElem?_of_mem hx
    match x, hh with
    | some ⟨some o, some g⟩, hh =>
      obtain rfl : g = f := by simpa [holdsOf] using hh
      obtain ⟨f', h1, _, h3⟩ := hi.held h _ o hx rfl
      cases h1
      exact ⟨h, o, 0, ⟨_, hx, rfl⟩, h3⟩
  · rintro ⟨h, o, b, ⟨⟨c, g⟩, hx, rfl⟩, hb⟩
    obtain ⟨f', h1, _, h3⟩ := hi.held h _ o hx rfl
    cases h1
    unfold IsObject at hb
    rw [h3] at hb
    cases hb
    exact Nat.pos_iff_ne_zero.1 (holders_pos hx)

theorem start_ok : Inv [] (fun _ => 0) start ∧ Tidy (fun _ => 0) start :=
  ⟨⟨by simp, by simp [start], by simp [start], by simp [start], by simp [start], by simp [start], fun _ _ => rfl⟩, ⟨by simp [start], fun _ => rfl, by simp [start]⟩⟩

/-- C100: when who makes a factory does not use it after giving it up, and no handle is copied, nothing that was deleted is used (the history has a result), whatever the libraries answer: an object that a handle has exists and was
not destroyed, its factory was not deleted and no other handle has it; no object is destroyed twice. -/
theorem C100_safe (l : List Op) (hf : Fair 0 [] l) : ∃ w, run start l = some w ∧
    (∀ h o, Holds w h o → ∃ f, IsObject w o f 0 ∧ Alive w f) ∧
    (∀ h h' o, Holds w h o → Holds w h' o → h = h') ∧
    (∀ o f n, IsObject w o f n → n ≤ 1) ∧
    (∀ f, f < w.factories.length → Op.release f ∉ l → Alive w f) := by
  obtain ⟨w, lost, hr, hi, _⟩ := run_ok l [] _ start start_ok.1 hf
  have live : ∀ f, f < w.factories.length → (Op.release f ∉ l ∨ holders w f ≠ 0) → Alive w f := by
    intro f hlt h
    refine ⟨_, List.getElem?_eq_getElem hlt, (hi.alive f _ (List.getElem?_eq_getElem hlt)).2 ?_⟩
    have := hi.refs f _ (List.getElem?_eq_getElem hlt)
    rcases h with h | h
    · rw [if_neg (by rw [mem_givenUp]; simpa using h)] at this
      omega
    · split_ifs at this <;> omega
  refine ⟨w, hr, ?_, ?_, fun o f n h => hi.once o _ h, fun f hlt h => live f hlt (.inl h)⟩
  · rintro h o ⟨⟨c, g⟩, hx, rfl⟩
    obtain ⟨f, h1, h2, h3⟩ := hi.held h _ o hx rfl
    cases h1
    exact ⟨f, h3, live f h2 (.inr (Nat.pos_iff_ne_zero.1 (holders_pos hx)))⟩
  · rintro h h' o ⟨x, hx, hc⟩ ⟨x', hx', hc'⟩
    exact hi.apart h h' x x' o hx hx' hc hc'

/-- C100: if moreover the libraries work, each object that no handle has was destroyed, once, and a factory was deleted exactly if it was given up and no handle has an object of it. -/
theorem C100_nothing_left (l : List Op) (hf : Fair 0 [] l) (hw : Working l) : ∃ w, run start l = some w ∧
    (∀ o f n, IsObject w o f n → (n = 0 ∧ ∃ h, Holds w h o) ∨ (n = 1 ∧ ¬ ∃ h, Holds w h o)) ∧
    (∀ f, f < w.factories.length → (¬ Alive w f ↔ Op.release f ∈ l ∧ ¬ ∃ h o n, Holds w h o ∧ IsObject w o f n)) := by
  obtain ⟨w, lost, hr, hi, ht⟩ := run_ok l [] _ start start_ok.1 hf
  have ht := ht hw start_ok.2
  refine ⟨w, hr, ?_, ?_⟩
  · intro o f n h
    have h1 := hi.once o _ h
    have h1 : n ≤ 1 := h1
    rcases Nat.eq_zero_or_pos n with rfl | hp
    · obtain ⟨k, x, hx, hc⟩ := ht.freed o _ h rfl
      exact .inl ⟨rfl, k, x, hx, hc⟩
    · refine .inr ⟨by omega, ?_⟩
      rintro ⟨k, x, hx, hc⟩
      obtain ⟨g, _, _, h3⟩ := hi.held k x o hx hc
      unfold IsObject at h
      rw [h3] at h
      cases h
      omega
  · intro f hlt
    have hF := List.getElem?_eq_getElem hlt
    have hrefs := hi.refs f _ hF
    have hal := hi.alive f _ hF
    rw [ht.kept] at hrefs
    rw [← holders_iff hi f]
    have : Alive w f ↔ (w.factories[f]).refs ≠ 0 := by
      rw [← hal]
      constructor
      · rintro ⟨F, h1, h2⟩
        rw [hF] at h1
        cases h1
        exact h2
      · intro h
        exact ⟨_, hF, h⟩
    have hm := mem_givenUp l [] f
    simp only [List.not_mem_nil, false_or] at hm
    rw [this, ← hm]
    split_ifs at hrefs with hg
    · simp only [hg, true_and, not_not]
      constructor <;> intro h <;> omega
    · simp only [hg, false_and, iff_false, not_not]
      omega

theorem close_keeps {w w' : World} {h : Nat} {x : Handle} (hc : close w h x = some w') : w'.handles = w.handles.set h (some emptyHandle) ∧ ∀ (f : Nat) (F : Factory), w.factories[f]? = some F → ∃ F' : Factory, w'.factories[f]? = some F' ∧ F'.valid = F.valid := by
  unfold close at hc
  split at hc
  · cases hc
    exact ⟨rfl, fun f F hF => ⟨F, hF, rfl⟩⟩
  · split at hc
    · cases hc
    · split at hc
      · cases hc
      · split_ifs at hc
        rename_i g _ _ G hG _
        cases hc
        refine ⟨rfl, fun f F hF => ?_⟩
        by_cases e : g = f
        · subst e
          rw [hG] at hF
          cases hF
          exact ⟨_, List.getElem?_set_self (lt_of_get hG), rfl⟩
        · refine ⟨F, ?_, rfl⟩
          show (w.factories.set g _)[f]? = _
          rw [List.getElem?_set_ne e]
          exact hF

/-- C100: after an opening the handle is valid exactly if the factory is valid and the library made the object; the other handles are as before. -/
theorem C100_open_answer (w w' : World) (h f : Nat) (made : Bool) (x : Handle) (F : Factory) (hx : w.handles[h]? = some (some x)) (hF : w.factories[f]? = some F) (hs : step w (.openHandle h f made) = some w') :
    (∃ x', w'.handles[h]? = some (some x') ∧ (isValid x' = true ↔ F.valid = true ∧ made = true)) ∧ ∀ k, k ≠ h → w'.handles[k]? = w.handles[k]? := by
  simp only [step, hx, hF] at hs
  cases hc : close w h x with
  | none => rw [hc] at hs; cases hs
  | some w1 =>
    rw [hc, Option.bind_some] at hs
    obtain ⟨h1, h2⟩ := close_keeps hc
    obtain ⟨F', hF', hv⟩ := h2 f F hF
    have hlt : h < w1.handles.length := by
      rw [h1, List.length_set]
      exact lt_of_get hx
    unfold fill at hs
    rw [hF'] at hs
    dsimp only at hs
    split_ifs at hs with _ hm <;> cases hs
    · rw [Bool.and_eq_true, hv] at hm
      refine ⟨⟨_, List.getElem?_set_self hlt, by simp [isValid, hm]⟩, fun k hk => ?_⟩
      show (w1.handles.set h _)[k]? = _
      rw [List.getElem?_set_ne (Ne.symm hk), h1, List.getElem?_set_ne (Ne.symm hk)]
    · rw [Bool.and_eq_true, hv] at hm
      refine ⟨⟨_, List.getElem?_set_self hlt, by simp [isValid, hm]⟩, fun k hk => ?_⟩
      show (w1.handles.set h _)[k]? = _
      rw [List.getElem?_set_ne (Ne.symm hk), h1, List.getElem?_set_ne (Ne.symm hk)]

/-- C100: after closing, the handle is not valid and the others are as before. -/
theorem C100_close_answer (w w' : World) (h : Nat) (x : Handle) (hx : w.handles[h]? = some (some x)) (hs : step w (.closeHandle h) = some w') :
    (∃ x', w'.handles[h]? = some (some x') ∧ isValid x' = false) ∧ ∀ k, k ≠ h → w'.handles[k]? = w.handles[k]? := by
  simp only [step, hx] at hs
  obtain ⟨h1, _⟩ := close_keeps hs
  rw [h1]
  exact ⟨⟨_, List.getElem?_set_self (lt_of_get hx), rfl⟩, fun k hk => List.getElem?_set_ne (Ne.symm hk)⟩

/-- A history with two handles and two factories, one of them given up and deleted. -/
def history : List Op :=
  [.newFactory true, .newFactory true, .newHandle, .newHandle, .openHandle 0 0 true, .openHandle 1 1 true, .release 1, .openHandle 0 0 true, .deleteHandle 1]

example : Fair 0 [] history ∧ Working history := by
  refine ⟨by simp [Fair, history], ?_⟩
  intro op h
  simp only [history, List.mem_cons, List.not_mem_nil, or_false] at h
  rcases h with rfl | rfl | rfl | rfl | rfl | rfl | rfl | rfl | rfl <;> trivial

example : run start history = some ⟨[⟨2, true, true⟩, ⟨0, true, false⟩], [⟨0, 1⟩, ⟨1, 1⟩, ⟨0, 0⟩], [some ⟨some 2, some 0⟩, none]⟩ := rfl

/-- Finding: an opening that fails takes a reference that is never given back, and the factory is never deleted: with it its library stays loaded. -/
theorem C100_finding_failed_open : ∃ w, run start [.newFactory true, .newHandle, .openHandle 0 0 false, .closeHandle 0, .deleteHandle 0, .release 0] = some w ∧ Alive w 0 ∧ ¬ ∃ h o, Holds w h o := by
  refine ⟨⟨[⟨1, true, true⟩], [], [none]⟩, rfl, ⟨_, rfl, rfl⟩, ?_⟩
  rintro ⟨h, o, x, hx, hc⟩
  match h with
  | 0 => simp at hx
  | h + 1 => simp at hx

/-- Finding: opening a handle again with its own factory, which the handle alone keeps, uses the factory after deleting it. -/
theorem C100_finding_open_again : run start [.newFactory true, .newHandle, .openHandle 0 0 true, .release 0, .openHandle 0 0 true] = none := rfl

/-- Finding: a copy of a handle destroys the object again. -/
theorem C100_finding_copy : ∃ w, run start [.newFactory true, .newHandle, .openHandle 0 0 true, .copyHandle 0, .deleteHandle 0, .deleteHandle 1] = some w ∧ IsObject w 0 0 2 :=
  ⟨_, rfl, rfl⟩

/-- Finding: an object is not destroyed if the factory is not valid any more. -/
theorem C100_finding_invalid : ∃ w, run start [.newFactory true, .newHandle, .openHandle 0 0 true, .reopen 0 false, .deleteHandle 0] = some w ∧ IsObject w 0 0 0 ∧ ¬ ∃ h, Holds w h 0 := by
  refine ⟨⟨[⟨1, false, true⟩], [⟨0, 0⟩], [none]⟩, rfl, rfl, ?_⟩
  rintro ⟨h, x, hx, hc⟩
  match h with
  | 0 => simp at hx
  | h + 1 => simp at hx

end Verif.LibClass
