import Verif.Spec.LibraryClass
/- The invariant of the handles. -/
namespace Verif.LibClass
open Spec

/-- The handle has an object of this factory. -/
def holdsOf (f : Nat) : Option Handle → Bool
  | some ⟨some _, some g⟩ => g == f
  | _ => false

/-- The number of handles with an object of this factory. -/
def holders (w : World) (f : Nat) : Nat := w.handles.countP (holdsOf f)

theorem countP_replace {α : Type} (p : α → Bool) (l : List α) (i : Nat) (a b : α) (h : l[i]? = some a) :
    (l.set i b).countP p + (if p a then 1 else 0) = l.countP p + (if p b then 1 else 0) := by
  induction l generalizing i with
  | nil => simp at h
  | cons c l ih =>
    cases i with
    | zero =>
      obtain rfl : c = a := by simpa using h
      simp only [List.set_cons_zero, List.countP_cons]
      omega
    | succ i =>
      have := ih i (by simpa using h)
      simp only [List.set_cons_succ, List.countP_cons]
      omega

/-- The references are counted: `lost` is the number of openings that failed. -/
structure Inv (given : List Nat) (lost : Nat → Nat) (w : World) : Prop where
  known : ∀ f ∈ given, f < w.factories.length
  held : ∀ (h : Nat) (x : Handle) (o : Nat), w.handles[h]? = some (some x) → x.content = some o → ∃ f : Nat, x.factory = some f ∧ f < w.factories.length ∧ w.objects[o]? = some ⟨f, 0⟩
  apart : ∀ (h h' : Nat) (x x' : Handle) (o : Nat), w.handles[h]? = some (some x) → w.handles[h']? = some (some x') → x.content = some o → x'.content = some o → h = h'
  once : ∀ (o : Nat) (b : Object), w.objects[o]? = some b → b.destroyed ≤ 1
  refs : ∀ (f : Nat) (F : Factory), w.factories[f]? = some F → F.refs = (if f ∈ given then 0 else 1) + (holders w f : Int) + lost f
  alive : ∀ (f : Nat) (F : Factory), w.factories[f]? = some F → (F.alive = true ↔ F.refs ≠ 0)
  unlost : ∀ f, w.factories.length ≤ f → lost f = 0

/-- Nothing is left behind. -/
structure Tidy (lost : Nat → Nat) (w : World) : Prop where
  valid : ∀ (f : Nat) (F : Factory), w.factories[f]? = some F → F.valid = true
  kept : ∀ f, lost f = 0
  freed : ∀ (o : Nat) (b : Object), w.objects[o]? = some b → b.destroyed = 0 → ∃ (h : Nat) (x : Handle), w.handles[h]? = some (some x) ∧ x.content = some o

theorem get_set {α : Type} {l : List α} {i j : Nat} {a b : α} (h : (l.set i a)[j]? = some b) : (j = i ∧ b = a) ∨ (j ≠ i ∧ l[j]? = some b) := by
  by_cases e : i = j
  · subst e
    rw [List.getElem?_set_self'] at h
    cases hl : l[i]? with
    | none => rw [hl] at h; cases h
    | some c =>
      rw [hl] at h
      cases h
      exact .inl ⟨rfl, rfl⟩
  · rw [List.getElem?_set_ne e] at h
    exact .inr ⟨fun e' => e e'.symm, h⟩

theorem lt_of_get {α : Type} {l : List α} {i : Nat} {a : α} (h : l[i]? = some a) : i < l.length := by
  rw [List.getElem?_eq_some_iff] at h
  exact h.1

theorem holders_pos {w : World} {h f o : Nat} (hh : w.handles[h]? = some (some ⟨some o, some f⟩)) : 0 < holders w f := by
  have := countP_replace (holdsOf f) w.handles h _ none hh
  simp only [holdsOf, beq_self_eq_true, if_true, Bool.false_eq_true, if_false] at this
  unfold holders
  omega

theorem destroy_get (F : Factory) (objects : List Object) (o o' : Nat) :
    (destroy F objects o)[o']? = if F.valid = true ∧ o = o' then objects[o']?.map fun b => ⟨b.maker, b.destroyed + 1⟩ else objects[o']? := by
  unfold destroy
  by_cases v : F.valid = true
  · rw [if_pos v]
    by_cases e : o = o'
    · rw [if_pos ⟨v, e⟩, List.getElem?_modify]
      simp only [e, if_true]
      rfl
    · rw [if_neg (fun h => e h.2), List.getElem?_modify]
      simp [e]
  · rw [if_neg v, if_neg (fun h => v h.1)]

theorem close_ok {given : List Nat} {lost : Nat → Nat} {w : World} (hi : Inv given lost w) {h : Nat} {x : Handle} (hx : w.handles[h]? = some (some x)) :
    ∃ w', close w h x = some w' ∧ Inv given lost w' ∧ w'.handles = w.handles.set h (some emptyHandle) ∧ w'.factories.length = w.factories.length ∧ (Tidy lost w → Tidy lost w') := by
  obtain ⟨content, factory⟩ := x
  cases content with
  | none =>
    have hold : ∀ f, holders ⟨w.factories, w.objects, w.handles.set h (some emptyHandle)⟩ f = holders w f := by
      intro f
      have := countP_replace (holdsOf f) w.handles h _ (some emptyHandle) hx
      simp only [holdsOf, emptyHandle, Bool.false_eq_true, if_false] at this
      exact this
    refine ⟨_, rfl, ⟨hi.known, ?_, ?_, hi.once, ?_, hi.alive, hi.unlost⟩, rfl, rfl, fun ht => ⟨ht.valid, ht.kept, ?_⟩⟩
    · intro k y o hy ho
      rcases get_set hy with ⟨rfl, e⟩ | ⟨_, hy⟩
      · cases e; cases ho
      · exact hi.held k y o hy ho
    · intro k k' y y' o hy hy' ho ho'
      rcases get_set hy with ⟨rfl, e⟩ | ⟨_, hy⟩
      · cases e; cases ho
      · rcases get_set hy' with ⟨rfl, e⟩ | ⟨_, hy'⟩
        · cases e; cases ho'
        · exact hi.apart k k' y y' o hy hy' ho ho'
    · intro f F hF
      rw [hold]
      exact hi.refs f F hF
    · intro o b hb h0
      obtain ⟨k, y, hy, ho⟩ := ht.freed o b hb h0
      refine ⟨k, y, ?_, ho⟩
      have hne : h ≠ k := by
        rintro rfl
        rw [hx] at hy
        cases hy
        cases ho
      rw [List.getElem?_set_ne hne]
      exact hy
  | some o =>
    obtain ⟨f, rfl, hf, hobj⟩ := hi.held h _ o hx rfl
    obtain ⟨F, hF⟩ : ∃ F, w.factories[f]? = some F := ⟨_, List.getElem?_eq_getElem hf⟩
    have hpos := holders_pos hx
    have hr := hi.refs f F hF
    have hal : F.alive = true := (hi.alive f F hF).2 (by split_ifs at hr <;> omega)
    have hold : ∀ g fs os, (holders ⟨fs, os, w.handles.set h (some emptyHandle)⟩ g : Int) = holders w g - if f = g then 1 else 0 := by
      intro g fs os
      have := countP_replace (holdsOf g) w.handles h _ (some emptyHandle) hx
      unfold holders
      by_cases e : f = g
      · subst e
        simp only [holdsOf, emptyHandle, Bool.false_eq_true, if_false, beq_self_eq_true, if_true] at this ⊢
        omega
      · have e' : (f == g) = false := by simpa using e
        simp only [holdsOf, emptyHandle, Bool.false_eq_true, if_false, e', if_neg e] at this ⊢
        omega
    refine ⟨⟨w.factories.set f (removeRef F), destroy F w.objects o, w.handles.set h (some emptyHandle)⟩, ?_, ⟨?_, ?_, ?_, ?_, ?_, ?_, fun g hg => hi.unlost g (by simpa using hg)⟩, rfl, by simp, fun ht => ⟨?_, ht.kept, ?_⟩⟩
    · simp only [close, hF, hal, if_true]
    · intro g hg
      simpa using hi.known g hg
    · intro k y o' hy ho
      rcases get_set hy with ⟨rfl, e⟩ | ⟨hne, hy⟩
      · cases e; cases ho
      · obtain ⟨g, h1, h2, h3⟩ := hi.held k y o' hy ho
        refine ⟨g, h1, by simpa using h2, ?_⟩
        have : o ≠ o' := fun e => hne (hi.apart k h y _ o' hy hx ho (by rw [e]))
        show (destroy F w.objects o)[o']? = _
        rw [destroy_get, if_neg (fun h => this h.2)]
        exact h3
    · intro k k' y y' o' hy hy' ho ho'
      rcases get_set hy with ⟨rfl, e⟩ | ⟨_, hy⟩
      · cases e; cases ho
      · rcases get_set hy' with ⟨rfl, e⟩ | ⟨_, hy'⟩
        · cases e; cases ho'
        · exact hi.apart k k' y y' o' hy hy' ho ho'
    · intro o' b hb
      have hb : (destroy F w.objects o)[o']? = some b := hb
      rw [destroy_get] at hb
      split_ifs at hb with e
      · rw [← e.2, hobj] at hb
        cases hb
        exact Nat.le_refl _
      · exact hi.once o' b hb
    · intro g G hG
      rw [hold]
      rcases get_set hG with ⟨rfl, rfl⟩ | ⟨hne, hG⟩
      · simp only [removeRef, if_true]
        omega
      · rw [if_neg (Ne.symm hne)]
        have := hi.refs g G hG
        omega
    · intro g G hG
      rcases get_set hG with ⟨rfl, rfl⟩ | ⟨hne, hG⟩
      · simp [removeRef]
      · exact hi.alive g G hG
    · intro g G hG
      rcases get_set hG with ⟨rfl, rfl⟩ | ⟨hne, hG⟩
      · exact ht.valid g F hF
      · exact ht.valid g G hG
    · intro o' b hb h0
      have hb : (destroy F w.objects o)[o']? = some b := hb
      rw [destroy_get] at hb
      by_cases e : o = o'
      · rw [if_pos ⟨ht.valid f F hF, e⟩, ← e, hobj] at hb
        cases hb
        cases h0
      · rw [if_neg (fun h => e h.2)] at hb
        obtain ⟨k, y, hy, ho⟩ := ht.freed o' b hb h0
        refine ⟨k, y, ?_, ho⟩
        have hne : h ≠ k := by
          rintro rfl
          rw [hx] at hy
          cases hy
          cases ho
          exact e rfl
        rw [List.getElem?_set_ne hne]
        exact hy

theorem no_holders {given : List Nat} {lost : Nat → Nat} {w : World} (hi : Inv given lost w) {f : Nat} (hf : w.factories.length ≤ f) : holders w f = 0 := by
  unfold holders
  rw [List.countP_eq_zero]
  intro x hx hh
  obtain ⟨h, hx⟩ := List.getElem?_of_mem hx
  match x, hh with
  | some ⟨some o, some g⟩, hh =>
    obtain ⟨f', h1, h2, _⟩ := hi.held h _ o hx rfl
    cases h1
    have : g = f := by simpa [holdsOf] using hh
    omega

/-- The number of failed openings after one more. -/
def lose (lost : Nat → Nat) (f : Nat) : Nat → Nat := fun g => if g = f then lost g + 1 else lost g

theorem fill_ok {given : List Nat} {lost : Nat → Nat} {w : World} (hi : Inv given lost w) {h f : Nat} (hx : w.handles[h]? = some (some emptyHandle)) (hf : f < w.factories.length) (hg : f ∉ given) (made : Bool) :
    ∃ w' lost', fill w h f made = some w' ∧ Inv given lost' w' ∧ w'.factories.length = w.factories.length ∧ (made = true → Tidy lost w → Tidy lost' w') := by
  obtain ⟨F, hF⟩ : ∃ F, w.factories[f]? = some F := ⟨_, List.getElem?_eq_getElem hf⟩
  have hr := hi.refs f F hF
  rw [if_neg hg] at hr
  have hal : F.alive = true := (hi.alive f F hF).2 (by omega)
  have alive : ∀ (g : Nat) (G : Factory), (w.factories.set f ⟨F.refs + 1, F.valid, F.alive⟩)[g]? = some G → (G.alive = true ↔ G.refs ≠ 0) := by
    intro g G hG
    rcases get_set hG with ⟨rfl, rfl⟩ | ⟨hne, hG⟩
    · simp only [hal, true_iff]
      omega
    · exact hi.alive g G hG
  cases hc : F.valid && made with
  | true =>
    rw [Bool.and_eq_true] at hc
    have hold : ∀ g fs os, (holders ⟨fs, os, w.handles.set h (some ⟨some w.objects.length, some f⟩)⟩ g : Int) = holders w g + if f = g then 1 else 0 := by
      intro g fs os
      have := countP_replace (holdsOf g) w.handles h _ (some ⟨some w.objects.length, some f⟩) hx
      unfold holders
      by_cases e : f = g
      · subst e
        simp only [holdsOf, emptyHandle, Bool.false_eq_true, if_false, beq_self_eq_true, if_true] at this ⊢
        omega
      · have e' : (f == g) = false := by simpa using e
        simp only [holdsOf, emptyHandle, Bool.false_eq_true, if_false, e', if_neg e] at this ⊢
        omega
    have old : ∀ (o : Nat) (b : Object), w.objects[o]? = some b → (w.objects ++ [⟨f, 0⟩])[o]? = some b := fun o b hb => by
      rw [List.getElem?_append_left (lt_of_get hb)]
      exact hb
    have new : ∀ (o : Nat) (b : Object), (w.objects ++ [⟨f, 0⟩])[o]? = some b → w.objects[o]? = some b ∨ (o = w.objects.length ∧ b = ⟨f, 0⟩) := fun o b hb => by
      rcases Nat.lt_or_ge o w.objects.length with hlt | hge
      · rw [List.getElem?_append_left hlt] at hb
        exact .inl hb
      · rw [List.getElem?_append_right hge, List.getElem?_singleton] at hb
        split_ifs at hb with e
        cases hb
        exact .inr ⟨by omega, rfl⟩
    refine ⟨⟨w.factories.set f ⟨F.refs + 1, F.valid, F.alive⟩, w.objects ++ [⟨f, 0⟩], w.handles.set h (some ⟨some w.objects.length, some f⟩)⟩, lost, ?_, ⟨?_, ?_, ?_, ?_, ?_, alive, fun g hg => hi.unlost g (by simpa using hg)⟩, by simp, fun _ ht => ⟨?_, ht.kept, ?_⟩⟩
    · simp only [fill, hF, hal, if_true, hc.1, hc.2, Bool.and_self]
    · intro g hg
      simpa using hi.known g hg
    · intro k y o hy ho
      rcases get_set hy with ⟨rfl, e⟩ | ⟨_, hy⟩
      · cases e
        cases ho
        exact ⟨f, rfl, by simpa using hf, by simp⟩
      · obtain ⟨g, h1, h2, h3⟩ := hi.held k y o hy ho
        exact ⟨g, h1, by simpa using h2, old o _ h3⟩
    · have fresh : ∀ (k : Nat) (y : Handle), w.handles[k]? = some (some y) → y.content ≠ some w.objects.length := fun k y hy ho => by
        obtain ⟨_, _, _, h3⟩ := hi.held k y _ hy ho
        have := lt_of_get h3
        omega
      intro k k' y y' o hy hy' ho ho'
      rcases get_set hy with ⟨rfl, e⟩ | ⟨_, hy⟩
      · rcases get_set hy' with ⟨rfl, e'⟩ | ⟨_, hy'⟩
        · rfl
        · cases e
          cases ho
          exact absurd ho' (fresh k' y' hy')
      · have hy2 := fresh k y hy
        rcases get_set hy' with ⟨rfl, e'⟩ | ⟨_, hy'⟩
        · cases e'
          cases ho'
          exact absurd ho hy2
        · exact hi.apart k k' y y' o hy hy' ho ho'
    · intro o b hb
      rcases new o b hb with hb | ⟨_, rfl⟩
      · exact hi.once o b hb
      · exact Nat.zero_le _
    · intro g G hG
      rw [hold]
      rcases get_set hG with ⟨rfl, rfl⟩ | ⟨hne, hG⟩
      · simp only [if_true, if_neg hg]
        omega
      · rw [if_neg (Ne.symm hne)]
        have := hi.refs g G hG
        omega
    · intro g G hG
      rcases get_set hG with ⟨rfl, rfl⟩ | ⟨hne, hG⟩
      · exact hc.1
      · exact ht.valid g G hG
    · intro o b hb h0
      rcases new o b hb with hb | ⟨rfl, rfl⟩
      · obtain ⟨k, y, hy, ho⟩ := ht.freed o b hb h0
        refine ⟨k, y, ?_, ho⟩
        have hne : h ≠ k := by
          rintro rfl
          rw [hx] at hy
          cases hy
          cases ho
        show (w.handles.set h _)[k]? = _
        rw [List.getElem?_set_ne hne]
        exact hy
      · refine ⟨h, ⟨some w.objects.length, some f⟩, ?_, rfl⟩
        show (w.handles.set h _)[h]? = _
        rw [List.getElem?_set_self (lt_of_get hx)]
  | false =>
    have hold : ∀ g fs os, holders ⟨fs, os, w.handles.set h (some ⟨none, some f⟩)⟩ g = holders w g := by
      intro g fs os
      have := countP_replace (holdsOf g) w.handles h _ (some ⟨none, some f⟩) hx
      simp only [holdsOf, emptyHandle, Bool.false_eq_true, if_false] at this
      exact this
    refine ⟨⟨w.factories.set f ⟨F.refs + 1, F.valid, F.alive⟩, w.objects, w.handles.set h (some ⟨none, some f⟩)⟩, lose lost f, ?_, ⟨?_, ?_, ?_, hi.once, ?_, alive, ?_⟩, by simp, fun hm ht => ?_⟩
    · simp only [fill, hF, hal, if_true, hc, Bool.false_eq_true, if_false]
    · intro g hg
      simpa using hi.known g hg
    · intro k y o hy ho
      rcases get_set hy with ⟨rfl, e⟩ | ⟨_, hy⟩
      · cases e
        cases ho
      · obtain ⟨g, h1, h2, h3⟩ := hi.held k y o hy ho
        exact ⟨g, h1, by simpa using h2, h3⟩
    · intro k k' y y' o hy hy' ho ho'
      rcases get_set hy with ⟨rfl, e⟩ | ⟨_, hy⟩
      · cases e; cases ho
      · rcases get_set hy' with ⟨rfl, e⟩ | ⟨_, hy'⟩
        · cases e; cases ho'
        · exact hi.apart k k' y y' o hy hy' ho ho'
    · intro g G hG
      rw [hold]
      rcases get_set hG with ⟨rfl, rfl⟩ | ⟨hne, hG⟩
      · simp only [lose, if_true, if_neg hg]
        omega
      · have := hi.refs g G hG
        simp only [lose, if_neg hne]
        omega
    · intro g hg
      have hg : w.factories.length ≤ g := by simpa using hg
      have hne : g ≠ f := by omega
      simp only [lose, if_neg hne]
      exact hi.unlost g hg
    · rw [hm, ht.valid f F hF] at hc
      cases hc

end Verif.LibClass
