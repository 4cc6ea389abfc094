import Verif.Lemmas.CodeGen4
import Verif.Lemmas.Squeeze
/- The vector of components the texts are made of. -/
set_option linter.unusedSectionVars false
set_option linter.unusedSimpArgs false
set_option linter.unusedVariables false
namespace Verif.Levi.Code
open Ex Spec Squeeze Levi.Spec
variable {K : Type} [Field K] [LinearOrder K]

def opLeft : Ex K → Option (Ex K)
  | add a _ | sub a _ | mul a _ | div a _ => some a
  | neg a | pow a _ | transpose a | row a _ | col a _ | elem a _ _ | block a _ _ _ _ => some a
  | _ => none

def opRight : Ex K → Option (Ex K)
  | add _ b | sub _ b | mul _ b | div _ b => some b
  | _ => none

theorem leading_eqv {cfg : Cfg K} (hs : Sound cfg) {a b : Ex K} (h : a.eqv cfg b = true) : leading a = leading b := by
  induction a generalizing b with
  | mul a c iha ihc =>
    simp only [eqv, Bool.or_eq_true] at h
    rcases h with h | h
    · rw [hs _ _ h]
    · cases b <;> first | (simp at h; done) | skip
      simp only [Bool.and_eq_true] at h
      rename_i a' b'
      show leading a = leading a'
      exact iha h.1
  | const | sparse | var | skew | vee | byRows | byCols | mpd => rw [hs _ _ h]
  | _ =>
    simp only [eqv, Bool.or_eq_true] at h
    rcases h with h | h
    · rw [hs _ _ h]
    · cases b <;> first | rfl | simp at h

def SameC (t : Squeeze.Tree K) (j : Nat) (a : Ex K) : Prop :=
  KeptE (t.comp j).e ∧ (∀ pw ρ, (t.comp j).e.ev pw ρ = a.ev pw ρ) ∧ leading (t.comp j).e = leading a

structure FineC (shown : K → K) (t : Squeeze.Tree K) (i : Nat) : Prop where
  kept : KeptE (t.comp i).e
  printable : Printable shown (t.comp i).e
  lhs : ∀ a, opLeft (t.comp i).e = some a → (t.comp i).lhs < i ∧ SameC t (t.comp i).lhs a
  rhs : ∀ a, opRight (t.comp i).e = some a → (t.comp i).rhs < i ∧ SameC t (t.comp i).rhs a
  generic : opLeft (t.comp i).e = none ↔ i ∈ t.generics

structure GoodC (shown : K → K) (t : Squeeze.Tree K) : Prop where
  fine : ∀ i < t.n, FineC shown t i
  generics : ∀ g ∈ t.generics, g < t.n
  nodup : t.generics.Nodup
  added : ∀ k, ∀ g ∈ t.added k, g < t.n

structure ExtendsC (t t' : Squeeze.Tree K) : Prop where
  le : t.n ≤ t'.n
  comp : ∀ i < t.n, t'.comp i = t.comp i

theorem ExtendsC.refl (t : Squeeze.Tree K) : ExtendsC t t := ⟨le_rfl, fun _ _ => rfl⟩
theorem ExtendsC.trans {a b c : Squeeze.Tree K} (h : ExtendsC a b) (h' : ExtendsC b c) : ExtendsC a c :=
  ⟨h.le.trans h'.le, fun i hi => (h'.comp i (lt_of_lt_of_le hi h.le)).trans (h.comp i hi)⟩

theorem SameC.extends {t t' : Squeeze.Tree K} (h : ExtendsC t t') {j : Nat} (hj : j < t.n) {a : Ex K} (s : SameC t j a) : SameC t' j a := by
  unfold SameC at *
  rw [h.comp j hj]
  exact s

theorem SameC.size {t : Squeeze.Tree K} {j : Nat} {a : Ex K} (s : SameC t j a) (ha : KeptE a) : (t.comp j).e.size = a.size :=
  size_of_ev s.1 (Kept.written ha) s.2.1

variable {shown : K → K}

/-- Adding a component. -/
theorem push_okC {t t' : Squeeze.Tree K} (u : Nat → Nat → K) (G : GoodC shown t) (c : Comp K) (hk : KeptE c.e) (hp : Printable shown c.e)
    (hl : ∀ a, opLeft c.e = some a → c.lhs < t.n ∧ SameC t c.lhs a) (hr : ∀ a, opRight c.e = some a → c.rhs < t.n ∧ SameC t c.rhs a)
    (hn : t'.n = (push u t c).n) (hc : t'.comp = (push u t c).comp)
    (hg : t'.generics = if opLeft c.e = none then t.generics ++ [t.n] else t.generics)
    (ha : ∀ k, ∀ g ∈ t'.added k, g ∈ t.added k ∨ g = t.n) :
    GoodC shown t' ∧ ExtendsC t t' ∧ SameC t' t.n c.e := by
  have hn' : t'.n = t.n + 1 := hn
  have hold : ∀ i < t.n, t'.comp i = t.comp i := by
    intro i hi
    rw [hc]
    unfold push
    dsimp only
    rw [Function.update_of_ne (by omega)]
  have hnew : t'.comp t.n = c := by
    rw [hc]
    unfold push
    simp
  have E : ExtendsC t t' := ⟨by omega, hold⟩
  have hnot : t.n ∉ t.generics := fun h => absurd (G.generics _ h) (by omega)
  have hmem : ∀ i < t.n, (i ∈ t'.generics ↔ i ∈ t.generics) := by
    intro i hi
    rw [hg]
    split_ifs
    · simp; omega
    · rfl
  refine ⟨⟨?_, ?_, ?_, ?_⟩, E, ?_⟩
  · intro i hi
    by_cases hlt : i < t.n
    · have F := G.fine i hlt
      constructor
      · rw [hold i hlt]; exact F.kept
      · rw [hold i hlt]; exact F.printable
      · rw [hold i hlt]
        intro a ha
        obtain ⟨x, y⟩ := F.lhs a ha
        exact ⟨x, y.extends E (by omega)⟩
      · rw [hold i hlt]
        intro a ha
        obtain ⟨x, y⟩ := F.rhs a ha
        exact ⟨x, y.extends E (by omega)⟩
      · rw [hold i hlt, hmem i hlt]
        exact F.generic
    · have : i = t.n := by omega
      subst this
      constructor
      · rw [hnew]; exact hk
      · rw [hnew]; exact hp
      · rw [hnew]
        intro a ha
        obtain ⟨x, y⟩ := hl a ha
        exact ⟨x, y.extends E x⟩
      · rw [hnew]
        intro a ha
        obtain ⟨x, y⟩ := hr a ha
        exact ⟨x, y.extends E x⟩
      · rw [hnew, hg]
        split_ifs with h
        · simp [h]
        · exact ⟨fun x => absurd x h, fun x => absurd x hnot⟩
  · intro g h
    rw [hg] at h
    split_ifs at h
    · rcases List.mem_append.1 h with h | h
      · have := G.generics g h; omega
      · simp at h; omega
    · have := G.generics g h; omega
  · rw [hg]
    split_ifs
    · rw [List.nodup_append]
      refine ⟨G.nodup, by simp, ?_⟩
      intro a ha b hb
      simp at hb
      subst hb
      rintro rfl
      exact hnot ha
    · exact G.nodup
  · intro k g h
    rcases ha k g h with h | h
    · have := G.added k g h; omega
    · omega
  · unfold SameC
    rw [hnew]
    exact ⟨hk, fun _ _ => rfl, rfl⟩

/-- What the expansion of `e` must do. -/
def DoneC (shown : K → K) (t : Squeeze.Tree K) (e : Ex K) (r : Nat × Squeeze.Tree K) : Prop :=
  GoodC shown r.2 ∧ ExtendsC t r.2 ∧ r.1 < r.2.n ∧ SameC r.2 r.1 e

theorem addGeneric_doneC {cfg : Cfg K} (hs : Sound cfg) (u : Nat → Nat → K) {t : Squeeze.Tree K} (G : GoodC shown t) (e : Ex K) (hk : KeptE e)
    (hp : Printable shown e) (hl : opLeft e = none) (hr : opRight e = none) : DoneC shown t e (addGeneric cfg u e t) := by
  unfold addGeneric
  cases hf : t.generics.find? fun g => (t.comp g).e.eqv cfg e with
  | some g =>
    have hg : g < t.n := G.generics g (List.mem_of_find?_eq_some hf)
    have heq := List.find?_some hf
    exact ⟨G, ExtendsC.refl t, hg, (G.fine g hg).kept, fun pw ρ => eqv_sound hs (G.fine g hg).kept hk heq pw ρ, leading_eqv hs heq⟩
  | none =>
    obtain ⟨g, x, s⟩ := push_okC (t' := { push u t ⟨e, 0, 0⟩ with generics := t.generics ++ [t.n] }) u G ⟨e, 0, 0⟩ hk hp (by simp [hl])
      (by simp [hr]) rfl rfl (by rw [if_pos hl]) (fun k g h => Or.inl h)
    exact ⟨g, x, Nat.lt_succ_self _, s⟩

theorem addOperator_doneC {cfg : Cfg K} (hs : Sound cfg) (u : Nat → Nat → K) {t0 t : Squeeze.Tree K} (E : ExtendsC t0 t) (G : GoodC shown t)
    (e : Ex K) (hk : KeptE e) (hp : Printable shown e) (old : Bool) (l r : Nat) (hg : opLeft e ≠ none)
    (hl : ∀ a, opLeft e = some a → l < t.n ∧ SameC t l a) (hr : ∀ a, opRight e = some a → r < t.n ∧ SameC t r a) :
    DoneC shown t0 e (addOperator cfg u e old l r t) := by
  unfold addOperator
  cases hf : (if old then (t.added (typeOf e)).find? fun i => (t.comp i).e.eqv cfg e else none) with
  | some i =>
    cases old with
    | false => exact absurd hf (by simp)
    | true =>
      rw [if_pos rfl] at hf
      have hi : i < t.n := G.added _ i (List.mem_of_find?_eq_some hf)
      have heq := List.find?_some hf
      exact ⟨G, E, hi, (G.fine i hi).kept, fun pw ρ => eqv_sound hs (G.fine i hi).kept hk heq pw ρ, leading_eqv hs heq⟩
  | none =>
    obtain ⟨g, x, s⟩ := push_okC (t' := { push u t ⟨e, l, r⟩ with added := Function.update t.added (typeOf e) (t.added (typeOf e) ++ [t.n]) })
      u G ⟨e, l, r⟩ hk hp hl hr rfl rfl (by rw [if_neg hg]; rfl) (by
        intro k g h
        dsimp only at h
        by_cases hkk : k = typeOf e
        · subst hkk
          rw [Function.update_self] at h
          simpa using h
        · rw [Function.update_of_ne hkk] at h
          exact Or.inl h)
    exact ⟨g, E.trans x, Nat.lt_succ_self _, s⟩

theorem binary_doneC {cfg : Cfg K} (hs : Sound cfg) (u : Nat → Nat → K) {t : Squeeze.Tree K} (e a b : Ex K) (hk : KeptE e) (hp : Printable shown e)
    (hl : opLeft e = some a) (hr : opRight e = some b) (l r : Nat × Squeeze.Tree K) (L : DoneC shown t a l) (R : DoneC shown l.2 b r) (old : Bool) :
    DoneC shown t e (addOperator cfg u e old l.1 r.1 r.2) := by
  obtain ⟨G1, E1, i1, s1⟩ := L
  obtain ⟨G2, E2, i2, s2⟩ := R
  refine addOperator_doneC hs u (E1.trans E2) G2 e hk hp _ _ _ (by simp [hl]) ?_ ?_
  · intro a' ha'
    rw [hl] at ha'
    obtain rfl := Option.some.inj ha'
    exact ⟨lt_of_lt_of_le i1 E2.le, s1.extends E2 i1⟩
  · intro a' ha'
    rw [hr] at ha'
    obtain rfl := Option.some.inj ha'
    exact ⟨i2, s2⟩

theorem unary_doneC {cfg : Cfg K} (hs : Sound cfg) (u : Nat → Nat → K) {t : Squeeze.Tree K} (e a : Ex K) (hk : KeptE e) (hp : Printable shown e)
    (hl : opLeft e = some a) (hr : opRight e = none) (l : Nat × Squeeze.Tree K) (L : DoneC shown t a l) (old : Bool) :
    DoneC shown t e (addOperator cfg u e old l.1 0 l.2) := by
  obtain ⟨G1, E1, i1, s1⟩ := L
  refine addOperator_doneC hs u E1 G1 e hk hp _ _ _ (by simp [hl]) ?_ ?_
  · intro a' ha'
    rw [hl] at ha'
    obtain rfl := Option.some.inj ha'
    exact ⟨i1, s1⟩
  · intro a' ha'
    rw [hr] at ha'
    exact absurd ha' (by simp)

theorem expand_doneC {cfg : Cfg K} (hs : Sound cfg) (u : Nat → Nat → K) (e : Ex K) (hk : KeptE e) (hp : Printable shown e) :
    ∀ t : Squeeze.Tree K, GoodC shown t → DoneC shown t e (expand cfg u e t) := by
  induction e with
  | const | sparse | null | ident | var | skew | vee | byRows | byCols | mpd | hcat | vcat =>
    exact fun t G => addGeneric_doneC hs u G _ hk hp rfl rfl
  | add a b iha ihb | sub a b iha ihb | mul a b iha ihb =>
    intro t G
    have L := iha hk.1 hp.1 t G
    exact binary_doneC hs u _ a b hk hp rfl rfl _ _ L (ihb hk.2.1 hp.2 _ L.1) _
  | div a b => exact absurd hp (by simp [Printable])
  | neg a iha | transpose a iha =>
    intro t G
    exact unary_doneC hs u _ a hk hp rfl rfl _ (iha hk hp.1 t G) _
  | pow a x iha | row a i iha | col a i iha | elem a i j iha | block a i j r c iha =>
    intro t G
    exact unary_doneC hs u _ a hk hp rfl rfl _ (iha hk.1 hp.1 t G) _

theorem goodC_empty : GoodC shown (empty : Squeeze.Tree K) := by
  refine ⟨?_, ?_, ?_, ?_⟩
  · intro i hi; exact absurd hi (Nat.not_lt_zero i)
  · intro g hg; simp [empty] at hg
  · simp [empty]
  · intro k g hg; simp [empty] at hg

/-- The vector and the positions of the expressions. -/
theorem expandExpressions_ok {cfg : Cfg K} (hs : Sound cfg) (u : Nat → Nat → K) (es : List (Ex K)) (hk : ∀ e ∈ es, KeptE e)
    (hp : ∀ e ∈ es, Printable shown e) :
    GoodC shown (expandExpressions cfg u es).1 ∧
      List.Forall₂ (fun f e => f < (expandExpressions cfg u es).1.n ∧ SameC (expandExpressions cfg u es).1 f e) (expandExpressions cfg u es).2 es := by
  induction es using List.reverseRecOn with
  | nil => exact ⟨goodC_empty, List.Forall₂.nil⟩
  | append_singleton es e ih =>
    obtain ⟨G, F⟩ := ih (fun e h => hk e (by simp [h])) (fun e h => hp e (by simp [h]))
    unfold expandExpressions at *
    rw [List.foldl_append, List.foldl_cons, List.foldl_nil]
    set x := es.foldl (fun (s : Squeeze.Tree K × List Nat) e =>
      let r := expand cfg u e { s.1 with added := fun _ => [] }
      (r.2, s.2 ++ [r.1])) (empty, []) with hx
    clear_value x
    have G' : GoodC shown { x.1 with added := fun _ => [] } :=
      ⟨fun i hi => ⟨(G.fine i hi).kept, (G.fine i hi).printable, (G.fine i hi).lhs, (G.fine i hi).rhs, (G.fine i hi).generic⟩, G.generics, G.nodup, by simp⟩
    have D := expand_doneC hs u e (hk e (by simp)) (hp e (by simp)) _ G'
    obtain ⟨g, E, h1, h2⟩ := D
    refine ⟨g, ?_⟩
    refine List.rel_append (?_ : List.Forall₂ _ _ _) (List.Forall₂.cons ⟨h1, h2⟩ List.Forall₂.nil)
    refine List.Forall₂.imp ?_ F
    rintro f e' ⟨hf, s⟩
    exact ⟨lt_of_lt_of_le hf E.le, SameC.extends (t := { x.1 with added := fun _ => [] }) E hf s⟩

end Verif.Levi.Code
