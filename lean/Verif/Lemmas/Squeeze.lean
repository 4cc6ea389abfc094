import Verif.Model.Squeeze
import Verif.Lemmas.LeviAdd
/- The flattened form of an expression has the value of the expression. -/
set_option linter.unusedSectionVars false
set_option linter.unusedSimpArgs false
set_option linter.unusedVariables false
namespace Verif.Levi.Squeeze
open Ex Spec
variable {K : Type} [Field K] [LinearOrder K]

abbrev KeptE (e : Ex K) : Prop := Kept (fun _ _ => True) e

theorem anyPower {M : Ex K → Ex K → Prop} {P : Ex K → K → Prop} {e : Ex K} (h : Formed M P e) : Formed M (fun _ _ => True) e := by
  induction e with
  | const r c M => exact h
  | null r c => exact h
  | ident n => exact h
  | sparse r c l => exact h
  | var v => exact h
  | add a b iha ihb | sub a b iha ihb | mul a b iha ihb | hcat a b iha ihb | vcat a b iha ihb => exact ⟨iha h.1, ihb h.2.1, h.2.2⟩
  | div a b iha ihb => exact ⟨iha h.1, ihb h.2.1, h.2.2.1, h.2.2.2.1, trivial⟩
  | neg a iha | transpose a iha => exact iha h
  | pow a e iha => exact ⟨iha h.1, h.2.1, trivial⟩
  | skew a iha | vee a iha | row a i iha | col a j iha | elem a i j iha | block a i j r c iha => exact ⟨iha h.1, h.2⟩
  | byRows n f ihf | byCols n f ihf => exact ⟨h.1, fun i hi => ⟨ihf i (h.2 i hi).1, (h.2 i hi).2⟩⟩
  | mpd n ds x ihd ihx => exact ⟨h.1, fun i hi => ⟨ihd i (h.2.1 i hi).1, (h.2.1 i hi).2⟩, ihx h.2.2.1, h.2.2.2⟩

def left : Ex K → Option (Ex K)
  | add a _ | sub a _ | mul a _ | div a _ | hcat a _ | vcat a _ => some a
  | neg a | pow a _ | transpose a | row a _ | col a _ | elem a _ _ | block a _ _ _ _ => some a
  | _ => none

def right : Ex K → Option (Ex K)
  | add _ b | sub _ b | mul _ b | div _ b | hcat _ b | vcat _ b => some b
  | _ => none

def IsConst (e : Ex K) : Prop := typeOf e = .null ∨ typeOf e = .identity ∨ typeOf e = .constant

def Same (t : Tree K) (j : Nat) (a : Ex K) : Prop := KeptE (t.comp j).e ∧ ∀ pw ρ, (t.comp j).e.ev pw ρ = a.ev pw ρ

structure Fine (t : Tree K) (i : Nat) : Prop where
  kept : KeptE (t.comp i).e
  lhs : ∀ a, left (t.comp i).e = some a → (t.comp i).lhs < i ∧ Same t (t.comp i).lhs a
  rhs : ∀ a, right (t.comp i).e = some a → (t.comp i).rhs < i ∧ Same t (t.comp i).rhs a
  generic : typeOf (t.comp i).e = .generic → i ∈ t.generics

structure Good (t : Tree K) : Prop where
  fine : ∀ i < t.n, Fine t i
  generics : ∀ g ∈ t.generics, g < t.n
  added : ∀ k, ∀ g ∈ t.added k, g < t.n

structure BufOk (t : Tree K) (buf : Nat → SM K) : Prop where
  size : ∀ i < t.n, (buf i).r = (t.comp i).e.rows ∧ (buf i).c = (t.comp i).e.cols
  const : ∀ i < t.n, IsConst (t.comp i).e → ∀ pw ρ, buf i = (t.comp i).e.ev pw ρ

structure Extends (t t' : Tree K) : Prop where
  le : t.n ≤ t'.n
  comp : ∀ i < t.n, t'.comp i = t.comp i
  buf : ∀ i < t.n, t'.buf i = t.buf i
  generics : ∀ g ∈ t.generics, g ∈ t'.generics

theorem Extends.refl (t : Tree K) : Extends t t := ⟨le_rfl, fun _ _ => rfl, fun _ _ => rfl, fun _ h => h⟩
theorem Extends.trans {a b c : Tree K} (h : Extends a b) (h' : Extends b c) : Extends a c :=
  ⟨h.le.trans h'.le, fun i hi => (h'.comp i (lt_of_lt_of_le hi h.le)).trans (h.comp i hi),
    fun i hi => (h'.buf i (lt_of_lt_of_le hi h.le)).trans (h.buf i hi), fun g hg => h'.generics g (h.generics g hg)⟩

theorem Same.extends {t t' : Tree K} (h : Extends t t') {j : Nat} (hj : j < t.n) {a : Ex K} (s : Same t j a) : Same t' j a := by
  unfold Same at *
  rw [h.comp j hj]
  exact s

theorem Same.size {t : Tree K} {j : Nat} {a : Ex K} (s : Same t j a) (ha : KeptE a) : (t.comp j).e.size = a.size :=
  size_of_ev s.1 (Kept.written ha) s.2

theorem initial_ok (u : Nat → Nat → K) (e : Ex K) (he : KeptE e) :
    ((initial u e).r = e.rows ∧ (initial u e).c = e.cols) ∧ (IsConst e → ∀ pw ρ, initial u e = e.ev pw ρ) := by
  cases e <;> refine ⟨⟨rfl, rfl⟩, ?_⟩ <;> intro h pw ρ <;> first | rfl | (rcases h with h | h | h <;> simp [typeOf] at h)

/-- Adding a component. -/
theorem push_ok {t t' : Tree K} (u : Nat → Nat → K) (G : Good t) (B : BufOk t t.buf) (c : Comp K) (hk : KeptE c.e)
    (hl : ∀ a, left c.e = some a → c.lhs < t.n ∧ Same t c.lhs a) (hr : ∀ a, right c.e = some a → c.rhs < t.n ∧ Same t c.rhs a)
    (hn : t'.n = (push u t c).n) (hc : t'.comp = (push u t c).comp) (hb : t'.buf = (push u t c).buf)
    (hg : ∀ g, g ∈ t'.generics → g ∈ t.generics ∨ g = t.n) (hg' : ∀ g ∈ t.generics, g ∈ t'.generics)
    (hgen : typeOf c.e = .generic → t.n ∈ t'.generics)
    (ha : ∀ k, ∀ g ∈ t'.added k, g ∈ t.added k ∨ g = t.n) :
    Good t' ∧ BufOk t' t'.buf ∧ Extends t t' ∧ Same t' t.n c.e := by
  have hn' : t'.n = t.n + 1 := hn
  have hold : ∀ i < t.n, t'.comp i = t.comp i ∧ t'.buf i = t.buf i := by
    intro i hi
    rw [hc, hb]
    unfold push
    dsimp only
    rw [Function.update_of_ne (by omega), Function.update_of_ne (by omega)]
    exact ⟨rfl, rfl⟩
  have hnew : t'.comp t.n = c ∧ t'.buf t.n = initial u c.e := by
    rw [hc, hb]
    unfold push
    simp
  have E : Extends t t' := ⟨by omega, fun i hi => (hold i hi).1, fun i hi => (hold i hi).2, hg'⟩
  refine ⟨⟨?_, ?_, ?_⟩, ⟨?_, ?_⟩, E, ?_⟩
  · intro i hi
    by_cases hlt : i < t.n
    · have F := G.fine i hlt
      constructor
      · rw [(hold i hlt).1]; exact F.kept
      · rw [(hold i hlt).1]
        intro a ha
        obtain ⟨x, y⟩ := F.lhs a ha
        exact ⟨x, y.extends E (by omega)⟩
      · rw [(hold i hlt).1]
        intro a ha
        obtain ⟨x, y⟩ := F.rhs a ha
        exact ⟨x, y.extends E (by omega)⟩
      · rw [(hold i hlt).1]
        exact fun x => hg' i (F.generic x)
    · have : i = t.n := by omega
      subst this
      constructor
      · rw [hnew.1]; exact hk
      · rw [hnew.1]
        intro a ha
        obtain ⟨x, y⟩ := hl a ha
        exact ⟨x, y.extends E x⟩
      · rw [hnew.1]
        intro a ha
        obtain ⟨x, y⟩ := hr a ha
        exact ⟨x, y.extends E x⟩
      · rw [hnew.1]; exact hgen
  · intro g h
    rcases hg g h with h | h
    · have := G.generics g h; omega
    · omega
  · intro k g h
    rcases ha k g h with h | h
    · have := G.added k g h; omega
    · omega
  · intro i hi
    by_cases hlt : i < t.n
    · rw [(hold i hlt).1, (hold i hlt).2]; exact B.size i hlt
    · have : i = t.n := by omega
      subst this
      rw [hnew.1, hnew.2]; exact (initial_ok u c.e hk).1
  · intro i hi
    by_cases hlt : i < t.n
    · rw [(hold i hlt).1, (hold i hlt).2]; exact B.const i hlt
    · have : i = t.n := by omega
      subst this
      rw [hnew.1, hnew.2]; exact (initial_ok u c.e hk).2
  · unfold Same
    rw [hnew.1]
    exact ⟨hk, fun _ _ => rfl⟩

/-- What the expansion of `e` must do. -/
def Done (t : Tree K) (e : Ex K) (r : Nat × Tree K) : Prop :=
  Good r.2 ∧ BufOk r.2 r.2.buf ∧ Extends t r.2 ∧ r.1 < r.2.n ∧ Same r.2 r.1 e ∧ (t.n = 0 → r.1 + 1 = r.2.n)

theorem addConstant_done (u : Nat → Nat → K) {t : Tree K} (G : Good t) (B : BufOk t t.buf) (e : Ex K) (hk : KeptE e)
    (hl : left e = none) (hr : right e = none) (hg : typeOf e ≠ .generic) : Done t e (addConstant u e t) := by
  obtain ⟨g, b, x, s⟩ := push_ok (t' := push u t ⟨e, 0, 0⟩) u G B ⟨e, 0, 0⟩ hk (by simp [hl]) (by simp [hr]) rfl rfl rfl
    (fun g h => Or.inl h) (fun g h => h) (fun h => absurd h hg) (fun k g h => Or.inl h)
  exact ⟨g, b, x, Nat.lt_succ_self _, s, fun _ => rfl⟩

theorem addGeneric_done {cfg : Cfg K} (hs : Sound cfg) (u : Nat → Nat → K) {t : Tree K} (G : Good t) (B : BufOk t t.buf) (e : Ex K) (hk : KeptE e)
    (hl : left e = none) (hr : right e = none) : Done t e (addGeneric cfg u e t) := by
  unfold addGeneric
  cases hf : t.generics.find? fun g => (t.comp g).e.eqv cfg e with
  | some g =>
    have hg : g < t.n := G.generics g (List.mem_of_find?_eq_some hf)
    have heq := List.find?_some hf
    refine ⟨G, B, Extends.refl t, hg, ⟨(G.fine g hg).kept, fun pw ρ => eqv_sound hs (G.fine g hg).kept hk heq pw ρ⟩, ?_⟩
    intro h0; omega
  | none =>
    obtain ⟨g, b, x, s⟩ := push_ok (t' := { push u t ⟨e, 0, 0⟩ with generics := t.generics ++ [t.n] }) u G B ⟨e, 0, 0⟩ hk (by simp [hl])
      (by simp [hr]) rfl rfl rfl
      (fun g h => by simpa using h) (fun g h => by simp [h]) (fun h => by simp) (fun k g h => Or.inl h)
    exact ⟨g, b, x, Nat.lt_succ_self _, s, fun _ => rfl⟩

theorem addOperator_done {cfg : Cfg K} (hs : Sound cfg) (u : Nat → Nat → K) {t0 t : Tree K} (E : Extends t0 t) (G : Good t) (B : BufOk t t.buf)
    (e : Ex K) (hk : KeptE e) (old : Bool) (hold : t0.n = 0 → old = false) (l r : Nat) (hg : typeOf e ≠ .generic)
    (hl : ∀ a, left e = some a → l < t.n ∧ Same t l a) (hr : ∀ a, right e = some a → r < t.n ∧ Same t r a) :
    Done t0 e (addOperator cfg u e old l r t) := by
  unfold addOperator
  cases hf : (if old then (t.added (typeOf e)).find? fun i => (t.comp i).e.eqv cfg e else none) with
  | some i =>
    cases old with
    | false => exact absurd hf (by simp)
    | true =>
      rw [if_pos rfl] at hf
      have hi : i < t.n := G.added _ i (List.mem_of_find?_eq_some hf)
      have heq := List.find?_some hf
      refine ⟨G, B, E, hi, ⟨(G.fine i hi).kept, fun pw ρ => eqv_sound hs (G.fine i hi).kept hk heq pw ρ⟩, ?_⟩
      intro h0; exact absurd (hold h0) (by simp)
  | none =>
    obtain ⟨g, b, x, s⟩ := push_ok (t' := { push u t ⟨e, l, r⟩ with added := Function.update t.added (typeOf e) (t.added (typeOf e) ++ [t.n]) })
      u G B ⟨e, l, r⟩ hk hl hr rfl rfl rfl (fun g h => Or.inl h) (fun g h => h) (fun h => absurd h hg) (by
        intro k g h
        dsimp only at h
        by_cases hkk : k = typeOf e
        · subst hkk
          rw [Function.update_self] at h
          simpa using h
        · rw [Function.update_of_ne hkk] at h
          exact Or.inl h)
    exact ⟨g, b, E.trans x, Nat.lt_succ_self _, s, fun _ => rfl⟩

theorem binary_done {cfg : Cfg K} (hs : Sound cfg) (u : Nat → Nat → K) {t : Tree K} (e a b : Ex K) (hk : KeptE e) (hg : typeOf e ≠ .generic)
    (hl : left e = some a) (hr : right e = some b) (l r : Nat × Tree K) (L : Done t a l) (R : Done l.2 b r) :
    Done t e (addOperator cfg u e (decide (l.1 < t.n) && decide (r.1 < t.n)) l.1 r.1 r.2) := by
  obtain ⟨G1, B1, E1, i1, s1, -⟩ := L
  obtain ⟨G2, B2, E2, i2, s2, -⟩ := R
  refine addOperator_done hs u (E1.trans E2) G2 B2 e hk _ ?_ _ _ hg ?_ ?_
  · intro h0; simp [h0]
  · intro a' ha'
    rw [hl] at ha'
    obtain rfl := Option.some.inj ha'
    exact ⟨lt_of_lt_of_le i1 E2.le, s1.extends E2 i1⟩
  · intro a' ha'
    rw [hr] at ha'
    obtain rfl := Option.some.inj ha'
    exact ⟨i2, s2⟩

theorem unary_done {cfg : Cfg K} (hs : Sound cfg) (u : Nat → Nat → K) {t : Tree K} (e a : Ex K) (hk : KeptE e) (hg : typeOf e ≠ .generic)
    (hl : left e = some a) (hr : right e = none) (l : Nat × Tree K) (L : Done t a l) :
    Done t e (addOperator cfg u e (decide (l.1 < t.n)) l.1 0 l.2) := by
  obtain ⟨G1, B1, E1, i1, s1, -⟩ := L
  refine addOperator_done hs u E1 G1 B1 e hk _ ?_ _ _ hg ?_ ?_
  · intro h0; simp [h0]
  · intro a' ha'
    rw [hl] at ha'
    obtain rfl := Option.some.inj ha'
    exact ⟨i1, s1⟩
  · intro a' ha'
    rw [hr] at ha'
    exact absurd ha' (by simp)

theorem expand_done {cfg : Cfg K} (hs : Sound cfg) (u : Nat → Nat → K) (e : Ex K) (hk : KeptE e) :
    ∀ t : Tree K, Good t → BufOk t t.buf → Done t e (expand cfg u e t) := by
  induction e with
  | const r c M => exact fun t G B => addConstant_done u G B _ hk rfl rfl (by simp [typeOf])
  | sparse r c l => exact fun t G B => addConstant_done u G B _ hk rfl rfl (by simp [typeOf])
  | null r c => exact fun t G B => addConstant_done u G B _ hk rfl rfl (by simp [typeOf])
  | ident n => exact fun t G B => addConstant_done u G B _ hk rfl rfl (by simp [typeOf])
  | var v => exact fun t G B => addGeneric_done hs u G B _ hk rfl rfl
  | skew a => exact fun t G B => addGeneric_done hs u G B _ hk rfl rfl
  | vee a => exact fun t G B => addGeneric_done hs u G B _ hk rfl rfl
  | byRows n f => exact fun t G B => addGeneric_done hs u G B _ hk rfl rfl
  | byCols n f => exact fun t G B => addGeneric_done hs u G B _ hk rfl rfl
  | mpd n ds x => exact fun t G B => addGeneric_done hs u G B _ hk rfl rfl
  | add a b iha ihb | sub a b iha ihb | mul a b iha ihb | div a b iha ihb | hcat a b iha ihb | vcat a b iha ihb =>
    intro t G B
    have L := iha hk.1 t G B
    exact binary_done hs u _ a b hk (by simp [typeOf]) rfl rfl _ _ L (ihb hk.2.1 _ L.1 L.2.1)
  | neg a iha | transpose a iha =>
    intro t G B
    exact unary_done hs u _ a hk (by simp [typeOf]) rfl rfl _ (iha hk t G B)
  | pow a x iha | row a i iha | col a i iha | elem a i j iha | block a i j r c iha =>
    intro t G B
    exact unary_done hs u _ a hk (by simp [typeOf]) rfl rfl _ (iha hk.1 t G B)

theorem of_self {A : SM K} {r c : Nat} (hr : A.r = r) (hc : A.c = c) (f : Nat → Nat → K) (h : ∀ i j, i < r → j < c → A.f i j = f i j) : A = .of r c f := by
  ext i j
  · exact hr
  · exact hc
  · simp only [SM.of]
    split_ifs with hh
    · exact h i j hh.1 hh.2
    · exact A.out i j (by rw [hr, hc]; exact hh)

/-- One component. -/
theorem computeNode_ok (pw : K → K → K) (ρ : Env K) (e L R : Ex K) (A B own : SM K) (hk : KeptE e)
    (hA : ∀ a, left e = some a → KeptE a → A = a.ev pw ρ ∧ L.size = a.size)
    (hB : ∀ a, right e = some a → KeptE a → B = a.ev pw ρ ∧ R.size = a.size)
    (hsz : own.r = e.rows ∧ own.c = e.cols)
    (hconst : IsConst e → own = e.ev pw ρ) (hgen : typeOf e = .generic → own = e.ev pw ρ) :
    computeNode pw e L R A B own = e.ev pw ρ := by
  unfold computeNode
  cases e with
  | const r c M => exact hconst (by simp [IsConst, typeOf])
  | sparse r c l => exact hconst (by simp [IsConst, typeOf])
  | null r c => exact hconst (by simp [IsConst, typeOf])
  | ident n => exact hconst (by simp [IsConst, typeOf])
  | var v => exact hgen rfl
  | skew a => exact hgen rfl
  | vee a => exact hgen rfl
  | byRows n f => exact hgen rfl
  | byCols n f => exact hgen rfl
  | mpd n ds x => exact hgen rfl
  | add a b =>
    rw [(hA a rfl hk.1).1, (hB b rfl hk.2.1).1]; rfl
  | sub a b =>
    rw [(hA a rfl hk.1).1, (hB b rfl hk.2.1).1]; rfl
  | div a b =>
    rw [(hA a rfl hk.1).1, (hB b rfl hk.2.1).1]; rfl
  | neg a => rw [(hA a rfl hk).1]; rfl
  | transpose a => rw [(hA a rfl hk).1]; rfl
  | row a k => rw [(hA a rfl hk.1).1]; rfl
  | col a k => rw [(hA a rfl hk.1).1]; rfl
  | block a k l r c => rw [(hA a rfl hk.1).1]; rfl
  | mul a b =>
    obtain ⟨rfl, hL⟩ := hA a rfl hk.1
    obtain ⟨rfl, hR⟩ := hB b rfl hk.2.1
    have da := dimsK hk.1 pw ρ
    have db := dimsK hk.2.1 pw ρ
    have h1 : L.cols = a.cols := congrArg Prod.snd hL
    have h2 : R.rows = b.rows := congrArg Prod.fst hR
    have h3 : L.rows = a.rows := congrArg Prod.fst hL
    simp only [ev, SM.mul]
    rw [h1, h2, h3, da.2, db.1]
    by_cases hc : a.cols = b.rows
    · simp [hc]
    · rw [if_pos hc, if_neg hc]
      have hsc : a.isScalar = true := hk.2.2.resolve_left hc
      have hsc' : a.rows = 1 ∧ a.cols = 1 := by simpa [isScalar] using hsc
      rw [if_pos hsc', if_pos (show (a.ev pw ρ).IsScalar from ⟨by rw [da.1]; exact hsc'.1, by rw [da.2]; exact hsc'.2⟩)]
  | pow a x =>
    obtain ⟨rfl, -⟩ := hA a rfl hk.1
    rw [hsz.1, hsz.2]
    simp only [ev, SM.scalar]
    symm
    apply of_self rfl rfl
    intro i j hi hj
    have hi : i < 1 := hi
    have hj : j < 1 := hj
    simp [SM.of, show i = 0 by omega, show j = 0 by omega]
  | elem a k l =>
    obtain ⟨rfl, -⟩ := hA a rfl hk.1
    rw [hsz.1, hsz.2]
    simp only [ev, SM.elem]
    symm
    apply of_self rfl rfl
    intro i j hi hj
    have hi : i < 1 := hi
    have hj : j < 1 := hj
    simp [SM.of, show i = 0 by omega, show j = 0 by omega]
  | hcat a b =>
    obtain ⟨rfl, hL⟩ := hA a rfl hk.1
    obtain ⟨rfl, hR⟩ := hB b rfl hk.2.1
    have da := dimsK hk.1 pw ρ
    have db := dimsK hk.2.1 pw ρ
    have h1 : L.cols = a.cols := congrArg Prod.snd hL
    have h2 : R.cols = b.cols := congrArg Prod.snd hR
    have h3 : (hcat a b).cols = a.cols + b.cols := rfl
    have h4 : (hcat a b).rows = a.rows := rfl
    rw [hsz.1, hsz.2, h1, h2, h3, h4, Nat.add_sub_cancel]
    simp only [ev, SM.hcat]
    rw [da.1, da.2, db.2]
    symm
    apply of_self rfl rfl
    intro i j hi hj
    simp only [SM.of]
    rw [if_pos ⟨hi, hj⟩]
    by_cases hlt : j < a.cols
    · rw [if_pos hlt, if_neg (by omega), if_pos hlt]
    · rw [if_neg hlt, if_pos (by omega)]
  | vcat a b =>
    obtain ⟨rfl, hL⟩ := hA a rfl hk.1
    obtain ⟨rfl, hR⟩ := hB b rfl hk.2.1
    have da := dimsK hk.1 pw ρ
    have db := dimsK hk.2.1 pw ρ
    have h1 : L.rows = a.rows := congrArg Prod.fst hL
    have h2 : R.rows = b.rows := congrArg Prod.fst hR
    have h3 : (vcat a b).rows = a.rows + b.rows := rfl
    have h4 : (vcat a b).cols = a.cols := rfl
    rw [hsz.1, hsz.2, h1, h2, h3, h4, Nat.add_sub_cancel]
    simp only [ev, SM.vcat]
    rw [da.1, da.2, db.1]
    symm
    apply of_self rfl rfl
    intro i j hi hj
    simp only [SM.of]
    rw [if_pos ⟨hi, hj⟩]
    by_cases hlt : i < a.rows
    · rw [if_pos hlt, if_neg (by omega), if_pos hlt]
    · rw [if_neg hlt, if_pos (by omega)]

theorem compute_ok {t : Tree K} (G : Good t) (pw : K → K → K) (ρ : Env K) (buf : Nat → SM K) (i : Nat) (hi : i < t.n)
    (hold : ∀ j < i, buf j = (t.comp j).e.ev pw ρ) (hsz : (buf i).r = (t.comp i).e.rows ∧ (buf i).c = (t.comp i).e.cols)
    (hconst : IsConst (t.comp i).e → buf i = (t.comp i).e.ev pw ρ)
    (hgen : typeOf (t.comp i).e = .generic → buf i = (t.comp i).e.ev pw ρ) :
    compute pw t buf i = (t.comp i).e.ev pw ρ := by
  have F := G.fine i hi
  refine computeNode_ok pw ρ _ _ _ _ _ _ F.kept ?_ ?_ hsz hconst hgen
  · intro a ha hk
    obtain ⟨x, y⟩ := F.lhs a ha
    exact ⟨by rw [hold _ x, y.2], y.size hk⟩
  · intro a ha hk
    obtain ⟨x, y⟩ := F.rhs a ha
    exact ⟨by rw [hold _ x, y.2], y.size hk⟩

theorem generics_loop (t : Tree K) (pw : K → K → K) (ρ : Env K) (gs : List Nat) (buf : Nat → SM K) (i : Nat) :
    (gs.foldl (fun buf g => Function.update buf g ((t.comp g).e.ev pw ρ)) buf) i = if i ∈ gs then (t.comp i).e.ev pw ρ else buf i := by
  induction gs generalizing buf with
  | nil => simp
  | cons g gs ih =>
    rw [List.foldl_cons, ih]
    by_cases h1 : i ∈ gs
    · simp [h1]
    · by_cases h2 : i = g
      · subst h2; simp [h1]
      · simp [h1, h2, Function.update_of_ne h2]

/-- After an evaluation all the buffers hold the value of their expression. -/
theorem evaluateAll_ok {t : Tree K} (G : Good t) (pw : K → K → K) (ρ : Env K) (B : BufOk t t.buf) (i : Nat) (hi : i < t.n) :
    evaluateAll pw ρ t i = (t.comp i).e.ev pw ρ := by
  unfold evaluateAll
  set g := t.generics.foldl (fun buf g => Function.update buf g ((t.comp g).e.ev pw ρ)) t.buf with hg
  have hgv : ∀ i, g i = if i ∈ t.generics then (t.comp i).e.ev pw ρ else t.buf i := fun i => generics_loop t pw ρ _ _ i
  clear_value g
  have loop : ∀ k ≤ t.n, (∀ j < k, (List.range k).foldl (fun buf i => Function.update buf i (compute pw t buf i)) g j = (t.comp j).e.ev pw ρ) ∧
      ∀ j ≥ k, (List.range k).foldl (fun buf i => Function.update buf i (compute pw t buf i)) g j = g j := by
    intro k
    induction k with
    | zero => intro _; exact ⟨fun j hj => absurd hj (by omega), fun j _ => rfl⟩
    | succ k ih =>
      intro hk
      obtain ⟨h1, h2⟩ := ih (by omega)
      rw [List.range_succ, List.foldl_append, List.foldl_cons, List.foldl_nil]
      set b := (List.range k).foldl (fun buf i => Function.update buf i (compute pw t buf i)) g with hb
      clear_value b
      have hbk := h2 k le_rfl
      have hkn : k < t.n := by omega
      constructor
      · intro j hj
        by_cases hjk : j = k
        · subst hjk
          rw [Function.update_self]
          refine compute_ok G pw ρ b j hkn h1 ?_ ?_ ?_
          · rw [hbk, hgv]
            split_ifs
            · exact dimsK (G.fine j hkn).kept pw ρ
            · exact B.size j hkn
          · intro hc
            rw [hbk, hgv]
            split_ifs
            · rfl
            · exact B.const j hkn hc pw ρ
          · intro hc
            rw [hbk, hgv, if_pos ((G.fine j hkn).generic hc)]
        · rw [Function.update_of_ne hjk]
          exact h1 j (by omega)
      · intro j hj
        rw [Function.update_of_ne (by omega)]
        exact h2 j (by omega)
  exact (loop t.n le_rfl).1 i hi

theorem bufOk_evaluate {t : Tree K} (G : Good t) (pw : K → K → K) (ρ : Env K) (B : BufOk t t.buf) :
    BufOk t (evaluateAll pw ρ t) := by
  constructor
  · intro i hi
    rw [evaluateAll_ok G pw ρ B i hi]
    exact dimsK (G.fine i hi).kept pw ρ
  · intro i hi hc pw' ρ'
    rw [evaluateAll_ok G pw ρ B i hi, ← B.const i hi hc pw ρ, B.const i hi hc pw' ρ']

theorem good_empty : Good (empty : Tree K) ∧ BufOk (empty : Tree K) (empty : Tree K).buf := by
  refine ⟨⟨?_, ?_, ?_⟩, ⟨?_, ?_⟩⟩
  · intro i hi; exact absurd hi (Nat.not_lt_zero i)
  · intro g hg; simp [empty] at hg
  · intro k g hg; simp [empty] at hg
  · intro i hi; exact absurd hi (Nat.not_lt_zero i)
  · intro i hi; exact absurd hi (Nat.not_lt_zero i)

end Verif.Levi.Squeeze
