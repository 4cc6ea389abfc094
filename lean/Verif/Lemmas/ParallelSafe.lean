import Verif.Model.Parallel
import Verif.Lemmas.ParallelTold
/- Rely-guarantee reasoning for the parallel evaluation of expressions. -/
set_option linter.unusedSectionVars false
set_option linter.unusedSimpArgs false
set_option linter.unusedVariables false
namespace Verif.Parallel
open Verif.EvalCache Function
variable {V : Type}

/-- The expressions when the threads start: what they depend on is not waiting for a change. -/
structure Ctx (g : Heap V) (own : Nat → Nat → Owner) (s : Spec.State V) : Prop where
  st : Static g own s
  tb : Table g own s
  dy : Dyn g own s
  told : Told g
  ready : ∀ i, ∀ d ∈ (g i).deps, d.1 ≠ i → Clean g d.1

/-- The value of an object. -/
def val (s : Spec.State V) (i : Nat) : V := s.meaning i s.values

/-- Nothing that `i` depends on has changed. -/
def UpTo (g : Heap V) (h : Heap V) (i : Nat) : Prop := ∀ d ∈ (g i).deps, d.1 ≠ i → (h d.1).reg d.2 = (h d.1).counter

/-- The buffer has the value, and nobody is going to write it. -/
def Settled (g : Heap V) (s : Spec.State V) (m : Mem V) (i : Nat) : Prop :=
  (g i).kind = .var ∨ (UpTo g m.heap i ∧ (m.heap i).computed = true ∧ (m.heap i).buffer = val s i)

/-- What holds of an object that nobody has locked. -/
structure Quiet (g : Heap V) (s : Spec.State V) (m : Mem V) (i : Nat) : Prop where
  told : (m.heap i).computed = false → ∀ c, (m.heap i).reg c = (m.heap i).counter → ∃ j, (i, c) ∈ (g j).deps
  valid : UpTo g m.heap i → (m.heap i).computed = true → (m.heap i).buffer = val s i

/-- The invariant of the memory. -/
structure J (g : Heap V) (s : Spec.State V) (m : Mem V) : Prop where
  shape : Shape g m.heap
  slots : Slots g m.heap
  le : RegLe m.heap
  var : ∀ i, (g i).kind = .var → (m.heap i).buffer = s.values i
  fixed : ∀ i, Clean g i → (m.heap i).counter = (g i).counter ∧ UpTo g m.heap i
  quiet : ∀ i, m.lock i = none → Quiet g s m i

/-- What belongs to the thread that has locked `j` did not change. -/
structure Loc (g : Heap V) (j : Nat) (m m' : Mem V) : Prop where
  counter : (m'.heap j).counter = (m.heap j).counter
  computed : (m'.heap j).computed = (m.heap j).computed
  buffer : (m'.heap j).buffer = (m.heap j).buffer
  reg : ∀ c, (∀ l, (j, c) ∉ (g l).deps) → (m'.heap j).reg c = (m.heap j).reg c
  deps : ∀ d ∈ (g j).deps, (m'.heap d.1).reg d.2 = (m.heap d.1).reg d.2

theorem Loc.refl (g : Heap V) (j : Nat) (m : Mem V) : Loc g j m m := ⟨rfl, rfl, rfl, fun _ _ => rfl, fun _ _ => rfl⟩
theorem Loc.trans {g : Heap V} {j : Nat} {m m' m'' : Mem V} (a : Loc g j m m') (b : Loc g j m' m'') : Loc g j m m'' :=
  ⟨b.counter.trans a.counter, b.computed.trans a.computed, b.buffer.trans a.buffer, fun c h => (b.reg c h).trans (a.reg c h),
    fun d h => (b.deps d h).trans (a.deps d h)⟩

/-- What the other threads may do while `t` does nothing. -/
structure Rely (g : Heap V) (s : Spec.State V) (t : Nat) (m m' : Mem V) : Prop where
  lock : ∀ j, m.lock j = some t ↔ m'.lock j = some t
  loc : ∀ j, m.lock j = some t → Loc g j m m'
  settled : ∀ j, Settled g s m j → Settled g s m' j

theorem Rely.refl (g : Heap V) (s : Spec.State V) (t : Nat) (m : Mem V) : Rely g s t m m := ⟨fun _ => Iff.rfl, fun j _ => Loc.refl g j m, fun _ h => h⟩
theorem Rely.trans {g : Heap V} {s : Spec.State V} {t : Nat} {m m' m'' : Mem V} (a : Rely g s t m m') (b : Rely g s t m' m'') : Rely g s t m m'' :=
  ⟨fun j => (a.lock j).trans (b.lock j), fun j h => (a.loc j h).trans (b.loc j ((a.lock j).1 h)), fun j h => b.settled j (a.settled j h)⟩

/-- What `t` may do. -/
structure Guar (g : Heap V) (s : Spec.State V) (t : Nat) (m m' : Mem V) : Prop where
  lock : ∀ j u, u ≠ t → (m.lock j = some u ↔ m'.lock j = some u)
  loc : ∀ j, m.lock j ≠ some t → Loc g j m m'
  settled : ∀ j, Settled g s m j → Settled g s m' j

theorem Guar.rely {g : Heap V} {s : Spec.State V} {t u : Nat} {m m' : Mem V} (a : Guar g s t m m') (h : u ≠ t) : Rely g s u m m' :=
  ⟨fun j => a.lock j u h, fun j hj => a.loc j (by rw [hj]; simpa using h), a.settled⟩

theorem Guar.refl (g : Heap V) (s : Spec.State V) (t : Nat) (m : Mem V) : Guar g s t m m := ⟨fun _ _ _ => Iff.rfl, fun j _ => Loc.refl g j m, fun _ h => h⟩

/-- An object on which others depend, and which depends on others. -/
def Inner (g : Heap V) (i : Nat) : Prop := (g i).kind ≠ .var ∧ ∃ l, ∃ d ∈ (g l).deps, d.1 = i ∧ d.1 ≠ l

/-- Who accesses a register. -/
def MayReg (g : Heap V) (t : Nat) (m : Mem V) (j c : Nat) : Prop :=
  (m.lock j = some t ∧ ∀ l, (j, c) ∉ (g l).deps) ∨ ∃ i, (j, c) ∈ (g i).deps ∧ (m.lock i = some t ∨ Inner g i)

/-- Who accesses what. -/
def May (g : Heap V) (s : Spec.State V) (t : Nat) (m : Mem V) : Prog V → Prop
  | .done _ => True
  | .lock _ _ => True
  | .unlock i _ => m.lock i = some t
  | .readCounter i _ => m.lock i = some t ∨ Clean g i
  | .writeCounter i _ _ => m.lock i = some t ∧ ¬ Clean g i
  | .readReg i c _ => MayReg g t m i c
  | .writeReg i c _ _ => MayReg g t m i c
  | .readComputed i _ => m.lock i = some t
  | .writeComputed i _ _ => m.lock i = some t
  | .readBuffer i _ => Settled g s m i
  | .writeBuffer i _ _ => m.lock i = some t ∧ ¬ Settled g s m i

/-- The program keeps the invariant and only does what it may, whatever the others do; if it returns, `post` holds of the value. -/
inductive Safe (g : Heap V) (s : Spec.State V) (post : V → Prop) (t : Nat) : Prog V → Mem V → Prop
  | mk (p : Prog V) (m : Mem V) (may : ∀ m', Rely g s t m m' → J g s m' → May g s t m' p)
      (keep : ∀ m', Rely g s t m m' → J g s m' → ∀ r, p.step t m' = some r → J g s r.1)
      (guar : ∀ m', Rely g s t m m' → J g s m' → ∀ r, p.step t m' = some r → Guar g s t m' r.1)
      (next : ∀ m', Rely g s t m m' → J g s m' → ∀ r, p.step t m' = some r → Safe g s post t r.2 r.1)
      (out : ∀ m', Rely g s t m m' → J g s m' → ∀ v, p = .done v → post v) : Safe g s post t p m

section
variable {g : Heap V} {s : Spec.State V} {post : V → Prop} {t : Nat} {own : Nat → Nat → Owner}

theorem Safe.mono {p : Prog V} {m m' : Mem V} (a : Safe g s post t p m) (r : Rely g s t m m') : Safe g s post t p m' := by
  obtain ⟨_, _, h1, h2, h3, h4, h5⟩ := a
  exact ⟨p, m', fun x y => h1 x (r.trans y), fun x y => h2 x (r.trans y), fun x y => h3 x (r.trans y), fun x y => h4 x (r.trans y), fun x y => h5 x (r.trans y)⟩

/-- It is enough to look at the memories that the others can leave. -/
theorem safe_intro {p : Prog V} {m : Mem V} (h : ∀ m', Rely g s t m m' → J g s m' → Safe g s post t p m') : Safe g s post t p m := by
  refine ⟨_, _, fun m' a b => ?_, fun m' a b => ?_, fun m' a b => ?_, fun m' a b => ?_, fun m' a b => ?_⟩ <;> obtain ⟨_, _, h1, h2, h3, h4, h5⟩ := h m' a b
  · exact h1 m' (Rely.refl g s t m') b
  · exact h2 m' (Rely.refl g s t m') b
  · exact h3 m' (Rely.refl g s t m') b
  · exact h4 m' (Rely.refl g s t m') b
  · exact h5 m' (Rely.refl g s t m') b

theorem safe_done {v : V} {m : Mem V} (h : post v) : Safe g s post t (.done v) m := by
  refine ⟨_, _, fun _ _ _ => trivial, ?_, ?_, ?_, ?_⟩
  · intro m' _ _ r hr; simp [Prog.step] at hr
  · intro m' _ _ r hr; simp [Prog.step] at hr
  · intro m' _ _ r hr; simp [Prog.step] at hr
  · intro _ _ _ v' hv; injection hv with hv; rw [← hv]; exact h

def locked (m : Mem V) (i t : Nat) : Mem V := { m with lock := update m.lock i (some t) }
def unlocked (m : Mem V) (i : Nat) : Mem V := { m with lock := update m.lock i none }

theorem Settled.heap {m m' : Mem V} {j : Nat} (h : m'.heap = m.heap) (a : Settled g s m j) : Settled g s m' j := by
  unfold Settled at *
  rw [h]; exact a

theorem Loc.heap {m m' : Mem V} {j : Nat} (h : m'.heap = m.heap) : Loc g j m m' := by
  constructor <;> rw [h] <;> simp

theorem Quiet.heap {m m' : Mem V} {j : Nat} (h : m'.heap = m.heap) (a : Quiet g s m j) : Quiet g s m' j := by
  constructor <;> rw [h]
  · exact a.told
  · exact a.valid

theorem safe_lock {i : Nat} {k : Prog V} {m : Mem V}
    (h : ∀ m', Rely g s t m m' → J g s m' → m'.lock i = none → Safe g s post t k (locked m' i t)) : Safe g s post t (.lock i k) m := by
  have inv : ∀ {m' : Mem V} {r}, (Prog.lock i k).step t m' = some r → m'.lock i = none ∧ r = (locked m' i t, k) := by
    intro m' r hr
    simp only [Prog.step] at hr
    split_ifs at hr with hl
    exact ⟨hl, (Option.some.inj hr).symm⟩
  refine ⟨_, _, fun _ _ _ => trivial, ?_, ?_, ?_, fun _ _ _ v hv => by simp at hv⟩
  · intro m' a b r hr
    obtain ⟨hl, rfl⟩ := inv hr
    refine ⟨b.shape, b.slots, b.le, b.var, b.fixed, fun j hj => ?_⟩
    have : m'.lock j = none := by
      by_cases hji : j = i
      · subst hji; exact hl
      · simpa [locked, update_of_ne hji] using hj
    exact Quiet.heap (m := m') rfl (b.quiet j this)
  · intro m' a b r hr
    obtain ⟨hl, rfl⟩ := inv hr
    refine ⟨fun j u hu => ?_, fun j _ => Loc.heap rfl, fun j hj => hj.heap rfl⟩
    by_cases hji : j = i
    · subst hji
      simp only [locked, update_self, hl]
      constructor
      · intro x; simp at x
      · intro x; exact absurd (Option.some.inj x).symm hu
    · simp [locked, update_of_ne hji]
  · intro m' a b r hr
    obtain ⟨hl, rfl⟩ := inv hr
    exact h m' a b hl

theorem safe_unlock {i : Nat} {k : Prog V} {m : Mem V}
    (h : ∀ m', Rely g s t m m' → J g s m' → m'.lock i = some t ∧ Quiet g s m' i ∧ Safe g s post t k (unlocked m' i)) :
    Safe g s post t (.unlock i k) m := by
  have inv : ∀ {m' : Mem V} {r}, (Prog.unlock i k).step t m' = some r → r = (unlocked m' i, k) := by
    intro m' r hr
    simp only [Prog.step] at hr
    exact (Option.some.inj hr).symm
  refine ⟨_, _, fun m' a b => (h m' a b).1, ?_, ?_, ?_, fun _ _ _ v hv => by simp at hv⟩
  · intro m' a b r hr
    rw [inv hr]
    refine ⟨b.shape, b.slots, b.le, b.var, b.fixed, fun j hj => ?_⟩
    by_cases hji : j = i
    · subst hji; exact Quiet.heap (m := m') rfl (h m' a b).2.1
    · have : m'.lock j = none := by simpa [unlocked, update_of_ne hji] using hj
      exact Quiet.heap (m := m') rfl (b.quiet j this)
  · intro m' a b r hr
    rw [inv hr]
    refine ⟨fun j u hu => ?_, fun j _ => Loc.heap rfl, fun j hj => hj.heap rfl⟩
    by_cases hji : j = i
    · subst hji
      simp only [unlocked, update_self, (h m' a b).1]
      constructor
      · intro x; exact absurd (Option.some.inj x).symm hu
      · intro x; simp at x
    · simp [unlocked, update_of_ne hji]
  · intro m' a b r hr
    rw [inv hr]
    exact (h m' a b).2.2

/-- A read. -/
theorem safe_read {p : Prog V} {m : Mem V} {f : Mem V → Prog V} (hf : ∀ m', p.step t m' = some (m', f m')) (hp : ∀ v, p ≠ .done v)
    (h : ∀ m', Rely g s t m m' → J g s m' → May g s t m' p ∧ Safe g s post t (f m') m') : Safe g s post t p m := by
  refine ⟨_, _, fun m' a b => (h m' a b).1, ?_, ?_, ?_, fun _ _ _ v hv => absurd hv (hp v)⟩
  · intro m' a b r hr
    rw [hf] at hr; rw [← Option.some.inj hr]; exact b
  · intro m' a b r hr
    rw [hf] at hr; rw [← Option.some.inj hr]; exact Guar.refl g s t m'
  · intro m' a b r hr
    rw [hf] at hr; rw [← Option.some.inj hr]; exact (h m' a b).2

theorem safe_readCounter {i : Nat} {k : Int → Prog V} {m : Mem V}
    (h : ∀ m', Rely g s t m m' → J g s m' → (m'.lock i = some t ∨ Clean g i) ∧ Safe g s post t (k (m'.heap i).counter) m') :
    Safe g s post t (.readCounter i k) m := safe_read (f := fun m' => k (m'.heap i).counter) (fun _ => rfl) (fun _ h => by simp at h) h

theorem safe_readReg {i c : Nat} {k : Int → Prog V} {m : Mem V}
    (h : ∀ m', Rely g s t m m' → J g s m' → MayReg g t m' i c ∧ Safe g s post t (k ((m'.heap i).reg c)) m') :
    Safe g s post t (.readReg i c k) m := safe_read (f := fun m' => k ((m'.heap i).reg c)) (fun _ => rfl) (fun _ h => by simp at h) h

theorem safe_readComputed {i : Nat} {k : Bool → Prog V} {m : Mem V}
    (h : ∀ m', Rely g s t m m' → J g s m' → m'.lock i = some t ∧ Safe g s post t (k (m'.heap i).computed) m') :
    Safe g s post t (.readComputed i k) m := safe_read (f := fun m' => k (m'.heap i).computed) (fun _ => rfl) (fun _ h => by simp at h) h

theorem safe_readBuffer {i : Nat} {k : V → Prog V} {m : Mem V}
    (h : ∀ m', Rely g s t m m' → J g s m' → Settled g s m' i ∧ Safe g s post t (k (m'.heap i).buffer) m') :
    Safe g s post t (.readBuffer i k) m := safe_read (f := fun m' => k (m'.heap i).buffer) (fun _ => rfl) (fun _ h => by simp at h) h

/-- A write. -/
theorem safe_write {p : Prog V} {m : Mem V} {f : Mem V → Mem V} {k : Prog V} (hf : ∀ m', p.step t m' = some (f m', k)) (hp : ∀ v, p ≠ .done v)
    (h : ∀ m', Rely g s t m m' → J g s m' → May g s t m' p ∧ J g s (f m') ∧ Guar g s t m' (f m') ∧ Safe g s post t k (f m')) :
    Safe g s post t p m := by
  refine ⟨_, _, fun m' a b => (h m' a b).1, ?_, ?_, ?_, fun _ _ _ v hv => absurd hv (hp v)⟩
  · intro m' a b r hr
    rw [hf] at hr; rw [← Option.some.inj hr]; exact (h m' a b).2.1
  · intro m' a b r hr
    rw [hf] at hr; rw [← Option.some.inj hr]; exact (h m' a b).2.2.1
  · intro m' a b r hr
    rw [hf] at hr; rw [← Option.some.inj hr]; exact (h m' a b).2.2.2

/-- What `t` does to an object that it has locked. -/
structure Own (g : Heap V) (s : Spec.State V) (i : Nat) (m m' : Mem V) : Prop where
  lock : m'.lock = m.lock
  loc : ∀ j, j ≠ i → Loc g j m m'
  settled : ∀ j, Settled g s m j → Settled g s m' j

theorem Own.guar {i : Nat} {m m' : Mem V} (a : Own g s i m m') (h : m.lock i = some t) : Guar g s t m m' :=
  ⟨fun j u _ => by rw [a.lock], fun j hj => a.loc j (fun e => hj (e ▸ h)), a.settled⟩

theorem dep_unique (C : Ctx g own s) {i j : Nat} {d : Nat × Nat} (hi : d ∈ (g i).deps) (hj : d ∈ (g j).deps) : i = j := by
  have a := C.st.dep i d hi
  rw [C.st.dep j d hj] at a
  injection a with a
  exact a.symm

theorem comp_free (C : Ctx g own s) {i c : Nat} (h : (own i c).Comp) (l : Nat) : (i, c) ∉ (g l).deps := by
  intro hd
  have a := C.st.dep l _ hd
  dsimp only at a
  rw [a] at h
  exact h

theorem upTo_var (C : Ctx g own s) {i : Nat} (h : (g i).kind = .var) (hp : Heap V) : UpTo g hp i :=
  fun d hd hne => absurd ((C.st.var i h).2.2 d hd) hne

theorem val_var (C : Ctx g own s) {i : Nat} (h : (g i).kind = .var) : val s i = s.values i := by
  unfold val
  rw [(C.st.var i h).1]

/-- A write to an object that `t` has locked, not to the registers of who depends on it. -/
theorem own_write (C : Ctx g own s) {i : Nat} {m : Mem V} (h : J g s m) (hl : m.lock i = some t) (n : Node V)
    (hk : n.kind = (m.heap i).kind) (hd : n.deps = (m.heap i).deps) (hi : n.ids = (m.heap i).ids) (hb : n.bin = (m.heap i).bin)
    (hle : ∀ c, n.reg c ≤ n.counter) (hv : (g i).kind = .var → n.buffer = (m.heap i).buffer) (hc : Clean g i → n.counter = (m.heap i).counter)
    (hr : ∀ c l, (i, c) ∈ (g l).deps → n.reg c = (m.heap i).reg c)
    (hs : Settled g s m i → n.computed = true ∧ n.buffer = (m.heap i).buffer ∨ (g i).kind = .var) :
    J g s (m.modify i n) ∧ Own g s i m (m.modify i n) ∧ ∀ j, UpTo g (m.modify i n).heap j ↔ UpTo g m.heap j := by
  have same : ∀ j, j ≠ i → (m.modify i n).heap j = m.heap j := fun j hj => update_of_ne hj _ _
  have self : (m.modify i n).heap i = n := update_self _ _ _
  have dep : ∀ j, ∀ d ∈ (g j).deps, ((m.modify i n).heap d.1).reg d.2 = (m.heap d.1).reg d.2 := by
    intro j d hd
    by_cases e : d.1 = i
    · rw [e, self]
      exact hr d.2 j (by rw [← e]; exact hd)
    · rw [same _ e]
  have up : ∀ j, UpTo g (m.modify i n).heap j ↔ UpTo g m.heap j := by
    intro j
    have key : ∀ d ∈ (g j).deps, d.1 ≠ j → ((m.modify i n).heap d.1).counter = (m.heap d.1).counter := by
      intro d hd hne
      by_cases e : d.1 = i
      · rw [e, self]
        exact hc (e ▸ C.ready j d hd hne)
      · rw [same _ e]
    constructor
    · intro a d hd hne
      have := a d hd hne
      rwa [dep j d hd, key d hd hne] at this
    · intro a d hd hne
      rw [dep j d hd, key d hd hne]
      exact a d hd hne
  refine ⟨⟨?_, ?_, ?_, ?_, ?_, ?_⟩, ⟨rfl, ?_, ?_⟩, up⟩
  · intro j
    by_cases e : j = i
    · subst e; rw [self, hk, hd]; exact h.shape j
    · rw [same _ e]; exact h.shape j
  · intro j
    by_cases e : j = i
    · subst e; rw [self, hi, hb]; exact h.slots j
    · rw [same _ e]; exact h.slots j
  · intro j c
    by_cases e : j = i
    · subst e; rw [self]; exact hle c
    · rw [same _ e]; exact h.le j c
  · intro j hj
    by_cases e : j = i
    · subst e; rw [self, hv hj]; exact h.var j hj
    · rw [same _ e]; exact h.var j hj
  · intro j hj
    refine ⟨?_, (up j).2 (h.fixed j hj).2⟩
    by_cases e : j = i
    · subst e; rw [self, hc hj]; exact (h.fixed j hj).1
    · rw [same _ e]; exact (h.fixed j hj).1
  · intro j hj
    have hne : j ≠ i := by
      rintro rfl
      have : m.lock j = none := hj
      rw [hl] at this
      simp at this
    have q := h.quiet j hj
    constructor
    · rw [same _ hne]; exact q.told
    · rw [up, same _ hne]; exact q.valid
  · intro j hne
    exact ⟨by rw [same _ hne], by rw [same _ hne], by rw [same _ hne], fun c _ => by rw [same _ hne], fun d hd => dep j d hd⟩
  · intro j hj
    by_cases e : j = i
    · subst e
      rcases hs hj with ⟨a, b⟩ | a
      · rcases hj with hj | ⟨x, y, z⟩
        · exact Or.inl hj
        · exact Or.inr ⟨(up j).2 x, by rw [self]; exact a, by rw [self, b]; exact z⟩
      · exact Or.inl a
    · rcases hj with hj | ⟨x, y, z⟩
      · exact Or.inl hj
      · exact Or.inr ⟨(up j).2 x, by rw [same _ e]; exact y, by rw [same _ e]; exact z⟩

/-- The object `i`, that `t` has locked, is told of `d`. -/
theorem dep_write (C : Ctx g own s) {i : Nat} {m : Mem V} (h : J g s m) (hl : m.lock i = some t) (d : Nat × Nat) (hd : d ∈ (g i).deps) :
    let m' := m.modify d.1 { m.heap d.1 with reg := update (m.heap d.1).reg d.2 (m.heap d.1).counter }
    J g s m' ∧ Own g s i m m' ∧ (∀ j, (m'.heap j).counter = (m.heap j).counter ∧ (m'.heap j).computed = (m.heap j).computed ∧ (m'.heap j).buffer = (m.heap j).buffer) ∧
      (∀ j c, (m'.heap j).reg c = if (j, c) = d then (m.heap j).counter else (m.heap j).reg c) := by
  intro m'
  have rest : ∀ j, (m'.heap j).counter = (m.heap j).counter ∧ (m'.heap j).computed = (m.heap j).computed ∧ (m'.heap j).buffer = (m.heap j).buffer ∧
      (m'.heap j).kind = (m.heap j).kind ∧ (m'.heap j).deps = (m.heap j).deps ∧ (m'.heap j).ids = (m.heap j).ids ∧ (m'.heap j).bin = (m.heap j).bin := by
    intro j
    by_cases e : j = d.1
    · subst e; simp [m', Mem.modify]
    · simp [m', Mem.modify, update_of_ne e]
  have reg : ∀ j c, (m'.heap j).reg c = if (j, c) = d then (m.heap j).counter else (m.heap j).reg c := by
    intro j c
    by_cases e : j = d.1
    · subst e
      by_cases e2 : c = d.2
      · subst e2; simp [m', Mem.modify]
      · rw [if_neg (fun x => e2 (by rw [← x]))]
        simp [m', Mem.modify, update_of_ne e2]
    · rw [if_neg (fun x => e (by rw [← x]))]
      simp [m', Mem.modify, update_of_ne e]
  have up : ∀ j, UpTo g m.heap j → UpTo g m'.heap j := by
    intro j a e he hne
    rw [reg, (rest e.1).1]
    split_ifs
    · rfl
    · exact a e he hne
  have up' : ∀ j, j ≠ i → UpTo g m'.heap j → UpTo g m.heap j := by
    intro j hj a e he hne
    have := a e he hne
    rw [reg, (rest e.1).1, if_neg] at this
    · exact this
    · intro x
      have x : e = d := x
      exact hj (dep_unique C (x ▸ he) hd)
  refine ⟨⟨?_, ?_, ?_, ?_, ?_, ?_⟩, ⟨rfl, ?_, ?_⟩, fun j => ⟨(rest j).1, (rest j).2.1, (rest j).2.2.1⟩, reg⟩
  · intro j; obtain ⟨-, -, -, a, b, -⟩ := rest j; rw [a, b]; exact h.shape j
  · intro j; obtain ⟨-, -, -, -, -, a, b⟩ := rest j; rw [a, b]; exact h.slots j
  · intro j c
    rw [reg, (rest j).1]
    split_ifs
    · exact le_rfl
    · exact h.le j c
  · intro j hj; rw [(rest j).2.2.1]; exact h.var j hj
  · intro j hj; rw [(rest j).1]; exact ⟨(h.fixed j hj).1, up j (h.fixed j hj).2⟩
  · intro j hj
    have hne : j ≠ i := by
      rintro rfl
      have : m.lock j = none := hj
      rw [hl] at this
      simp at this
    have q := h.quiet j hj
    constructor
    · intro a c hc
      rw [reg, (rest j).1] at hc
      rw [(rest j).2.1] at a
      split_ifs at hc with e
      · exact ⟨i, by rw [e]; exact hd⟩
      · exact q.told a c hc
    · rw [(rest j).2.1, (rest j).2.2.1]
      exact fun a b => q.valid (up' j hne a) b
  · intro j hne
    refine ⟨(rest j).1, (rest j).2.1, (rest j).2.2.1, fun c hc => ?_, fun e he => ?_⟩
    · rw [reg, if_neg]
      intro x
      exact hc i (by rw [x]; exact hd)
    · rw [reg, if_neg]
      intro x
      have x : e = d := x
      exact hne (dep_unique C (x ▸ he) hd)
  · intro j hj
    rcases hj with hj | ⟨x, y, z⟩
    · exact Or.inl hj
    · exact Or.inr ⟨up j x, by rw [(rest j).2.1]; exact y, by rw [(rest j).2.2.1]; exact z⟩

/-- What others do leaves what `t` has locked as up to date as it was. -/
theorem upTo_rely (C : Ctx g own s) {i : Nat} {m m' : Mem V} (h : J g s m) (h' : J g s m') (hl : m.lock i = some t) (r : Rely g s t m m') :
    UpTo g m'.heap i ↔ UpTo g m.heap i := by
  have key : ∀ d ∈ (g i).deps, d.1 ≠ i → ((m'.heap d.1).reg d.2 = (m'.heap d.1).counter ↔ (m.heap d.1).reg d.2 = (m.heap d.1).counter) := by
    intro d hd hne
    have hc := C.ready i d hd hne
    rw [(h.fixed _ hc).1, (h'.fixed _ hc).1, (r.loc i hl).deps d hd]
  exact ⟨fun a d hd hne => (key d hd hne).1 (a d hd hne), fun a d hd hne => (key d hd hne).2 (a d hd hne)⟩

/-- Between the start `m0` of an evaluation of `i`, and `m`, after locking it. -/
structure Sub (g : Heap V) (s : Spec.State V) (t i : Nat) (m0 m : Mem V) : Prop where
  locks : ∀ j, j ≠ i → (m0.lock j = some t ↔ m.lock j = some t)
  held : m.lock i = some t
  free : m0.lock i ≠ some t
  loc : ∀ j, m0.lock j = some t → Loc g j m0 m
  settled : ∀ j, Settled g s m0 j → Settled g s m j

theorem Sub.rely {i : Nat} {m0 m m' : Mem V} (a : Sub g s t i m0 m) (r : Rely g s t m m') : Sub g s t i m0 m' := by
  refine ⟨fun j hj => (a.locks j hj).trans (r.lock j), (r.lock i).1 a.held, a.free, fun j hj => ?_, fun j hj => r.settled j (a.settled j hj)⟩
  have hne : j ≠ i := fun e => a.free (e ▸ hj)
  exact (a.loc j hj).trans (r.loc j ((a.locks j hne).1 hj))

theorem Sub.mine {i : Nat} {m0 m m' : Mem V} (a : Sub g s t i m0 m) (r : Own g s i m m') : Sub g s t i m0 m' := by
  refine ⟨fun j hj => by rw [r.lock]; exact a.locks j hj, by rw [r.lock]; exact a.held, a.free, fun j hj => ?_, fun j hj => r.settled j (a.settled j hj)⟩
  exact (a.loc j hj).trans (r.loc j fun e => a.free (e ▸ hj))

theorem Settled.value (C : Ctx g own s) {m : Mem V} {i : Nat} (h : J g s m) (a : Settled g s m i) : (m.heap i).buffer = val s i := by
  rcases a with a | ⟨-, -, a⟩
  · rw [val_var C a]; exact h.var i a
  · exact a

end
end Verif.Parallel
