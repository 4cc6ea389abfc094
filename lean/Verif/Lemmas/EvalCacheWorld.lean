import Verif.Lemmas.EvalCacheEval
/- The actions of the user keep the invariant of the evaluation cache. -/
set_option linter.unusedSectionVars false
set_option linter.unusedSimpArgs false
set_option linter.unusedVariables false
namespace Verif.EvalCache
open Function
variable {V : Type}

def give (own : Nat → Nat → Owner) (i c : Nat) (o : Owner) : Nat → Nat → Owner := update own i (update (own i) c o)

theorem give_self (own : Nat → Nat → Owner) (i c : Nat) (o : Owner) : give own i c o i c = o := by simp [give]
theorem give_ne (own : Nat → Nat → Owner) (i c : Nat) (o : Owner) (j x : Nat) (h : ¬ (j = i ∧ x = c)) : give own i c o j x = own j x := by
  unfold give
  by_cases hj : j = i
  · subst hj
    rw [update_self, update_of_ne (fun e => h ⟨rfl, e⟩)]
  · rw [update_of_ne hj]

/-- An ID changing hands: not one in use by an operator. -/
def Idle : Owner → Prop
  | .free | .handle _ => True
  | _ => False

def relabel (h : Heap V) (i c : Nat) (b : List Nat) (n : Nat) : Heap V :=
  update h i { h i with reg := update (h i).reg c ((h i).counter - 1), bin := b, ids := n }

theorem relabel_shape (h : Heap V) (i c : Nat) (b : List Nat) (n : Nat) : Shape h (relabel h i c b n) := by
  intro j
  unfold relabel
  by_cases hj : j = i
  · subst hj; simp
  · rw [update_of_ne hj]; exact ⟨rfl, rfl⟩

theorem Static.relabel {h : Heap V} {own : Nat → Nat → Owner} {s : Spec.State V} (t : Static h own s) (i c : Nat) (o : Owner)
    (hid : Idle (own i c)) (b : List Nat) (n : Nat) : Static (relabel h i c b n) (give own i c o) s := by
  have t' := t.congr (relabel_shape h i c b n)
  refine ⟨t'.var, fun j f ch role hk => ?_, t'.junk, fun j d hd => ?_⟩
  · obtain ⟨h1, h2, h3, h4, h5⟩ := t'.op j f ch role hk
    refine ⟨h1, h2, h3, fun k hk => ⟨(h4 k hk).1, ?_, (h4 k hk).2.2⟩, h5⟩
    have := (h4 k hk).2.1
    rw [give_ne _ _ _ _ _ _ ?_]
    · exact this
    · rintro ⟨e1, e2⟩
      rw [e1, e2] at this
      rw [this] at hid
      exact hid
  · have := t'.dep j d hd
    rw [give_ne _ _ _ _ _ _ ?_]
    · exact this
    · rintro ⟨e1, e2⟩
      rw [e1, e2] at this
      rw [this] at hid
      exact hid

theorem Dyn.relabel {h : Heap V} {own : Nat → Nat → Owner} {s : Spec.State V} (t : Static h own s) (d : Dyn h own s) (i c : Nat) (o : Owner)
    (hid : Idle (own i c)) (b : List Nat) (n : Nat) : Dyn (relabel h i c b n) (give own i c o) s := by
  have hcnt : ∀ j, ((EvalCache.relabel h i c b n) j).counter = (h j).counter ∧ ((EvalCache.relabel h i c b n) j).buffer = (h j).buffer ∧
      ((EvalCache.relabel h i c b n) j).computed = (h j).computed := by
    intro j
    unfold EvalCache.relabel
    by_cases hj : j = i
    · subst hj; simp
    · rw [update_of_ne hj]; exact ⟨rfl, rfl, rfl⟩
  have hreg : ∀ j x, ¬ (j = i ∧ x = c) → ((EvalCache.relabel h i c b n) j).reg x = (h j).reg x := by
    intro j x hx
    unfold EvalCache.relabel
    by_cases hj : j = i
    · subst hj
      simp only [update_self]
      rw [update_of_ne (fun e => hx ⟨rfl, e⟩)]
    · rw [update_of_ne hj]
  have hself : ((EvalCache.relabel h i c b n) i).reg c = (h i).counter - 1 := by simp [EvalCache.relabel]
  have hclean : ∀ j, Clean (EvalCache.relabel h i c b n) j → Clean h j := by
    intro j hc
    induction hc with
    | mk P h1 h2 ih =>
      rw [(relabel_shape h i c b n P).2] at h1 ih
      refine ⟨P, fun d hd hne => ?_, ih⟩
      have := h1 d hd hne
      rw [(hcnt d.1).1] at this
      rw [← this]
      symm
      apply hreg
      rintro ⟨e1, e2⟩
      have hh := t.dep P d hd
      rw [e1, e2] at hh
      rw [hh] at hid
      exact hid
  refine ⟨fun j x => ?_, fun j hk => ?_, fun j hc hv => ?_⟩
  · rw [(hcnt j).1]
    by_cases hx : j = i ∧ x = c
    · obtain ⟨rfl, rfl⟩ := hx
      rw [hself]; omega
    · rw [hreg j x hx]; exact d.le j x
  · rw [(relabel_shape h i c b n j).1] at hk
    rw [(hcnt j).2.1]; exact d.var j hk
  · rw [(hcnt j).2.1]
    refine d.valid j (hclean j hc) ?_
    rw [(hcnt j).2.2, (hcnt j).1] at hv
    rcases hv with hv | ⟨x, h1, h2⟩
    · exact Or.inl hv
    · right
      by_cases hx : j = i ∧ x = c
      · obtain ⟨rfl, rfl⟩ := hx
        rw [hself] at h2
        omega
      · rw [hreg j x hx] at h2
        rw [give_ne _ _ _ _ _ _ hx] at h1
        exact ⟨x, h1, h2⟩

theorem relabel_tells {h : Heap V} {own : Nat → Nat → Owner} {s : Spec.State V} (t : Static h own s) (i c : Nat)
    (hid : Idle (own i c)) (b : List Nat) (n : Nat) : Tells own (fun _ _ => False) h (relabel h i c b n) ∧
      ∀ j, Clean h j → Clean (relabel h i c b n) j ∧ ∀ x, ¬ (j = i ∧ x = c) → (h j).reg x = (h j).counter →
        (relabel h i c b n j).reg x = (relabel h i c b n j).counter := by
  have hcnt : ∀ j, ((relabel h i c b n) j).counter = (h j).counter := by
    intro j
    unfold relabel
    by_cases hj : j = i
    · subst hj; simp
    · rw [update_of_ne hj]
  have hreg : ∀ j x, ¬ (j = i ∧ x = c) → ((relabel h i c b n) j).reg x = (h j).reg x := by
    intro j x hx
    unfold relabel
    by_cases hj : j = i
    · subst hj
      simp only [update_self]
      rw [update_of_ne (fun e => hx ⟨rfl, e⟩)]
    · rw [update_of_ne hj]
  have hself : ((relabel h i c b n) i).reg c = (h i).counter - 1 := by simp [relabel]
  have hdep : ∀ P, ∀ d ∈ (h P).deps, ¬ (d.1 = i ∧ d.2 = c) := by
    rintro P d hd ⟨e1, e2⟩
    have hh := t.dep P d hd
    rw [e1, e2] at hh
    rw [hh] at hid
    exact hid
  have hclean : ∀ j, Clean (relabel h i c b n) j → Clean h j := by
    intro j hc
    induction hc with
    | mk P h1 h2 ih =>
      rw [(relabel_shape h i c b n P).2] at h1 ih
      refine ⟨P, fun d hd hne => ?_, ih⟩
      have := h1 d hd hne
      rw [hcnt d.1] at this
      rw [← this]
      exact (hreg _ _ (hdep P d hd)).symm
  have hclean' : ∀ j, Clean h j → Clean (relabel h i c b n) j := by
    intro j hc
    induction hc with
    | mk P h1 h2 ih =>
      refine ⟨P, ?_, ?_⟩ <;> rw [(relabel_shape h i c b n P).2]
      · intro d hd hne
        rw [hcnt d.1, hreg _ _ (hdep P d hd)]
        exact h1 d hd hne
      · exact ih
  constructor
  · intro j x _ _ a e
    rw [hcnt] at e
    by_cases hx : j = i ∧ x = c
    · obtain ⟨rfl, rfl⟩ := hx
      rw [hself] at e
      omega
    · rw [hreg j x hx] at e
      exact ⟨hclean j a, e⟩
  · intro j a
    refine ⟨hclean' j a, fun x hx e => ?_⟩
    rw [hreg j x hx, hcnt]; exact e

/-- The invariant on the objects. -/
structure Inv (h : Heap V) (own : Nat → Nat → Owner) (s : Spec.State V) : Prop where
  st : Static h own s
  tb : Table h own s
  dy : Dyn h own s

theorem newCallerID_form {h : Heap V} {own : Nat → Nat → Owner} {s : Spec.State V} (T : Table h own s) (i : Nat) :
    ∃ c b n, newCallerID h i = (c, relabel h i c b n) ∧ own i c = .free ∧ c < n ∧ (h i).ids ≤ n ∧ (∀ x ∈ b, x ∈ (h i).bin ∧ x ≠ c) ∧ b.Nodup := by
  unfold newCallerID
  cases hb : (h i).bin with
  | nil =>
    refine ⟨(h i).ids, [], (h i).ids + 1, ?_, T.ge i _ le_rfl, by omega, by omega, by simp, List.nodup_nil⟩
    simp only [relabel, ← hb]
  | cons x rest =>
    have := T.bin i x (by rw [hb]; simp)
    have nd := T.nodup i
    rw [hb] at nd
    refine ⟨x, rest, (h i).ids, rfl, this.1, this.2, le_rfl, ?_, (List.nodup_cons.1 nd).2⟩
    intro y hy
    exact ⟨by simp [hy], fun e => (List.nodup_cons.1 nd).1 (e ▸ hy)⟩

theorem alloc {h : Heap V} {own : Nat → Nat → Owner} {s : Spec.State V} (I : Inv h own s) (i : Nat) (hi : i < s.size) (o : Owner) :
    own i (newCallerID h i).1 = .free ∧ Shape h (newCallerID h i).2 ∧ Inv (newCallerID h i).2 (give own i (newCallerID h i).1 o) s ∧
      Tells own (fun _ _ => False) h (newCallerID h i).2 ∧ Kept own h (newCallerID h i).2 ∧
      ((newCallerID h i).2 i).reg (newCallerID h i).1 ≠ ((newCallerID h i).2 i).counter := by
  obtain ⟨c, b, n, e, hf, hcn, hn, hb, nd⟩ := newCallerID_form I.tb i
  rw [e]
  dsimp only
  have hid : Idle (own i c) := by rw [hf]; trivial
  have rt := relabel_tells I.st i c hid b n
  refine ⟨hf, relabel_shape h i c b n, ⟨I.st.relabel i c o hid b n, ⟨?_, ?_, ?_, ?_⟩, I.dy.relabel I.st i c o hid b n⟩, rt.1, ?_, ?_⟩
  · intro j x hx
    unfold relabel at hx
    by_cases hj : j = i
    · subst hj
      simp only [update_self] at hx
      rw [give_ne _ _ _ _ _ _ (by omega)]
      exact I.tb.ge j x (by omega)
    · rw [update_of_ne hj] at hx
      rw [give_ne _ _ _ _ _ _ (by omega)]
      exact I.tb.ge j x hx
  · intro j x hx
    unfold relabel at hx ⊢
    by_cases hj : j = i
    · subst hj
      simp only [update_self] at hx ⊢
      obtain ⟨h1, h2⟩ := hb x hx
      rw [give_ne _ _ _ _ _ _ (by omega)]
      exact ⟨(I.tb.bin j x h1).1, lt_of_lt_of_le (I.tb.bin j x h1).2 hn⟩
    · rw [update_of_ne hj] at hx ⊢
      rw [give_ne _ _ _ _ _ _ (by omega)]
      exact I.tb.bin j x hx
  · intro j
    unfold relabel
    by_cases hj : j = i
    · subst hj
      simp only [update_self]
      exact nd
    · rw [update_of_ne hj]; exact I.tb.nodup j
  · intro j x hj
    rw [give_ne _ _ _ _ _ _ (by omega)]
    exact I.tb.junk j x hj
  · intro j a
    refine ⟨(rt.2 j a).1, fun x ho => (rt.2 j a).2 x ?_⟩
    rintro ⟨rfl, rfl⟩
    rw [hf] at ho
    exact ho
  · simp [relabel]

theorem dealloc {h : Heap V} {own : Nat → Nat → Owner} {s : Spec.State V} (I : Inv h own s) (i c p : Nat) (hp : own i c = .handle p) :
    Inv (deleteID h i c) (give own i c .free) s ∧ Tells own (fun _ _ => False) h (deleteID h i c) ∧
      ∀ j, Clean h j → Clean (deleteID h i c) j ∧ ∀ x, ¬ (j = i ∧ x = c) → (h j).reg x = (h j).counter →
        (deleteID h i c j).reg x = (deleteID h i c j).counter := by
  have hid : Idle (own i c) := by rw [hp]; trivial
  have e : deleteID h i c = relabel h i c (c :: (h i).bin) (h i).ids := rfl
  have hlt : c < (h i).ids := by
    by_contra hc
    have := I.tb.ge i c (by omega)
    rw [hp] at this
    exact absurd this (by simp)
  have hnb : c ∉ (h i).bin := by
    intro hc
    have := (I.tb.bin i c hc).1
    rw [hp] at this
    exact absurd this (by simp)
  have hfree : ∀ j x, own j x = .free → give own i c .free j x = .free := by
    intro j x hx
    by_cases hh : j = i ∧ x = c
    · obtain ⟨rfl, rfl⟩ := hh; rw [give_self]
    · rw [give_ne _ _ _ _ _ _ hh]; exact hx
  rw [e]
  refine ⟨⟨I.st.relabel i c _ hid _ _, ⟨?_, ?_, ?_, ?_⟩, I.dy.relabel I.st i c _ hid _ _⟩, relabel_tells I.st i c hid _ _⟩
  · intro j x hx
    refine hfree j x (I.tb.ge j x ?_)
    unfold relabel at hx
    by_cases hj : j = i
    · subst hj; simpa using hx
    · rwa [update_of_ne hj] at hx
  · intro j x hx
    unfold relabel at hx ⊢
    by_cases hj : j = i
    · subst hj
      simp only [update_self, List.mem_cons] at hx ⊢
      rcases hx with rfl | hx
      · exact ⟨give_self _ _ _ _, hlt⟩
      · exact ⟨hfree j x (I.tb.bin j x hx).1, (I.tb.bin j x hx).2⟩
    · rw [update_of_ne hj] at hx ⊢
      exact ⟨hfree j x (I.tb.bin j x hx).1, (I.tb.bin j x hx).2⟩
  · intro j
    unfold relabel
    by_cases hj : j = i
    · subst hj
      simp only [update_self, List.nodup_cons]
      exact ⟨hnb, I.tb.nodup j⟩
    · rw [update_of_ne hj]; exact I.tb.nodup j
  · intro j x hj
    exact hfree j x (I.tb.junk j x hj)

/-- IDs already given stay with their owner. -/
def Keeps (own own' : Nat → Nat → Owner) : Prop := ∀ i c, own i c ≠ .free → own' i c = own i c

theorem Keeps.refl (own : Nat → Nat → Owner) : Keeps own own := fun _ _ _ => rfl
theorem Keeps.trans {a b c : Nat → Nat → Owner} (h : Keeps a b) (h' : Keeps b c) : Keeps a c := by
  intro i x hx
  have := h i x hx
  rw [h' i x (by rw [this]; exact hx), this]
theorem Keeps.give {own : Nat → Nat → Owner} {i c : Nat} (o : Owner) (h : own i c = .free) : Keeps own (give own i c o) := by
  intro j x hx
  apply give_ne
  rintro ⟨rfl, rfl⟩
  exact hx h

theorem Tells.keeps {own own' : Nat → Nat → Owner} {E : Nat → Nat → Prop} {h h' : Heap V} (k : Keeps own own') (a : Tells own' E h h') :
    Tells own E h h' := by
  intro j c he ho
  refine a j c he ?_
  rw [k j c]
  · exact ho
  · intro e; rw [e] at ho; exact ho

theorem Kept.keeps {own own' : Nat → Nat → Owner} {h h' : Heap V} (k : Keeps own own') (a : Kept own' h h') : Kept own h h' := by
  intro j hc
  refine ⟨(a j hc).1, fun c ho => (a j hc).2 c ?_⟩
  rw [k j c]
  · exact ho
  · intro e; rw [e] at ho; exact ho

theorem operands_inv {h : Heap V} {own : Nat → Nat → Owner} {s : Spec.State V} (I : Inv h own s) (ks : List Nat) (hks : ∀ k ∈ ks, k < s.size) :
    let r := ks.foldl addOperand ([], h)
    ∃ own', Inv r.2 own' s ∧ Shape h r.2 ∧ Tells own (fun _ _ => False) h r.2 ∧ Kept own h r.2 ∧ Keeps own own' ∧ r.1.map Prod.fst = ks ∧ ∀ k ∈ r.1, own' k.1 k.2 = .child := by
  induction ks using List.reverseRecOn with
  | nil => exact ⟨own, I, Shape.refl h, Tells.refl own _ h, Kept.refl own h, Keeps.refl own, rfl, by simp⟩
  | append_singleton ks k ih =>
    obtain ⟨own', I', sh, te, kp, ke, e, hc⟩ := ih fun k hk => hks k (List.mem_append_left _ hk)
    simp only [List.foldl_append, List.foldl_cons, List.foldl_nil]
    set r := ks.foldl addOperand ([], h) with hr
    clear_value r
    obtain ⟨hf, sh', I'', te', kp', -⟩ := alloc I' k (hks k (by simp)) .child
    unfold addOperand
    refine ⟨_, I'', sh.trans sh', te.trans (te'.keeps ke), kp.trans (kp'.keeps ke), ke.trans (Keeps.give _ hf), by simp [e], ?_⟩
    intro x hx
    rcases List.mem_append.1 hx with hx | hx
    · rw [Keeps.give _ hf _ _ (by rw [hc x hx]; simp)]
      exact hc x hx
    · rw [List.mem_singleton.1 hx]
      exact give_self _ _ _ _

theorem deps_inv {h : Heap V} {own : Nat → Nat → Owner} {s : Spec.State V} (I : Inv h own s) (n : Nat) (js : List Nat) (hjs : ∀ k ∈ js, k < s.size) :
    let r := js.foldl addDependency ([], h)
    ∃ own', Inv r.2 own' s ∧ Shape h r.2 ∧ Tells own (fun _ _ => False) h r.2 ∧ Kept own h r.2 ∧ Keeps own own' ∧ (∀ j, j ∈ js ↔ ∃ d ∈ r.1, d.1 = j) ∧ ∀ k ∈ r.1, own' k.1 k.2 = .dep n := by
  induction js using List.reverseRecOn with
  | nil => exact ⟨own, I, Shape.refl h, Tells.refl own _ h, Kept.refl own h, Keeps.refl own, by simp, by simp⟩
  | append_singleton js k ih =>
    obtain ⟨own', I', sh, te, kp, ke, e, hc⟩ := ih fun k hk => hjs k (List.mem_append_left _ hk)
    simp only [List.foldl_append, List.foldl_cons, List.foldl_nil]
    set r := js.foldl addDependency ([], h) with hr
    clear_value r
    unfold addDependency
    by_cases hk : (r.1.any fun d => d.1 == k) = true
    · rw [if_pos hk]
      refine ⟨own', I', sh, te, kp, ke, ?_, hc⟩
      intro j
      rw [← e j, List.mem_append, List.mem_singleton]
      refine ⟨?_, Or.inl⟩
      rintro (hj | rfl)
      · exact hj
      · rw [e]
        obtain ⟨d, hd, he⟩ := List.any_eq_true.1 hk
        exact ⟨d, hd, by simpa using he⟩
    · rw [if_neg hk]
      obtain ⟨hf, sh', I'', te', kp', -⟩ := alloc I' k (hjs k (by simp)) (.dep n)
      refine ⟨_, I'', sh.trans sh', te.trans (te'.keeps ke), kp.trans (kp'.keeps ke), ke.trans (Keeps.give _ hf), ?_, ?_⟩
      · intro j
        rw [List.mem_append, List.mem_singleton, e j]
        constructor
        · rintro (⟨d, hd, he⟩ | rfl)
          · exact ⟨d, by simp [hd], he⟩
          · exact ⟨(j, _), by simp; exact Or.inr rfl, rfl⟩
        · rintro ⟨d, hd, he⟩
          rcases List.mem_append.1 hd with hd | hd
          · exact Or.inl ⟨d, hd, he⟩
          · rw [List.mem_singleton.1 hd] at he
            exact Or.inr he.symm
      · intro x hx
        rcases List.mem_append.1 hx with hx | hx
        · rw [Keeps.give _ hf _ _ (by rw [hc x hx]; simp)]
          exact hc x hx
        · rw [List.mem_singleton.1 hx]
          exact give_self _ _ _ _

end Verif.EvalCache
