import Verif.Lemmas.Problem
import Verif.Tac
/- Programs that add elements to the problem. -/
set_option linter.unusedSectionVars false
set_option linter.unusedSimpArgs false
namespace Verif.SolverM
variable {α β : Type} {accepts : List α → α → Bool}

/-- All of `l` is accepted after `p`. -/
def AcceptAll (accepts : List α → α → Bool) : List α → List α → Prop
  | _, [] => True
  | p, t :: l => accepts p t = true ∧ AcceptAll accepts (p ++ [t]) l

theorem acceptAll_append (p l m : List α) : AcceptAll accepts p (l ++ m) ↔ AcceptAll accepts p l ∧ AcceptAll accepts (p ++ l) m := by
  induction l generalizing p with
  | nil => simp [AcceptAll]
  | cons t l ih => simp [AcceptAll, ih, and_assoc]

/-- `f` adds `l` when the conditions `C` hold and `l` is accepted, and fails otherwise. -/
def Blk (accepts : List α → α → Bool) (f : List α → Option (List α)) (C : Prop) (l : List α) : Prop :=
  ∀ p p', f p = some p' ↔ (C ∧ AcceptAll accepts p l ∧ p' = p ++ l)

theorem Blk.skip : Blk accepts (fun p => some p) True [] := by
  intro p p'
  simp [AcceptAll, eq_comm]

theorem Blk.push (t : α) : Blk accepts (push accepts t) True [t] := by
  intro p p'
  unfold SolverM.push
  by_cases h : accepts p t = true
  · simp [h, AcceptAll, eq_comm]
  · simp [h, AcceptAll]

theorem Blk.require {f : List α → Option (List α)} {C : Prop} {l : List α} (b : Bool) (h : Blk accepts f C l) :
    Blk accepts (fun p => do require b; f p) (b = true ∧ C) l := by
  intro p p'
  unfold SolverM.require
  cases b <;> simp [h p p']

theorem Blk.lookup {f : β → List α → Option (List α)} {C : Prop} {l : List α} {o : Option β} {x : β} (ho : o = some x) (h : Blk accepts (f x) C l) :
    Blk accepts (fun p => do let x ← o; f x p) C l := by
  intro p p'
  subst ho
  simpa using h p p'

theorem Blk.lookupD {f : β → List α → Option (List α)} {C : β → Prop} {l : β → List α} {o : Option β} (y : β) (h : ∀ x, Blk accepts (f x) (C x) (l x)) :
    Blk accepts (fun p => do let x ← o; f x p) (o.isSome = true ∧ C (o.getD y)) (l (o.getD y)) := by
  intro p p'
  cases o with
  | none => simp
  | some x => simpa using h x p p'

theorem Blk.ite {f : List α → Option (List α)} {C : Prop} {l : List α} (b : Bool) (h : Blk accepts f C l) :
    Blk accepts (fun p => if b then f p else some p) (b = true → C) (if b then l else []) := by
  intro p p'
  cases b
  · simp [AcceptAll, eq_comm]
  · simpa using h p p'

theorem Blk.iteP {f : List α → Option (List α)} {C : Prop} {l : List α} (b : Prop) [Decidable b] (h : Blk accepts f C l) :
    Blk accepts (fun p => if b then f p else some p) (b → C) (if b then l else []) := by
  intro p p'
  by_cases hb : b
  · simpa [hb] using h p p'
  · simp [hb, AcceptAll, eq_comm]

theorem Blk.seq {f g : List α → Option (List α)} {C D : Prop} {l m : List α} (h : Blk accepts f C l) (h' : Blk accepts g D m) :
    Blk accepts (fun p => do let p ← f p; g p) (C ∧ D) (l ++ m) := by
  intro p p'
  simp only [Option.bind_eq_bind, Option.bind_eq_some_iff]
  constructor
  · rintro ⟨q, h1, h2⟩
    obtain ⟨c, a, rfl⟩ := (h _ _).1 h1
    obtain ⟨d, b, rfl⟩ := (h' _ _).1 h2
    exact ⟨⟨c, d⟩, (acceptAll_append _ _ _).2 ⟨a, b⟩, by simp⟩
  · rintro ⟨⟨c, d⟩, a, rfl⟩
    obtain ⟨a, b⟩ := (acceptAll_append _ _ _).1 a
    exact ⟨p ++ l, (h _ _).2 ⟨c, a, rfl⟩, (h' _ _).2 ⟨d, b, by simp⟩⟩

theorem Blk.loop {f : Nat → List α → Option (List α)} {C : Nat → Prop} {l : Nat → List α} (n : Nat) (h : ∀ i, i < n → Blk accepts (f i) (C i) (l i)) :
    Blk accepts (forPoints f n) (∀ i, i < n → C i) ((List.range n).flatMap l) := by
  induction n with
  | zero => intro p p'; simp [forPoints, AcceptAll, eq_comm]
  | succ n ih =>
    have h1 := ih fun i hi => h i (by omega)
    intro p p'
    have := (h1.seq (h n (by omega))) p p'
    have e : forPoints f (n + 1) p = (do let p ← forPoints f n p; f n p) := by
      cases h : forPoints f n p <;> simp [forPoints, h]
    rw [e, this, List.range_succ, List.flatMap_append]
    simp only [List.flatMap_cons, List.flatMap_nil, List.append_nil, Nat.lt_succ_iff_lt_or_eq]
    constructor
    · rintro ⟨⟨a, b⟩, c⟩
      exact ⟨fun i hi => hi.elim (a i) (fun e => e ▸ b), c⟩
    · rintro ⟨a, c⟩
      exact ⟨⟨fun i hi => a i (Or.inl hi), a n (Or.inr rfl)⟩, c⟩

theorem Blk.cond {f : List α → Option (List α)} {C D : Prop} {l m : List α} (h : Blk accepts f C l) (e : C ↔ D) (e' : l = m) : Blk accepts f D m := by
  intro p p'
  subst e'
  rw [h p p', e]

end Verif.SolverM
