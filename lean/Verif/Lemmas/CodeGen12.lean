import Verif.Spec.CodeGen
import Verif.Lemmas.CodeGen1
/- A text has at most one meaning. -/
set_option linter.unusedSectionVars false
set_option linter.unusedSimpArgs false
set_option linter.unusedVariables false
namespace Verif.Levi.Code
open Spec
variable {K : Type} [Field K] [LinearOrder K]

/-- Reading inside a pair of parentheses: left operand of a sum, left operand of a product or of a quotient, pending sign (and whether it has just
been read), operand read. -/
structure FPart (K : Type) [Zero K] where
  sum : Option (Value K × Bool)
  prod : Option (Value K × Bool)
  sign : Bool
  last : Bool
  cur : Option (Value K)

namespace FPart
def fresh : FPart K := ⟨none, none, false, false, none⟩
def reduceU (q : FPart K) : Option (Value K) := q.cur.map (signed q.sign)
def reduceM (q : FPart K) : Option (Value K) := q.reduceU.bind fun v =>
  match q.prod with
  | none => some v
  | some (p, true) => p.mul v
  | some (p, false) => p.div v
def reduceA (q : FPart K) : Option (Value K) := q.reduceM.bind fun v =>
  match q.sum with
  | none => some v
  | some (p, b) => p.plus b v
end FPart
open FPart

abbrev FReader (K : Type) [Zero K] := List (FPart K × Bool) × FPart K

def feat (pw : K → K → K) (names : Tok K → Option (Value K)) (st : FReader K) (τ : Tok K) : Option (FReader K) :=
  match st.2.cur with
  | none =>
    match τ with
    | .sign => if st.2.last then none else some (st.1, ⟨st.2.sum, st.2.prod, !st.2.sign, true, none⟩)
    | .lpar => some ((st.2, false) :: st.1, fresh)
    | .powOpen => some ((st.2, true) :: st.1, fresh)
    | τ => (names τ).map fun v => (st.1, { st.2 with cur := some v })
  | some v =>
    match τ with
    | .times => st.2.reduceM.map fun p => (st.1, ⟨st.2.sum, some (p, true), false, false, none⟩)
    | .slash => st.2.reduceM.map fun p => (st.1, ⟨st.2.sum, some (p, false), false, false, none⟩)
    | .plus => st.2.reduceA.map fun p => (st.1, ⟨some (p, true), none, false, false, none⟩)
    | .minus => st.2.reduceA.map fun p => (st.1, ⟨some (p, false), none, false, false, none⟩)
    | .rpar =>
      match st.1 with
      | [] => none
      | c :: cs => if c.2 then none else st.2.reduceA.map fun w => (cs, { c.1 with cur := some w })
    | .powClose x =>
      match st.1 with
      | [] => none
      | c :: cs =>
        if c.2 then st.2.reduceA.bind fun w =>
          match w with
          | .num a => some (cs, { c.1 with cur := some (.num (pw a x)) })
          | .mat _ => none
        else none
    | τ => (Value.access τ v).map fun w => (st.1, { st.2 with cur := some w })

def frun (pw : K → K → K) (names : Tok K → Option (Value K)) (st : FReader K) (s : List (Tok K)) : Option (FReader K) := s.foldlM (feat pw names) st

/-- The value of a text. -/
def fullValue (pw : K → K → K) (names : Tok K → Option (Value K)) (s : List (Tok K)) : Option (Value K) :=
  (frun pw names ([], fresh) s).bind fun st => st.2.reduceA

theorem frun_nil (pw : K → K → K) (names : Tok K → Option (Value K)) (st : FReader K) : frun pw names st [] = some st := rfl
theorem frun_cons (pw : K → K → K) (names : Tok K → Option (Value K)) (st : FReader K) (τ : Tok K) (s : List (Tok K)) :
    frun pw names st (τ :: s) = (feat pw names st τ).bind fun st => frun pw names st s := by
  simp only [frun, List.foldlM_cons]; rfl
theorem frun_append (pw : K → K → K) (names : Tok K → Option (Value K)) (st : FReader K) (s r : List (Tok K)) :
    frun pw names st (s ++ r) = (frun pw names st s).bind fun st => frun pw names st r := by
  simp only [frun, List.foldlM_append]; rfl

theorem cur_of_reduceU {q : FPart K} {v : Value K} (h : q.reduceU = some v) : ∃ w, q.cur = some w := by
  unfold reduceU at h
  cases hc : q.cur with
  | none => simp [hc] at h
  | some w => exact ⟨w, rfl⟩
theorem cur_of_reduceM {q : FPart K} {v : Value K} (h : q.reduceM = some v) : ∃ w, q.cur = some w := by
  obtain ⟨u, hu, -⟩ := Option.bind_eq_some_iff.1 h
  exact cur_of_reduceU hu
theorem cur_of_reduceA {q : FPart K} {v : Value K} (h : q.reduceA = some v) : ∃ w, q.cur = some w := by
  obtain ⟨u, hu, -⟩ := Option.bind_eq_some_iff.1 h
  exact cur_of_reduceM hu

/-- What reading a text of a given kind does. -/
def Read (pw : K → K → K) (names : Tok K → Option (Value K)) : Level → List (Tok K) → Value K → Prop
  | .primary, s, v | .postfix, s, v => s.head? ≠ some .sign ∧ ∀ cs p, p.cur = none → frun pw names (cs, p) s = some (cs, { p with cur := some v })
  | .unary, s, v => ∀ cs p, p.cur = none → (p.last = true → s.head? ≠ some .sign) →
      ∃ q, frun pw names (cs, p) s = some (cs, q) ∧ q.sum = p.sum ∧ q.prod = p.prod ∧ q.reduceU = some (signed p.sign v)
  | .multiplicative, s, v => ∀ cs sum, ∃ q, frun pw names (cs, ⟨sum, none, false, false, none⟩) s = some (cs, q) ∧ q.sum = sum ∧ q.reduceM = some v
  | .additive, s, v => ∀ cs, ∃ q, frun pw names (cs, fresh) s = some (cs, q) ∧ q.reduceA = some v

theorem reads_of_means {pw : K → K → K} {g : List (SM K)} {vars : Vars K} {l : Level} {s : List (Tok K)} {v : Value K} (h : Means pw g vars l s v) :
    Read pw (named g vars) l s v := by
  induction h with
  | @name τ v h =>
    refine ⟨?_, fun cs p hp => ?_⟩
    · rintro hh
      simp at hh
      subst hh
      simp [named] at h
    · rw [frun_cons]
      have : feat pw (named g vars) (cs, p) τ = (named g vars τ).map fun v => (cs, { p with cur := some v }) := by
        unfold feat
        simp only [hp]
        cases τ <;> first | rfl | simp [named] at h
      rw [this, h]
      rfl
  | @paren s v h ih =>
    refine ⟨by simp, fun cs p hp => ?_⟩
    obtain ⟨q, h1, h2⟩ := ih ((p, false) :: cs)
    obtain ⟨w, hw⟩ := cur_of_reduceA h2
    rw [List.cons_append, frun_cons]
    simp only [feat, hp, Option.bind_some]
    rw [frun_append, h1, Option.bind_some, frun_cons]
    simp [feat, hw, h2, frun_nil]
  | @pow s x a h ih =>
    refine ⟨by simp, fun cs p hp => ?_⟩
    obtain ⟨q, h1, h2⟩ := ih ((p, true) :: cs)
    obtain ⟨w, hw⟩ := cur_of_reduceA h2
    rw [List.cons_append, frun_cons]
    simp only [feat, hp, Option.bind_some]
    rw [frun_append, h1, Option.bind_some, frun_cons]
    simp [feat, hw, h2, frun_nil]
  | primary h ih => exact ih
  | @access s v τ w h ha ih =>
    obtain ⟨i1, i2⟩ := ih
    have hne : s ≠ [] := by
      rintro rfl
      have := i2 [] fresh rfl
      simp [frun_nil, fresh] at this
    refine ⟨by rwa [List.head?_append_of_ne_nil _ hne], fun cs p hp => ?_⟩
    rw [frun_append, i2 cs p hp, Option.bind_some, frun_cons]
    have : feat pw (named g vars) (cs, { p with cur := some v }) τ = (Value.access τ v).map fun w => (cs, { p with cur := some w }) := by
      unfold feat
      cases τ <;> first | rfl | (cases v <;> simp [Value.access] at ha)
    rw [this, ha]
    rfl
  | @«postfix» s v h ih =>
    intro cs p hp _
    exact ⟨_, ih.2 cs p hp, rfl, rfl, rfl⟩
  | @sign s v h hh ih =>
    intro cs p hp hl
    have hlast : p.last = false := by
      rw [← Bool.not_eq_true]
      intro h
      exact hl h rfl
    obtain ⟨q, h1, h2, h3, h4⟩ := ih cs ⟨p.sum, p.prod, !p.sign, true, none⟩ rfl (fun _ => hh)
    refine ⟨q, ?_, h2, h3, ?_⟩
    · rw [frun_cons]
      simp only [feat, hp, hlast]
      exact h1
    · rw [h4]
      cases p.sign <;> simp [signed, neg_neg']
  | unary h ih =>
    intro cs sum
    obtain ⟨q, h1, h2, h3, h4⟩ := ih cs ⟨sum, none, false, false, none⟩ rfl (by simp)
    refine ⟨q, h1, h2, ?_⟩
    unfold reduceM
    rw [h4, h3]
    rfl
  | times _ _ hm ihs ihr =>
    intro cs sum
    obtain ⟨q, h1, h2, h3⟩ := ihs cs sum
    obtain ⟨w, hw⟩ := cur_of_reduceM h3
    obtain ⟨q', k1, k2, k3, k4⟩ := ihr cs ⟨sum, some (_, true), false, false, none⟩ rfl (by simp)
    refine ⟨q', ?_, k2, ?_⟩
    · rw [frun_append, h1, Option.bind_some, frun_cons]
      simp only [feat, hw, h3, Option.map_some, Option.bind_some, h2]
      exact k1
    · unfold reduceM
      rw [k4, k3]
      exact hm
  | over _ _ hm ihs ihr =>
    intro cs sum
    obtain ⟨q, h1, h2, h3⟩ := ihs cs sum
    obtain ⟨w, hw⟩ := cur_of_reduceM h3
    obtain ⟨q', k1, k2, k3, k4⟩ := ihr cs ⟨sum, some (_, false), false, false, none⟩ rfl (by simp)
    refine ⟨q', ?_, k2, ?_⟩
    · rw [frun_append, h1, Option.bind_some, frun_cons]
      simp only [feat, hw, h3, Option.map_some, Option.bind_some, h2]
      exact k1
    · unfold reduceM
      rw [k4, k3]
      exact hm
  | multiplicative h ih =>
    intro cs
    obtain ⟨q, h1, h2, h3⟩ := ih cs none
    refine ⟨q, h1, ?_⟩
    unfold reduceA
    rw [h3, h2]
    rfl
  | plus _ _ hm ihs ihr =>
    intro cs
    obtain ⟨q, h1, h3⟩ := ihs cs
    obtain ⟨w, hw⟩ := cur_of_reduceA h3
    obtain ⟨q', k1, k2, k3⟩ := ihr cs (some (_, true))
    refine ⟨q', ?_, ?_⟩
    · rw [frun_append, h1, Option.bind_some, frun_cons]
      simp only [feat, hw, h3, Option.map_some, Option.bind_some]
      exact k1
    · unfold reduceA
      rw [k3, k2]
      exact hm
  | minus _ _ hm ihs ihr =>
    intro cs
    obtain ⟨q, h1, h3⟩ := ihs cs
    obtain ⟨w, hw⟩ := cur_of_reduceA h3
    obtain ⟨q', k1, k2, k3⟩ := ihr cs (some (_, false))
    refine ⟨q', ?_, ?_⟩
    · rw [frun_append, h1, Option.bind_some, frun_cons]
      simp only [feat, hw, h3, Option.map_some, Option.bind_some]
      exact k1
    · unfold reduceA
      rw [k3, k2]
      exact hm

theorem full_of_means {pw : K → K → K} {g : List (SM K)} {vars : Vars K} {s : List (Tok K)} {v : Value K} (h : Means pw g vars .additive s v) :
    fullValue pw (named g vars) s = some v := by
  obtain ⟨q, h1, h2⟩ := reads_of_means h []
  unfold fullValue
  rw [h1]
  exact h2

theorem means_unique {pw : K → K → K} {g : List (SM K)} {vars : Vars K} {s : List (Tok K)} {v w : Value K} (h : Means pw g vars .additive s v)
    (h' : Means pw g vars .additive s w) : v = w :=
  Option.some.inj ((full_of_means h).symm.trans (full_of_means h'))

theorem executes_unique {pw : K → K → K} {g : List (SM K)} {vars v v' : Vars K} {L : List (Decl K)} (h : Executes pw g vars L v)
    (h' : Executes pw g vars L v') : v = v' := by
  induction h with
  | done => cases h'; rfl
  | next a b c _ ih =>
    cases h' with
    | next a' b' c' e' =>
      obtain rfl := means_unique b b'
      exact ih e'

/-- A program computes one thing only. -/
theorem computes_unique {pw : K → K → K} {g : List (SM K)} {p : Program K} {As Bs : List (SM K)} (h : Computes pw g p As) (h' : Computes pw g p Bs) :
    As = Bs := by
  obtain ⟨v, E, F⟩ := h
  obtain ⟨v', E', F'⟩ := h'
  obtain rfl := executes_unique E E'
  obtain ⟨decls, outs⟩ := p
  dsimp only at F F'
  clear E E'
  induction F generalizing Bs with
  | nil => cases F'; rfl
  | @cons o A os As' hA _ ih =>
    cases F' with
    | @cons _ B _ Bs' hB F' =>
      congr 1
      · unfold Stores at hA hB
        split_ifs at hA hB
        · have := means_unique hA.1 hB.1
          injection this with this
          rw [hA.2, hB.2, this]
        · have := means_unique hA hB
          injection this
      · exact ih F'

end Verif.Levi.Code
