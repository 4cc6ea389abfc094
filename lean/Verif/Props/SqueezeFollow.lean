import Verif.Model.SqueezeFollow
import Verif.Props.Squeeze
import Verif.Props.CodeGen
import Verif.Lemmas.AsVariableMotion
/- C103: squeezed and compiled expressions follow the variables. -/
set_option linter.unusedSectionVars false
namespace Verif.Levi.Squeeze
open Ex Spec
variable {K : Type} [Field K] [LinearOrder K]

/-- The generic expressions are in the vector. -/
def Within (t : Tree K) : Prop := ∀ g ∈ t.generics, g < t.n

/-- One step: the dependencies are the old ones and those of the expression. -/
def Adds (v : Var) (e : Ex K) (t t' : Tree K) : Prop := Within t' ∧ dependsOn v t' = (dependsOn v t || e.dep v)

/-- Equal expressions depend on the same variables. -/
theorem eqv_dep {cfg : Cfg K} (hs : Sound cfg) (v : Var) {a b : Ex K} (h : a.eqv cfg b = true) : a.dep v = b.dep v := by
  induction a generalizing b with
  | const r c M => rw [hs _ _ h]
  | sparse r c l => rw [hs _ _ h]
  | var w => rw [hs _ _ h]
  | skew a ih => rw [hs _ _ h]
  | vee a ih => rw [hs _ _ h]
  | byRows n f ih => rw [hs _ _ h]
  | byCols n f ih => rw [hs _ _ h]
  | mpd n ds x ihd ihx => rw [hs _ _ h]
  | null r c =>
    simp only [eqv, Bool.or_eq_true] at h
    rcases h with h | h
    · rw [hs _ _ h]
    · cases b <;> first | rfl | simp at h
  | ident n =>
    simp only [eqv, Bool.or_eq_true] at h
    rcases h with h | h
    · rw [hs _ _ h]
    · cases b <;> first | rfl | simp at h
  | add a b iha ihb =>
    simp only [eqv, Bool.or_eq_true] at h
    rcases h with h | h
    · rw [hs _ _ h]
    · split at h
      · simp only [Bool.or_eq_true, Bool.and_eq_true] at h
        simp only [dep]
        rcases h with h | h
        · rw [iha h.1, ihb h.2]
        · rw [iha h.1, ihb h.2, Bool.or_comm]
      · cases h
  | sub a b iha ihb =>
    simp only [eqv, Bool.or_eq_true] at h
    rcases h with h | h
    · rw [hs _ _ h]
    · split at h
      · simp only [Bool.and_eq_true] at h
        simp only [dep]
        rw [iha h.1, ihb h.2]
      · cases h
  | mul a b iha ihb =>
    simp only [eqv, Bool.or_eq_true] at h
    rcases h with h | h
    · rw [hs _ _ h]
    · split at h
      · simp only [Bool.and_eq_true] at h
        simp only [dep]
        rw [iha h.1, ihb h.2]
      · cases h
  | div a b iha ihb =>
    simp only [eqv, Bool.or_eq_true] at h
    rcases h with h | h
    · rw [hs _ _ h]
    · split at h
      · simp only [Bool.and_eq_true] at h
        simp only [dep]
        rw [iha h.1, ihb h.2]
      · cases h
  | hcat a b iha ihb =>
    simp only [eqv, Bool.or_eq_true] at h
    rcases h with h | h
    · rw [hs _ _ h]
    · split at h
      · simp only [Bool.and_eq_true] at h
        simp only [dep]
        rw [iha h.1, ihb h.2]
      · cases h
  | vcat a b iha ihb =>
    simp only [eqv, Bool.or_eq_true] at h
    rcases h with h | h
    · rw [hs _ _ h]
    · split at h
      · simp only [Bool.and_eq_true] at h
        simp only [dep]
        rw [iha h.1, ihb h.2]
      · cases h
  | neg a ih =>
    simp only [eqv, Bool.or_eq_true] at h
    rcases h with h | h
    · rw [hs _ _ h]
    · split at h
      · simp only [dep]
        rw [ih h]
      · cases h
  | transpose a ih =>
    simp only [eqv, Bool.or_eq_true] at h
    rcases h with h | h
    · rw [hs _ _ h]
    · split at h
      · simp only [dep]
        rw [ih h]
      · cases h
  | pow a x ih =>
    simp only [eqv, Bool.or_eq_true] at h
    rcases h with h | h
    · rw [hs _ _ h]
    · split at h
      · simp only [Bool.and_eq_true] at h
        simp only [dep]
        rw [ih h.1]
      · cases h
  | row a i ih =>
    simp only [eqv, Bool.or_eq_true] at h
    rcases h with h | h
    · rw [hs _ _ h]
    · split at h
      · simp only [Bool.and_eq_true] at h
        simp only [dep]
        rw [ih h.1]
      · cases h
  | col a j ih =>
    simp only [eqv, Bool.or_eq_true] at h
    rcases h with h | h
    · rw [hs _ _ h]
    · split at h
      · simp only [Bool.and_eq_true] at h
        simp only [dep]
        rw [ih h.1]
      · cases h
  | elem a i j ih =>
    simp only [eqv, Bool.or_eq_true] at h
    rcases h with h | h
    · rw [hs _ _ h]
    · split at h
      · simp only [Bool.and_eq_true] at h
        simp only [dep]
        rw [ih h.1.1]
      · cases h
  | block a i j r c ih =>
    simp only [eqv, Bool.or_eq_true] at h
    rcases h with h | h
    · rw [hs _ _ h]
    · split at h
      · simp only [Bool.and_eq_true] at h
        simp only [dep]
        rw [ih h.1.1.1.1]
      · cases h

theorem any_same {l : List Nat} {p q : Nat → Bool} (h : ∀ g ∈ l, p g = q g) : l.any p = l.any q := by
  induction l with
  | nil => rfl
  | cons a l ih => rw [List.any_cons, List.any_cons, h a (by simp), ih fun g hg => h g (by simp [hg])]

theorem push_comp (u : Nat → Nat → K) {t : Tree K} (c : Comp K) {g : Nat} (h : g < t.n) : (push u t c).comp g = t.comp g := by
  rw [push]
  exact Function.update_of_ne (Nat.ne_of_lt h) _ _

theorem push_depends (v : Var) (u : Nat → Nat → K) {t : Tree K} (h : Within t) (c : Comp K) :
    (t.generics.any fun g => ((push u t c).comp g).e.dep v) = dependsOn v t :=
  any_same fun g hg => by rw [push_comp u c (h g hg)]

theorem addConstant_adds (v : Var) (u : Nat → Nat → K) {t : Tree K} (h : Within t) (e : Ex K) (he : e.dep v = false) : Adds v e t (addConstant u e t).2 := by
  refine ⟨fun g hg => Nat.lt_succ_of_lt (h g hg), ?_⟩
  rw [he, Bool.or_false]
  exact push_depends v u h _

theorem addGeneric_adds {cfg : Cfg K} (hs : Sound cfg) (v : Var) (u : Nat → Nat → K) {t : Tree K} (h : Within t) (e : Ex K)
     : Adds v e t (addGeneric cfg u e t).2 := by
  unfold addGeneric
  split
  · rename_i g hg
    refine ⟨h, ?_⟩
    have e1 := eqv_dep hs v (by simpa using List.find?_some hg)
    have e2 := List.mem_of_find?_eq_some hg
    cases hd : e.dep v with
    | false => simp
    | true =>
      rw [hd] at e1
      rw [Bool.or_true]
      exact List.any_eq_true.2 ⟨g, e2, e1⟩
  · refine ⟨fun g hg => ?_, ?_⟩
    · rcases List.mem_append.1 hg with hg | hg
      · exact Nat.lt_succ_of_lt (h g hg)
      · rw [List.mem_singleton.1 hg]
        exact Nat.lt_succ_self _
    · have e1 : ((push u t ⟨e, 0, 0⟩).comp t.n).e = e := by
        rw [push]
        dsimp only
        rw [Function.update_self]
      show ((t.generics ++ [t.n]).any fun g => ((push u t ⟨e, 0, 0⟩).comp g).e.dep v) = _
      rw [List.any_append, push_depends v u h, List.any_cons, List.any_nil, Bool.or_false, e1]

theorem addOperator_adds (cfg : Cfg K) (v : Var) (u : Nat → Nat → K) {t : Tree K} (h : Within t) (e : Ex K) (old : Bool) (l r : Nat) :
    Within (addOperator cfg u e old l r t).2 ∧ dependsOn v (addOperator cfg u e old l r t).2 = dependsOn v t := by
  unfold addOperator
  split
  · exact ⟨h, rfl⟩
  · exact ⟨fun g hg => Nat.lt_succ_of_lt (h g hg), push_depends v u h _⟩

theorem Adds.trans2 {v : Var} {e a b : Ex K} {t t1 t2 t3 : Tree K} (h1 : Adds v a t t1) (h2 : Adds v b t1 t2) (he : e.dep v = (a.dep v || b.dep v))
    (h3 : Within t3 ∧ dependsOn v t3 = dependsOn v t2) : Adds v e t t3 := ⟨h3.1, by rw [h3.2, h2.2, h1.2, he, Bool.or_assoc]⟩

theorem Adds.trans1 {v : Var} {e a : Ex K} {t t1 t3 : Tree K} (h1 : Adds v a t t1) (he : e.dep v = a.dep v)
    (h3 : Within t3 ∧ dependsOn v t3 = dependsOn v t1) : Adds v e t t3 := ⟨h3.1, by rw [h3.2, h1.2, he]⟩

theorem expand_adds {cfg : Cfg K} (hs : Sound cfg) (v : Var) (u : Nat → Nat → K) (e : Ex K) {t : Tree K} (h : Within t) : Adds v e t (expand cfg u e t).2 := by
  induction e generalizing t with
  | const r c M => exact addConstant_adds v u h _ rfl
  | sparse r c l => exact addConstant_adds v u h _ rfl
  | null r c => exact addConstant_adds v u h _ rfl
  | ident n => exact addConstant_adds v u h _ rfl
  | var w => exact addGeneric_adds hs v u h _
  | skew a ih => exact addGeneric_adds hs v u h _
  | vee a ih => exact addGeneric_adds hs v u h _
  | byRows n f ih => exact addGeneric_adds hs v u h _
  | byCols n f ih => exact addGeneric_adds hs v u h _
  | mpd n ds x ihd ihx => exact addGeneric_adds hs v u h _
  | add a b iha ihb => exact (iha h).trans2 (ihb (iha h).1) rfl (addOperator_adds cfg v u (ihb (iha h).1).1 _ _ _ _)
  | sub a b iha ihb => exact (iha h).trans2 (ihb (iha h).1) rfl (addOperator_adds cfg v u (ihb (iha h).1).1 _ _ _ _)
  | mul a b iha ihb => exact (iha h).trans2 (ihb (iha h).1) rfl (addOperator_adds cfg v u (ihb (iha h).1).1 _ _ _ _)
  | div a b iha ihb => exact (iha h).trans2 (ihb (iha h).1) rfl (addOperator_adds cfg v u (ihb (iha h).1).1 _ _ _ _)
  | hcat a b iha ihb => exact (iha h).trans2 (ihb (iha h).1) rfl (addOperator_adds cfg v u (ihb (iha h).1).1 _ _ _ _)
  | vcat a b iha ihb => exact (iha h).trans2 (ihb (iha h).1) rfl (addOperator_adds cfg v u (ihb (iha h).1).1 _ _ _ _)
  | neg a ih => exact (ih h).trans1 rfl (addOperator_adds cfg v u (ih h).1 _ _ _ _)
  | transpose a ih => exact (ih h).trans1 rfl (addOperator_adds cfg v u (ih h).1 _ _ _ _)
  | pow a x ih => exact (ih h).trans1 rfl (addOperator_adds cfg v u (ih h).1 _ _ _ _)
  | row a i ih => exact (ih h).trans1 rfl (addOperator_adds cfg v u (ih h).1 _ _ _ _)
  | col a j ih => exact (ih h).trans1 rfl (addOperator_adds cfg v u (ih h).1 _ _ _ _)
  | elem a i j ih => exact (ih h).trans1 rfl (addOperator_adds cfg v u (ih h).1 _ _ _ _)
  | block a i j r c ih => exact (ih h).trans1 rfl (addOperator_adds cfg v u (ih h).1 _ _ _ _)

theorem compiled_adds {cfg : Cfg K} (hs : Sound cfg) (v : Var) (u : Nat → Nat → K) (e : Ex K) {t : Tree K} (h : Within t) : Adds v e t (Code.expand cfg u e t).2 := by
  induction e generalizing t with
  | var w => exact addGeneric_adds hs v u h _
  | skew a ih => exact addGeneric_adds hs v u h _
  | vee a ih => exact addGeneric_adds hs v u h _
  | byRows n f ih => exact addGeneric_adds hs v u h _
  | byCols n f ih => exact addGeneric_adds hs v u h _
  | mpd n ds x ihd ihx => exact addGeneric_adds hs v u h _
  | const r c M => exact addGeneric_adds hs v u h _
  | sparse r c l => exact addGeneric_adds hs v u h _
  | null r c => exact addGeneric_adds hs v u h _
  | ident n => exact addGeneric_adds hs v u h _
  | vcat a b iha ihb => exact addGeneric_adds hs v u h _
  | hcat a b iha ihb => exact addGeneric_adds hs v u h _
  | add a b iha ihb => exact (iha h).trans2 (ihb (iha h).1) rfl (addOperator_adds cfg v u (ihb (iha h).1).1 _ _ _ _)
  | sub a b iha ihb => exact (iha h).trans2 (ihb (iha h).1) rfl (addOperator_adds cfg v u (ihb (iha h).1).1 _ _ _ _)
  | mul a b iha ihb => exact (iha h).trans2 (ihb (iha h).1) rfl (addOperator_adds cfg v u (ihb (iha h).1).1 _ _ _ _)
  | div a b iha ihb => exact (iha h).trans2 (ihb (iha h).1) rfl (addOperator_adds cfg v u (ihb (iha h).1).1 _ _ _ _)
  | neg a ih => exact (ih h).trans1 rfl (addOperator_adds cfg v u (ih h).1 _ _ _ _)
  | transpose a ih => exact (ih h).trans1 rfl (addOperator_adds cfg v u (ih h).1 _ _ _ _)
  | pow a x ih => exact (ih h).trans1 rfl (addOperator_adds cfg v u (ih h).1 _ _ _ _)
  | row a i ih => exact (ih h).trans1 rfl (addOperator_adds cfg v u (ih h).1 _ _ _ _)
  | col a j ih => exact (ih h).trans1 rfl (addOperator_adds cfg v u (ih h).1 _ _ _ _)
  | elem a i j ih => exact (ih h).trans1 rfl (addOperator_adds cfg v u (ih h).1 _ _ _ _)
  | block a i j r c ih => exact (ih h).trans1 rfl (addOperator_adds cfg v u (ih h).1 _ _ _ _)

theorem within_empty : Within (empty : Tree K) := fun g hg => by simp [empty] at hg

theorem after_same (pw : K → K → K) (past : List (Env K)) (t : Tree K) : (after pw t past).generics = t.generics ∧ (after pw t past).comp = t.comp := by
  induction past generalizing t with
  | nil => exact ⟨rfl, rfl⟩
  | cons ρ past ih => exact ih _

/-- **C103.** The squeezed form of an expression depends on the same variables as the expression, after any evaluations. -/
theorem C103_squeezed_dependencies {cfg : Cfg K} (hs : Sound cfg) (u : Nat → Nat → K) (pw : K → K → K) (past : List (Env K)) (e : Ex K) (v : Var) :
    dependsOn v (after pw (squeeze cfg u e) past) = e.dep v := by
  have h := (expand_adds hs v u e within_empty).2
  rw [show dependsOn v (empty : Tree K) = false from rfl, Bool.false_or] at h
  rw [← h]
  unfold dependsOn
  rw [(after_same pw past _).1, (after_same pw past _).2]
  rfl

/-- **C103.** So does its compiled form. -/
theorem C103_compiled_dependencies {cfg : Cfg K} (hs : Sound cfg) (u : Nat → Nat → K) (e : Ex K) (v : Var) :
    dependsOn v (Code.expandExpressions cfg u [e]).1 = e.dep v := by
  have h := (compiled_adds hs v u e (t := { (empty : Tree K) with added := fun _ => [] }) within_empty).2
  rw [show dependsOn v { (empty : Tree K) with added := fun _ => [] } = false from rfl, Bool.false_or] at h
  exact h

/-- What a program must be given: at each evaluation the value of `e` at the values that the variables have then. -/
def expected (pw : K → K → K) (e : Ex K) : Env K → List (Use K) → List (SM K)
  | _, [] => []
  | ρ, .assign v x :: l => expected pw e (Function.update ρ v x) l
  | ρ, .evaluate :: l => e.ev pw ρ :: expected pw e ρ l

/-- The remembered value is the one of an earlier time, from which only the variables listed have changed. -/
def Remembers (pw : K → K → K) (x : Ex K) (s : Followed K) : Prop :=
  ∀ b, s.last = some b → ∃ ρ, b = x.ev pw ρ ∧ ∀ w, w ∉ s.assigned → ρ w = s.env w

theorem follow_values {cfg : Cfg K} (hs : Sound cfg) {x : Ex K} (hx : KeptE x) (u : Nat → Nat → K) (pw : K → K → K) (l : List (Use K)) (past : List (Env K)) (s : Followed K)
    (ht : s.tree = after pw (squeeze cfg u x) past) (hr : Remembers pw x s) : s.values pw l = expected pw x s.env l := by
  have hev : ∀ (s : Followed K) (past : List (Env K)), s.tree = after pw (squeeze cfg u x) past → (evaluate pw s.env s.tree).1 = x.ev pw s.env ∧
      (evaluate pw s.env s.tree).2 = after pw (squeeze cfg u x) (past ++ [s.env]) := by
    intro s past ht
    rw [ht]
    refine ⟨squeeze_kept hs hx u pw past s.env, ?_⟩
    rw [after, after, List.foldl_append]
    rfl
  have hd : ∀ w, dependsOn w s.tree = x.dep w := fun w => by rw [ht]; exact C103_squeezed_dependencies hs u pw past x w
  induction l generalizing s past with
  | nil => rfl
  | cons a l ih =>
    cases a with
    | assign v f =>
      refine (List.nil_append _).trans (ih past _ ht ?_ hd)
      intro b hb
      obtain ⟨ρ, e1, e2⟩ := hr b hb
      refine ⟨ρ, e1, fun w hw => ?_⟩
      replace hw : w ∉ v :: s.assigned := hw
      rw [List.mem_cons, not_or] at hw
      show ρ w = Function.update s.env v f w
      rw [Function.update_of_ne hw.1]
      exact e2 w hw.2
    | evaluate =>
      have fresh : ∀ r, r = evaluate pw s.env s.tree → r.1 :: Followed.values pw ⟨s.env, r.2, some r.1, []⟩ l = x.ev pw s.env :: expected pw x s.env l := by
        rintro r rfl
        obtain ⟨h1, h2⟩ := hev s past ht
        congr 1
        refine ih (past ++ [s.env]) ⟨s.env, _, _, []⟩ h2 ?_ ?_
        · rintro b hb
          cases hb
          exact ⟨s.env, h1, fun _ _ => rfl⟩
        · intro w
          rw [show (Followed.mk s.env (evaluate pw s.env s.tree).2 (some (evaluate pw s.env s.tree).1) []).tree = after pw (squeeze cfg u x) (past ++ [s.env]) from h2]
          exact C103_squeezed_dependencies hs u pw _ x w
      show (s.use pw .evaluate).1 ++ (s.use pw .evaluate).2.values pw l = x.ev pw s.env :: expected pw x s.env l
      rcases hl : s.last with _ | b
      · simp only [Followed.use, hl]
        exact fresh _ rfl
      · by_cases hc : (s.assigned.any fun v => dependsOn v s.tree) = true
        · simp only [Followed.use, hl, if_pos hc]
          exact fresh _ rfl
        · obtain ⟨ρ, e1, e2⟩ := hr b hl
          have e3 : b = x.ev pw s.env := by
            rw [e1]
            refine AsVariable.ev_agree hx pw fun w hw => e2 w fun hm => hc ?_
            exact List.any_eq_true.2 ⟨w, hm, (hd w).trans hw⟩
          simp only [Followed.use, hl, if_neg hc]
          rw [ih past s ht hr hd, e3]
          rfl

/-- **C103.** In any sequence of assignments and evaluations, the squeezed form of what was written, which computes again only when one of its dependencies was assigned, gives each time the value of what was written. -/
theorem C103_current_values {cfg : Cfg K} (hs : Sound cfg) {e : Ex K} (h : Written (fun _ _ => True) e) (u : Nat → Nat → K) (pw : K → K → K) (ρ : Env K) (l : List (Use K)) :
    (follow cfg u ρ (build cfg e)).values pw l = expected pw e ρ l := by
  have v := build_val hs (P := fun _ _ => True) (fun _ _ _ _ _ => trivial) h
  have same : ∀ ρ, expected pw (build cfg e) ρ l = expected pw e ρ l := by
    induction l with
    | nil => intro ρ; rfl
    | cons a l ih =>
      intro ρ
      cases a with
      | assign w f => exact ih _
      | evaluate => simp only [expected, v.2, ih]
  rw [← same]
  exact follow_values hs v.1 u pw l [] _ rfl (fun b hb => by cases hb)

/-- **C103, compiled expressions** (which are printable, as in C79): in any sequence of assignments and evaluations the program is given the values of what was written at the values the variables have then, and nothing else. -/
theorem C103_compiled_values_partial {cfg : Cfg K} (hs : Sound cfg) {e : Ex K} (h : Written (fun _ _ => True) e) (u : Nat → Nat → K) (shown : K → K) (width : Code.Tok K → Nat)
    (hp : Code.Spec.Printable shown (build cfg e)) (pw : K → K → K) (ρ : Env K) (l : List (Use K)) (out : List (SM K)) :
    Runs cfg u shown width pw (build cfg e) ρ none [] l out ↔ out = expected pw e ρ l := by
  have hb := build_val hs (P := fun _ _ => True) (fun _ _ _ _ _ => trivial) h
  have hc : ∀ ρ A, Code.Spec.Computes pw (Code.genericValues cfg u [build cfg e] pw ρ) (Code.generate cfg u shown width [build cfg e]) [A] ↔ A = e.ev pw ρ := by
    intro ρ A
    rw [Code.C79_compiled_partial hs u shown width [build cfg e] (by simpa using hb.1) (by simpa using hp)]
    simp [hb.2]
  have hd : ∀ w, dependsOn w (Code.expandExpressions cfg u [build cfg e]).1 = (build cfg e).dep w := fun w => C103_compiled_dependencies hs u _ w
  suffices H : ∀ (l : List (Use K)) (ρ : Env K) (last : Option (SM K)) (vs : List Var) (out : List (SM K)),
      (∀ b, last = some b → ∃ σ, b = e.ev pw σ ∧ ∀ w, w ∉ vs → σ w = ρ w) → (Runs cfg u shown width pw (build cfg e) ρ last vs l out ↔ out = expected pw e ρ l) from
    H l ρ none [] out (fun b hb => by cases hb)
  clear out l ρ
  intro l
  induction l with
  | nil =>
    intro ρ last vs out _
    refine ⟨fun r => by cases r; rfl, fun r => by subst r; exact .done⟩
  | cons a l ih =>
    intro ρ last vs out hr
    cases a with
    | assign v f =>
      have hr' : ∀ b, last = some b → ∃ σ, b = e.ev pw σ ∧ ∀ w, w ∉ v :: vs → σ w = Function.update ρ v f w := by
        intro b hb
        obtain ⟨σ, e1, e2⟩ := hr b hb
        refine ⟨σ, e1, fun w hw => ?_⟩
        rw [List.mem_cons, not_or] at hw
        rw [Function.update_of_ne hw.1]
        exact e2 w hw.2
      refine ⟨fun r => ?_, fun r => .assign ((ih _ _ _ _ hr').2 r)⟩
      cases r with
      | assign r => exact (ih _ _ _ _ hr').1 r
    | evaluate =>
      have hn : ∀ A, A = e.ev pw ρ → ∀ b, some A = some b → ∃ σ, b = e.ev pw σ ∧ ∀ w, w ∉ ([] : List Var) → σ w = ρ w := by
        rintro A e1 b e2
        cases e2
        exact ⟨ρ, e1, fun _ _ => rfl⟩
      have keep : ∀ b, last = some b → (vs.any fun v => dependsOn v (Code.expandExpressions cfg u [build cfg e]).1) = false → b = e.ev pw ρ := by
        intro b hb' hv
        obtain ⟨σ, e1, e2⟩ := hr b hb'
        rw [e1]
        refine (hb.2 pw σ).symm.trans (Eq.trans ?_ (hb.2 pw ρ))
        refine AsVariable.ev_agree hb.1 pw fun w hw => e2 w fun hm => ?_
        rw [List.any_eq_false] at hv
        exact hv w hm ((hd w).trans hw)
      constructor
      · intro r
        cases r with
        | remembered hv r =>
          rw [(ih _ _ _ _ hr).1 r, keep _ rfl hv]
          rfl
        | computed _ hA r =>
          have e1 := (hc _ _).1 hA
          rw [(ih _ _ _ _ (hn _ e1)).1 r, e1]
          rfl
      · rintro rfl
        show Runs cfg u shown width pw (build cfg e) ρ last vs (.evaluate :: l) (e.ev pw ρ :: expected pw e ρ l)
        have compute (hh : last = none ∨ (vs.any fun v => dependsOn v (Code.expandExpressions cfg u [build cfg e]).1) = true) :=
          Runs.computed (shown := shown) (width := width) (pw := pw) (l := l) hh ((hc ρ _).2 rfl) ((ih _ _ _ _ (hn _ rfl)).2 rfl)
        cases hl : last with
        | none => rw [← hl]; exact compute (Or.inl hl)
        | some b =>
          cases hv : vs.any fun v => dependsOn v (Code.expandExpressions cfg u [build cfg e]).1 with
          | true => rw [← hl]; exact compute (Or.inr hv)
          | false =>
            have := keep b hl hv
            rw [← this]
            exact .remembered hv ((ih _ _ _ _ (by rw [← hl]; exact hr)).2 rfl)

/-- **C103, what holds of the derivatives.** For a variable which the expression does not depend on there is an answer, of the right size: it is zero, and the value does not change with that variable. -/
theorem C103_derivative_partial {cfg : Cfg K} (hs : Sound cfg) {x : Ex K} (hx : KeptE x) (u : Nat → Nat → K) (pw : K → K → K) (past : List (Env K)) (c : Nat) (hc : c < x.cols) (v : Var)
    (hv : x.dep v = false) : ∃ d, columnDerivative x.rows x.cols (after pw (squeeze cfg u x) past) c v = some d ∧ d.rows = x.rows ∧ d.cols = v.dim ∧
      (∀ ρ i j, (d.ev pw ρ).f i j = 0) ∧ ∀ ρ f, (evaluate pw (Function.update ρ v f) (after pw (squeeze cfg u x) past)).1 = (evaluate pw ρ (after pw (squeeze cfg u x) past)).1 := by
  refine ⟨null x.rows v.dim, ?_, rfl, rfl, fun ρ i j => ?_, fun ρ f => ?_⟩
  · rw [columnDerivative, if_pos hc, C103_squeezed_dependencies hs, hv]
    rfl
  · simp [ev]
  · rw [squeeze_kept hs hx, squeeze_kept hs hx]
    refine AsVariable.ev_agree hx pw fun w hw => ?_
    rw [Function.update_of_ne]
    rintro rfl
    rw [hv] at hw
    cases hw

/-- Finding: for a variable which the expression depends on there is no derivative of its squeezed form. -/
theorem C103_finding_derivative {cfg : Cfg K} (hs : Sound cfg) (x : Ex K) (u : Nat → Nat → K) (pw : K → K → K) (past : List (Env K)) (c : Nat) (v : Var) (hv : x.dep v = true) :
    columnDerivative x.rows x.cols (after pw (squeeze cfg u x) past) c v = none := by
  rw [columnDerivative, C103_squeezed_dependencies hs, hv]
  simp

/-- Finding: nor of its compiled form. -/
theorem C103_finding_compiled_derivative {cfg : Cfg K} (hs : Sound cfg) (x : Ex K) (u : Nat → Nat → K) (c : Nat) (v : Var) (hv : x.dep v = true) :
    columnDerivative x.rows x.cols (Code.expandExpressions cfg u [x]).1 c v = none := by
  rw [columnDerivative, C103_compiled_dependencies hs, hv]
  simp

/-- A case: an expression with a repeated part, another variable assigned between two evaluations. -/
example (u : Nat → Nat → ℚ) (pw : ℚ → ℚ → ℚ) (ρ : Env ℚ) : (follow cfgVars u ρ (build cfgVars repeated)).values pw [.evaluate, .assign ⟨"y", 3⟩ fun _ => 7, .evaluate, .assign ⟨"x", 3⟩ fun _ => 4, .evaluate] =
    [repeated.ev pw ρ, repeated.ev pw (Function.update ρ ⟨"y", 3⟩ fun _ => 7), repeated.ev pw (Function.update (Function.update ρ ⟨"y", 3⟩ fun _ => 7) ⟨"x", 3⟩ fun _ => 4)] :=
  C103_current_values cfgVars_sound (e := repeated) ⟨Nat.succ_pos 2, Nat.succ_pos 2, rfl⟩ u pw ρ _
example (u : Nat → Nat → ℚ) : dependsOn ⟨"x", 3⟩ (squeeze cfgVars u repeated) = true ∧ dependsOn ⟨"y", 3⟩ (squeeze cfgVars u repeated) = false ∧
    dependsOn ⟨"x", 3⟩ (Code.expandExpressions cfgVars u [repeated]).1 = true ∧ columnDerivative 6 1 (squeeze cfgVars u repeated) 0 ⟨"x", 3⟩ = none ∧
    (columnDerivative 6 1 (squeeze cfgVars u repeated) 0 ⟨"y", 2⟩).map (fun d => (d.rows, d.cols)) = some (6, 2) := by
  have h : ∀ w : Var, dependsOn w (squeeze cfgVars u repeated) = repeated.dep w := fun w => C103_squeezed_dependencies cfgVars_sound u (fun a _ => a) [] repeated w
  refine ⟨by rw [h]; rfl, by rw [h]; rfl, by rw [C103_compiled_dependencies cfgVars_sound]; rfl, ?_, ?_⟩
  · rw [columnDerivative, h]; rfl
  · rw [columnDerivative, h]; rfl
example : KeptE (repeated : Ex ℚ) := ⟨Nat.succ_pos 2, Nat.succ_pos 2, rfl⟩

/-- A compiled case: the opposite of a variable. -/
example (u : Nat → Nat → ℚ) (pw : ℚ → ℚ → ℚ) (ρ : Env ℚ) (out : List (SM ℚ)) : Runs cfgVars u id (fun _ => 1) pw (build cfgVars (neg (.var ⟨"x", 3⟩))) ρ none []
    [.evaluate, .assign ⟨"x", 3⟩ fun _ => 4, .evaluate] out ↔
    out = [(neg (.var ⟨"x", 3⟩) : Ex ℚ).ev pw ρ, (neg (.var ⟨"x", 3⟩) : Ex ℚ).ev pw (Function.update ρ ⟨"x", 3⟩ fun _ => 4)] :=
  C103_compiled_values_partial cfgVars_sound (e := neg (.var ⟨"x", 3⟩)) (Nat.succ_pos 2) u id (fun _ => 1) ⟨trivial, rfl⟩ pw ρ _ out

end Verif.Levi.Squeeze
