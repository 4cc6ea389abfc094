import Verif.Lemmas.Squeeze
import Verif.Props.Levi
/- Squeezed expressions (C27). -/
set_option linter.unusedSectionVars false
namespace Verif.Levi.Squeeze
open Ex Spec
variable {K : Type} [Field K] [LinearOrder K]

/-- The squeezed expression after it was evaluated with the variables equal to each of `past`, in that order. -/
def after (pw : K → K → K) (t : Tree K) (past : List (Env K)) : Tree K := past.foldl (fun t ρ => (evaluate pw ρ t).2) t

/-- The same for a group of squeezed expressions. -/
def Multiple.after (pw : K → K → K) (m : Multiple K) (past : List (Env K)) : Multiple K := past.foldl (fun m ρ => (m.evaluate pw ρ).2) m

theorem after_ok (pw : K → K → K) (past : List (Env K)) (t : Tree K) (G : Good t) (B : BufOk t t.buf) :
    Good (after pw t past) ∧ BufOk (after pw t past) (after pw t past).buf ∧ (after pw t past).n = t.n ∧ (after pw t past).comp = t.comp := by
  induction past generalizing t with
  | nil => exact ⟨G, B, rfl, rfl⟩
  | cons ρ past ih =>
    have hB := bufOk_evaluate G pw ρ B
    exact ih (evaluate pw ρ t).2 ⟨fun i hi => ⟨(G.fine i hi).1, (G.fine i hi).2, (G.fine i hi).3, (G.fine i hi).4⟩, G.2, G.3⟩ ⟨hB.1, hB.2⟩

theorem squeeze_kept {cfg : Cfg K} (hs : Sound cfg) {x : Ex K} (h : KeptE x) (u : Nat → Nat → K) (pw : K → K → K) (past : List (Env K)) (ρ : Env K) :
    (evaluate pw ρ (after pw (squeeze cfg u x) past)).1 = x.ev pw ρ := by
  obtain ⟨G, B, -, hlt, s, hlast⟩ := expand_done hs u x h empty good_empty.1 good_empty.2
  obtain ⟨G', B', hn, hc⟩ := after_ok pw past (squeeze cfg u x) G B
  have hl : (expand cfg u x empty).1 + 1 = (squeeze cfg u x).n := hlast rfl
  unfold evaluate
  dsimp only
  rw [hn, show (squeeze cfg u x).n - 1 = (expand cfg u x empty).1 by omega, evaluateAll_ok G' pw ρ B' _ (by rw [hn]; exact hlt), hc]
  exact s.2 pw ρ

/-- **C27.** However the variables changed between evaluations, each evaluation of the squeezed form of what was written gives the
value of what was written at the current values of the variables; whatever was in memory before. -/
theorem C27_squeezed_value {cfg : Cfg K} (hs : Sound cfg) {e : Ex K} (h : Written (fun _ _ => True) e) (u : Nat → Nat → K)
    (pw : K → K → K) (past : List (Env K)) (ρ : Env K) :
    (evaluate pw ρ (after pw (squeeze cfg u (build cfg e)) past)).1 = e.ev pw ρ := by
  have v := build_val hs (P := fun _ _ => True) (fun _ _ _ _ _ => trivial) h
  rw [squeeze_kept hs v.1, v.2]

/-- **C27** for derivatives of any order of what was written. -/
theorem C27_squeezed_derivative {cfg : Cfg ℝ} (hs : Sound cfg) {e x : Ex ℝ} {σ : Env ℝ} (h : Written (PowOk σ) e) (hx : Obtained cfg e x)
    (u : Nat → Nat → ℝ) (pw : ℝ → ℝ → ℝ) (past : List (Env ℝ)) (ρ : Env ℝ) :
    (evaluate pw ρ (after pw (squeeze cfg u x) past)).1 = x.ev pw ρ :=
  squeeze_kept hs (anyPower (obtained_kept hs h hx)) u pw past ρ

theorem multiple_ok {cfg : Cfg K} (hs : Sound cfg) (u : Nat → Nat → K) (es : List (String × Ex K)) (hk : ∀ x ∈ es, KeptE x.2) (m : Multiple K)
    (G : Good m.tree) (B : BufOk m.tree m.tree.buf) (old : List (String × Ex K))
    (hm : List.Forall₂ (fun x y => x.1 = y.1 ∧ y.2 < m.tree.n ∧ Same m.tree y.2 x.2) old m.index) :
    let m' := es.foldl (fun m x =>
      let r := expand cfg u x.2 { m.tree with added := fun _ => [] }
      ⟨r.2, m.index ++ [(x.1, r.1)]⟩) m
    Good m'.tree ∧ BufOk m'.tree m'.tree.buf ∧
      List.Forall₂ (fun x y => x.1 = y.1 ∧ y.2 < m'.tree.n ∧ Same m'.tree y.2 x.2) (old ++ es) m'.index := by
  induction es generalizing m old with
  | nil => simpa using ⟨G, B, hm⟩
  | cons x es ih =>
    dsimp only
    rw [List.foldl_cons, show old ++ x :: es = (old ++ [x]) ++ es by simp]
    have G0 : Good { m.tree with added := fun _ => [] } :=
      ⟨fun i hi => ⟨(G.fine i hi).1, (G.fine i hi).2, (G.fine i hi).3, (G.fine i hi).4⟩, G.2, fun k g hg => absurd hg (by simp)⟩
    obtain ⟨G', B', E, hlt, s, -⟩ := expand_done hs u x.2 (hk x (by simp)) { m.tree with added := fun _ => [] } G0 ⟨B.1, B.2⟩
    refine ih (fun y hy => hk y (by simp [hy])) _ G' B' (old ++ [x]) ?_
    refine List.rel_append (List.Forall₂.imp ?_ hm) (List.Forall₂.cons ⟨rfl, hlt, s⟩ List.Forall₂.nil)
    rintro a b ⟨h1, h2, h3⟩
    exact ⟨h1, lt_of_lt_of_le h2 E.le, Same.extends E h2 h3⟩

theorem Multiple.after_ok (pw : K → K → K) (past : List (Env K)) (m : Multiple K) (G : Good m.tree) (B : BufOk m.tree m.tree.buf) :
    Good (m.after pw past).tree ∧ BufOk (m.after pw past).tree (m.after pw past).tree.buf ∧ (m.after pw past).tree.n = m.tree.n ∧
      (m.after pw past).tree.comp = m.tree.comp ∧ (m.after pw past).index = m.index := by
  induction past generalizing m with
  | nil => exact ⟨G, B, rfl, rfl, rfl⟩
  | cons ρ past ih =>
    have hB := bufOk_evaluate G pw ρ B
    exact ih (m.evaluate pw ρ).2 ⟨fun i hi => ⟨(G.fine i hi).1, (G.fine i hi).2, (G.fine i hi).3, (G.fine i hi).4⟩, G.2, G.3⟩ ⟨hB.1, hB.2⟩

theorem results_loop (buf : Nat → SM K) (l : List (String × Nat)) (out : String → Option (SM K)) (hd : (l.map Prod.fst).Nodup) (name : String) :
    (∀ i, (name, i) ∈ l → (l.foldl (fun (out : String → Option (SM K)) x => Function.update out x.1 (some (buf x.2))) out) name = some (buf i)) ∧
    (name ∉ l.map Prod.fst → (l.foldl (fun (out : String → Option (SM K)) x => Function.update out x.1 (some (buf x.2))) out) name = out name) := by
  induction l generalizing out with
  | nil => simp
  | cons x l ih =>
    rw [List.map_cons, List.nodup_cons] at hd
    obtain ⟨h1, h2⟩ := ih (Function.update out x.1 (some (buf x.2))) hd.2
    constructor
    · intro i hi
      rw [List.foldl_cons]
      rcases List.mem_cons.1 hi with hh | hh
      · have e1 : x.1 = name := by rw [← hh]
        have e2 : x.2 = i := by rw [← hh]
        rw [h2 (by rw [← e1]; exact hd.1), ← e1, Function.update_self, e2]
      · exact h1 i hh
    · intro hn
      rw [List.map_cons, List.mem_cons, not_or] at hn
      rw [List.foldl_cons, h2 hn.2, Function.update_of_ne hn.1]

theorem names_of_rel {α β : Type} {R : String × α → String × β → Prop} (hR : ∀ x y, R x y → x.1 = y.1) {l : List (String × α)}
    {m : List (String × β)} (h : List.Forall₂ R l m) : m.map Prod.fst = l.map Prod.fst := by
  induction h with
  | nil => rfl
  | cons h _ ih => simp [hR _ _ h, ih]

theorem mem_of_rel {α β : Type} {R : α → β → Prop} {l : List α} {m : List β} (h : List.Forall₂ R l m) (x : α) (hx : x ∈ l) : ∃ y ∈ m, R x y := by
  induction h with
  | nil => simp at hx
  | cons h _ ih =>
    rcases List.mem_cons.1 hx with rfl | hh
    · exact ⟨_, by simp, h⟩
    · obtain ⟨y, hy, hh'⟩ := ih hh
      exact ⟨y, by simp [hy], hh'⟩

theorem multiple_kept {cfg : Cfg K} (hs : Sound cfg) (u : Nat → Nat → K) (pw : K → K → K) (es : List (String × Ex K))
    (hk : ∀ x ∈ es, KeptE x.2) (hd : (es.map Prod.fst).Nodup) (past : List (Env K)) (ρ : Env K) :
    (∀ x ∈ es, (((multiple cfg u es).after pw past).evaluate pw ρ).1 x.1 = some (x.2.ev pw ρ)) ∧
    ∀ name, name ∉ es.map Prod.fst → (((multiple cfg u es).after pw past).evaluate pw ρ).1 name = none := by
  obtain ⟨G, B, F⟩ := multiple_ok hs u es hk ⟨empty, []⟩ good_empty.1 good_empty.2 [] List.Forall₂.nil
  obtain ⟨G', B', hn, hc, hi⟩ := Multiple.after_ok pw past (multiple cfg u es) G B
  have F' : List.Forall₂ (fun x y => x.1 = y.1 ∧ y.2 < (multiple cfg u es).tree.n ∧ Same (multiple cfg u es).tree y.2 x.2) es
    (multiple cfg u es).index := F
  have hnames : (multiple cfg u es).index.map Prod.fst = es.map Prod.fst := by
    exact names_of_rel (fun x y h => h.1) F'
  have R := results_loop (evaluateAll pw ρ ((multiple cfg u es).after pw past).tree) ((multiple cfg u es).after pw past).index
    (fun _ => none) (by rw [hi, hnames]; exact hd)
  constructor
  · intro x hx
    have : ∃ y ∈ (multiple cfg u es).index, x.1 = y.1 ∧ y.2 < (multiple cfg u es).tree.n ∧ Same (multiple cfg u es).tree y.2 x.2 := by
      exact mem_of_rel F' x hx
    obtain ⟨y, hy, h1, h2, h3⟩ := this
    have := (R x.1).1 y.2 (by rw [hi, h1]; exact hy)
    rw [Multiple.evaluate]
    dsimp only
    rw [this, evaluateAll_ok G' pw ρ B' _ (by rw [hn]; exact h2), hc, h3.2]
  · intro name hname
    exact (R name).2 (by rw [hi, hnames]; exact hname)

/-- **C27**, groups: with distinct names, each name is given the value of what was written for it, at the current values of the
variables, however they changed between evaluations; other names are given nothing. -/
theorem C27_squeezed_group {cfg : Cfg K} (hs : Sound cfg) (u : Nat → Nat → K) (pw : K → K → K) (es : List (String × Ex K))
    (h : ∀ x ∈ es, Written (fun _ _ => True) x.2) (hd : (es.map Prod.fst).Nodup) (past : List (Env K)) (ρ : Env K) (name : String) :
    (∀ e, (name, e) ∈ es →
      (((multiple cfg u (es.map fun x => (x.1, build cfg x.2))).after pw past).evaluate pw ρ).1 name = some (e.ev pw ρ)) ∧
    ((∀ e, (name, e) ∉ es) →
      (((multiple cfg u (es.map fun x => (x.1, build cfg x.2))).after pw past).evaluate pw ρ).1 name = none) := by
  have M := multiple_kept hs u pw (es.map fun x => (x.1, build cfg x.2)) (by
    intro x hx
    obtain ⟨y, hy, rfl⟩ := List.mem_map.1 hx
    exact (build_val hs (P := fun _ _ => True) (fun _ _ _ _ _ => trivial) (h y hy)).1)
    (by rw [List.map_map]; exact hd) past ρ
  constructor
  · intro e he
    rw [M.1 (name, build cfg e) (List.mem_map.2 ⟨_, he, rfl⟩), (build_val hs (P := fun _ _ => True) (fun _ _ _ _ _ => trivial) (h _ he)).2]
  · intro hn
    refine M.2 name ?_
    intro hmem
    rw [List.map_map] at hmem
    obtain ⟨y, hy, hyn⟩ := List.mem_map.1 hmem
    exact hn y.2 (by rw [← show y.1 = name from hyn]; exact hy)

/-- An expression with a repeated part, which is stored once: the variable, its opposite and the two rows of it. -/
def repeated : Ex ℚ := vcat (neg (.var ⟨"x", 3⟩)) (neg (.var ⟨"x", 3⟩))

example (u : Nat → Nat → ℚ) : (squeeze cfgVars u (build cfgVars repeated)).n = 3 := rfl

example (u : Nat → Nat → ℚ) (pw : ℚ → ℚ → ℚ) (past : List (Env ℚ)) (ρ : Env ℚ) :
    (evaluate pw ρ (after pw (squeeze cfgVars u (build cfgVars repeated)) past)).1.f 4 0 = - ρ ⟨"x", 3⟩ 1 := by
  rw [C27_squeezed_value cfgVars_sound (e := repeated) ⟨Nat.succ_pos 2, Nat.succ_pos 2, rfl⟩]
  simp [repeated, ev, SM.vcat, SM.neg, SM.of]

/-- Two expressions sharing a variable. -/
example (u : Nat → Nat → ℚ) (pw : ℚ → ℚ → ℚ) (past : List (Env ℚ)) (ρ : Env ℚ) :
    (((multiple cfgVars u ([("a", repeated), ("b", neg (.var ⟨"x", 3⟩))].map fun x => (x.1, build cfgVars x.2))).after pw past).evaluate pw
      ρ).1 "b" = some ((neg (.var ⟨"x", 3⟩) : Ex ℚ).ev pw ρ) :=
  (C27_squeezed_group cfgVars_sound u pw [("a", repeated), ("b", neg (.var ⟨"x", 3⟩))] (by
    intro x hx
    simp at hx
    rcases hx with rfl | rfl
    · exact ⟨Nat.succ_pos 2, Nat.succ_pos 2, rfl⟩
    · exact Nat.succ_pos 2) (by decide) past ρ "b").1 _ (by simp)

end Verif.Levi.Squeeze
