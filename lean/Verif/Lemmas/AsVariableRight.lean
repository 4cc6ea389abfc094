import Verif.Lemmas.AsVariableMotion
/- The derivatives of expressions with variables made from expressions are right. -/
namespace Verif.Levi
open Ex Spec
namespace AsVariable
open DerivativeCache Chain
noncomputable section
variable {σ : Env ℝ} {v : Var} {defs : List (Def ℝ)} {cfg : Cfg ℝ}

/-- A variable that depends on another one is a dependent variable. -/
theorem varDepends_def {K : Type} {v : Var} {l : List (Def K)} {w : Var} (h : varDepends v l w = true) (hw : w ≠ v) : ∃ d ∈ l, d.var = w ∧ d.dependent = true := by
  induction l with
  | nil => simp [varDepends, hw] at h
  | cons d l ih =>
    rw [varDepends] at h
    split_ifs at h with e
    · simp only [hw, decide_false, Bool.false_or, Bool.and_eq_true] at h
      exact ⟨d, List.mem_cons_self, e.symm, h.1⟩
    · obtain ⟨a, ha, r⟩ := ih h
      exact ⟨a, List.mem_cons_of_mem _ ha, r⟩

theorem derivative_right (hs : Sound cfg) (hv : 0 < v.dim) (o : Ordered σ defs) (ag : Agrees defs σ) (γ : Nat → ℝ → Env ℝ) (m : ∀ j, Moves defs v j σ (γ j)) : ∀ (n : Nat) (e : Ex ℝ) (c : Nat) (D : Ex ℝ),
    Kept (PowOk σ) e → c < e.cols → derivative cfg defs n e c v = some D → Chain.Good (motion o ag γ m) e c D := by
  intro n
  induction n with
  | zero => intro e c D _ _ h; cases h
  | succ n ih =>
    intro e c D he hc h
    rw [derivative] at h
    split_ifs at h with hd
    · refine new_right (μ := motion o ag γ m) (p := varDepends v defs) hs hv (fun _ => rfl) (fun w => ofOption (variableDerivative defs v (fun x => derivative cfg defs n x 0 v) w))
          (fun x k => ofOption (derivative cfg defs n x k v)) ?_ (fun e c d hk hc hd => ih e c d hk hc hd) e c D he hc hd
          (newDerivative_rel toAny cfg v (depends defs v) _ _ _ _ (fun w a ha => ha) (fun x k a ha => ha) e c D h)
      intro w d hw hod hdim
      have hod : variableDerivative defs v (fun x => derivative cfg defs n x 0 v) w = some d := hod
      unfold variableDerivative at hod
      by_cases e1 : w = v
      · rw [if_pos e1] at hod
        cases hod
        subst e1
        refine ⟨hv, rfl, fun i j hi hj => ?_⟩
        have hi' : i < w.dim := hi
        have e2 : ∀ t, ((var w).ev rpow ((motion o ag γ m).path j t)).f i 0 = if i = j then t else σ w i := by
          intro t
          rw [ev, SM.f_in _ _ _ hi' Nat.one_pos]
          exact (m j).moved t i
        simp only [e2]
        simp only [ev, SM.one]
        rw [SM.f_in _ _ _ hi' hj]
        by_cases hij : i = j
        · simp only [hij, if_true]; exact hasDerivAt_id _
        · simp only [hij, if_false]; exact hasDerivAt_const _ _
      · rw [if_neg e1] at hod
        obtain ⟨a, ha, rfl, hdep⟩ := varDepends_def hw e1
        have hf : definition defs a.var = some a := by
          unfold definition
          cases hfind : defs.find? fun d => decide (d.var = a.var) with
          | none =>
            rw [List.find?_eq_none] at hfind
            exact (hfind a ha (by simp)).elim
          | some b =>
            have hb := List.find?_some hfind
            rw [ordered_unique o (List.mem_of_find?_eq_some hfind) ha (by simpa using hb)]
        rw [hf] at hod
        dsimp only at hod
        rw [if_pos hw] at hod
        have hk := ordered_kept o ha
        refine Chain.good_of_deriv (e := a.expr) (c := 0) (ih _ _ _ hk.1 (by rw [cols, hk.2]; exact Nat.one_pos) hod) (by rw [rows, hk.2]; rfl) fun i j hi hj => ?_
        have hi : i < a.var.dim := hi
        have g := (ih _ _ _ hk.1 (by rw [cols, hk.2]; exact Nat.one_pos) hod).2.deriv i j (by rw [rows, hk.2]; exact hi) hj
        have e2 : (fun t => ((var a.var).ev rpow ((motion o ag γ m).path j t)).f i 0) = fun t => (a.expr.ev rpow ((motion o ag γ m).path j t)).f i 0 := by
          funext t
          rw [ev, SM.f_in _ _ _ hi Nat.one_pos]
          show γ j t a.var i = (a.expr.ev rpow (γ j t)).f i 0
          rw [(m j).follow t a ha hdep e1]
        rw [e2]
        exact g
    · cases h
      refine Chain.good_nodep (μ := motion o ag γ m) he hv ?_ c
      exact (Bool.not_eq_true _).mp hd

/-- The values after the dependent variables followed, the oldest first. -/
def settle (v : Var) : List (Def ℝ) → Env ℝ → Env ℝ
  | [], ρ => ρ
  | d :: l, ρ => fun w => if w = d.var ∧ d.dependent = true ∧ d.var ≠ v then fun k => (d.expr.ev rpow (settle v l ρ)).f k 0 else settle v l ρ w

theorem settle_cons (d : Def ℝ) (l : List (Def ℝ)) (ρ : Env ℝ) (w : Var) :
    settle v (d :: l) ρ w = if w = d.var ∧ d.dependent = true ∧ d.var ≠ v then fun k => (d.expr.ev rpow (settle v l ρ)).f k 0 else settle v l ρ w := rfl

theorem settle_newer {pre l : List (Def ℝ)} {ρ : Env ℝ} {w : Var} (h : ∀ n ∈ pre, n.var ≠ w) : settle v (pre ++ l) ρ w = settle v l ρ w := by
  induction pre with
  | nil => rfl
  | cons d pre ih =>
    rw [List.cons_append, settle_cons, if_neg fun h1 => h d List.mem_cons_self h1.1.symm]
    exact ih fun n hn => h n (List.mem_cons_of_mem _ hn)

theorem settle_stay {l : List (Def ℝ)} {ρ : Env ℝ} {w : Var} (h : w = v ∨ ∀ d ∈ l, d.dependent = true → d.var ≠ w) : settle v l ρ w = ρ w := by
  induction l with
  | nil => rfl
  | cons d l ih =>
    rw [settle_cons, if_neg ?_]
    · exact ih (h.imp_right fun h a ha => h a (List.mem_cons_of_mem _ ha))
    · rintro ⟨h1, h2, h3⟩
      rcases h with h | h
      · exact h3 (h1.symm.trans h)
      · exact h d List.mem_cons_self h2 h1.symm

/-- There is such a motion. -/
theorem moves_exist (o : Ordered σ defs) (v : Var) (j : Nat) : Moves defs v j σ fun t => settle v defs (set σ v j t) := by
  refine ⟨fun t k => ?_, fun t d hd dp hv => ?_, fun t w hw h => ?_⟩
  · rw [settle_stay (.inl rfl)]
    unfold Spec.set
    by_cases hk : k = j
    · rw [if_pos ⟨rfl, hk⟩, if_pos hk]
    · rw [if_neg (fun h => hk h.2), if_neg hk]
  · obtain ⟨pre, l, rfl⟩ := List.append_of_mem hd
    rw [settle_newer (fun n hn => (ordered_newer o hn List.mem_cons_self).1.symm), settle_cons, if_pos ⟨rfl, dp, hv⟩]
    funext k
    rw [ev_agree (ordered_kept o hd).1 rpow fun u hu => ?_]
    have h1 := ordered_older o hu
    rw [show pre ++ d :: l = (pre ++ [d]) ++ l by simp, settle_newer h1]
  · rw [settle_stay (.inr h)]
    funext k
    unfold Spec.set
    rw [if_neg fun h => hw h.1]

end
end AsVariable
end Verif.Levi
