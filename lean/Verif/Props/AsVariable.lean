import Verif.Lemmas.AsVariableTotal
import Verif.Props.Levi
/- C101: variables made from expressions. -/
namespace Verif.Levi
open Ex Spec AsVariable
variable {σ : Env ℝ} {defs : List (Def ℝ)} {cfg : Cfg ℝ} {v : Var}

/-- C101: each component of a variable can be moved while the dependent made variables follow their expressions and all the others stay, in one way. -/
theorem C101_motion (o : Ordered σ defs) (ag : Agrees defs σ) (v : Var) (j : Nat) : (∃ γ, Moves defs v j σ γ ∧ γ (σ v j) = σ) ∧ ∀ γ γ', Moves defs v j σ γ → Moves defs v j σ γ' → γ = γ' := by
  have m := moves_exist o v j
  refine ⟨⟨_, m, funext fun w => stays o ag m defs [] rfl w (by simp) (.inr rfl)⟩, fun γ γ' h h' => ?_⟩
  funext t
  have key : ∀ (l pre : List (Def ℝ)), defs = pre ++ l → ∀ w, (∀ n ∈ pre, n.var ≠ w) → γ t w = γ' t w := by
    intro l
    induction l with
    | nil =>
      intro pre hp w hw
      by_cases hv : w = v
      · subst hv
        funext k
        rw [h.moved, h'.moved]
      · have hn : ∀ d ∈ defs, d.dependent = true → d.var ≠ w := fun d hd _ => hw d (by rwa [hp, List.append_nil] at hd)
        rw [h.stay t w hv hn, h'.stay t w hv hn]
    | cons d l ih =>
      intro pre hp w hw
      have hd : d ∈ defs := by rw [hp]; simp
      by_cases hv : w = v
      · subst hv
        funext k
        rw [h.moved, h'.moved]
      · by_cases e : w = d.var
        · by_cases dp : d.dependent = true
          · rw [e, h.follow t d hd dp (by rw [← e]; exact hv), h'.follow t d hd dp (by rw [← e]; exact hv)]
            funext k
            rw [ev_agree (ordered_kept o hd).1 rpow fun u hu => ?_]
            refine ih (pre ++ [d]) (by rw [hp, List.append_assoc]; rfl) u ?_
            rw [hp] at o
            exact ordered_older o hu
          · have hn : ∀ a ∈ defs, a.dependent = true → a.var ≠ w := by
              intro a ha ad e'
              rw [ordered_unique o ha hd (e'.trans e)] at ad
              exact dp ad
            rw [h.stay t w hv hn, h'.stay t w hv hn]
        · refine ih (pre ++ [d]) (by rw [hp, List.append_assoc]; rfl) w ?_
          intro n hn
          rcases List.mem_append.1 hn with hn | hn
          · exact hw n hn
          · rw [List.mem_singleton] at hn
            rw [hn]
            exact fun h => e h.symm
  exact funext fun w => key defs [] rfl w (by simp)

/-- C101: every answer to a request for a column derivative of an expression (also one answered before) is the derivative of the column while the variable moves, and can be derived again. -/
theorem C101_true_derivatives (hs : Sound cfg) (hv : 0 < v.dim) (o : Ordered σ defs) (ag : Agrees defs σ) {n : Nat} {e D : Ex ℝ} {c : Nat} (he : Kept (PowOk σ) e) (hc : c < e.cols) (h : derivative cfg defs n e c v = some D) :
    Kept (PowOk σ) D ∧ D.size = (e.rows, v.dim) ∧
      ∀ j, j < v.dim → ∀ γ, Moves defs v j σ γ → ∀ i, i < e.rows → HasDerivAt (fun t => (e.ev rpow (γ t)).f i c) ((D.ev rpow σ).f i j) (σ v j) := by
  have g := derivative_right hs hv o ag (fun j t => settle v defs (Spec.set σ v j t)) (fun j => moves_exist o v j) n e c D he hc h
  refine ⟨g.1, g.2.size, fun j hj γ m i hi => ?_⟩
  rw [(C101_motion o ag v j).2 γ _ m (moves_exist o v j)]
  exact g.2.deriv i j hi hj

/-- C101: every request is answered. -/
theorem C101_answers_exist (hs : Sound cfg) (o : Ordered σ defs) {e : Ex ℝ} (he : Kept (PowOk σ) e) {c : Nat} (hc : c < e.cols) (v : Var) : ∃ N, ∀ n, N ≤ n → ∃ D, derivative cfg defs n e c v = some D :=
  derivative_ends hs o v he hc

/-- C101, for what was written. -/
theorem C101_derivative_of_what_was_written (hs : Sound cfg) (hv : 0 < v.dim) (o : Ordered σ defs) (ag : Agrees defs σ) {n : Nat} {e D : Ex ℝ} {c : Nat} (he : Written (PowOk σ) e) (hc : c < e.cols)
    (h : derivative cfg defs n (build cfg e) c v = some D) :
    D.size = (e.rows, v.dim) ∧ ∀ j, j < v.dim → ∀ γ, Moves defs v j σ γ → ∀ i, i < e.rows → HasDerivAt (fun t => (e.ev rpow (γ t)).f i c) ((D.ev rpow σ).f i j) (σ v j) := by
  have vb := build_val hs (fun a a' α => PowOk.transfer a a' α) he
  have sz := size_of_ev vb.1 he vb.2
  obtain ⟨-, h1, h2⟩ := C101_true_derivatives hs hv o ag vb.1 (by rw [cols, sz]; exact hc) h
  refine ⟨by rw [h1, rows, sz], fun j hj γ m i hi => ?_⟩
  have := h2 j hj γ m i (by rw [rows, sz]; exact hi)
  simpa only [vb.2] using this

/-- C101: if the answer to `isDependentFrom` is no, the value stays the same while the variable moves. -/
theorem C101_not_dependent (o : Ordered σ defs) (ag : Agrees defs σ) {e : Ex ℝ} (he : Kept (PowOk σ) e) (h : depends defs v e = false) {j : Nat} {γ : ℝ → Env ℝ} (m : Moves defs v j σ γ) (t : ℝ) : e.ev rpow (γ t) = e.ev rpow σ :=
  ev_agree he rpow fun w hw => stays o ag m defs [] rfl w (by simp) (.inl (not_mentions h hw))

/-- C101: without such variables the derivatives are those of C25. -/
theorem C101_no_made_variables {K : Type} [Field K] [LinearOrder K] (cfg : Cfg K) (v : Var) : ∀ (n : Nat) (e : Ex K) (c : Nat), derivative cfg [] n e c v = D cfg n e c v := by
  have hd : depends ([] : List (Def K)) v = fun e => e.dep v := by
    funext e
    unfold depends
    induction e <;> simp_all [mentions, dep, varDepends]
  intro n
  induction n with
  | zero => intro e c; rfl
  | succ n ih =>
    intro e c
    rw [derivative, DerivativeCache.D_eq, hd, DerivativeCache.newColumnDerivative]
    have h1 : (fun (x : Ex K) (k : Nat) => derivative cfg [] n x k v) = fun x k => D cfg n x k v := by
      funext x k
      exact ih x k
    have h2 : variableDerivative ([] : List (Def K)) v (fun x => derivative cfg [] n x 0 v) = fun w => pure (if w = v then ident v.dim else null w.dim v.dim) := by
      funext w
      unfold variableDerivative definition
      by_cases hw : w = v <;> simp [hw]
    rw [h1, h2]

/-! The hypotheses are met: `y` is made from `(x, x)`, and the derivative of `-y` is asked. -/

/-- The variable `y` made from `(x, x)`. -/
def twice (dependent : Bool) : Def ℝ := ⟨⟨"y", 2⟩, .vcat (.var ⟨"x", 1⟩) (.var ⟨"x", 1⟩), dependent⟩

/-- The dependent variable moves. -/
example : derivative cfgVars [twice true] 5 (.neg (.var ⟨"y", 2⟩)) 0 ⟨"x", 1⟩ = some (negOp (.vcat (.ident 1) (.ident 1))) := by
  rfl

/-- The other does not. -/
example : derivative cfgVars [twice false] 5 (.neg (.var ⟨"y", 2⟩)) 0 ⟨"x", 1⟩ = some (.null 2 1) := by
  rfl

/-- The values when `x` is `a`. -/
noncomputable def values (a : ℝ) : Env ℝ := fun w k => if w = ⟨"y", 2⟩ then if k < 2 then a else 0 else a

example (dependent : Bool) (a : ℝ) : Ordered (values a) [twice dependent] ∧ Agrees [twice dependent] (values a) ∧ Kept (PowOk (values a)) (.neg (.var ⟨"y", 2⟩)) := by
  refine ⟨⟨⟨Nat.one_pos, Nat.one_pos, rfl⟩, rfl, by simp [twice, dep], by simp, trivial⟩, ?_, Nat.succ_pos 1⟩
  intro d hd _
  rw [List.mem_singleton] at hd
  subst hd
  funext k
  by_cases hk : k < 2
  · interval_cases k <;> simp [twice, values, ev, SM.vcat, SM.of]
  · have h1 : ¬k ≤ 1 := by omega
    simp [twice, values, ev, SM.vcat, SM.of, hk, h1]

end Verif.Levi
