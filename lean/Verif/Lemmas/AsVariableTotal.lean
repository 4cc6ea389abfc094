import Verif.Lemmas.AsVariableRight
import Verif.Lemmas.LeviTotal
/- Every request for a derivative of an expression with variables made from expressions ends (as in LeviTotal.lean, where there are no such variables). -/
set_option linter.unusedSectionVars false
namespace Verif.Levi
open Spec Ex
namespace AsVariable
open DerivativeCache
variable {K : Type} [Field K] [LinearOrder K] {P : Ex K → K → Prop} {cfg : Cfg K} {wt : Var → Nat} {defs : List (Def K)}

/-- With enough depth a derivative is returned. -/
def Ends (cfg : Cfg K) (defs : List (Def K)) (v : Var) (e : Ex K) (c : Nat) : Prop := ∃ N, ∀ n, N ≤ n → ∃ d, derivative cfg defs n e c v = some d

theorem ends_all {v : Var} {m : Nat} {x : Nat → Ex K} {c : Nat → Nat} (h : ∀ k, k < m → Ends cfg defs v (x k) (c k)) :
    ∃ N, ∀ n, N ≤ n → ∀ k, k < m → ∃ d, derivative cfg defs n (x k) (c k) v = some d := by
  induction m with
  | zero => exact ⟨0, fun n _ k hk => absurd hk (Nat.not_lt_zero _)⟩
  | succ m ih =>
    obtain ⟨N1, h1⟩ := ih fun k hk => h k (by omega)
    obtain ⟨N2, h2⟩ := h m (by omega)
    refine ⟨max N1 N2, fun n hn k hk => ?_⟩
    rcases Nat.lt_succ_iff_lt_or_eq.1 hk with hk | rfl
    · exact h1 n (by omega) k hk
    · exact h2 n (by omega)

theorem ends_nodep {v : Var} {e : Ex K} (h : depends defs v e = false) (c : Nat) : Ends cfg defs v e c := by
  refine ⟨1, fun n hn => ⟨null e.rows v.dim, ?_⟩⟩
  obtain ⟨n, rfl⟩ : ∃ m, n = m + 1 := ⟨n - 1, by omega⟩
  rw [derivative, if_neg (by rw [h]; decide)]

/-- One step of the recursion. -/
theorem ends_step {v : Var} {e : Ex K} {c : Nat} (N : Nat)
    (h : depends defs v e = true → ∀ n, N ≤ n → ∃ d, derivative cfg defs (n + 1) e c v = some d) : Ends cfg defs v e c := by
  by_cases hd : depends defs v e = false
  · exact ends_nodep hd c
  · refine ⟨N + 1, fun n hn => ?_⟩
    obtain ⟨n, rfl⟩ : ∃ m, n = m + 1 := ⟨n - 1, by omega⟩
    exact h (by simpa using hd) n (by omega)

theorem ends (hs : Sound cfg) (v : Var) (hdefs : ∀ (w : Var) (d : Def K), definition defs w = some d → rank wt d.expr < wt w ∧ Kept P d.expr ∧ 0 < d.expr.cols) : ∀ (r : Nat) (e : Ex K), rank wt e ≤ r → Kept P e → ∀ c, c < e.cols → Ends cfg defs v e c := by
  intro r
  induction r using Nat.strong_induction_on with
  | _ r ihr =>
    have low : ∀ (e x : Ex K), rank wt e ≤ r → rank wt x < rank wt e → Kept P x → ∀ c, c < x.cols → Ends cfg defs v x c :=
      fun e x h1 h2 hk => ihr (rank wt x) (by omega) x (le_refl _) hk
    intro e
    induction e with
    | const r c M => intro _ _ c _; exact ends_nodep rfl c
    | null r c => intro _ _ c _; exact ends_nodep rfl c
    | ident n => intro _ _ c _; exact ends_nodep rfl c
    | sparse r c l => intro _ _ c _; exact ends_nodep rfl c
    | var w =>
      intro hr he c hc
      have one : ∃ N, ∀ n, N ≤ n → ∃ d, variableDerivative defs v (fun x => derivative cfg defs n x 0 v) w = some d := by
        unfold variableDerivative
        by_cases h1 : w = v
        · exact ⟨0, fun n _ => ⟨_, if_pos h1⟩⟩
        · simp only [if_neg h1]
          cases h2 : definition defs w with
          | none => exact ⟨0, fun n _ => ⟨_, rfl⟩⟩
          | some d =>
            dsimp only
            obtain ⟨h3, h4, h5⟩ := hdefs w d h2
            by_cases h6 : varDepends v defs w = true
            · simp only [if_pos h6]
              exact low (var w) d.expr hr (by simpa only [rank] using h3) h4 0 h5
            · exact ⟨0, fun n _ => ⟨_, if_neg h6⟩⟩
      obtain ⟨N, hN⟩ := one
      refine ends_step N fun hd n hn => ?_
      rw [derivative, if_pos hd]
      simp only [newDerivative]
      exact hN n hn
    | add a b iha ihb =>
      intro hr he c hc
      rw [rank] at hr
      obtain ⟨N1, h1⟩ := iha (by omega) he.1 c hc
      obtain ⟨N2, h2⟩ := ihb (by omega) he.2.1 c (by rw [cols, he.2.2]; exact hc)
      refine ends_step (max N1 N2) fun hd n hn => ?_
      obtain ⟨da, h1⟩ := h1 n (by omega)
      obtain ⟨db, h2⟩ := h2 n (by omega)
      rw [derivative, if_pos hd]
      simp only [newDerivative, collectM_option, bind, Option.bind, pure, Bool.false_eq_true, if_false, h1, h2]
      split_ifs <;> exact ⟨_, rfl⟩
    | sub a b iha ihb =>
      intro hr he c hc
      rw [rank] at hr
      obtain ⟨N1, h1⟩ := iha (by omega) he.1 c hc
      obtain ⟨N2, h2⟩ := ihb (by omega) he.2.1 c (by rw [cols, he.2.2]; exact hc)
      refine ends_step (max N1 N2) fun hd n hn => ?_
      obtain ⟨da, h1⟩ := h1 n (by omega)
      obtain ⟨db, h2⟩ := h2 n (by omega)
      rw [derivative, if_pos hd]
      simp only [newDerivative, collectM_option, bind, Option.bind, pure, Bool.false_eq_true, if_false, h1, h2]
      split_ifs <;> exact ⟨_, rfl⟩
    | neg a iha =>
      intro hr he c hc
      obtain ⟨N1, h1⟩ := iha hr he c hc
      refine ends_step N1 fun hd n hn => ?_
      obtain ⟨da, h1⟩ := h1 n (by omega)
      rw [derivative, if_pos hd]
      simp only [newDerivative, collectM_option, bind, Option.bind, pure, Bool.false_eq_true, if_false, h1]
      exact ⟨_, rfl⟩
    | mul a b iha ihb =>
      intro hr he c hc
      rw [rank] at hr
      have ha := iha (by omega) he.1
      have hb := ihb (by omega) he.2.1
      obtain ⟨N0, h0⟩ := ha 0 (pos he.1).2
      obtain ⟨M0, g0⟩ := hb 0 (pos he.2.1).2
      by_cases sa : a.isScalar = true
      · have hcb : c < b.cols := by rw [cols, ← mul_size_l he sa]; exact hc
        obtain ⟨N2, h2⟩ := hb c hcb
        by_cases sb : b.isScalar = true
        · obtain rfl : c = 0 := by rw [cols, (isScalar_iff b).1 sb] at hcb; simpa using hcb
          refine ends_step (max N0 N2) fun hd n hn => ?_
          obtain ⟨da, h0⟩ := h0 n (by omega)
          obtain ⟨db, h2⟩ := h2 n (by omega)
          rw [derivative, if_pos hd]
          simp only [newDerivative, collectM_option, bind, Option.bind, pure, Bool.false_eq_true, if_false, sa, sb, Bool.and_true, if_true, h0, h2]
          split_ifs <;> exact ⟨_, rfl⟩
        · refine ends_step (max N0 N2) fun hd n hn => ?_
          obtain ⟨da, h0⟩ := h0 n (by omega)
          obtain ⟨db, h2⟩ := h2 n (by omega)
          rw [derivative, if_pos hd]
          simp only [newDerivative, collectM_option, bind, Option.bind, pure, Bool.false_eq_true, if_false, sa, sb, Bool.and_false, if_true, h0, h2]
          split_ifs <;> exact ⟨_, rfl⟩
      · have hm := he.2.2.resolve_right sa
        by_cases sb : b.isScalar = true
        · have hca : c < a.cols := by rw [cols, ← mul_size_r he sb]; exact hc
          obtain ⟨N2, h2⟩ := ha c hca
          refine ends_step (max M0 N2) fun hd n hn => ?_
          obtain ⟨db, g0⟩ := g0 n (by omega)
          obtain ⟨da, h2⟩ := h2 n (by omega)
          rw [derivative, if_pos hd]
          simp only [newDerivative, collectM_option, bind, Option.bind, pure, Bool.false_eq_true, if_false, sa, sb, Bool.false_and, if_true, g0, h2]
          split_ifs <;> exact ⟨_, rfl⟩
        · have hcb : c < b.cols := by
            have := mul_size_s he hm
            rw [cols, this] at hc; exact hc
          obtain ⟨N2, h2⟩ := hb c hcb
          obtain ⟨N1, h1⟩ := ends_all (x := fun _ => a) (c := fun k => k) fun k (hk : k < a.cols) => ha k hk
          refine ends_step (max N1 N2) fun hd n hn => ?_
          obtain ⟨db, h2⟩ := h2 n (by omega)
          obtain ⟨g, h1⟩ := collect_isSome (h1 n (by omega))
          rw [derivative, if_pos hd]
          simp only [newDerivative, collectM_option, bind, Option.bind, pure, Bool.false_eq_true, if_false, sa, sb, Bool.false_and, h1, h2]
          split_ifs <;> exact ⟨_, rfl⟩
    | pow a α iha =>
      intro hr he c hc
      obtain rfl : c = 0 := by simpa [cols, size] using hc
      obtain ⟨N1, h1⟩ := iha hr he.1 0 (pos he.1).2
      refine ends_step N1 fun hd n hn => ?_
      obtain ⟨da, h1⟩ := h1 n (by omega)
      rw [derivative, if_pos hd]
      simp only [newDerivative, collectM_option, bind, Option.bind, pure, Bool.false_eq_true, if_false, h1]
      split_ifs <;> exact ⟨_, rfl⟩
    | div a b iha ihb =>
      intro hr he c hc
      have hk : Kept P (pow b (-1)) := ⟨he.2.1, he.2.2.2.1, he.2.2.2.2⟩
      have vp := val_mulOp cfg (Val.self he.1) (Val.self hk) fun pw σ => Or.inr (Or.inr ⟨rfl, rfl⟩)
      have hsz : (mulOp cfg a (pow b (-1))).cols = a.cols := by
        rw [cols, vp.size pw0 ρ0, SM.mul_scalar_right (B := (pow b (-1)).ev pw0 ρ0) _ ⟨rfl, rfl⟩, SM.smul_c, (dimsK he.1 _ _).2]
      obtain ⟨N1, h1⟩ := low _ (mulOp cfg a (pow b (-1))) hr (by
        have := rank_mulOp (wt := wt) cfg a (pow b (-1))
        simp only [rank] at this ⊢; omega) vp.1 c (by
          have : c < b.cols := hc
          rw [cols, he.2.2.2.1] at this
          rw [hsz, he.2.2.1]; exact this)
      refine ends_step N1 fun hd n hn => ?_
      obtain ⟨da, h1⟩ := h1 n (by omega)
      rw [derivative, if_pos hd]
      simp only [newDerivative, collectM_option, bind, Option.bind, pure, Bool.false_eq_true, if_false, h1]
      exact ⟨_, rfl⟩
    | skew a iha =>
      intro hr he c hc
      rw [rank] at hr
      obtain ⟨N1, h1⟩ := iha (by omega) he.1 0 (pos he.1).2
      refine ends_step N1 fun hd n hn => ?_
      obtain ⟨da, h1⟩ := h1 n (by omega)
      rw [derivative, if_pos hd]
      simp only [newDerivative, collectM_option, bind, Option.bind, pure, Bool.false_eq_true, if_false, h1]
      exact ⟨_, rfl⟩
    | transpose a iha =>
      intro hr he c hc
      have hk : Kept P a := he
      have hc' : c < a.rows := hc
      obtain ⟨N1, h1⟩ := ends_all (m := (transpose a).rows) (x := fun j => a.elemAcc cfg c j) (c := fun _ => 0) fun k hk' => by
        have v1 := (access hs hk).2.2 c k hc' hk'
        refine low _ _ hr ?_ v1.1 0 (by rw [cols, v1.size pw0 ρ0]; exact Nat.one_pos)
        have := (rank_access (wt := wt) (cfg := cfg) hk).2.2 c k hc' hk'
        simp only [rank]; omega
      refine ends_step N1 fun hd n hn => ?_
      obtain ⟨g, h1⟩ := collect_isSome (h1 n (by omega))
      rw [derivative, if_pos hd]
      simp only [newDerivative, collectM_option, bind, Option.bind, pure, Bool.false_eq_true, if_false, h1]
      exact ⟨_, rfl⟩
    | vee a iha =>
      intro hr he c hc
      have hk : Kept P a := he.1
      have ar : a.rows = 3 := by rw [rows, he.2]
      have ac : a.cols = 3 := by rw [cols, he.2]
      have one : ∀ i j, i < 3 → j < 3 → Ends cfg defs v (a.elemAcc cfg i j) 0 := by
        intro i j hi hj
        have v1 := (access hs hk).2.2 i j (by omega) (by omega)
        refine low _ _ hr ?_ v1.1 0 (by rw [cols, v1.size pw0 ρ0]; exact Nat.one_pos)
        have := (rank_access (wt := wt) (cfg := cfg) hk).2.2 i j (by omega) (by omega)
        simp only [rank]; omega
      obtain ⟨N0, h0⟩ := one 2 1 (by omega) (by omega)
      obtain ⟨N1, h1⟩ := one 0 2 (by omega) (by omega)
      obtain ⟨N2, h2⟩ := one 1 0 (by omega) (by omega)
      refine ends_step (max N0 (max N1 N2)) fun hd n hn => ?_
      obtain ⟨g, h3⟩ := collect_isSome (m := 3) (f := fun k => derivative cfg defs n (veeElement cfg a k) 0 v) fun k hk => by
        interval_cases k
        · exact h0 n (by omega)
        · exact h1 n (by omega)
        · exact h2 n (by omega)
      rw [derivative, if_pos hd]
      simp only [newDerivative, collectM_option, bind, Option.bind, pure, h3]
      exact ⟨_, rfl⟩
    | row a i iha =>
      intro hr he c hc
      obtain ⟨N1, h1⟩ := iha hr he.1 c hc
      refine ends_step N1 fun hd n hn => ?_
      obtain ⟨da, h1⟩ := h1 n (by omega)
      rw [derivative, if_pos hd]
      simp only [newDerivative, collectM_option, bind, Option.bind, pure, Bool.false_eq_true, if_false, h1]
      exact ⟨_, rfl⟩
    | col a k iha =>
      intro hr he c hc
      obtain ⟨N1, h1⟩ := iha hr he.1 k he.2
      refine ends_step N1 fun hd n hn => ?_
      obtain ⟨da, h1⟩ := h1 n (by omega)
      rw [derivative, if_pos hd]
      simp only [newDerivative, collectM_option, bind, Option.bind, pure, Bool.false_eq_true, if_false, h1]
      exact ⟨_, rfl⟩
    | elem a i k iha =>
      intro hr he c hc
      obtain ⟨N1, h1⟩ := iha hr he.1 k he.2.2
      refine ends_step N1 fun hd n hn => ?_
      obtain ⟨da, h1⟩ := h1 n (by omega)
      rw [derivative, if_pos hd]
      simp only [newDerivative, collectM_option, bind, Option.bind, pure, Bool.false_eq_true, if_false, h1]
      exact ⟨_, rfl⟩
    | block a i k r cc iha =>
      intro hr he c hc
      have hc' : c < cc := hc
      obtain ⟨N1, h1⟩ := iha hr he.1 (k + c) (by have := he.2.2.2.2; omega)
      refine ends_step N1 fun hd n hn => ?_
      obtain ⟨da, h1⟩ := h1 n (by omega)
      rw [derivative, if_pos hd]
      simp only [newDerivative, collectM_option, bind, Option.bind, pure, Bool.false_eq_true, if_false, h1]
      exact ⟨_, rfl⟩
    | byRows m f ihf =>
      intro hr he c hc
      have hc' : c < (f 0).cols := hc
      obtain ⟨N1, h1⟩ := ends_all (m := m) (x := fun i => (f i).elemAcc cfg 0 c) (c := fun _ => 0) fun k hk => by
        have h0 : 0 < (f k).rows := by rw [rows, (he.2 k hk).2]; exact Nat.one_pos
        have h3 : c < (f k).cols := by rw [cols, (he.2 k hk).2]; exact hc'
        have v1 := (access hs (he.2 k hk).1).2.2 0 c h0 h3
        refine low _ _ hr ?_ v1.1 0 (by rw [cols, v1.size pw0 ρ0]; exact Nat.one_pos)
        have h4 := (rank_access (wt := wt) (cfg := cfg) (he.2 k hk).1).2.2 0 c h0 h3
        have h5 := le_sum_range (fun k => rank wt (f k)) hk
        simp only [rank]; omega
      refine ends_step N1 fun hd n hn => ?_
      obtain ⟨g, h1⟩ := collect_isSome (h1 n (by omega))
      rw [derivative, if_pos hd]
      simp only [newDerivative, collectM_option, bind, Option.bind, pure, Bool.false_eq_true, if_false, h1]
      exact ⟨_, rfl⟩
    | byCols m f ihf =>
      intro hr he c hc
      have hc' : c < m := hc
      have h5 := le_sum_range (fun k => rank wt (f k)) hc'
      rw [rank] at hr
      obtain ⟨N1, h1⟩ := ihf c (le_trans h5 hr) (he.2 c hc').1 0 (by rw [cols, (he.2 c hc').2]; exact Nat.one_pos)
      refine ends_step N1 fun hd n hn => ?_
      obtain ⟨da, h1⟩ := h1 n (by omega)
      rw [derivative, if_pos hd]
      simp only [newDerivative, collectM_option, bind, Option.bind, pure, Bool.false_eq_true, if_false, h1]
      exact ⟨_, rfl⟩
    | hcat a b iha ihb =>
      intro hr he c hc
      rw [rank] at hr
      have hc' : c < a.cols + b.cols := hc
      by_cases h3 : c < a.cols
      · obtain ⟨N1, h1⟩ := iha (by omega) he.1 c h3
        refine ends_step N1 fun hd n hn => ?_
        obtain ⟨da, h1⟩ := h1 n (by omega)
        rw [derivative, if_pos hd]
        simp only [newDerivative, collectM_option, bind, Option.bind, pure, Bool.false_eq_true, if_false, h1, h3, if_true]
        exact ⟨_, rfl⟩
      · obtain ⟨N1, h1⟩ := ihb (by omega) he.2.1 (c - a.cols) (by omega)
        refine ends_step N1 fun hd n hn => ?_
        obtain ⟨da, h1⟩ := h1 n (by omega)
        rw [derivative, if_pos hd]
        simp only [newDerivative, collectM_option, bind, Option.bind, pure, Bool.false_eq_true, if_false, h1, h3]
        exact ⟨_, rfl⟩
    | vcat a b iha ihb =>
      intro hr he c hc
      rw [rank] at hr
      have hc' : c < a.cols := hc
      obtain ⟨N1, h1⟩ := iha (by omega) he.1 c hc'
      obtain ⟨N2, h2⟩ := ihb (by omega) he.2.1 c (by rw [he.2.2]; exact hc')
      refine ends_step (max N1 N2) fun hd n hn => ?_
      obtain ⟨da, h1⟩ := h1 n (by omega)
      obtain ⟨db, h2⟩ := h2 n (by omega)
      rw [derivative, if_pos hd]
      simp only [newDerivative, collectM_option, bind, Option.bind, pure, Bool.false_eq_true, if_false, h1, h2]
      exact ⟨_, rfl⟩
    | mpd m ds x ihd ihx =>
      intro hr he c hc
      have hc' : c < (ds 0).cols := hc
      have hdc : ∀ k, k < m → c < (ds k).cols := fun k hk => by rw [cols, (he.2.1 k hk).2]; exact hc'
      have vc := val_mpd_col he hc' fun k hk => (access hs (he.2.1 k hk).1).2.1 c (hdc k hk)
      have h1 := rank_mulOp (wt := wt) cfg (byCols m fun k => colAcc cfg (ds k) c) x
      have h2 : ∑ k ∈ Finset.range m, rank wt (colAcc cfg (ds k) c) ≤ ∑ k ∈ Finset.range m, rank wt (ds k) :=
        Finset.sum_le_sum fun k hk => by
          have hk := Finset.mem_range.1 hk
          exact (rank_access (he.2.1 k hk).1).2.1 c (hdc k hk)
      obtain ⟨N1, h3⟩ := low _ (mulOp cfg (byCols m fun k => colAcc cfg (ds k) c) x) hr (by
        simp only [rank] at h1 ⊢; omega) vc.1 0 (by rw [cols, vc.size pw0 ρ0]; exact Nat.one_pos)
      refine ends_step N1 fun hd n hn => ?_
      obtain ⟨da, h3⟩ := h3 n (by omega)
      rw [derivative, if_pos hd]
      simp only [newDerivative, collectM_option, bind, Option.bind, pure, Bool.false_eq_true, if_false, h3]
      exact ⟨_, rfl⟩


/-- The weight of a made variable is larger than the one of its expression. -/
def weight : List (Def K) → Var → Nat
  | [], _ => 1
  | d :: l, w => if w = d.var then rank (weight l) d.expr + 1 else weight l w

theorem rank_congr {w w' : Var → Nat} {e : Ex K} (h : ∀ u, e.dep u = true → w u = w' u) : rank w e = rank w' e := by
  have l : ∀ {p q : Bool}, p = true → (p || q) = true := by intro p q h; simp [h]
  have r : ∀ {p q : Bool}, q = true → (p || q) = true := by intro p q h; simp [h]
  have any : ∀ {n : Nat} {f : Nat → Bool} {i : Nat}, i < n → f i = true → (List.range n).any f = true :=
    fun hi hf => List.any_eq_true.2 ⟨_, List.mem_range.2 hi, hf⟩
  induction e with
  | const r c M => rfl
  | null r c => rfl
  | ident n => rfl
  | sparse r c l => rfl
  | var u => exact h u (by simp [dep])
  | add a b iha ihb => simp only [rank, iha fun w hw => h w (l hw), ihb fun w hw => h w (r hw)]
  | sub a b iha ihb => simp only [rank, iha fun w hw => h w (l hw), ihb fun w hw => h w (r hw)]
  | mul a b iha ihb => simp only [rank, iha fun w hw => h w (l hw), ihb fun w hw => h w (r hw)]
  | div a b iha ihb => simp only [rank, iha fun w hw => h w (l hw), ihb fun w hw => h w (r hw)]
  | hcat a b iha ihb => simp only [rank, iha fun w hw => h w (l hw), ihb fun w hw => h w (r hw)]
  | vcat a b iha ihb => simp only [rank, iha fun w hw => h w (l hw), ihb fun w hw => h w (r hw)]
  | neg a iha => simp only [rank, iha h]
  | pow a e iha => simp only [rank, iha h]
  | skew a iha => simp only [rank, iha h]
  | transpose a iha => simp only [rank, iha h]
  | vee a iha => simp only [rank, iha h]
  | row a i iha => simp only [rank, iha h]
  | col a i iha => simp only [rank, iha h]
  | elem a i k iha => simp only [rank, iha h]
  | block a i k r c iha => simp only [rank, iha h]
  | byRows n f ihf =>
    simp only [rank]
    rw [Finset.sum_congr rfl fun i hi => ihf i fun w hw => h w (any (f := fun i => (f i).dep w) (Finset.mem_range.1 hi) hw)]
  | byCols n f ihf =>
    simp only [rank]
    exact Finset.sum_congr rfl fun i hi => ihf i fun w hw => h w (any (f := fun i => (f i).dep w) (Finset.mem_range.1 hi) hw)
  | mpd n ds x ihd ihx =>
    simp only [rank, ihx fun w hw => h w (l hw)]
    rw [Finset.sum_congr rfl fun i hi => ihd i fun w hw => h w (r (any (f := fun i => (ds i).dep w) (Finset.mem_range.1 hi) hw))]

theorem weight_newer {pre l : List (Def K)} {w : Var} (h : ∀ n ∈ pre, n.var ≠ w) : weight (pre ++ l) w = weight l w := by
  induction pre with
  | nil => rfl
  | cons d pre ih =>
    rw [List.cons_append, weight, if_neg fun e => h d List.mem_cons_self e.symm]
    exact ih fun n hn => h n (List.mem_cons_of_mem _ hn)

/-- Every request ends. -/
theorem derivative_ends {cfg : Cfg ℝ} {defs : List (Def ℝ)} {σ : Env ℝ} (hs : Sound cfg) (o : Ordered σ defs) (v : Var) {e : Ex ℝ} (he : Kept (PowOk σ) e) {c : Nat} (hc : c < e.cols) : Ends cfg defs v e c := by
  refine ends (wt := weight defs) hs v ?_ _ e (Nat.le_refl _) he c hc
  intro w d hd
  unfold definition at hd
  have hm := List.mem_of_find?_eq_some hd
  have hw : d.var = w := by simpa using List.find?_some hd
  subst hw
  have hk := ordered_kept o hm
  refine ⟨?_, hk.1, by rw [cols, hk.2]; exact Nat.one_pos⟩
  obtain ⟨pre, l, rfl⟩ := List.append_of_mem hm
  rw [weight_newer fun n hn => (ordered_newer o hn List.mem_cons_self).1.symm, weight, if_pos rfl]
  rw [rank_congr (w' := weight l) fun u hu => ?_]
  · omega
  · have h1 := ordered_older o hu
    rw [show pre ++ d :: l = (pre ++ [d]) ++ l by simp, weight_newer h1]

end AsVariable
end Verif.Levi
