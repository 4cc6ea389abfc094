import Verif.Lemmas.DerivativeCache
import Verif.Lemmas.LeviDeriv
/- The answers found in the caches are right, even when the sharing of the nodes changes with time. -/
namespace Verif.Levi
open Ex Spec
namespace DerivativeCache
noncomputable section

/-- Any of several results. -/
def Any (α : Type) : Type := α → Prop

instance : Monad Any where
  pure a := fun b => b = a
  bind x f := fun b => ∃ a, x a ∧ f a b

theorem pure_iff {α : Type} {a b : α} : (pure a : Any α) b ↔ b = a := Iff.rfl

theorem bind_iff {α β : Type} {x : Any α} {f : α → Any β} {b : β} : (x >>= f) b ↔ ∃ a, x a ∧ f a b := Iff.rfl

theorem collect_any {K : Type} [Field K] [LinearOrder K] {n : Nat} {f : Nat → Any (Ex K)} {g : Nat → Ex K} (h : collectM n f g) : ∀ k, k < n → f k (g k) := by
  induction n generalizing g with
  | zero => intro k hk; omega
  | succ n ih =>
    obtain ⟨g', h1, h⟩ := bind_iff.1 h
    obtain ⟨x, h2, h⟩ := bind_iff.1 h
    obtain rfl := pure_iff.1 h
    intro k hk
    by_cases e : k = n
    · subst e
      simpa using h2
    · simpa [e] using ih h1 k (by omega)

/-- If the answers a node gets are right, so is the one it gives. -/
theorem new_good {cfg : Cfg ℝ} {v : Var} {ρ : Env ℝ} (hs : Sound cfg) (hv : 0 < v.dim) (ask : Ex ℝ → Nat → Any (Ex ℝ)) (ih : ∀ (e : Ex ℝ) (c : Nat) (d : Ex ℝ), Kept (PowOk ρ) e → c < e.cols → ask e c d → Good ρ e c v d)
    (e : Ex ℝ) (c : Nat) (d : Ex ℝ) (he : Kept (PowOk ρ) e) (hc : c < e.cols) (hd : e.dep v = true) (h : newColumnDerivative (m := Any) cfg v ask e c d) : Good ρ e c v d := by
  cases e with
  | const r c M => simp [dep] at hd
  | null r c => simp [dep] at hd
  | ident n => simp [dep] at hd
  | sparse r c l => simp [dep] at hd
  | var w =>
    simp only [newColumnDerivative, newDerivative] at h
    obtain rfl : w = v := by simpa [dep] using hd
    obtain rfl := pure_iff.1 h
    rw [if_pos rfl]
    obtain rfl : c = 0 := by simpa [cols, size] using hc
    refine ⟨hv, rfl, fun i j hi hj => ?_⟩
    have hi' : i < w.dim := hi
    simp only [ev, SM.one]
    rw [SM.f_in _ _ _ hi' hj]
    have e1 : (fun t => (SM.of w.dim 1 fun i x => set ρ w j t w i).f i 0) = fun t => if i = j then t else ρ w i := by
      funext t
      rw [SM.f_in _ _ _ hi' Nat.one_pos]
      simp [Spec.set]
    rw [e1]
    by_cases hij : i = j
    · simp only [hij, if_true]; exact hasDerivAt_id _
    · simp only [hij, if_false]; exact hasDerivAt_const _ _
  | add a b =>
    simp only [newColumnDerivative, newDerivative] at h
    have hca : c < a.cols := hc
    have hcb : c < b.cols := by rw [cols, he.2.2]; exact hc
    by_cases h1 : (a.dep v && b.dep v) = true
    · rw [if_pos h1] at h
      obtain ⟨da, h2, h⟩ := bind_iff.1 h
      obtain ⟨db, h3, h⟩ := bind_iff.1 h
      obtain rfl := pure_iff.1 h
      exact good_add hs he (ih _ _ _ he.1 hca h2) (ih _ _ _ he.2.1 hcb h3)
    · rw [if_neg h1] at h
      by_cases h2 : a.dep v = true
      · rw [if_pos h2] at h
        exact good_add_l he (ih _ _ _ he.1 hca h) (by simpa [h2] using h1)
      · rw [if_neg h2] at h
        exact good_add_r he (ih _ _ _ he.2.1 hcb h) (by simpa using h2)
  | sub a b =>
    simp only [newColumnDerivative, newDerivative] at h
    have hca : c < a.cols := hc
    have hcb : c < b.cols := by rw [cols, he.2.2]; exact hc
    by_cases h1 : (a.dep v && b.dep v) = true
    · rw [if_pos h1] at h
      obtain ⟨da, h2, h⟩ := bind_iff.1 h
      obtain ⟨db, h3, h⟩ := bind_iff.1 h
      obtain rfl := pure_iff.1 h
      exact good_sub hs he (ih _ _ _ he.1 hca h2) (ih _ _ _ he.2.1 hcb h3)
    · rw [if_neg h1] at h
      by_cases h2 : a.dep v = true
      · rw [if_pos h2] at h
        exact good_sub_l he (ih _ _ _ he.1 hca h) (by simpa [h2] using h1)
      · rw [if_neg h2] at h
        obtain ⟨db, h3, h⟩ := bind_iff.1 h
        obtain rfl := pure_iff.1 h
        exact good_sub_r he (ih _ _ _ he.2.1 hcb h3) (by simpa using h2)
  | neg a =>
    simp only [newColumnDerivative, newDerivative] at h
    obtain ⟨da, h2, h⟩ := bind_iff.1 h
    obtain rfl := pure_iff.1 h
    exact good_neg he (ih _ _ _ he hc h2)
  | mul a b =>
    simp only [newColumnDerivative, newDerivative] at h
    have hdep : a.dep v = false → b.dep v = true := by
      intro h1; simpa [dep, h1] using hd
    by_cases sa : a.isScalar = true
    · have hcb : c < b.cols := by rw [cols, ← mul_rows_l he sa]; exact hc
      have h0a : 0 < a.cols := (pos he.1).2
      by_cases sb : b.isScalar = true
      · obtain rfl : c = 0 := by rw [(scalar_rows sb).2] at hcb; omega
        rw [if_pos (by rw [sa, sb]; rfl)] at h
        by_cases h1 : (a.dep v && b.dep v) = true
        · rw [if_pos h1] at h
          obtain ⟨da, h2, h⟩ := bind_iff.1 h
          obtain ⟨db, h3, h⟩ := bind_iff.1 h
          obtain rfl := pure_iff.1 h
          exact good_ss hs he sa sb rfl (ih _ _ _ he.1 h0a h2) (ih _ _ _ he.2.1 hcb h3)
        · rw [if_neg h1] at h
          by_cases h2 : a.dep v = true
          · rw [if_pos h2] at h
            obtain ⟨da, h3, h⟩ := bind_iff.1 h
            obtain rfl := pure_iff.1 h
            exact good_ss_a he sa sb rfl (ih _ _ _ he.1 h0a h3) (by simpa [h2] using h1)
          · rw [if_neg h2] at h
            obtain ⟨db, h3, h⟩ := bind_iff.1 h
            obtain rfl := pure_iff.1 h
            exact good_l_b he sa (by simpa using h2) (ih _ _ _ he.2.1 hcb h3)
      · rw [if_neg (by simp [sb]), if_pos sa] at h
        by_cases h1 : (a.dep v && b.dep v) = true
        · rw [if_pos h1] at h
          obtain ⟨db, h3, h⟩ := bind_iff.1 h
          obtain ⟨da, h2, h⟩ := bind_iff.1 h
          obtain rfl := pure_iff.1 h
          exact good_l hs he sa hcb (ih _ _ _ he.1 h0a h2) (ih _ _ _ he.2.1 hcb h3)
        · rw [if_neg h1] at h
          by_cases h2 : a.dep v = true
          · rw [if_pos h2] at h
            obtain ⟨da, h3, h⟩ := bind_iff.1 h
            obtain rfl := pure_iff.1 h
            exact good_l_a hs he sa hcb (ih _ _ _ he.1 h0a h3) (by simpa [h2] using h1)
          · rw [if_neg h2] at h
            obtain ⟨db, h3, h⟩ := bind_iff.1 h
            obtain rfl := pure_iff.1 h
            exact good_l_b he sa (by simpa using h2) (ih _ _ _ he.2.1 hcb h3)
    · rw [if_neg (by simp [sa]), if_neg sa] at h
      have hm : a.cols = b.rows := he.2.2.resolve_right sa
      by_cases sb : b.isScalar = true
      · rw [if_pos sb] at h
        have hca : c < a.cols := by rw [cols, ← mul_rows_r he sb]; exact hc
        have h0b : 0 < b.cols := (pos he.2.1).2
        by_cases h1 : (a.dep v && b.dep v) = true
        · rw [if_pos h1] at h
          obtain ⟨da, h2, h⟩ := bind_iff.1 h
          obtain ⟨db, h3, h⟩ := bind_iff.1 h
          obtain rfl := pure_iff.1 h
          exact good_r hs he sb hca (ih _ _ _ he.1 hca h2) (ih _ _ _ he.2.1 h0b h3)
        · rw [if_neg h1] at h
          by_cases h2 : a.dep v = true
          · rw [if_pos h2] at h
            obtain ⟨da, h3, h⟩ := bind_iff.1 h
            obtain rfl := pure_iff.1 h
            exact good_r_a he sb (ih _ _ _ he.1 hca h3) (by simpa [h2] using h1)
          · rw [if_neg h2] at h
            obtain ⟨db, h3, h⟩ := bind_iff.1 h
            obtain rfl := pure_iff.1 h
            exact good_r_b hs he sb hca (by simpa using h2) (ih _ _ _ he.2.1 h0b h3)
      · rw [if_neg sb] at h
        have hcb : c < b.cols := by
          have := mul_rows_s he hm
          rw [cols, this] at hc; exact hc
        by_cases h1 : (a.dep v && b.dep v) = true
        · rw [if_pos h1] at h
          obtain ⟨db, h3, h⟩ := bind_iff.1 h
          obtain ⟨g, h2, h⟩ := bind_iff.1 h
          obtain rfl := pure_iff.1 h
          exact good_s hs he hm hcb (fun k hk => ih _ _ _ he.1 hk (collect_any h2 k hk)) (ih _ _ _ he.2.1 hcb h3)
        · rw [if_neg h1] at h
          by_cases h2 : a.dep v = true
          · rw [if_pos h2] at h
            obtain ⟨g, h3, h⟩ := bind_iff.1 h
            obtain rfl := pure_iff.1 h
            exact good_s_a hs he hm hcb (fun k hk => ih _ _ _ he.1 hk (collect_any h3 k hk)) (by simpa [h2] using h1)
          · rw [if_neg h2] at h
            obtain ⟨db, h3, h⟩ := bind_iff.1 h
            obtain rfl := pure_iff.1 h
            exact good_s_b he hm (by simpa using h2) (ih _ _ _ he.2.1 hcb h3)
  | pow a α =>
    simp only [newColumnDerivative, newDerivative] at h
    obtain rfl : c = 0 := by simpa [cols, size] using hc
    have h0a : 0 < a.cols := (pos he.1).2
    by_cases h1 : |α - 1| < e15
    · rw [if_pos h1] at h
      exact good_pow1 he h1 (ih _ _ _ he.1 h0a h)
    · rw [if_neg h1] at h
      obtain ⟨da, h2, h⟩ := bind_iff.1 h
      obtain rfl := pure_iff.1 h
      exact good_pow he h1 (ih _ _ _ he.1 h0a h2)
  | div a b =>
    simp only [newColumnDerivative, newDerivative] at h
    have vp := val_powneg (cfg := cfg) he
    refine good_div he (ih _ _ _ vp.1 ?_ h)
    have : c < b.cols := hc
    rw [cols, he.2.2.2.1] at this
    rw [cols, vp.size pw0 ρ0, SM.smul_c, (dimsK he.1 _ _).2, he.2.2.1]; exact this
  | skew a =>
    simp only [newColumnDerivative, newDerivative] at h
    obtain ⟨da, h2, h⟩ := bind_iff.1 h
    obtain rfl := pure_iff.1 h
    exact good_skew he hc (ih _ _ _ he.1 (pos he.1).2 h2)
  | transpose a =>
    simp only [newColumnDerivative, newDerivative] at h
    obtain ⟨g, h2, h⟩ := bind_iff.1 h
    obtain rfl := pure_iff.1 h
    have hk : Kept (PowOk ρ) a := he
    refine good_byRows (x := fun j => a.elemAcc cfg c j) (pos hk).2 rfl (fun k hk' => ?_) fun k hk' => ?_
    · have := elem_ok hs hk (i := c) (j := k) hc hk'
      exact ⟨this.2.1, fun σ => by rw [this.2.2, ev, SM.tr_f]⟩
    · have := elem_ok hs hk (i := c) (j := k) hc hk'
      exact ih _ _ _ this.1 (by rw [cols, this.2.1]; exact Nat.one_pos) (collect_any h2 k hk')
  | vee a =>
    simp only [newColumnDerivative, newDerivative] at h
    obtain ⟨g, h2, h⟩ := bind_iff.1 h
    obtain rfl := pure_iff.1 h
    have hk : Kept (PowOk ρ) a := he.1
    obtain rfl : c = 0 := by simpa [cols, size] using hc
    have ar : a.rows = 3 := by rw [rows, he.2]
    have ac : a.cols = 3 := by rw [cols, he.2]
    have e0 := elem_ok hs hk (i := 2) (j := 1) (by omega) (by omega)
    have e1 := elem_ok hs hk (i := 0) (j := 2) (by omega) (by omega)
    have e2 := elem_ok hs hk (i := 1) (j := 0) (by omega) (by omega)
    refine good_byRows (m := 3) (x := veeElement cfg a) (by omega) rfl (fun k hk' => ?_) fun k hk' => ?_
    · interval_cases k
      · exact ⟨e0.2.1, fun σ => (e0.2.2 σ).trans (by simp [ev, SM.vee, SM.of_f])⟩
      · exact ⟨e1.2.1, fun σ => (e1.2.2 σ).trans (by simp [ev, SM.vee, SM.of_f])⟩
      · exact ⟨e2.2.1, fun σ => (e2.2.2 σ).trans (by simp [ev, SM.vee, SM.of_f])⟩
    · have h3 := collect_any h2 k hk'
      interval_cases k
      · exact ih _ _ _ e0.1 (show 0 < (a.elemAcc cfg 2 1).cols by rw [cols, e0.2.1]; exact Nat.one_pos) h3
      · exact ih _ _ _ e1.1 (show 0 < (a.elemAcc cfg 0 2).cols by rw [cols, e1.2.1]; exact Nat.one_pos) h3
      · exact ih _ _ _ e2.1 (show 0 < (a.elemAcc cfg 1 0).cols by rw [cols, e2.2.1]; exact Nat.one_pos) h3
  | row a i =>
    simp only [newColumnDerivative, newDerivative] at h
    obtain ⟨da, h2, h⟩ := bind_iff.1 h
    obtain rfl := pure_iff.1 h
    exact good_row he.1 he.2 (ih _ _ _ he.1 hc h2)
  | col a k =>
    simp only [newColumnDerivative, newDerivative] at h
    obtain rfl : c = 0 := by simpa [cols, size] using hc
    refine good_of (ih _ _ _ he.1 he.2 h) rfl fun σ i _ => ?_
    rw [ev, SM.col_f]
  | elem a i k =>
    simp only [newColumnDerivative, newDerivative] at h
    obtain rfl : c = 0 := by simpa [cols, size] using hc
    obtain ⟨da, h2, h⟩ := bind_iff.1 h
    obtain rfl := pure_iff.1 h
    exact good_elem he.1 he.2.1 (ih _ _ _ he.1 he.2.2 h2)
  | block a i k r cc =>
    simp only [newColumnDerivative, newDerivative] at h
    obtain ⟨da, h2, h⟩ := bind_iff.1 h
    obtain rfl := pure_iff.1 h
    have hc' : c < cc := hc
    exact good_block he.1 hv he.2.1 he.2.2.2.1 hc' (ih _ _ _ he.1 (by have := he.2.2.2.2; omega) h2)
  | byRows m f =>
    simp only [newColumnDerivative, newDerivative] at h
    obtain ⟨g, h2, h⟩ := bind_iff.1 h
    obtain rfl := pure_iff.1 h
    have hc' : c < (f 0).cols := hc
    have ek := fun k (hk : k < m) => elem_ok hs (he.2 k hk).1 (i := 0) (j := c)
      (by rw [rows, (he.2 k hk).2]; exact Nat.one_pos) (by rw [cols, (he.2 k hk).2]; exact hc')
    refine good_byRows (x := fun k => (f k).elemAcc cfg 0 c) he.1 rfl (fun k hk => ?_) fun k hk => ?_
    · refine ⟨(ek k hk).2.1, fun σ => ?_⟩
      rw [(ek k hk).2.2, ev, SM.f_in _ _ _ hk (by rw [(dimsK (he.2 0 he.1).1 _ _).2]; exact hc')]
    · exact ih _ _ _ (ek k hk).1 (by rw [cols, (ek k hk).2.1]; exact Nat.one_pos) (collect_any h2 k hk)
  | byCols m f =>
    simp only [newColumnDerivative, newDerivative] at h
    have hc' : c < m := hc
    have fc := he.2 c hc'
    refine good_of (ih _ _ _ fc.1 (by rw [cols, fc.2]; exact Nat.one_pos) h) (by rw [rows, fc.2]; rfl) fun σ i hi => ?_
    rw [ev, SM.f_in _ _ _ (by rw [(dimsK (he.2 0 he.1).1 _ _).1]; exact hi) hc']
  | hcat a b =>
    simp only [newColumnDerivative, newDerivative] at h
    have ev_f : ∀ σ i, i < a.rows → ((hcat a b).ev rpow σ).f i c =
        if c < a.cols then (a.ev rpow σ).f i c else (b.ev rpow σ).f i (c - a.cols) := by
      intro σ i hi
      rw [ev, SM.hcat_f _ _ (by rw [(dimsK he.1 _ _).1]; exact hi), (dimsK he.1 _ _).2]
    by_cases h1 : c < a.cols
    · rw [if_pos h1] at h
      refine good_of (ih _ _ _ he.1 h1 h) rfl fun σ i hi => ?_
      rw [ev_f σ i hi, if_pos h1]
    · rw [if_neg h1] at h
      have hc' : c < a.cols + b.cols := hc
      refine good_of (ih _ _ _ he.2.1 (by omega) h) he.2.2 fun σ i hi => ?_
      rw [ev_f σ i hi, if_neg h1]
  | vcat a b =>
    simp only [newColumnDerivative, newDerivative] at h
    obtain ⟨da, h2, h⟩ := bind_iff.1 h
    obtain ⟨db, h3, h⟩ := bind_iff.1 h
    obtain rfl := pure_iff.1 h
    have hca : c < a.cols := hc
    exact good_vcat he hca (ih _ _ _ he.1 hca h2) (ih _ _ _ he.2.1 (by rw [he.2.2]; exact hca) h3)
  | mpd m ds x =>
    simp only [newColumnDerivative, newDerivative] at h
    have vc := val_mpd_col he (show c < (ds 0).cols from hc) fun k hk =>
      (access hs (he.2.1 k hk).1).2.1 c (by rw [cols, (he.2.1 k hk).2]; exact hc)
    refine good_of (ih _ _ _ vc.1 (by rw [cols, vc.size pw0 ρ0]; exact Nat.one_pos) h) ?_ fun σ i _ => ?_
    · rw [rows, vc.size pw0 ρ0, SM.col_r, (dimsK he _ _).1]
    · rw [vc.2, SM.col_f]


variable {S : Set (Env ℝ)} {vars : Set Var}

/-- `d` is a right answer. -/
def Right (S : Set (Env ℝ)) (e : Ex ℝ) (c : Nat) (v : Var) (d : Ex ℝ) : Prop := ∀ ρ ∈ S, Kept (PowOk ρ) e → c < e.cols → Good ρ e c v d

/-- All the entries are right answers. -/
def Valid (S : Set (Env ℝ)) (vars : Set Var) (s : Store ℝ) : Prop := ∀ t ∈ s.entries, ∃ v ∈ vars, v.name = t.name ∧ Right S t.object t.column v t.derivative

/-- What a run answers is among the expected results. -/
def expected (S : Set (Env ℝ)) (vars : Set Var) : MonadRel Any (Run ℝ) where
  rel x y := ∀ s, Valid S vars s → ∀ a s', y s = some (a, s') → x a ∧ Valid S vars s'
  pure a s hs b s' h := by
    cases h
    exact ⟨rfl, hs⟩
  bind x y f g hx hf s hs b s' h := by
    have h : (y s >>= fun p => g p.1 p.2) = some (b, s') := h
    cases hy : y s with
    | none => rw [hy] at h; cases h
    | some p =>
      rw [hy] at h
      obtain ⟨h1, i1⟩ := hx s hs p.1 p.2 hy
      obtain ⟨h2, i2⟩ := hf p.1 p.2 i1 b s' h
      exact ⟨⟨p.1, h1, h2⟩, i2⟩

theorem get_cases (cfg : Nat → Cfg ℝ) (seen : Nat → Option Nat) (n : Nat) (e : Ex ℝ) (c : Nat) (v : Var) (s s' : Store ℝ) (d : Ex ℝ) (h : getColumnDerivative cfg seen (n + 1) e c v s = some (d, s')) :
    (found seen s e c v = some d ∧ s' = ⟨s.entries, s.calls + 1⟩) ∨
    ∃ s1, (if e.dep v then newColumnDerivative (cfg s.calls) v (fun x k => getColumnDerivative cfg seen n x k v) e c else (pure (null e.rows v.dim) : Run ℝ (Ex ℝ))) ⟨s.entries, s.calls + 1⟩ = some (d, s1) ∧
      s' = ⟨s1.entries ++ [⟨e, v.name, c, d⟩], s1.calls⟩ := by
  cases hf : found seen s e c v with
  | some d' =>
    rw [get_found cfg seen n e c v s d' hf] at h
    cases h
    exact .inl ⟨rfl, rfl⟩
  | none =>
    right
    rw [get_run cfg seen n e c v s hf] at h
    cases hr : (if e.dep v then newColumnDerivative (cfg s.calls) v (fun x k => getColumnDerivative cfg seen n x k v) e c else (pure (null e.rows v.dim) : Run ℝ (Ex ℝ))) ⟨s.entries, s.calls + 1⟩ with
    | none => rw [hr] at h; cases h
    | some p =>
      rw [hr] at h
      cases h
      exact ⟨p.2, rfl, rfl⟩

theorem get_right (cfg : Nat → Cfg ℝ) (hs : ∀ k, Sound (cfg k)) (seen : Nat → Option Nat) (hc : Consistent vars) {v : Var} (hv : v ∈ vars) (hd : 0 < v.dim) : ∀ (n : Nat) (e : Ex ℝ) (c : Nat),
    (expected S vars).rel (fun d => Right S e c v d) (getColumnDerivative cfg seen n e c v) := by
  intro n
  induction n with
  | zero => intro e c s _ a s' h; cases h
  | succ n ih =>
    intro e c s hS d s' h
    have hS1 : Valid S vars (⟨s.entries, s.calls + 1⟩ : Store ℝ) := hS
    rcases get_cases cfg seen n e c v s s' d h with ⟨hf, rfl⟩ | ⟨s1, h1, rfl⟩
    · refine ⟨?_, hS1⟩
      unfold found at hf
      split at hf
      · cases hf
      · split at hf
        · cases hf
        · rename_i i _ entry he
          split_ifs at hf with hm
          cases hf
          obtain ⟨w, hw, hname, k⟩ := hS entry (List.mem_of_getElem? he)
          obtain rfl : w = v := hc w hw v hv (hname.trans hm.2.1)
          rw [hm.1, hm.2.2] at k
          exact k
    · have key : Right S e c v d ∧ Valid S vars s1 := by
        split_ifs at h1 with hdep
        · obtain ⟨h2, i2⟩ := newColumnDerivative_rel (expected S vars) (cfg s.calls) v (fun x k d => Right S x k v d) (fun x k => getColumnDerivative cfg seen n x k v) ih e c _ hS1 d s1 h1
          exact ⟨fun ρ hρ he hcol => new_good (hs _) hd _ (fun e c d he hcol h => h ρ hρ he hcol) e c d he hcol hdep h2, i2⟩
        · cases h1
          exact ⟨fun ρ _ he _ => good_nodep he hd (by simpa using hdep) c, hS1⟩
      refine ⟨key.1, fun t ht => ?_⟩
      rcases List.mem_append.1 ht with ht | ht
      · exact key.2 t ht
      · rw [List.mem_singleton] at ht
        subst ht
        exact ⟨v, hv, rfl, key.1⟩

end
end DerivativeCache
end Verif.Levi
