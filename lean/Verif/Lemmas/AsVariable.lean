import Verif.Lemmas.LeviChain
import Verif.Lemmas.DerivativeCacheGood
import Verif.Model.AsVariable
/- Variables made from expressions: lemmas. -/
namespace Verif.Levi
open Ex Spec
namespace AsVariable
open DerivativeCache Chain
noncomputable section

/-- If the answers a node gets are right along the motions, so is the one it gives. -/
theorem new_right {cfg : Cfg ℝ} {v : Var} {μ : Motion v} (hs : Sound cfg) (hv : 0 < v.dim) {p : Var → Bool} (hp : ∀ e, μ.dep e = mentions p e) (ofVar : Var → Any (Ex ℝ)) (ask : Ex ℝ → Nat → Any (Ex ℝ))
    (hvar : ∀ (w : Var) (d : Ex ℝ), p w = true → ofVar w d → 0 < w.dim → Chain.Good μ (.var w) 0 d)
    (ih : ∀ (e : Ex ℝ) (c : Nat) (d : Ex ℝ), Kept (PowOk μ.env) e → c < e.cols → ask e c d → Chain.Good μ e c d)
    (e : Ex ℝ) (c : Nat) (d : Ex ℝ) (he : Kept (PowOk μ.env) e) (hc : c < e.cols) (hd : μ.dep e = true) (h : newDerivative (m := Any) cfg v μ.dep ofVar ask e c d) : Chain.Good μ e c d := by
  cases e with
  | const r c M => simp [hp, mentions] at hd
  | null r c => simp [hp, mentions] at hd
  | ident n => simp [hp, mentions] at hd
  | sparse r c l => simp [hp, mentions] at hd
  | var w =>
    simp only [newDerivative] at h
    rw [hp, mentions] at hd
    obtain rfl : c = 0 := by simpa [cols, size] using hc
    exact hvar w d hd h he
  | add a b =>
    simp only [newDerivative] at h
    have hca : c < a.cols := hc
    have hcb : c < b.cols := by rw [cols, he.2.2]; exact hc
    by_cases h1 : (μ.dep a && μ.dep b) = true
    · rw [if_pos h1] at h
      obtain ⟨da, h2, h⟩ := bind_iff.1 h
      obtain ⟨db, h3, h⟩ := bind_iff.1 h
      obtain rfl := pure_iff.1 h
      exact Chain.good_add hs he (ih _ _ _ he.1 hca h2) (ih _ _ _ he.2.1 hcb h3)
    · rw [if_neg h1] at h
      by_cases h2 : μ.dep a = true
      · rw [if_pos h2] at h
        exact Chain.good_add_l he (ih _ _ _ he.1 hca h) (by simpa [h2] using h1)
      · rw [if_neg h2] at h
        exact Chain.good_add_r he (ih _ _ _ he.2.1 hcb h) (by simpa using h2)
  | sub a b =>
    simp only [newDerivative] at h
    have hca : c < a.cols := hc
    have hcb : c < b.cols := by rw [cols, he.2.2]; exact hc
    by_cases h1 : (μ.dep a && μ.dep b) = true
    · rw [if_pos h1] at h
      obtain ⟨da, h2, h⟩ := bind_iff.1 h
      obtain ⟨db, h3, h⟩ := bind_iff.1 h
      obtain rfl := pure_iff.1 h
      exact Chain.good_sub hs he (ih _ _ _ he.1 hca h2) (ih _ _ _ he.2.1 hcb h3)
    · rw [if_neg h1] at h
      by_cases h2 : μ.dep a = true
      · rw [if_pos h2] at h
        exact Chain.good_sub_l he (ih _ _ _ he.1 hca h) (by simpa [h2] using h1)
      · rw [if_neg h2] at h
        obtain ⟨db, h3, h⟩ := bind_iff.1 h
        obtain rfl := pure_iff.1 h
        exact Chain.good_sub_r he (ih _ _ _ he.2.1 hcb h3) (by simpa using h2)
  | neg a =>
    simp only [newDerivative] at h
    obtain ⟨da, h2, h⟩ := bind_iff.1 h
    obtain rfl := pure_iff.1 h
    exact Chain.good_neg he (ih _ _ _ he hc h2)
  | mul a b =>
    simp only [newDerivative] at h
    by_cases sa : a.isScalar = true
    · have hcb : c < b.cols := by rw [cols, ← mul_rows_l he sa]; exact hc
      have h0a : 0 < a.cols := (pos he.1).2
      by_cases sb : b.isScalar = true
      · obtain rfl : c = 0 := by rw [(scalar_rows sb).2] at hcb; omega
        rw [if_pos (by rw [sa, sb]; rfl)] at h
        by_cases h1 : (μ.dep a && μ.dep b) = true
        · rw [if_pos h1] at h
          obtain ⟨da, h2, h⟩ := bind_iff.1 h
          obtain ⟨db, h3, h⟩ := bind_iff.1 h
          obtain rfl := pure_iff.1 h
          exact Chain.good_ss hs he sa sb rfl (ih _ _ _ he.1 h0a h2) (ih _ _ _ he.2.1 hcb h3)
        · rw [if_neg h1] at h
          by_cases h2 : μ.dep a = true
          · rw [if_pos h2] at h
            obtain ⟨da, h3, h⟩ := bind_iff.1 h
            obtain rfl := pure_iff.1 h
            exact Chain.good_ss_a he sa sb rfl (ih _ _ _ he.1 h0a h3) (by simpa [h2] using h1)
          · rw [if_neg h2] at h
            obtain ⟨db, h3, h⟩ := bind_iff.1 h
            obtain rfl := pure_iff.1 h
            exact Chain.good_l_b he sa (by simpa using h2) (ih _ _ _ he.2.1 hcb h3)
      · rw [if_neg (by simp [sb]), if_pos sa] at h
        by_cases h1 : (μ.dep a && μ.dep b) = true
        · rw [if_pos h1] at h
          obtain ⟨db, h3, h⟩ := bind_iff.1 h
          obtain ⟨da, h2, h⟩ := bind_iff.1 h
          obtain rfl := pure_iff.1 h
          exact Chain.good_l hs he sa hcb (ih _ _ _ he.1 h0a h2) (ih _ _ _ he.2.1 hcb h3)
        · rw [if_neg h1] at h
          by_cases h2 : μ.dep a = true
          · rw [if_pos h2] at h
            obtain ⟨da, h3, h⟩ := bind_iff.1 h
            obtain rfl := pure_iff.1 h
            exact Chain.good_l_a hs he sa hcb (ih _ _ _ he.1 h0a h3) (by simpa [h2] using h1)
          · rw [if_neg h2] at h
            obtain ⟨db, h3, h⟩ := bind_iff.1 h
            obtain rfl := pure_iff.1 h
            exact Chain.good_l_b he sa (by simpa using h2) (ih _ _ _ he.2.1 hcb h3)
    · rw [if_neg (by simp [sa]), if_neg sa] at h
      have hm : a.cols = b.rows := he.2.2.resolve_right sa
      by_cases sb : b.isScalar = true
      · rw [if_pos sb] at h
        have hca : c < a.cols := by rw [cols, ← mul_rows_r he sb]; exact hc
        have h0b : 0 < b.cols := (pos he.2.1).2
        by_cases h1 : (μ.dep a && μ.dep b) = true
        · rw [if_pos h1] at h
          obtain ⟨da, h2, h⟩ := bind_iff.1 h
          obtain ⟨db, h3, h⟩ := bind_iff.1 h
          obtain rfl := pure_iff.1 h
          exact Chain.good_r hs he sb hca (ih _ _ _ he.1 hca h2) (ih _ _ _ he.2.1 h0b h3)
        · rw [if_neg h1] at h
          by_cases h2 : μ.dep a = true
          · rw [if_pos h2] at h
            obtain ⟨da, h3, h⟩ := bind_iff.1 h
            obtain rfl := pure_iff.1 h
            exact Chain.good_r_a he sb (ih _ _ _ he.1 hca h3) (by simpa [h2] using h1)
          · rw [if_neg h2] at h
            obtain ⟨db, h3, h⟩ := bind_iff.1 h
            obtain rfl := pure_iff.1 h
            exact Chain.good_r_b hs he sb hca (by simpa using h2) (ih _ _ _ he.2.1 h0b h3)
      · rw [if_neg sb] at h
        have hcb : c < b.cols := by
          have := mul_rows_s he hm
          rw [cols, this] at hc; exact hc
        by_cases h1 : (μ.dep a && μ.dep b) = true
        · rw [if_pos h1] at h
          obtain ⟨db, h3, h⟩ := bind_iff.1 h
          obtain ⟨g, h2, h⟩ := bind_iff.1 h
          obtain rfl := pure_iff.1 h
          exact Chain.good_s hs he hm hcb (fun k hk => ih _ _ _ he.1 hk (collect_any h2 k hk)) (ih _ _ _ he.2.1 hcb h3)
        · rw [if_neg h1] at h
          by_cases h2 : μ.dep a = true
          · rw [if_pos h2] at h
            obtain ⟨g, h3, h⟩ := bind_iff.1 h
            obtain rfl := pure_iff.1 h
            exact Chain.good_s_a hs he hm hcb (fun k hk => ih _ _ _ he.1 hk (collect_any h3 k hk)) (by simpa [h2] using h1)
          · rw [if_neg h2] at h
            obtain ⟨db, h3, h⟩ := bind_iff.1 h
            obtain rfl := pure_iff.1 h
            exact Chain.good_s_b he hm (by simpa using h2) (ih _ _ _ he.2.1 hcb h3)
  | pow a α =>
    simp only [newDerivative] at h
    obtain rfl : c = 0 := by simpa [cols, size] using hc
    have h0a : 0 < a.cols := (pos he.1).2
    by_cases h1 : |α - 1| < e15
    · rw [if_pos h1] at h
      exact Chain.good_pow1 he h1 (ih _ _ _ he.1 h0a h)
    · rw [if_neg h1] at h
      obtain ⟨da, h2, h⟩ := bind_iff.1 h
      obtain rfl := pure_iff.1 h
      exact Chain.good_pow he h1 (ih _ _ _ he.1 h0a h2)
  | div a b =>
    simp only [newDerivative] at h
    have vp := val_powneg (cfg := cfg) he
    refine Chain.good_div he (ih _ _ _ vp.1 ?_ h)
    have : c < b.cols := hc
    rw [cols, he.2.2.2.1] at this
    rw [cols, vp.size pw0 ρ0, SM.smul_c, (dimsK he.1 _ _).2, he.2.2.1]; exact this
  | skew a =>
    simp only [newDerivative] at h
    obtain ⟨da, h2, h⟩ := bind_iff.1 h
    obtain rfl := pure_iff.1 h
    exact Chain.good_skew he hc (ih _ _ _ he.1 (pos he.1).2 h2)
  | transpose a =>
    simp only [newDerivative] at h
    obtain ⟨g, h2, h⟩ := bind_iff.1 h
    obtain rfl := pure_iff.1 h
    have hk : Kept (PowOk μ.env) a := he
    refine Chain.good_byRows (x := fun j => a.elemAcc cfg c j) (pos hk).2 rfl (fun k hk' => ?_) fun k hk' => ?_
    · have := elem_ok hs hk (i := c) (j := k) hc hk'
      exact ⟨this.2.1, fun σ => by rw [this.2.2, ev, SM.tr_f]⟩
    · have := elem_ok hs hk (i := c) (j := k) hc hk'
      exact ih _ _ _ this.1 (by rw [cols, this.2.1]; exact Nat.one_pos) (collect_any h2 k hk')
  | vee a =>
    simp only [newDerivative] at h
    obtain ⟨g, h2, h⟩ := bind_iff.1 h
    obtain rfl := pure_iff.1 h
    have hk : Kept (PowOk μ.env) a := he.1
    obtain rfl : c = 0 := by simpa [cols, size] using hc
    have ar : a.rows = 3 := by rw [rows, he.2]
    have ac : a.cols = 3 := by rw [cols, he.2]
    have e0 := elem_ok hs hk (i := 2) (j := 1) (by omega) (by omega)
    have e1 := elem_ok hs hk (i := 0) (j := 2) (by omega) (by omega)
    have e2 := elem_ok hs hk (i := 1) (j := 0) (by omega) (by omega)
    refine Chain.good_byRows (m := 3) (x := veeElement cfg a) (by omega) rfl (fun k hk' => ?_) fun k hk' => ?_
    · interval_cases k
      · exact ⟨e0.2.1, fun σ => (e0.2.2 σ).trans (by simp [ev, SM.vee, SM.of_f])⟩
      · exact ⟨e1.2.1, fun σ => (e1.2.2 σ).trans (by simp [ev, SM.vee, SM.of_f])⟩
      · exact ⟨e2.2.1, fun σ => (e2.2.2 σ).trans (by simp [ev, SM.vee, SM.of_f])⟩
    · have h3 := collect_any h2 k hk'
      interval_cases k
      · exact ih _ _ _ e0.1 (show 0 < (a.elemAcc cfg 2 1).cols by rw [cols, e0.2.1]; exact Nat.one_pos) h3
      · exact ih _ _ _ e1.1 (show 0 < (a.elemAcc cfg 0 2).cols by rw [cols, e1.2.1]; exact Nat.one_pos) h3
      · exact ih _ _ _ e2.1 (show 0 < (a.elemAcc cfg 1 0).cols by rw [cols, e2.2.1]; exact Nat.one_pos) h3
  | row a i =>
    simp only [newDerivative] at h
    obtain ⟨da, h2, h⟩ := bind_iff.1 h
    obtain rfl := pure_iff.1 h
    exact Chain.good_row he.1 he.2 (ih _ _ _ he.1 hc h2)
  | col a k =>
    simp only [newDerivative] at h
    obtain rfl : c = 0 := by simpa [cols, size] using hc
    refine Chain.good_of (ih _ _ _ he.1 he.2 h) rfl fun σ i _ => ?_
    rw [ev, SM.col_f]
  | elem a i k =>
    simp only [newDerivative] at h
    obtain rfl : c = 0 := by simpa [cols, size] using hc
    obtain ⟨da, h2, h⟩ := bind_iff.1 h
    obtain rfl := pure_iff.1 h
    exact Chain.good_elem he.1 he.2.1 (ih _ _ _ he.1 he.2.2 h2)
  | block a i k r cc =>
    simp only [newDerivative] at h
    obtain ⟨da, h2, h⟩ := bind_iff.1 h
    obtain rfl := pure_iff.1 h
    have hc' : c < cc := hc
    exact Chain.good_block he.1 hv he.2.1 he.2.2.2.1 hc' (ih _ _ _ he.1 (by have := he.2.2.2.2; omega) h2)
  | byRows m f =>
    simp only [newDerivative] at h
    obtain ⟨g, h2, h⟩ := bind_iff.1 h
    obtain rfl := pure_iff.1 h
    have hc' : c < (f 0).cols := hc
    have ek := fun k (hk : k < m) => elem_ok hs (he.2 k hk).1 (i := 0) (j := c)
      (by rw [rows, (he.2 k hk).2]; exact Nat.one_pos) (by rw [cols, (he.2 k hk).2]; exact hc')
    refine Chain.good_byRows (x := fun k => (f k).elemAcc cfg 0 c) he.1 rfl (fun k hk => ?_) fun k hk => ?_
    · refine ⟨(ek k hk).2.1, fun σ => ?_⟩
      rw [(ek k hk).2.2, ev, SM.f_in _ _ _ hk (by rw [(dimsK (he.2 0 he.1).1 _ _).2]; exact hc')]
    · exact ih _ _ _ (ek k hk).1 (by rw [cols, (ek k hk).2.1]; exact Nat.one_pos) (collect_any h2 k hk)
  | byCols m f =>
    simp only [newDerivative] at h
    have hc' : c < m := hc
    have fc := he.2 c hc'
    refine Chain.good_of (ih _ _ _ fc.1 (by rw [cols, fc.2]; exact Nat.one_pos) h) (by rw [rows, fc.2]; rfl) fun σ i hi => ?_
    rw [ev, SM.f_in _ _ _ (by rw [(dimsK (he.2 0 he.1).1 _ _).1]; exact hi) hc']
  | hcat a b =>
    simp only [newDerivative] at h
    have ev_f : ∀ σ i, i < a.rows → ((hcat a b).ev rpow σ).f i c =
        if c < a.cols then (a.ev rpow σ).f i c else (b.ev rpow σ).f i (c - a.cols) := by
      intro σ i hi
      rw [ev, SM.hcat_f _ _ (by rw [(dimsK he.1 _ _).1]; exact hi), (dimsK he.1 _ _).2]
    by_cases h1 : c < a.cols
    · rw [if_pos h1] at h
      refine Chain.good_of (ih _ _ _ he.1 h1 h) rfl fun σ i hi => ?_
      rw [ev_f σ i hi, if_pos h1]
    · rw [if_neg h1] at h
      have hc' : c < a.cols + b.cols := hc
      refine Chain.good_of (ih _ _ _ he.2.1 (by omega) h) he.2.2 fun σ i hi => ?_
      rw [ev_f σ i hi, if_neg h1]
  | vcat a b =>
    simp only [newDerivative] at h
    obtain ⟨da, h2, h⟩ := bind_iff.1 h
    obtain ⟨db, h3, h⟩ := bind_iff.1 h
    obtain rfl := pure_iff.1 h
    have hca : c < a.cols := hc
    exact Chain.good_vcat he hca (ih _ _ _ he.1 hca h2) (ih _ _ _ he.2.1 (by rw [he.2.2]; exact hca) h3)
  | mpd m ds x =>
    simp only [newDerivative] at h
    have vc := val_mpd_col he (show c < (ds 0).cols from hc) fun k hk =>
      (access hs (he.2.1 k hk).1).2.1 c (by rw [cols, (he.2.1 k hk).2]; exact hc)
    refine Chain.good_of (ih _ _ _ vc.1 (by rw [cols, vc.size pw0 ρ0]; exact Nat.one_pos) h) ?_ fun σ i _ => ?_
    · rw [rows, vc.size pw0 ρ0, SM.col_r, (dimsK he _ _).1]
    · rw [vc.2, SM.col_f]


end
end AsVariable
end Verif.Levi
