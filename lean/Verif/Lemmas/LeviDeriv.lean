import Verif.Lemmas.LeviAccess
import Mathlib.Analysis.SpecialFunctions.Pow.Deriv
import Mathlib.Analysis.Calculus.Deriv.Add
import Mathlib.Analysis.Calculus.Deriv.Mul
/- Column derivatives of levi expressions. -/
set_option linter.unusedSectionVars false
namespace Verif.Levi
open Spec Ex

section generic
variable {K : Type} [Field K] [LinearOrder K] {P : Ex K → K → Prop} {cfg : Cfg K}

theorem set_self (ρ : Env K) (v : Var) (j : Nat) : set ρ v j (ρ v j) = ρ := by
  funext w k
  unfold Spec.set
  split_ifs with h
  · rw [h.1, h.2]
  · rfl

/-- An expression that does not depend on a variable does not change with it. -/
theorem nodep {M : Ex K → Ex K → Prop} {e : Ex K} (hk : Formed M P e) {v : Var} (h : e.dep v = false) (pw : K → K → K)
    (ρ : Env K) (j : Nat) (x : K) : e.ev pw (set ρ v j x) = e.ev pw ρ := by
  have anyf : ∀ (n : Nat) (f : Nat → Ex K), ((List.range n).any fun i => (f i).dep v) = false →
      ∀ i, i < n → (f i).dep v = false := by
    intro n f h i hi
    rw [List.any_eq_false] at h
    simpa using h i (List.mem_range.2 hi)
  induction e with
  | const r c M => rfl
  | null r c => rfl
  | ident n => rfl
  | sparse r c l => rfl
  | var w =>
    have hw : w ≠ v := by simpa [dep] using h
    simp only [ev, Spec.set]
    exact SM.of_congr rfl rfl fun i j _ _ => by rw [if_neg (fun h => hw h.1)]
  | add a b iha ihb => simp only [dep, Bool.or_eq_false_iff] at h; simp only [ev, iha hk.1 h.1, ihb hk.2.1 h.2]
  | sub a b iha ihb => simp only [dep, Bool.or_eq_false_iff] at h; simp only [ev, iha hk.1 h.1, ihb hk.2.1 h.2]
  | mul a b iha ihb => simp only [dep, Bool.or_eq_false_iff] at h; simp only [ev, iha hk.1 h.1, ihb hk.2.1 h.2]
  | div a b iha ihb => simp only [dep, Bool.or_eq_false_iff] at h; simp only [ev, iha hk.1 h.1, ihb hk.2.1 h.2]
  | hcat a b iha ihb => simp only [dep, Bool.or_eq_false_iff] at h; simp only [ev, iha hk.1 h.1, ihb hk.2.1 h.2]
  | vcat a b iha ihb => simp only [dep, Bool.or_eq_false_iff] at h; simp only [ev, iha hk.1 h.1, ihb hk.2.1 h.2]
  | neg a iha => simp only [ev, iha hk h]
  | pow a e iha => simp only [ev, iha hk.1 h]
  | skew a iha => simp only [ev, iha hk.1 h]
  | transpose a iha => simp only [ev, iha hk h]
  | vee a iha => simp only [ev, iha hk.1 h]
  | row a i iha => simp only [ev, iha hk.1 h]
  | col a i iha => simp only [ev, iha hk.1 h]
  | elem a i k iha => simp only [ev, iha hk.1 h]
  | block a i k r c iha => simp only [ev, iha hk.1 h]
  | byRows n f ihf =>
    have hf := anyf n f h
    simp only [ev, ihf 0 (hk.2 0 hk.1).1 (hf 0 hk.1)]
    exact SM.of_congr rfl rfl fun i j hi _ => by rw [ihf i (hk.2 i hi).1 (hf i hi)]
  | byCols n f ihf =>
    have hf := anyf n f h
    simp only [ev, ihf 0 (hk.2 0 hk.1).1 (hf 0 hk.1)]
    exact SM.of_congr rfl rfl fun j i _ hi => by rw [ihf i (hk.2 i hi).1 (hf i hi)]
  | mpd n ds x ihd ihx =>
    simp only [dep, Bool.or_eq_false_iff] at h
    have hf := anyf n ds h.2
    simp only [ev, ihd 0 (hk.2.1 0 hk.1).1 (hf 0 hk.1), ihx hk.2.2.1 h.1]
    refine SM.of_congr rfl rfl fun i j _ _ => Finset.sum_congr rfl fun k hk' => ?_
    rw [ihd k (hk.2.1 k (Finset.mem_range.1 hk')).1 (hf k (Finset.mem_range.1 hk'))]

theorem collect_some {n : Nat} {f : Nat → Option (Ex K)} {g : Nat → Ex K} (h : collect n f = some g) :
    ∀ i, i < n → f i = some (g i) := by
  unfold collect at h
  split_ifs at h with hall
  intro i hi
  rw [List.all_eq_true] at hall
  have := hall i (List.mem_range.2 hi)
  obtain ⟨x, hx⟩ := Option.isSome_iff_exists.1 this
  simp only [Option.some.injEq] at h
  rw [← h]; simp [hx, hi]

theorem colmul {A G : SM K} {c : Nat} (h : G.r = 1) (i j : Nat) :
    (SM.mul (SM.col A c) G).f i j = A.f i c * G.f 0 j := by
  rw [SM.mul_std_f (by rw [SM.col_c, h]), SM.col_c]
  simp [SM.col_f]

end generic

variable {ρ : Env ℝ} {v : Var} {cfg : Cfg ℝ}

/-- `d` is well formed and is the derivative. -/
def Good (ρ : Env ℝ) (e : Ex ℝ) (c : Nat) (v : Var) (d : Ex ℝ) : Prop :=
  Kept (PowOk ρ) d ∧ IsColumnDerivative ρ e c v d

theorem Good.all {e d : Ex ℝ} {c : Nat} (he : Kept (PowOk ρ) e) (h : Good ρ e c v d) (i : Nat) {j : Nat} (hj : j < v.dim) :
    HasDerivAt (fun t => (e.ev rpow (set ρ v j t)).f i c) ((d.ev rpow ρ).f i j) (ρ v j) := by
  by_cases hi : i < e.rows
  · exact h.2.deriv i j hi hj
  · have e1 : (d.ev rpow ρ).f i j = 0 := by
      apply SM.out
      rw [(dimsK h.1 rpow ρ).1, rows, h.2.size]; tauto
    have e2 : (fun t => (e.ev rpow (set ρ v j t)).f i c) = fun _ => 0 := by
      funext t
      apply SM.out
      rw [(dimsK he rpow _).1]; tauto
    rw [e1, e2]
    exact hasDerivAt_const _ _

theorem Good.r {e d : Ex ℝ} {c : Nat} (h : Good ρ e c v d) (pw) (σ : Env ℝ) : (d.ev pw σ).r = e.rows := by
  rw [(dimsK h.1 pw σ).1, rows, h.2.size]
theorem Good.c {e d : Ex ℝ} {c : Nat} (h : Good ρ e c v d) (pw) (σ : Env ℝ) : (d.ev pw σ).c = v.dim := by
  rw [(dimsK h.1 pw σ).2, cols, h.2.size]

theorem nd {e : Ex ℝ} (he : Kept (PowOk ρ) e) (h : e.dep v = false) (i k j : Nat) :
    HasDerivAt (fun t => (e.ev rpow (set ρ v j t)).f i k) 0 (ρ v j) := by
  have : (fun t => (e.ev rpow (set ρ v j t)).f i k) = fun _ => (e.ev rpow ρ).f i k := by
    funext t; rw [nodep he h]
  rw [this]; exact hasDerivAt_const _ _

theorem good_nodep {e : Ex ℝ} (he : Kept (PowOk ρ) e) (hv : 0 < v.dim) (h : e.dep v = false) (c : Nat) :
    Good ρ e c v (null e.rows v.dim) := by
  refine ⟨⟨(pos he).1, hv⟩, rfl, fun i j _ _ => ?_⟩
  rw [ev, SM.zero_f]; exact nd he h i c j

theorem good_mk {e d : Ex ℝ} {c : Nat} {M} (hd : Val (PowOk ρ) d M) (hr : (M rpow ρ).r = e.rows)
    (hc : (M rpow ρ).c = v.dim)
    (h : ∀ i j, i < e.rows → j < v.dim →
      HasDerivAt (fun t => (e.ev rpow (set ρ v j t)).f i c) ((M rpow ρ).f i j) (ρ v j)) : Good ρ e c v d := by
  refine ⟨hd.1, ?_, fun i j hi hj => ?_⟩
  · rw [hd.size rpow ρ, hr, hc]
  · rw [hd.2]; exact h i j hi hj

/-- Same derivative for expressions of equal value. -/
theorem good_of {e e' d : Ex ℝ} {c c' : Nat} (h : Good ρ e c v d) (hs : e.rows = e'.rows)
    (he : ∀ σ i, i < e'.rows → (e'.ev rpow σ).f i c' = (e.ev rpow σ).f i c) : Good ρ e' c' v d := by
  refine ⟨h.1, ?_, fun i j hi hj => ?_⟩
  · rw [h.2.size, hs]
  · have := h.2.deriv i j (hs ▸ hi) hj
    have e2 : (fun t => (e'.ev rpow (set ρ v j t)).f i c') = fun t => (e.ev rpow (set ρ v j t)).f i c :=
      funext fun t => he _ i hi
    rw [e2]; exact this

theorem good_of_deriv {e e' d : Ex ℝ} {c c' : Nat} (h : Good ρ e c v d) (hs : e.rows = e'.rows)
    (he : ∀ i j, i < e'.rows → j < v.dim →
      HasDerivAt (fun t => (e'.ev rpow (set ρ v j t)).f i c') ((d.ev rpow ρ).f i j) (ρ v j)) : Good ρ e' c' v d :=
  ⟨h.1, by rw [h.2.size, hs], he⟩

section cases
variable {a b da db : Ex ℝ} {c : Nat}

theorem ev_add_f (ha : Kept (PowOk ρ) a) (hb : Kept (PowOk ρ) b) (hsz : b.size = a.size) (σ : Env ℝ) (i c : Nat) :
    ((add a b).ev rpow σ).f i c = (a.ev rpow σ).f i c + (b.ev rpow σ).f i c := by
  rw [ev, SM.add_f]
  · rw [(dimsK ha _ _).1, (dimsK hb _ _).1, rows, hsz]
  · rw [(dimsK ha _ _).2, (dimsK hb _ _).2, cols, hsz]

theorem ev_sub_f (ha : Kept (PowOk ρ) a) (hb : Kept (PowOk ρ) b) (hsz : b.size = a.size) (σ : Env ℝ) (i c : Nat) :
    ((sub a b).ev rpow σ).f i c = (a.ev rpow σ).f i c - (b.ev rpow σ).f i c := by
  rw [ev, SM.sub_f]
  · rw [(dimsK ha _ _).1, (dimsK hb _ _).1, rows, hsz]
  · rw [(dimsK ha _ _).2, (dimsK hb _ _).2, cols, hsz]

theorem good_add (hs : Sound cfg) (h : Kept (PowOk ρ) (add a b)) (ga : Good ρ a c v da) (gb : Good ρ b c v db) :
    Good ρ (add a b) c v (addOp cfg da db) := by
  obtain ⟨ha, hb, hsz⟩ := h
  have hr : db.size = da.size := by rw [ga.2.size, gb.2.size, rows, hsz]
  refine good_mk (val_addOp hs (Val.self ga.1) (Val.self gb.1) hr) ?_ ?_ fun i j hi hj => ?_
  · rw [SM.add_r, ga.r]; rfl
  · rw [SM.add_c, ga.c]
  · simp only [ev_add_f ha hb hsz]
    rw [SM.add_f (by rw [ga.r, gb.r, rows, hsz]) (by rw [ga.c, gb.c])]
    exact (ga.all ha i hj).add (gb.all hb i hj)

theorem good_sub (hs : Sound cfg) (h : Kept (PowOk ρ) (sub a b)) (ga : Good ρ a c v da) (gb : Good ρ b c v db) :
    Good ρ (sub a b) c v (subOp cfg da db) := by
  obtain ⟨ha, hb, hsz⟩ := h
  have hr : db.size = da.size := by rw [ga.2.size, gb.2.size, rows, hsz]
  refine good_mk (val_subOp hs (Val.self ga.1) (Val.self gb.1) hr) ?_ ?_ fun i j hi hj => ?_
  · rw [SM.sub_r, ga.r]; rfl
  · rw [SM.sub_c, ga.c]
  · simp only [ev_sub_f ha hb hsz]
    rw [SM.sub_f (by rw [ga.r, gb.r, rows, hsz]) (by rw [ga.c, gb.c])]
    exact (ga.all ha i hj).sub (gb.all hb i hj)

theorem good_add_l (h : Kept (PowOk ρ) (add a b)) (ga : Good ρ a c v da) (hb' : b.dep v = false) :
    Good ρ (add a b) c v da := by
  obtain ⟨ha, hb, hsz⟩ := h
  refine good_of_deriv ga rfl fun i j _ hj => ?_
  simp only [ev_add_f ha hb hsz]
  exact HasDerivAt.congr_deriv ((ga.all ha i hj).add (nd hb hb' i c j)) (by simp)

theorem good_add_r (h : Kept (PowOk ρ) (add a b)) (gb : Good ρ b c v db) (ha' : a.dep v = false) :
    Good ρ (add a b) c v db := by
  obtain ⟨ha, hb, hsz⟩ := h
  refine good_of_deriv gb (by rw [rows, hsz]; rfl) fun i j _ hj => ?_
  simp only [ev_add_f ha hb hsz]
  exact HasDerivAt.congr_deriv ((nd ha ha' i c j).add (gb.all hb i hj)) (by simp)

theorem good_sub_l (h : Kept (PowOk ρ) (sub a b)) (ga : Good ρ a c v da) (hb' : b.dep v = false) :
    Good ρ (sub a b) c v da := by
  obtain ⟨ha, hb, hsz⟩ := h
  refine good_of_deriv ga rfl fun i j _ hj => ?_
  simp only [ev_sub_f ha hb hsz]
  exact HasDerivAt.congr_deriv ((ga.all ha i hj).sub (nd hb hb' i c j)) (by simp)

theorem good_sub_r (h : Kept (PowOk ρ) (sub a b)) (gb : Good ρ b c v db) (ha' : a.dep v = false) :
    Good ρ (sub a b) c v (negOp db) := by
  obtain ⟨ha, hb, hsz⟩ := h
  refine good_mk (val_neg (Val.self gb.1)) ?_ ?_ fun i j _ hj => ?_
  · rw [SM.neg_r, gb.r, rows, hsz]; rfl
  · rw [SM.neg_c, gb.c]
  · simp only [ev_sub_f ha hb hsz, SM.neg_f]
    exact HasDerivAt.congr_deriv ((nd ha ha' i c j).sub (gb.all hb i hj)) (by simp)

theorem good_neg (ha : Kept (PowOk ρ) a) (ga : Good ρ a c v da) : Good ρ (Ex.neg a) c v (negOp da) := by
  refine good_mk (val_neg (Val.self ga.1)) ?_ ?_ fun i j _ hj => ?_
  · rw [SM.neg_r, ga.r]; rfl
  · rw [SM.neg_c, ga.c]
  · simp only [ev, SM.neg_f]
    exact (ga.all ha i hj).neg

/-- Product with a 1×1 factor on the left. -/
theorem deriv_mulL (ha : Kept (PowOk ρ) a) (hsc : a.isScalar = true) {i j : Nat} {x y : ℝ}
    (hx : HasDerivAt (fun t => (a.ev rpow (set ρ v j t)).f 0 0) x (ρ v j))
    (hy : HasDerivAt (fun t => (b.ev rpow (set ρ v j t)).f i c) y (ρ v j)) :
    HasDerivAt (fun t => ((mul a b).ev rpow (set ρ v j t)).f i c)
      (x * (b.ev rpow ρ).f i c + (a.ev rpow ρ).f 0 0 * y) (ρ v j) := by
  simp only [ev, fun σ => SM.mul_f_scalar_left ((isScalar_ev ha rpow σ).1 hsc)]
  have := hx.mul hy
  simp only [set_self] at this
  exact this

/-- Product with a 1×1 factor on the right. -/
theorem deriv_mulR (hb : Kept (PowOk ρ) b) (hsc : b.isScalar = true) {i j : Nat} {x y : ℝ}
    (hx : HasDerivAt (fun t => (a.ev rpow (set ρ v j t)).f i c) x (ρ v j))
    (hy : HasDerivAt (fun t => (b.ev rpow (set ρ v j t)).f 0 0) y (ρ v j)) :
    HasDerivAt (fun t => ((mul a b).ev rpow (set ρ v j t)).f i c)
      (y * (a.ev rpow ρ).f i c + (b.ev rpow ρ).f 0 0 * x) (ρ v j) := by
  simp only [ev, fun σ A => SM.mul_scalar_right A ((isScalar_ev hb rpow σ).1 hsc), SM.smul_f]
  have := hy.mul hx
  simp only [set_self] at this
  exact this

/-- Product of matrices. -/
theorem deriv_mulS (ha : Kept (PowOk ρ) a) (hb : Kept (PowOk ρ) b) (hm : a.cols = b.rows) {i j : Nat} {x y : Nat → ℝ}
    (hx : ∀ k, k < a.cols → HasDerivAt (fun t => (a.ev rpow (set ρ v j t)).f i k) (x k) (ρ v j))
    (hy : ∀ k, k < a.cols → HasDerivAt (fun t => (b.ev rpow (set ρ v j t)).f k c) (y k) (ρ v j)) :
    HasDerivAt (fun t => ((mul a b).ev rpow (set ρ v j t)).f i c)
      (∑ k ∈ Finset.range a.cols, (x k * (b.ev rpow ρ).f k c + (a.ev rpow ρ).f i k * y k)) (ρ v j) := by
  have e1 : (fun t => ((mul a b).ev rpow (set ρ v j t)).f i c) = fun t => ∑ k ∈ Finset.range a.cols,
      (a.ev rpow (set ρ v j t)).f i k * (b.ev rpow (set ρ v j t)).f k c := by
    funext t
    rw [ev, SM.mul_std_f (by rw [(dimsK ha _ _).2, (dimsK hb _ _).1, hm]), (dimsK ha _ _).2]
  rw [e1]
  refine HasDerivAt.fun_sum fun k hk => ?_
  have := (hx k (Finset.mem_range.1 hk)).mul (hy k (Finset.mem_range.1 hk))
  simp only [set_self] at this
  exact this

/-- `ev` of the derivatives of the columns times a vector. -/
theorem good_mpd {n : Nat} {ds : Nat → Ex ℝ} {x : Ex ℝ} {X} (hn : 0 < n) (hx : Val (PowOk ρ) x X) (hxs : x.size = (n, 1))
    {s : Nat × Nat} (hd : ∀ k, k < n → Kept (PowOk ρ) (ds k) ∧ (ds k).size = s) :
    Val (PowOk ρ) (mpd n ds x) fun pw σ => SM.of s.1 s.2 fun i j =>
      ∑ k ∈ Finset.range n, (X pw σ).f k 0 * ((ds k).ev pw σ).f i j := by
  refine ⟨⟨hn, fun k hk => ⟨(hd k hk).1, by rw [(hd k hk).2, (hd 0 hn).2]⟩, hx.1, hxs⟩, fun pw σ => ?_⟩
  rw [ev, hx.2, (dimsK (hd 0 hn).1 pw σ).1, (dimsK (hd 0 hn).1 pw σ).2, rows, cols, (hd 0 hn).2]

theorem scalar_rows (h : a.isScalar = true) : a.rows = 1 ∧ a.cols = 1 := by
  rw [isScalar_iff] at h; rw [rows, cols, h]; exact ⟨rfl, rfl⟩

theorem mul_rows_l (h : Kept (PowOk ρ) (mul a b)) (sa : a.isScalar = true) : (mul a b).size = b.size := by
  have := (dimsK h pw0 ρ0)
  rw [ev, SM.mul_scalar_left ((isScalar_ev h.1 _ _).1 sa), SM.smul_r, SM.smul_c, (dimsK h.2.1 _ _).1, (dimsK h.2.1 _ _).2] at this
  exact Prod.ext this.1.symm this.2.symm

theorem mul_rows_r (h : Kept (PowOk ρ) (mul a b)) (sb : b.isScalar = true) : (mul a b).size = a.size := by
  have := (dimsK h pw0 ρ0)
  rw [ev, SM.mul_scalar_right _ ((isScalar_ev h.2.1 _ _).1 sb), SM.smul_r, SM.smul_c, (dimsK h.1 _ _).1, (dimsK h.1 _ _).2] at this
  exact Prod.ext this.1.symm this.2.symm

theorem mul_rows_s (h : Kept (PowOk ρ) (mul a b)) (hm : a.cols = b.rows) : (mul a b).size = (a.rows, b.cols) := by
  have hc : (a.ev pw0 ρ0).c = (b.ev pw0 ρ0).r := by rw [(dimsK h.1 _ _).2, (dimsK h.2.1 _ _).1, hm]
  have := (dimsK h pw0 ρ0)
  rw [ev, SM.mul_std_r hc, SM.mul_std_c hc, (dimsK h.1 _ _).1, (dimsK h.2.1 _ _).2] at this
  exact Prod.ext this.1.symm this.2.symm

/-- A 1×1 factor times a derivative. -/
theorem val_scal (sa : a.isScalar = true) (ha : Kept (PowOk ρ) a) (hd : Kept (PowOk ρ) db) :
    Val (PowOk ρ) (mulOp cfg a db) fun pw σ => SM.smul ((a.ev pw σ).f 0 0) (db.ev pw σ) :=
  (val_mulOp cfg (Val.self ha) (Val.self hd) fun pw σ => Or.inr (Or.inl ((isScalar_ev ha pw σ).1 sa))).congr
    fun pw σ => SM.mul_scalar_left ((isScalar_ev ha pw σ).1 sa) _

/-- A column times the derivative of a 1×1 factor. -/
theorem val_colm (hs : Sound cfg) (ha : Kept (PowOk ρ) a) (hc : c < a.cols) (hd : Kept (PowOk ρ) db) (hr : db.rows = 1) :
    Val (PowOk ρ) (mulOp cfg (a.colAcc cfg c) db) fun pw σ =>
      SM.of a.rows db.cols fun i j => (a.ev pw σ).f i c * (db.ev pw σ).f 0 j := by
  have h1 : ∀ pw σ, (db.ev pw σ).r = 1 := fun pw σ => by rw [(dimsK hd pw σ).1, hr]
  refine (val_mulOp cfg ((access hs ha).2.1 c hc) (Val.self hd) fun pw σ => Or.inl (by rw [SM.col_c, h1])).congr
    fun pw σ => SM.ext' ?_ ?_ fun i j hi hj => ?_
  · rw [SM.mul_std_r (by rw [SM.col_c, h1]), SM.col_r, (dimsK ha pw σ).1]; rfl
  · rw [SM.mul_std_c (by rw [SM.col_c, h1]), (dimsK hd pw σ).2]; rfl
  · rw [SM.mul_std_r (by rw [SM.col_c, h1]), SM.col_r, (dimsK ha pw σ).1] at hi
    rw [SM.mul_std_c (by rw [SM.col_c, h1]), (dimsK hd pw σ).2] at hj
    rw [colmul (h1 pw σ), SM.f_in _ _ _ hi hj]

theorem Good.rows_eq {e d : Ex ℝ} (h : Good ρ e c v d) : d.rows = e.rows := by rw [rows, h.2.size]
theorem Good.cols_eq {e d : Ex ℝ} (h : Good ρ e c v d) : d.cols = v.dim := by rw [cols, h.2.size]

/-- Product of two 1×1 expressions. -/
theorem good_ss (hs : Sound cfg) (h : Kept (PowOk ρ) (mul a b)) (sa : a.isScalar = true) (sb : b.isScalar = true)
    (hc : c = 0) (ga : Good ρ a c v da) (gb : Good ρ b c v db) :
    Good ρ (mul a b) c v (addOp cfg (mulOp cfg b da) (mulOp cfg a db)) := by
  subst hc
  obtain ⟨ar, ac⟩ := scalar_rows sa
  obtain ⟨br, bc⟩ := scalar_rows sb
  have mr : (mul a b).rows = 1 := by rw [rows, mul_rows_l h sa]; exact br
  have v1 := val_scal (cfg := cfg) sb h.2.1 ga.1
  have v2 := val_scal (cfg := cfg) sa h.1 gb.1
  refine good_mk (val_addOp hs v1 v2 ?_) ?_ ?_ fun i j hi hj => ?_
  · rw [v1.size pw0 ρ0, v2.size pw0 ρ0, SM.smul_r, SM.smul_c, SM.smul_r, SM.smul_c, ga.r, ga.c, gb.r, gb.c, ar, br]
  · rw [SM.add_r, SM.smul_r, ga.r, ar, mr]
  · rw [SM.add_c, SM.smul_c, ga.c]
  · rw [mr] at hi
    obtain rfl : i = 0 := by omega
    rw [SM.add_f (by rw [SM.smul_r, SM.smul_r, ga.r, gb.r, ar, br]) (by rw [SM.smul_c, SM.smul_c, ga.c, gb.c]),
      SM.smul_f, SM.smul_f]
    exact (deriv_mulL h.1 sa (ga.all h.1 0 hj) (gb.all h.2.1 0 hj)).congr_deriv (by ring)

theorem good_ss_a (h : Kept (PowOk ρ) (mul a b)) (sa : a.isScalar = true) (sb : b.isScalar = true)
    (hc : c = 0) (ga : Good ρ a c v da) (hb : b.dep v = false) : Good ρ (mul a b) c v (mulOp cfg b da) := by
  subst hc
  obtain ⟨ar, ac⟩ := scalar_rows sa
  obtain ⟨br, bc⟩ := scalar_rows sb
  have mr : (mul a b).rows = 1 := by rw [rows, mul_rows_l h sa]; exact br
  refine good_mk (val_scal sb h.2.1 ga.1) ?_ ?_ fun i j hi hj => ?_
  · rw [SM.smul_r, ga.r, ar, mr]
  · rw [SM.smul_c, ga.c]
  · rw [mr] at hi
    obtain rfl : i = 0 := by omega
    rw [SM.smul_f]
    exact (deriv_mulL h.1 sa (ga.all h.1 0 hj) (nd h.2.1 hb 0 0 j)).congr_deriv (by ring)

theorem good_l (hs : Sound cfg) (h : Kept (PowOk ρ) (mul a b)) (sa : a.isScalar = true) (hc : c < b.cols)
    (ga : Good ρ a 0 v da) (gb : Good ρ b c v db) :
    Good ρ (mul a b) c v (addOp cfg (mulOp cfg a db) (mulOp cfg (b.colAcc cfg c) da)) := by
  obtain ⟨ar, ac⟩ := scalar_rows sa
  have mr : (mul a b).rows = b.rows := by rw [rows, mul_rows_l h sa]
  have v1 := val_scal (cfg := cfg) sa h.1 gb.1
  have v2 := val_colm hs h.2.1 hc ga.1 (by rw [ga.rows_eq, ar])
  refine good_mk (val_addOp hs v1 v2 ?_) ?_ ?_ fun i j hi hj => ?_
  · rw [v1.size pw0 ρ0, v2.size pw0 ρ0, SM.smul_r, SM.smul_c, SM.of_r, SM.of_c, gb.r, gb.c, ga.cols_eq]
  · rw [SM.add_r, SM.smul_r, gb.r, mr]
  · rw [SM.add_c, SM.smul_c, gb.c]
  · rw [mr] at hi
    rw [SM.add_f (by rw [SM.smul_r, SM.of_r, gb.r]) (by rw [SM.smul_c, SM.of_c, gb.c, ga.cols_eq]),
      SM.smul_f, SM.f_in _ _ _ hi (by rw [ga.cols_eq]; exact hj)]
    exact (deriv_mulL h.1 sa (ga.all h.1 0 hj) (gb.all h.2.1 i hj)).congr_deriv (by ring)

theorem good_l_a (hs : Sound cfg) (h : Kept (PowOk ρ) (mul a b)) (sa : a.isScalar = true) (hc : c < b.cols)
    (ga : Good ρ a 0 v da) (hb : b.dep v = false) : Good ρ (mul a b) c v (mulOp cfg (b.colAcc cfg c) da) := by
  obtain ⟨ar, ac⟩ := scalar_rows sa
  have mr : (mul a b).rows = b.rows := by rw [rows, mul_rows_l h sa]
  refine good_mk (val_colm hs h.2.1 hc ga.1 (by rw [ga.rows_eq, ar])) ?_ ?_ fun i j hi hj => ?_
  · rw [SM.of_r, mr]
  · rw [SM.of_c, ga.cols_eq]
  · rw [mr] at hi
    rw [SM.f_in _ _ _ hi (by rw [ga.cols_eq]; exact hj)]
    exact (deriv_mulL h.1 sa (ga.all h.1 0 hj) (nd h.2.1 hb i c j)).congr_deriv (by ring)

theorem good_l_b (h : Kept (PowOk ρ) (mul a b)) (sa : a.isScalar = true) (ha : a.dep v = false)
    (gb : Good ρ b c v db) : Good ρ (mul a b) c v (mulOp cfg a db) := by
  have mr : (mul a b).rows = b.rows := by rw [rows, mul_rows_l h sa]
  refine good_mk (val_scal sa h.1 gb.1) ?_ ?_ fun i j hi hj => ?_
  · rw [SM.smul_r, gb.r, mr]
  · rw [SM.smul_c, gb.c]
  · rw [SM.smul_f]
    exact (deriv_mulL h.1 sa (nd h.1 ha 0 0 j) (gb.all h.2.1 i hj)).congr_deriv (by ring)

theorem good_r (hs : Sound cfg) (h : Kept (PowOk ρ) (mul a b)) (sb : b.isScalar = true) (hc : c < a.cols)
    (ga : Good ρ a c v da) (gb : Good ρ b 0 v db) :
    Good ρ (mul a b) c v (addOp cfg (mulOp cfg b da) (mulOp cfg (a.colAcc cfg c) db)) := by
  obtain ⟨br, bc⟩ := scalar_rows sb
  have mr : (mul a b).rows = a.rows := by rw [rows, mul_rows_r h sb]
  have v1 := val_scal (cfg := cfg) sb h.2.1 ga.1
  have v2 := val_colm hs h.1 hc gb.1 (by rw [gb.rows_eq, br])
  refine good_mk (val_addOp hs v1 v2 ?_) ?_ ?_ fun i j hi hj => ?_
  · rw [v1.size pw0 ρ0, v2.size pw0 ρ0, SM.smul_r, SM.smul_c, SM.of_r, SM.of_c, ga.r, ga.c, gb.cols_eq]
  · rw [SM.add_r, SM.smul_r, ga.r, mr]
  · rw [SM.add_c, SM.smul_c, ga.c]
  · rw [mr] at hi
    rw [SM.add_f (by rw [SM.smul_r, SM.of_r, ga.r]) (by rw [SM.smul_c, SM.of_c, ga.c, gb.cols_eq]),
      SM.smul_f, SM.f_in _ _ _ hi (by rw [gb.cols_eq]; exact hj)]
    exact (deriv_mulR h.2.1 sb (ga.all h.1 i hj) (gb.all h.2.1 0 hj)).congr_deriv (by ring)

theorem good_r_a (h : Kept (PowOk ρ) (mul a b)) (sb : b.isScalar = true)
    (ga : Good ρ a c v da) (hb : b.dep v = false) : Good ρ (mul a b) c v (mulOp cfg b da) := by
  have mr : (mul a b).rows = a.rows := by rw [rows, mul_rows_r h sb]
  refine good_mk (val_scal sb h.2.1 ga.1) ?_ ?_ fun i j hi hj => ?_
  · rw [SM.smul_r, ga.r, mr]
  · rw [SM.smul_c, ga.c]
  · rw [SM.smul_f]
    exact (deriv_mulR h.2.1 sb (ga.all h.1 i hj) (nd h.2.1 hb 0 0 j)).congr_deriv (by ring)

theorem good_r_b (hs : Sound cfg) (h : Kept (PowOk ρ) (mul a b)) (sb : b.isScalar = true) (hc : c < a.cols)
    (ha : a.dep v = false) (gb : Good ρ b 0 v db) : Good ρ (mul a b) c v (mulOp cfg (a.colAcc cfg c) db) := by
  obtain ⟨br, bc⟩ := scalar_rows sb
  have mr : (mul a b).rows = a.rows := by rw [rows, mul_rows_r h sb]
  refine good_mk (val_colm hs h.1 hc gb.1 (by rw [gb.rows_eq, br])) ?_ ?_ fun i j hi hj => ?_
  · rw [SM.of_r, mr]
  · rw [SM.of_c, gb.cols_eq]
  · rw [mr] at hi
    rw [SM.f_in _ _ _ hi (by rw [gb.cols_eq]; exact hj)]
    exact (deriv_mulR h.2.1 sb (nd h.1 ha i c j) (gb.all h.2.1 0 hj)).congr_deriv (by ring)

/-- Matrix products. -/
theorem val_prod (ha : Kept (PowOk ρ) a) (hm : a.cols = b.rows) (gb : Good ρ b c v db) :
    Val (PowOk ρ) (mulOp cfg a db) fun pw σ =>
      SM.of a.rows v.dim fun i j => ∑ k ∈ Finset.range a.cols, (a.ev pw σ).f i k * (db.ev pw σ).f k j := by
  have hx : ∀ pw σ, (a.ev pw σ).c = (db.ev pw σ).r := fun pw σ => by rw [(dimsK ha pw σ).2, gb.r, hm]
  refine (val_mulOp cfg (Val.self ha) (Val.self gb.1) fun pw σ => Or.inl (hx pw σ)).congr fun pw σ => ?_
  rw [SM.mul_std (hx pw σ), (dimsK ha pw σ).1, gb.c, (dimsK ha pw σ).2]

theorem val_dcols (hs : Sound cfg) (h : Kept (PowOk ρ) (mul a b)) (hm : a.cols = b.rows) (hc : c < b.cols)
    {g : Nat → Ex ℝ} (ga : ∀ k, k < a.cols → Good ρ a k v (g k)) :
    Val (PowOk ρ) (mpd a.cols g (b.colAcc cfg c)) fun pw σ =>
      SM.of a.rows v.dim fun i j => ∑ k ∈ Finset.range a.cols, (b.ev pw σ).f k c * ((g k).ev pw σ).f i j := by
  have vc := (access hs h.2.1).2.1 c hc
  refine (good_mpd (s := (a.rows, v.dim)) (pos h.1).2 vc ?_ fun k hk => ⟨(ga k hk).1, (ga k hk).2.size⟩).congr
    fun pw σ => ?_
  · rw [vc.size pw0 ρ0, SM.col_r, SM.col_c, (dimsK h.2.1 _ _).1, hm]
  · simp only [SM.col_f]

theorem good_s (hs : Sound cfg) (h : Kept (PowOk ρ) (mul a b)) (hm : a.cols = b.rows) (hc : c < b.cols)
    {g : Nat → Ex ℝ} (ga : ∀ k, k < a.cols → Good ρ a k v (g k)) (gb : Good ρ b c v db) :
    Good ρ (mul a b) c v (addOp cfg (mulOp cfg a db) (mpd a.cols g (b.colAcc cfg c))) := by
  have mr : (mul a b).rows = a.rows := by rw [rows, mul_rows_s h hm]
  have v1 := val_prod (cfg := cfg) h.1 hm gb
  have v2 := val_dcols hs h hm hc ga
  refine good_mk (val_addOp hs v1 v2 ?_) ?_ ?_ fun i j hi hj => ?_
  · rw [v1.size pw0 ρ0, v2.size pw0 ρ0]; rfl
  · rw [SM.add_r, SM.of_r, mr]
  · rw [SM.add_c, SM.of_c]
  · rw [mr] at hi
    rw [SM.add_f (by rw [SM.of_r, SM.of_r]) (by rw [SM.of_c, SM.of_c]), SM.f_in _ _ _ hi hj, SM.f_in _ _ _ hi hj]
    refine (deriv_mulS h.1 h.2.1 hm (fun k hk => (ga k hk).all h.1 i hj) (fun k hk => gb.all h.2.1 k hj)).congr_deriv ?_
    rw [← Finset.sum_add_distrib]
    exact Finset.sum_congr rfl fun k _ => by ring

theorem good_s_a (hs : Sound cfg) (h : Kept (PowOk ρ) (mul a b)) (hm : a.cols = b.rows) (hc : c < b.cols)
    {g : Nat → Ex ℝ} (ga : ∀ k, k < a.cols → Good ρ a k v (g k)) (hb : b.dep v = false) :
    Good ρ (mul a b) c v (mpd a.cols g (b.colAcc cfg c)) := by
  have mr : (mul a b).rows = a.rows := by rw [rows, mul_rows_s h hm]
  refine good_mk (val_dcols hs h hm hc ga) ?_ ?_ fun i j hi hj => ?_
  · rw [SM.of_r, mr]
  · rw [SM.of_c]
  · rw [mr] at hi
    rw [SM.f_in _ _ _ hi hj]
    refine (deriv_mulS (y := fun _ => 0) h.1 h.2.1 hm (fun k hk => (ga k hk).all h.1 i hj)
      (fun k hk => nd h.2.1 hb k c j)).congr_deriv ?_
    exact Finset.sum_congr rfl fun k _ => by ring

theorem good_s_b (h : Kept (PowOk ρ) (mul a b)) (hm : a.cols = b.rows)
    (ha : a.dep v = false) (gb : Good ρ b c v db) : Good ρ (mul a b) c v (mulOp cfg a db) := by
  have mr : (mul a b).rows = a.rows := by rw [rows, mul_rows_s h hm]
  refine good_mk (val_prod h.1 hm gb) ?_ ?_ fun i j hi hj => ?_
  · rw [SM.of_r, mr]
  · rw [SM.of_c]
  · rw [mr] at hi
    rw [SM.f_in _ _ _ hi hj]
    refine (deriv_mulS (x := fun _ => 0) h.1 h.2.1 hm (fun k hk => nd h.1 ha i k j)
      (fun k hk => gb.all h.2.1 k hj)).congr_deriv ?_
    exact Finset.sum_congr rfl fun k _ => by ring

/-- Exponents that may be lowered by one. -/
theorem powOk_sub {α : ℝ} (h : PowOk ρ a α) (h1 : ¬|α - 1| < e15) : PowOk ρ a (α - 1) := by
  refine ⟨?_, fun n hn => ?_⟩
  · rcases h.1 with h' | ⟨h', z, hz⟩ | ⟨n, hn, hz⟩
    · exact Or.inl h'
    · exact Or.inr (Or.inl ⟨h', z - 1, by rw [hz]; push_cast; ring⟩)
    · refine Or.inr (Or.inr ⟨n - 1, ?_, by rw [hz, Nat.cast_sub hn]; simp⟩)
      have : n ≠ 1 := by
        rintro rfl
        apply h1
        rw [hz, e15]; norm_num
      omega
  · have := h.2 (n + 1) (by push_cast; rwa [show α - ((n : ℝ) + 1) = α - 1 - n by ring])
    rw [this]; push_cast; ring

theorem kept_pow_size {α : ℝ} (h : Kept (PowOk ρ) (pow a α)) : a.isScalar = true := (isScalar_iff a).2 h.2.1

theorem good_pow1 {α : ℝ} (h : Kept (PowOk ρ) (pow a α)) (hα : |α - 1| < e15) (ga : Good ρ a 0 v da) :
    Good ρ (pow a α) 0 v da := by
  have : α = 1 := by
    have := h.2.2.2 1 (by rw [Nat.cast_one]; exact hα)
    simpa using this
  subst this
  obtain ⟨ar, ac⟩ := scalar_rows (kept_pow_size h)
  refine good_of ga (by rw [ar]; rfl) fun σ i hi => ?_
  obtain rfl : i = 0 := by simpa [rows, size] using hi
  rw [ev, SM.scalar_f, rpow, Real.rpow_one]

theorem good_pow {α : ℝ} (h : Kept (PowOk ρ) (pow a α)) (hα : ¬|α - 1| < e15) (ga : Good ρ a 0 v da) :
    Good ρ (pow a α) 0 v (mulOp cfg (mulOp cfg (pow a (α - 1)) (const 1 1 fun _ _ => α)) da) := by
  obtain ⟨ar, ac⟩ := scalar_rows (kept_pow_size h)
  have hk : Kept (PowOk ρ) (pow a (α - 1)) := ⟨h.1, h.2.1, powOk_sub h.2.2 hα⟩
  have hc : Kept (PowOk ρ) (const 1 1 fun _ _ => α : Ex ℝ) := ⟨Nat.one_pos, Nat.one_pos⟩
  have v1 : Val (PowOk ρ) (mulOp cfg (pow a (α - 1)) (const 1 1 fun _ _ => α)) fun pw σ =>
      SM.scalar (pw ((a.ev pw σ).f 0 0) (α - 1) * α) := by
    refine (val_scal (a := pow a (α - 1)) rfl hk hc).congr fun pw σ => ?_
    rw [SM.smul_scalar (A := (const 1 1 fun _ _ => α : Ex ℝ).ev pw σ) ⟨rfl, rfl⟩]
    simp [ev, SM.of_f]
  have v2 := val_mulOp cfg v1 (Val.self ga.1) fun pw σ => Or.inr (Or.inl ⟨rfl, rfl⟩)
  have v3 := v2.congr fun pw σ => SM.mul_scalar_left ⟨rfl, rfl⟩ _
  refine good_mk v3 ?_ ?_ fun i j hi hj => ?_
  · rw [SM.smul_r, ga.r, ar]; rfl
  · rw [SM.smul_c, ga.c]
  · obtain rfl : i = 0 := by simpa [rows, size] using hi
    simp only [ev, SM.scalar_f, SM.smul_f]
    have g0 := ga.all h.1 0 hj
    have := HasDerivAt.rpow_const (p := α) g0 (by
      simp only [set_self]
      rcases h.2.2.1 with h' | ⟨h', _⟩ | ⟨n, hn, hz⟩
      · exact Or.inl h'.ne'
      · exact Or.inl h'
      · exact Or.inr (by rw [hz]; exact_mod_cast hn))
    simp only [set_self] at this
    refine this.congr_deriv ?_
    simp only [rpow]; ring

theorem val_powneg (h : Kept (PowOk ρ) (div a b)) :
    Val (PowOk ρ) (mulOp cfg a (pow b (-1))) fun pw σ => SM.smul (pw ((b.ev pw σ).f 0 0) (-1)) (a.ev pw σ) := by
  obtain ⟨ha, hb, hc, hbs, hP⟩ := h
  have hk : Kept (PowOk ρ) (pow b (-1)) := ⟨hb, hbs, hP⟩
  refine (val_mulOp cfg (Val.self ha) (Val.self hk) fun pw σ => Or.inr (Or.inr ⟨rfl, rfl⟩)).congr fun pw σ => ?_
  rw [SM.mul_scalar_right (B := (pow b (-1)).ev pw σ) _ ⟨rfl, rfl⟩]
  simp [ev]

theorem good_div (h : Kept (PowOk ρ) (div a b)) {d : Ex ℝ}
    (g : Good ρ (mulOp cfg a (pow b (-1))) c v d) : Good ρ (div a b) c v d := by
  have vp := val_powneg (cfg := cfg) h
  refine good_of g ?_ fun σ i _ => ?_
  · rw [rows, vp.size pw0 ρ0, SM.smul_r, (dimsK h.1 _ _).1]; rfl
  · rw [vp.2, ev, SM.div_f, SM.smul_f, rpow, Real.rpow_neg_one]; ring

/-- Rows computed one by one. -/
theorem good_byRows {e : Ex ℝ} {m : Nat} (hm : 0 < m) (hr : e.rows = m) {x g : Nat → Ex ℝ}
    (hx : ∀ k, k < m → (x k).size = (1, 1) ∧ ∀ σ, ((x k).ev rpow σ).f 0 0 = (e.ev rpow σ).f k c)
    (hg : ∀ k, k < m → Good ρ (x k) 0 v (g k)) : Good ρ e c v (byRows m g) := by
  have gs : ∀ k, k < m → (g k).size = (1, v.dim) := fun k hk => by rw [(hg k hk).2.size, rows, (hx k hk).1]
  have hk : Kept (PowOk ρ) (byRows m g) :=
    ⟨hm, fun i hi => ⟨(hg i hi).1, by rw [gs i hi, cols, gs 0 hm]⟩⟩
  refine ⟨hk, ?_, fun i j hi hj => ?_⟩
  · rw [size, gs 0 hm, hr]
  · rw [hr] at hi
    rw [ev, SM.f_in _ _ _ hi (by rw [(hg 0 hm).c]; exact hj)]
    have := (hg i hi).2.deriv 0 j (by rw [rows, (hx i hi).1]; exact Nat.one_pos) hj
    have e2 : (fun t => (e.ev rpow (set ρ v j t)).f i c) = fun t => ((x i).ev rpow (set ρ v j t)).f 0 0 :=
      funext fun t => ((hx i hi).2 _).symm
    rw [e2]; exact this

theorem elem_ok (hs : Sound cfg) (ha : Kept (PowOk ρ) a) {i j : Nat} (hi : i < a.rows) (hj : j < a.cols) :
    Kept (PowOk ρ) (a.elemAcc cfg i j) ∧ (a.elemAcc cfg i j).size = (1, 1) ∧
      ∀ σ, ((a.elemAcc cfg i j).ev rpow σ).f 0 0 = (a.ev rpow σ).f i j := by
  have v1 := (access hs ha).2.2 i j hi hj
  exact ⟨v1.1, v1.size pw0 ρ0, fun σ => by rw [v1.2, SM.elem_f]⟩

theorem good_row (ha : Kept (PowOk ρ) a) {i : Nat} (hi : i < a.rows) (ga : Good ρ a c v da) :
    Good ρ (row a i) c v (row da i) := by
  refine ⟨⟨ga.1, by rw [ga.rows_eq]; exact hi⟩, ?_, fun k j hk hj => ?_⟩
  · rw [size, ← cols, ga.cols_eq]; rfl
  · obtain rfl : k = 0 := by simpa [rows, size] using hk
    simp only [ev, SM.row_f]
    exact ga.all ha i hj

theorem good_elem (ha : Kept (PowOk ρ) a) {i k : Nat} (hi : i < a.rows) (ga : Good ρ a k v da) :
    Good ρ (elem a i k) 0 v (row da i) := by
  refine ⟨⟨ga.1, by rw [ga.rows_eq]; exact hi⟩, ?_, fun k j hk hj => ?_⟩
  · rw [size, ← cols, ga.cols_eq]; rfl
  · obtain rfl : k = 0 := by simpa [rows, size] using hk
    simp only [ev, SM.row_f, SM.elem_f]
    exact ga.all ha i hj

theorem good_block (ha : Kept (PowOk ρ) a) (hv : 0 < v.dim) {i j r cc : Nat} (hr : 0 < r) (hi : i + r ≤ a.rows)
    (hc : c < cc) (ga : Good ρ a (j + c) v da) : Good ρ (block a i j r cc) c v (blockOp da i 0 r v.dim) := by
  refine good_mk (val_blockOp (Val.self ga.1) hr hv (by rw [ga.rows_eq]; exact hi) (by rw [ga.cols_eq]; omega)) rfl rfl
    fun k l hk hl => ?_
  rw [SM.block_f _ _ _ _ _ (show k < r from hk) hl]
  simp only [ev, fun A : SM ℝ => SM.block_f A i j r cc (show k < r from hk) hc, Nat.zero_add]
  exact ga.all ha (i + k) hl

theorem skew_col (A : SM ℝ) (pw) (σ : Env ℝ) {i c : Nat} (hi : i < 3) (hc : c < 3) :
    (SM.skew A).f i c = ∑ k ∈ Finset.range 3, (ev pw σ (sparse 3 3 (leviCivita c))).f i k * A.f k 0 := by
  interval_cases i <;> interval_cases c <;> simp [SM.skew, ev, SM.of_f, leviCivita, Finset.sum_range_succ]

theorem good_skew (h : Kept (PowOk ρ) (skew a)) (hc : c < 3) (ga : Good ρ a 0 v da) :
    Good ρ (skew a) c v (mulOp cfg (sparse 3 3 (leviCivita c)) da) := by
  have ar : a.rows = 3 := by rw [rows, h.2]
  have hx : ∀ pw σ, ((sparse 3 3 (leviCivita c) : Ex ℝ).ev pw σ).c = (da.ev pw σ).r := fun pw σ => by rw [ga.r, ar]; rfl
  have v1 := val_mulOp cfg (Val.self (kept_leviCivita (P := PowOk ρ) c)) (Val.self ga.1) fun pw σ => Or.inl (hx pw σ)
  refine good_mk v1 ?_ ?_ fun i j hi hj => ?_
  · rw [SM.mul_std_r (hx _ _)]; rfl
  · rw [SM.mul_std_c (hx _ _), ga.c]
  · have hi' : i < 3 := hi
    rw [SM.mul_std_f (hx _ _)]
    have e1 : (fun t => ((skew a).ev rpow (set ρ v j t)).f i c) = fun t => ∑ k ∈ Finset.range 3,
        (ev rpow ρ (sparse 3 3 (leviCivita c))).f i k * (a.ev rpow (set ρ v j t)).f k 0 := by
      funext t
      exact skew_col _ rpow ρ hi' hc
    rw [e1]
    exact HasDerivAt.fun_sum fun k _ => (ga.all h.1 k hj).const_mul _

theorem good_vcat (h : Kept (PowOk ρ) (vcat a b)) (hc : c < a.cols) (ga : Good ρ a c v da) (gb : Good ρ b c v db) :
    Good ρ (vcat a b) c v (vcat da db) := by
  obtain ⟨ha, hb, hcc⟩ := h
  refine ⟨⟨ga.1, gb.1, by rw [ga.cols_eq, gb.cols_eq]⟩, ?_, fun i j _ hj => ?_⟩
  · simp only [size, ga.2.size, gb.2.size, rows]
  · simp only [ev]
    rw [SM.vcat_f _ _ (by rw [ga.c]; exact hj), ga.r]
    have e1 : (fun t => (SM.vcat (a.ev rpow (set ρ v j t)) (b.ev rpow (set ρ v j t))).f i c) =
        fun t => if i < a.rows then (a.ev rpow (set ρ v j t)).f i c else (b.ev rpow (set ρ v j t)).f (i - a.rows) c := by
      funext t
      rw [SM.vcat_f _ _ (by rw [(dimsK ha _ _).2]; exact hc), (dimsK ha _ _).1]
    rw [e1]
    by_cases hi : i < a.rows
    · simp only [hi, if_true]; exact ga.all ha i hj
    · simp only [hi, if_false]; exact gb.all hb _ hj

end cases

/-- Every derivative levi computes is one. -/
theorem D_good (hs : Sound cfg) (hv : 0 < v.dim) : ∀ (n : Nat) (e : Ex ℝ) (c : Nat) (d : Ex ℝ), Kept (PowOk ρ) e →
    c < e.cols → D cfg n e c v = some d → Good ρ e c v d := by
  intro n
  induction n with
  | zero => intro e c d _ _ h; simp [D] at h
  | succ n ih =>
    intro e c d he hc h
    by_cases hd : e.dep v = false
    · have h0 : D cfg (n + 1) e c v = some (null e.rows v.dim) := by unfold D; rw [hd]; rfl
      rw [h0, Option.some.injEq] at h
      rw [← h]; exact good_nodep he hv hd c
    rw [Bool.not_eq_false] at hd
    unfold D at h
    rw [hd] at h
    simp only [Bool.not_true, Bool.false_eq_true, if_false] at h
    have pp : ∀ {x : Option (Ex ℝ)} {F : Ex ℝ → Option (Ex ℝ)}, (x >>= F) = some d → ∃ y, x = some y ∧ F y = some d :=
      fun {x F} hx => by cases x with
        | none => exact absurd hx (by simp)
        | some y => exact ⟨y, rfl, hx⟩
    have pc : ∀ {x : Option (Nat → Ex ℝ)} {F : (Nat → Ex ℝ) → Option (Ex ℝ)}, (x >>= F) = some d →
        ∃ y, x = some y ∧ F y = some d :=
      fun {x F} hx => by cases x with
        | none => exact absurd hx (by simp)
        | some y => exact ⟨y, rfl, hx⟩
    cases e with
    | const r c M => simp [dep] at hd
    | null r c => simp [dep] at hd
    | ident n => simp [dep] at hd
    | sparse r c l => simp [dep] at hd
    | var w =>
      dsimp only at h
      obtain rfl : w = v := by simpa [dep] using hd
      simp only [if_true, Option.some.injEq] at h
      subst h
      obtain rfl : c = 0 := by simpa [cols, size] using hc
      refine ⟨hv, rfl, fun i j hi hj => ?_⟩
      have hi' : i < w.dim := hi
      simp only [ev, SM.one]
      rw [SM.f_in _ _ _ hi' hj]
      have e1 : (fun t => (SM.of w.dim 1 fun i x => set ρ w j t w i).f i 0) = fun t => if i = j then t else ρ w i := by
        funext t
        rw [SM.f_in _ _ _ hi' Nat.one_pos]
        simp [Spec.set]
      rw [e1]
      by_cases hij : i = j
      · simp only [hij, if_true]; exact hasDerivAt_id _
      · simp only [hij, if_false]; exact hasDerivAt_const _ _
    | add a b =>
      dsimp only at h
      have hca : c < a.cols := hc
      have hcb : c < b.cols := by rw [cols, he.2.2]; exact hc
      by_cases h1 : (a.dep v && b.dep v) = true
      · rw [if_pos h1] at h
        obtain ⟨da, h2, h⟩ := pp h
        obtain ⟨db, h3, h⟩ := pp h
        obtain rfl := Option.some.inj h
        exact good_add hs he (ih _ _ _ he.1 hca h2) (ih _ _ _ he.2.1 hcb h3)
      · rw [if_neg h1] at h
        by_cases h2 : a.dep v = true
        · rw [if_pos h2] at h
          exact good_add_l he (ih _ _ _ he.1 hca h) (by simpa [h2] using h1)
        · rw [if_neg h2] at h
          exact good_add_r he (ih _ _ _ he.2.1 hcb h) (by simpa using h2)
    | sub a b =>
      dsimp only at h
      have hca : c < a.cols := hc
      have hcb : c < b.cols := by rw [cols, he.2.2]; exact hc
      by_cases h1 : (a.dep v && b.dep v) = true
      · rw [if_pos h1] at h
        obtain ⟨da, h2, h⟩ := pp h
        obtain ⟨db, h3, h⟩ := pp h
        obtain rfl := Option.some.inj h
        exact good_sub hs he (ih _ _ _ he.1 hca h2) (ih _ _ _ he.2.1 hcb h3)
      · rw [if_neg h1] at h
        by_cases h2 : a.dep v = true
        · rw [if_pos h2] at h
          exact good_sub_l he (ih _ _ _ he.1 hca h) (by simpa [h2] using h1)
        · rw [if_neg h2] at h
          obtain ⟨db, h3, h⟩ := pp h
          obtain rfl := Option.some.inj h
          exact good_sub_r he (ih _ _ _ he.2.1 hcb h3) (by simpa using h2)
    | neg a =>
      dsimp only at h
      obtain ⟨da, h2, h⟩ := pp h
      obtain rfl := Option.some.inj h
      exact good_neg he (ih _ _ _ he hc h2)
    | mul a b =>
      dsimp only at h
      have hdep : a.dep v = false → b.dep v = true := by
        intro h1; simpa [dep, h1] using hd
      by_cases sa : a.isScalar = true
      · have hcb : c < b.cols := by rw [cols, ← mul_rows_l he sa]; exact hc
        have h0a : 0 < a.cols := (pos he.1).2
        by_cases sb : b.isScalar = true
        · obtain rfl : c = 0 := by rw [(scalar_rows sb).2] at hcb; omega
          rw [if_pos (by rw [sa, sb]; rfl)] at h
          by_cases h1 : (a.dep v && b.dep v) = true
          · rw [if_pos h1] at h
            obtain ⟨da, h2, h⟩ := pp h
            obtain ⟨db, h3, h⟩ := pp h
            obtain rfl := Option.some.inj h
            exact good_ss hs he sa sb rfl (ih _ _ _ he.1 h0a h2) (ih _ _ _ he.2.1 hcb h3)
          · rw [if_neg h1] at h
            by_cases h2 : a.dep v = true
            · rw [if_pos h2] at h
              obtain ⟨da, h3, h⟩ := pp h
              obtain rfl := Option.some.inj h
              exact good_ss_a he sa sb rfl (ih _ _ _ he.1 h0a h3) (by simpa [h2] using h1)
            · rw [if_neg h2] at h
              obtain ⟨db, h3, h⟩ := pp h
              obtain rfl := Option.some.inj h
              exact good_l_b he sa (by simpa using h2) (ih _ _ _ he.2.1 hcb h3)
        · rw [if_neg (by simp [sb]), if_pos sa] at h
          by_cases h1 : (a.dep v && b.dep v) = true
          · rw [if_pos h1] at h
            obtain ⟨db, h3, h⟩ := pp h
            obtain ⟨da, h2, h⟩ := pp h
            obtain rfl := Option.some.inj h
            exact good_l hs he sa hcb (ih _ _ _ he.1 h0a h2) (ih _ _ _ he.2.1 hcb h3)
          · rw [if_neg h1] at h
            by_cases h2 : a.dep v = true
            · rw [if_pos h2] at h
              obtain ⟨da, h3, h⟩ := pp h
              obtain rfl := Option.some.inj h
              exact good_l_a hs he sa hcb (ih _ _ _ he.1 h0a h3) (by simpa [h2] using h1)
            · rw [if_neg h2] at h
              obtain ⟨db, h3, h⟩ := pp h
              obtain rfl := Option.some.inj h
              exact good_l_b he sa (by simpa using h2) (ih _ _ _ he.2.1 hcb h3)
      · rw [if_neg (by simp [sa]), if_neg sa] at h
        have hm : a.cols = b.rows := he.2.2.resolve_right sa
        by_cases sb : b.isScalar = true
        · rw [if_pos sb] at h
          have hca : c < a.cols := by rw [cols, ← mul_rows_r he sb]; exact hc
          have h0b : 0 < b.cols := (pos he.2.1).2
          by_cases h1 : (a.dep v && b.dep v) = true
          · rw [if_pos h1] at h
            obtain ⟨da, h2, h⟩ := pp h
            obtain ⟨db, h3, h⟩ := pp h
            obtain rfl := Option.some.inj h
            exact good_r hs he sb hca (ih _ _ _ he.1 hca h2) (ih _ _ _ he.2.1 h0b h3)
          · rw [if_neg h1] at h
            by_cases h2 : a.dep v = true
            · rw [if_pos h2] at h
              obtain ⟨da, h3, h⟩ := pp h
              obtain rfl := Option.some.inj h
              exact good_r_a he sb (ih _ _ _ he.1 hca h3) (by simpa [h2] using h1)
            · rw [if_neg h2] at h
              obtain ⟨db, h3, h⟩ := pp h
              obtain rfl := Option.some.inj h
              exact good_r_b hs he sb hca (by simpa using h2) (ih _ _ _ he.2.1 h0b h3)
        · rw [if_neg sb] at h
          have hcb : c < b.cols := by
            have := mul_rows_s he hm
            rw [cols, this] at hc; exact hc
          by_cases h1 : (a.dep v && b.dep v) = true
          · rw [if_pos h1] at h
            obtain ⟨db, h3, h⟩ := pp h
            obtain ⟨g, h2, h⟩ := pc h
            obtain rfl := Option.some.inj h
            exact good_s hs he hm hcb (fun k hk => ih _ _ _ he.1 hk (collect_some h2 k hk)) (ih _ _ _ he.2.1 hcb h3)
          · rw [if_neg h1] at h
            by_cases h2 : a.dep v = true
            · rw [if_pos h2] at h
              obtain ⟨g, h3, h⟩ := pc h
              obtain rfl := Option.some.inj h
              exact good_s_a hs he hm hcb (fun k hk => ih _ _ _ he.1 hk (collect_some h3 k hk)) (by simpa [h2] using h1)
            · rw [if_neg h2] at h
              obtain ⟨db, h3, h⟩ := pp h
              obtain rfl := Option.some.inj h
              exact good_s_b he hm (by simpa using h2) (ih _ _ _ he.2.1 hcb h3)
    | pow a α =>
      dsimp only at h
      obtain rfl : c = 0 := by simpa [cols, size] using hc
      have h0a : 0 < a.cols := (pos he.1).2
      by_cases h1 : |α - 1| < e15
      · rw [if_pos h1] at h
        exact good_pow1 he h1 (ih _ _ _ he.1 h0a h)
      · rw [if_neg h1] at h
        obtain ⟨da, h2, h⟩ := pp h
        obtain rfl := Option.some.inj h
        exact good_pow he h1 (ih _ _ _ he.1 h0a h2)
    | div a b =>
      dsimp only at h
      have vp := val_powneg (cfg := cfg) he
      refine good_div he (ih _ _ _ vp.1 ?_ h)
      have : c < b.cols := hc
      rw [cols, he.2.2.2.1] at this
      rw [cols, vp.size pw0 ρ0, SM.smul_c, (dimsK he.1 _ _).2, he.2.2.1]; exact this
    | skew a =>
      dsimp only at h
      obtain ⟨da, h2, h⟩ := pp h
      obtain rfl := Option.some.inj h
      exact good_skew he hc (ih _ _ _ he.1 (pos he.1).2 h2)
    | transpose a =>
      dsimp only at h
      obtain ⟨g, h2, h⟩ := pc h
      obtain rfl := Option.some.inj h
      have hk : Kept (PowOk ρ) a := he
      refine good_byRows (x := fun j => a.elemAcc cfg c j) (pos hk).2 rfl (fun k hk' => ?_) fun k hk' => ?_
      · have := elem_ok hs hk (i := c) (j := k) hc hk'
        exact ⟨this.2.1, fun σ => by rw [this.2.2, ev, SM.tr_f]⟩
      · have := elem_ok hs hk (i := c) (j := k) hc hk'
        exact ih _ _ _ this.1 (by rw [cols, this.2.1]; exact Nat.one_pos) (collect_some h2 k hk')
    | vee a =>
      dsimp only at h
      obtain ⟨g, h2, h⟩ := pc h
      obtain rfl := Option.some.inj h
      have hk : Kept (PowOk ρ) a := he.1
      obtain rfl : c = 0 := by simpa [cols, size] using hc
      have ar : a.rows = 3 := by rw [rows, he.2]
      have ac : a.cols = 3 := by rw [cols, he.2]
      have e0 := elem_ok hs hk (i := 2) (j := 1) (by omega) (by omega)
      have e1 := elem_ok hs hk (i := 0) (j := 2) (by omega) (by omega)
      have e2 := elem_ok hs hk (i := 1) (j := 0) (by omega) (by omega)
      refine good_byRows (m := 3) (x := fun k => match k with
        | 0 => a.elemAcc cfg 2 1
        | 1 => a.elemAcc cfg 0 2
        | _ => a.elemAcc cfg 1 0) (by omega) rfl (fun k hk' => ?_) fun k hk' => ?_
      · interval_cases k
        · exact ⟨e0.2.1, fun σ => (e0.2.2 σ).trans (by simp [ev, SM.vee, SM.of_f])⟩
        · exact ⟨e1.2.1, fun σ => (e1.2.2 σ).trans (by simp [ev, SM.vee, SM.of_f])⟩
        · exact ⟨e2.2.1, fun σ => (e2.2.2 σ).trans (by simp [ev, SM.vee, SM.of_f])⟩
      · have h3 := collect_some h2 k hk'
        interval_cases k
        · exact ih _ _ _ e0.1 (show 0 < (a.elemAcc cfg 2 1).cols by rw [cols, e0.2.1]; exact Nat.one_pos) h3
        · exact ih _ _ _ e1.1 (show 0 < (a.elemAcc cfg 0 2).cols by rw [cols, e1.2.1]; exact Nat.one_pos) h3
        · exact ih _ _ _ e2.1 (show 0 < (a.elemAcc cfg 1 0).cols by rw [cols, e2.2.1]; exact Nat.one_pos) h3
    | row a i =>
      dsimp only at h
      obtain ⟨da, h2, h⟩ := pp h
      obtain rfl := Option.some.inj h
      exact good_row he.1 he.2 (ih _ _ _ he.1 hc h2)
    | col a k =>
      dsimp only at h
      obtain rfl : c = 0 := by simpa [cols, size] using hc
      refine good_of (ih _ _ _ he.1 he.2 h) rfl fun σ i _ => ?_
      rw [ev, SM.col_f]
    | elem a i k =>
      dsimp only at h
      obtain rfl : c = 0 := by simpa [cols, size] using hc
      obtain ⟨da, h2, h⟩ := pp h
      obtain rfl := Option.some.inj h
      exact good_elem he.1 he.2.1 (ih _ _ _ he.1 he.2.2 h2)
    | block a i k r cc =>
      dsimp only at h
      obtain ⟨da, h2, h⟩ := pp h
      obtain rfl := Option.some.inj h
      have hc' : c < cc := hc
      exact good_block he.1 hv he.2.1 he.2.2.2.1 hc' (ih _ _ _ he.1 (by have := he.2.2.2.2; omega) h2)
    | byRows m f =>
      dsimp only at h
      obtain ⟨g, h2, h⟩ := pc h
      obtain rfl := Option.some.inj h
      have hc' : c < (f 0).cols := hc
      have ek := fun k (hk : k < m) => elem_ok hs (he.2 k hk).1 (i := 0) (j := c)
        (by rw [rows, (he.2 k hk).2]; exact Nat.one_pos) (by rw [cols, (he.2 k hk).2]; exact hc')
      refine good_byRows (x := fun k => (f k).elemAcc cfg 0 c) he.1 rfl (fun k hk => ?_) fun k hk => ?_
      · refine ⟨(ek k hk).2.1, fun σ => ?_⟩
        rw [(ek k hk).2.2, ev, SM.f_in _ _ _ hk (by rw [(dimsK (he.2 0 he.1).1 _ _).2]; exact hc')]
      · exact ih _ _ _ (ek k hk).1 (by rw [cols, (ek k hk).2.1]; exact Nat.one_pos) (collect_some h2 k hk)
    | byCols m f =>
      dsimp only at h
      have hc' : c < m := hc
      have fc := he.2 c hc'
      refine good_of (ih _ _ _ fc.1 (by rw [cols, fc.2]; exact Nat.one_pos) h) (by rw [rows, fc.2]; rfl) fun σ i hi => ?_
      rw [ev, SM.f_in _ _ _ (by rw [(dimsK (he.2 0 he.1).1 _ _).1]; exact hi) hc']
    | hcat a b =>
      dsimp only at h
      have ev_f : ∀ σ i, i < a.rows → ((hcat a b).ev rpow σ).f i c =
          if c < a.cols then (a.ev rpow σ).f i c else (b.ev rpow σ).f i (c - a.cols) := by
        intro σ i hi
        rw [ev, SM.hcat_f _ _ (by rw [(dimsK he.1 _ _).1]; exact hi), (dimsK he.1 _ _).2]
      by_cases h1 : c < a.cols
      · rw [if_pos h1] at h
        refine good_of (ih _ _ _ he.1 h1 h) rfl fun σ i hi => ?_
        rw [ev_f σ i hi, if_pos h1]
      · rw [if_neg h1] at h
        have hc' : c < a.cols + b.cols := hc
        refine good_of (ih _ _ _ he.2.1 (by omega) h) he.2.2 fun σ i hi => ?_
        rw [ev_f σ i hi, if_neg h1]
    | vcat a b =>
      dsimp only at h
      obtain ⟨da, h2, h⟩ := pp h
      obtain ⟨db, h3, h⟩ := pp h
      obtain rfl := Option.some.inj h
      have hca : c < a.cols := hc
      exact good_vcat he hca (ih _ _ _ he.1 hca h2) (ih _ _ _ he.2.1 (by rw [he.2.2]; exact hca) h3)
    | mpd m ds x =>
      dsimp only at h
      have vc := val_mpd_col he (show c < (ds 0).cols from hc) fun k hk =>
        (access hs (he.2.1 k hk).1).2.1 c (by rw [cols, (he.2.1 k hk).2]; exact hc)
      refine good_of (ih _ _ _ vc.1 (by rw [cols, vc.size pw0 ρ0]; exact Nat.one_pos) h) ?_ fun σ i _ => ?_
      · rw [rows, vc.size pw0 ρ0, SM.col_r, (dimsK he _ _).1]
      · rw [vc.2, SM.col_f]

end Verif.Levi
