import Verif.Lemmas.LeviDeriv
/-
The lemmas of LeviDeriv.lean on the derivative of each node, for any motion of the variables (there: one component of a variable moves and the others stay).
Made from LeviDeriv.lean by replacing the motion.
-/
namespace Verif.Levi
open Ex Spec
namespace Chain

/-- How the values of the variables move, one motion for each component of `v`: all go through `env`, and the expressions that do not depend on the variable do not change. -/
structure Motion (v : Var) where
  env : Env ℝ
  path : Nat → ℝ → Env ℝ
  time : Nat → ℝ
  start : ∀ j, path j (time j) = env
  dep : Ex ℝ → Bool
  still : ∀ e, Kept (PowOk env) e → dep e = false → ∀ j t, e.ev rpow (path j t) = e.ev rpow env

/-- The derivative of a column along the motions. -/
structure IsDerivative {v : Var} (μ : Motion v) (e : Ex ℝ) (c : Nat) (d : Ex ℝ) : Prop where
  size : d.size = (e.rows, v.dim)
  deriv : ∀ i j, i < e.rows → j < v.dim → HasDerivAt (fun t => (e.ev rpow (μ.path j t)).f i c) ((d.ev rpow μ.env).f i j) (μ.time j)

variable {v : Var} {μ : Motion v} {cfg : Cfg ℝ}

/-- `d` is well formed and is the derivative. -/
def Good {v : Var} (μ : Motion v) (e : Ex ℝ) (c : Nat) (d : Ex ℝ) : Prop :=
  Kept (PowOk μ.env) d ∧ IsDerivative μ e c d

theorem Good.all {e d : Ex ℝ} {c : Nat} (he : Kept (PowOk μ.env) e) (h : Good μ e c d) (i : Nat) {j : Nat} (hj : j < v.dim) :
    HasDerivAt (fun t => (e.ev rpow (μ.path j t)).f i c) ((d.ev rpow μ.env).f i j) (μ.time j) := by
  by_cases hi : i < e.rows
  · exact h.2.deriv i j hi hj
  · have e1 : (d.ev rpow μ.env).f i j = 0 := by
      apply SM.out
      rw [(dimsK h.1 rpow μ.env).1, rows, h.2.size]; tauto
    have e2 : (fun t => (e.ev rpow (μ.path j t)).f i c) = fun _ => 0 := by
      funext t
      apply SM.out
      rw [(dimsK he rpow _).1]; tauto
    rw [e1, e2]
    exact hasDerivAt_const _ _

theorem Good.r {e d : Ex ℝ} {c : Nat} (h : Good μ e c d) (pw) (σ : Env ℝ) : (d.ev pw σ).r = e.rows := by
  rw [(dimsK h.1 pw σ).1, rows, h.2.size]
theorem Good.c {e d : Ex ℝ} {c : Nat} (h : Good μ e c d) (pw) (σ : Env ℝ) : (d.ev pw σ).c = v.dim := by
  rw [(dimsK h.1 pw σ).2, cols, h.2.size]

theorem nd {e : Ex ℝ} (he : Kept (PowOk μ.env) e) (h : μ.dep e = false) (i k j : Nat) :
    HasDerivAt (fun t => (e.ev rpow (μ.path j t)).f i k) 0 (μ.time j) := by
  have : (fun t => (e.ev rpow (μ.path j t)).f i k) = fun _ => (e.ev rpow μ.env).f i k := by
    funext t; rw [μ.still e he h]
  rw [this]; exact hasDerivAt_const _ _

theorem good_nodep {e : Ex ℝ} (he : Kept (PowOk μ.env) e) (hv : 0 < v.dim) (h : μ.dep e = false) (c : Nat) :
    Good μ e c (null e.rows v.dim) := by
  refine ⟨⟨(pos he).1, hv⟩, rfl, fun i j _ _ => ?_⟩
  rw [ev, SM.zero_f]; exact nd he h i c j

theorem good_mk {e d : Ex ℝ} {c : Nat} {M} (hd : Val (PowOk μ.env) d M) (hr : (M rpow μ.env).r = e.rows)
    (hc : (M rpow μ.env).c = v.dim)
    (h : ∀ i j, i < e.rows → j < v.dim →
      HasDerivAt (fun t => (e.ev rpow (μ.path j t)).f i c) ((M rpow μ.env).f i j) (μ.time j)) : Good μ e c d := by
  refine ⟨hd.1, ?_, fun i j hi hj => ?_⟩
  · rw [hd.size rpow μ.env, hr, hc]
  · rw [hd.2]; exact h i j hi hj

/-- Same derivative for expressions of equal value. -/
theorem good_of {e e' d : Ex ℝ} {c c' : Nat} (h : Good μ e c d) (hs : e.rows = e'.rows)
    (he : ∀ σ i, i < e'.rows → (e'.ev rpow σ).f i c' = (e.ev rpow σ).f i c) : Good μ e' c' d := by
  refine ⟨h.1, ?_, fun i j hi hj => ?_⟩
  · rw [h.2.size, hs]
  · have := h.2.deriv i j (hs ▸ hi) hj
    have e2 : (fun t => (e'.ev rpow (μ.path j t)).f i c') = fun t => (e.ev rpow (μ.path j t)).f i c :=
      funext fun t => he _ i hi
    rw [e2]; exact this

theorem good_of_deriv {e e' d : Ex ℝ} {c c' : Nat} (h : Good μ e c d) (hs : e.rows = e'.rows)
    (he : ∀ i j, i < e'.rows → j < v.dim →
      HasDerivAt (fun t => (e'.ev rpow (μ.path j t)).f i c') ((d.ev rpow μ.env).f i j) (μ.time j)) : Good μ e' c' d :=
  ⟨h.1, by rw [h.2.size, hs], he⟩

section cases
variable {a b da db : Ex ℝ} {c : Nat}

theorem ev_add_f (ha : Kept (PowOk μ.env) a) (hb : Kept (PowOk μ.env) b) (hsz : b.size = a.size) (σ : Env ℝ) (i c : Nat) :
    ((add a b).ev rpow σ).f i c = (a.ev rpow σ).f i c + (b.ev rpow σ).f i c := by
  rw [ev, SM.add_f]
  · rw [(dimsK ha _ _).1, (dimsK hb _ _).1, rows, hsz]
  · rw [(dimsK ha _ _).2, (dimsK hb _ _).2, cols, hsz]

theorem ev_sub_f (ha : Kept (PowOk μ.env) a) (hb : Kept (PowOk μ.env) b) (hsz : b.size = a.size) (σ : Env ℝ) (i c : Nat) :
    ((sub a b).ev rpow σ).f i c = (a.ev rpow σ).f i c - (b.ev rpow σ).f i c := by
  rw [ev, SM.sub_f]
  · rw [(dimsK ha _ _).1, (dimsK hb _ _).1, rows, hsz]
  · rw [(dimsK ha _ _).2, (dimsK hb _ _).2, cols, hsz]

theorem good_add (hs : Sound cfg) (h : Kept (PowOk μ.env) (add a b)) (ga : Good μ a c da) (gb : Good μ b c db) :
    Good μ (add a b) c (addOp cfg da db) := by
  obtain ⟨ha, hb, hsz⟩ := h
  have hr : db.size = da.size := by rw [ga.2.size, gb.2.size, rows, hsz]
  refine good_mk (val_addOp hs (Val.self ga.1) (Val.self gb.1) hr) ?_ ?_ fun i j hi hj => ?_
  · rw [SM.add_r, ga.r]; rfl
  · rw [SM.add_c, ga.c]
  · simp only [ev_add_f ha hb hsz]
    rw [SM.add_f (by rw [ga.r, gb.r, rows, hsz]) (by rw [ga.c, gb.c])]
    exact (ga.all ha i hj).add (gb.all hb i hj)

theorem good_sub (hs : Sound cfg) (h : Kept (PowOk μ.env) (sub a b)) (ga : Good μ a c da) (gb : Good μ b c db) :
    Good μ (sub a b) c (subOp cfg da db) := by
  obtain ⟨ha, hb, hsz⟩ := h
  have hr : db.size = da.size := by rw [ga.2.size, gb.2.size, rows, hsz]
  refine good_mk (val_subOp hs (Val.self ga.1) (Val.self gb.1) hr) ?_ ?_ fun i j hi hj => ?_
  · rw [SM.sub_r, ga.r]; rfl
  · rw [SM.sub_c, ga.c]
  · simp only [ev_sub_f ha hb hsz]
    rw [SM.sub_f (by rw [ga.r, gb.r, rows, hsz]) (by rw [ga.c, gb.c])]
    exact (ga.all ha i hj).sub (gb.all hb i hj)

theorem good_add_l (h : Kept (PowOk μ.env) (add a b)) (ga : Good μ a c da) (hb' : μ.dep b = false) :
    Good μ (add a b) c da := by
  obtain ⟨ha, hb, hsz⟩ := h
  refine good_of_deriv ga rfl fun i j _ hj => ?_
  simp only [ev_add_f ha hb hsz]
  exact HasDerivAt.congr_deriv ((ga.all ha i hj).add (nd hb hb' i c j)) (by simp)

theorem good_add_r (h : Kept (PowOk μ.env) (add a b)) (gb : Good μ b c db) (ha' : μ.dep a = false) :
    Good μ (add a b) c db := by
  obtain ⟨ha, hb, hsz⟩ := h
  refine good_of_deriv gb (by rw [rows, hsz]; rfl) fun i j _ hj => ?_
  simp only [ev_add_f ha hb hsz]
  exact HasDerivAt.congr_deriv ((nd ha ha' i c j).add (gb.all hb i hj)) (by simp)

theorem good_sub_l (h : Kept (PowOk μ.env) (sub a b)) (ga : Good μ a c da) (hb' : μ.dep b = false) :
    Good μ (sub a b) c da := by
  obtain ⟨ha, hb, hsz⟩ := h
  refine good_of_deriv ga rfl fun i j _ hj => ?_
  simp only [ev_sub_f ha hb hsz]
  exact HasDerivAt.congr_deriv ((ga.all ha i hj).sub (nd hb hb' i c j)) (by simp)

theorem good_sub_r (h : Kept (PowOk μ.env) (sub a b)) (gb : Good μ b c db) (ha' : μ.dep a = false) :
    Good μ (sub a b) c (negOp db) := by
  obtain ⟨ha, hb, hsz⟩ := h
  refine good_mk (val_neg (Val.self gb.1)) ?_ ?_ fun i j _ hj => ?_
  · rw [SM.neg_r, gb.r, rows, hsz]; rfl
  · rw [SM.neg_c, gb.c]
  · simp only [ev_sub_f ha hb hsz, SM.neg_f]
    exact HasDerivAt.congr_deriv ((nd ha ha' i c j).sub (gb.all hb i hj)) (by simp)

theorem good_neg (ha : Kept (PowOk μ.env) a) (ga : Good μ a c da) : Good μ (Ex.neg a) c (negOp da) := by
  refine good_mk (val_neg (Val.self ga.1)) ?_ ?_ fun i j _ hj => ?_
  · rw [SM.neg_r, ga.r]; rfl
  · rw [SM.neg_c, ga.c]
  · simp only [ev, SM.neg_f]
    exact (ga.all ha i hj).neg

/-- Product with a 1×1 factor on the left. -/
theorem deriv_mulL (ha : Kept (PowOk μ.env) a) (hsc : a.isScalar = true) {i j : Nat} {x y : ℝ}
    (hx : HasDerivAt (fun t => (a.ev rpow (μ.path j t)).f 0 0) x (μ.time j))
    (hy : HasDerivAt (fun t => (b.ev rpow (μ.path j t)).f i c) y (μ.time j)) :
    HasDerivAt (fun t => ((mul a b).ev rpow (μ.path j t)).f i c)
      (x * (b.ev rpow μ.env).f i c + (a.ev rpow μ.env).f 0 0 * y) (μ.time j) := by
  simp only [ev, fun σ => SM.mul_f_scalar_left ((isScalar_ev ha rpow σ).1 hsc)]
  have := hx.mul hy
  simp only [Motion.start] at this
  exact this

/-- Product with a 1×1 factor on the right. -/
theorem deriv_mulR (hb : Kept (PowOk μ.env) b) (hsc : b.isScalar = true) {i j : Nat} {x y : ℝ}
    (hx : HasDerivAt (fun t => (a.ev rpow (μ.path j t)).f i c) x (μ.time j))
    (hy : HasDerivAt (fun t => (b.ev rpow (μ.path j t)).f 0 0) y (μ.time j)) :
    HasDerivAt (fun t => ((mul a b).ev rpow (μ.path j t)).f i c)
      (y * (a.ev rpow μ.env).f i c + (b.ev rpow μ.env).f 0 0 * x) (μ.time j) := by
  simp only [ev, fun σ A => SM.mul_scalar_right A ((isScalar_ev hb rpow σ).1 hsc), SM.smul_f]
  have := hy.mul hx
  simp only [Motion.start] at this
  exact this

/-- Product of matrices. -/
theorem deriv_mulS (ha : Kept (PowOk μ.env) a) (hb : Kept (PowOk μ.env) b) (hm : a.cols = b.rows) {i j : Nat} {x y : Nat → ℝ}
    (hx : ∀ k, k < a.cols → HasDerivAt (fun t => (a.ev rpow (μ.path j t)).f i k) (x k) (μ.time j))
    (hy : ∀ k, k < a.cols → HasDerivAt (fun t => (b.ev rpow (μ.path j t)).f k c) (y k) (μ.time j)) :
    HasDerivAt (fun t => ((mul a b).ev rpow (μ.path j t)).f i c)
      (∑ k ∈ Finset.range a.cols, (x k * (b.ev rpow μ.env).f k c + (a.ev rpow μ.env).f i k * y k)) (μ.time j) := by
  have e1 : (fun t => ((mul a b).ev rpow (μ.path j t)).f i c) = fun t => ∑ k ∈ Finset.range a.cols,
      (a.ev rpow (μ.path j t)).f i k * (b.ev rpow (μ.path j t)).f k c := by
    funext t
    rw [ev, SM.mul_std_f (by rw [(dimsK ha _ _).2, (dimsK hb _ _).1, hm]), (dimsK ha _ _).2]
  rw [e1]
  refine HasDerivAt.fun_sum fun k hk => ?_
  have := (hx k (Finset.mem_range.1 hk)).mul (hy k (Finset.mem_range.1 hk))
  simp only [Motion.start] at this
  exact this

/-- `ev` of the derivatives of the columns times a vector. -/
theorem good_mpd {n : Nat} {ds : Nat → Ex ℝ} {x : Ex ℝ} {X} (hn : 0 < n) (hx : Val (PowOk μ.env) x X) (hxs : x.size = (n, 1))
    {s : Nat × Nat} (hd : ∀ k, k < n → Kept (PowOk μ.env) (ds k) ∧ (ds k).size = s) :
    Val (PowOk μ.env) (mpd n ds x) fun pw σ => SM.of s.1 s.2 fun i j =>
      ∑ k ∈ Finset.range n, (X pw σ).f k 0 * ((ds k).ev pw σ).f i j := by
  refine ⟨⟨hn, fun k hk => ⟨(hd k hk).1, by rw [(hd k hk).2, (hd 0 hn).2]⟩, hx.1, hxs⟩, fun pw σ => ?_⟩
  rw [ev, hx.2, (dimsK (hd 0 hn).1 pw σ).1, (dimsK (hd 0 hn).1 pw σ).2, rows, cols, (hd 0 hn).2]

theorem scalar_rows (h : a.isScalar = true) : a.rows = 1 ∧ a.cols = 1 := by
  rw [isScalar_iff] at h; rw [rows, cols, h]; exact ⟨rfl, rfl⟩

theorem mul_rows_l (h : Kept (PowOk μ.env) (mul a b)) (sa : a.isScalar = true) : (mul a b).size = b.size := by
  have := (dimsK h pw0 ρ0)
  rw [ev, SM.mul_scalar_left ((isScalar_ev h.1 _ _).1 sa), SM.smul_r, SM.smul_c, (dimsK h.2.1 _ _).1, (dimsK h.2.1 _ _).2] at this
  exact Prod.ext this.1.symm this.2.symm

theorem mul_rows_r (h : Kept (PowOk μ.env) (mul a b)) (sb : b.isScalar = true) : (mul a b).size = a.size := by
  have := (dimsK h pw0 ρ0)
  rw [ev, SM.mul_scalar_right _ ((isScalar_ev h.2.1 _ _).1 sb), SM.smul_r, SM.smul_c, (dimsK h.1 _ _).1, (dimsK h.1 _ _).2] at this
  exact Prod.ext this.1.symm this.2.symm

theorem mul_rows_s (h : Kept (PowOk μ.env) (mul a b)) (hm : a.cols = b.rows) : (mul a b).size = (a.rows, b.cols) := by
  have hc : (a.ev pw0 ρ0).c = (b.ev pw0 ρ0).r := by rw [(dimsK h.1 _ _).2, (dimsK h.2.1 _ _).1, hm]
  have := (dimsK h pw0 ρ0)
  rw [ev, SM.mul_std_r hc, SM.mul_std_c hc, (dimsK h.1 _ _).1, (dimsK h.2.1 _ _).2] at this
  exact Prod.ext this.1.symm this.2.symm

/-- A 1×1 factor times a derivative. -/
theorem val_scal (sa : a.isScalar = true) (ha : Kept (PowOk μ.env) a) (hd : Kept (PowOk μ.env) db) :
    Val (PowOk μ.env) (mulOp cfg a db) fun pw σ => SM.smul ((a.ev pw σ).f 0 0) (db.ev pw σ) :=
  (val_mulOp cfg (Val.self ha) (Val.self hd) fun pw σ => Or.inr (Or.inl ((isScalar_ev ha pw σ).1 sa))).congr
    fun pw σ => SM.mul_scalar_left ((isScalar_ev ha pw σ).1 sa) _

/-- A column times the derivative of a 1×1 factor. -/
theorem val_colm (hs : Sound cfg) (ha : Kept (PowOk μ.env) a) (hc : c < a.cols) (hd : Kept (PowOk μ.env) db) (hr : db.rows = 1) :
    Val (PowOk μ.env) (mulOp cfg (a.colAcc cfg c) db) fun pw σ =>
      SM.of a.rows db.cols fun i j => (a.ev pw σ).f i c * (db.ev pw σ).f 0 j := by
  have h1 : ∀ pw σ, (db.ev pw σ).r = 1 := fun pw σ => by rw [(dimsK hd pw σ).1, hr]
  refine (val_mulOp cfg ((access hs ha).2.1 c hc) (Val.self hd) fun pw σ => Or.inl (by rw [SM.col_c, h1])).congr
    fun pw σ => SM.ext' ?_ ?_ fun i j hi hj => ?_
  · rw [SM.mul_std_r (by rw [SM.col_c, h1]), SM.col_r, (dimsK ha pw σ).1]; rfl
  · rw [SM.mul_std_c (by rw [SM.col_c, h1]), (dimsK hd pw σ).2]; rfl
  · rw [SM.mul_std_r (by rw [SM.col_c, h1]), SM.col_r, (dimsK ha pw σ).1] at hi
    rw [SM.mul_std_c (by rw [SM.col_c, h1]), (dimsK hd pw σ).2] at hj
    rw [colmul (h1 pw σ), SM.f_in _ _ _ hi hj]

theorem Good.rows_eq {e d : Ex ℝ} (h : Good μ e c d) : d.rows = e.rows := by rw [rows, h.2.size]
theorem Good.cols_eq {e d : Ex ℝ} (h : Good μ e c d) : d.cols = v.dim := by rw [cols, h.2.size]

/-- Product of two 1×1 expressions. -/
theorem good_ss (hs : Sound cfg) (h : Kept (PowOk μ.env) (mul a b)) (sa : a.isScalar = true) (sb : b.isScalar = true)
    (hc : c = 0) (ga : Good μ a c da) (gb : Good μ b c db) :
    Good μ (mul a b) c (addOp cfg (mulOp cfg b da) (mulOp cfg a db)) := by
  subst hc
  obtain ⟨ar, ac⟩ := scalar_rows sa
  obtain ⟨br, bc⟩ := scalar_rows sb
  have mr : (mul a b).rows = 1 := by rw [rows, mul_rows_l h sa]; exact br
  have v1 := val_scal (cfg := cfg) sb h.2.1 ga.1
  have v2 := val_scal (cfg := cfg) sa h.1 gb.1
  refine good_mk (val_addOp hs v1 v2 ?_) ?_ ?_ fun i j hi hj => ?_
  · rw [v1.size pw0 ρ0, v2.size pw0 ρ0, SM.smul_r, SM.smul_c, SM.smul_r, SM.smul_c, ga.r, ga.c, gb.r, gb.c, ar, br]
  · rw [SM.add_r, SM.smul_r, ga.r, ar, mr]
  · rw [SM.add_c, SM.smul_c, ga.c]
  · rw [mr] at hi
    obtain rfl : i = 0 := by omega
    rw [SM.add_f (by rw [SM.smul_r, SM.smul_r, ga.r, gb.r, ar, br]) (by rw [SM.smul_c, SM.smul_c, ga.c, gb.c]),
      SM.smul_f, SM.smul_f]
    exact (deriv_mulL h.1 sa (ga.all h.1 0 hj) (gb.all h.2.1 0 hj)).congr_deriv (by ring)

theorem good_ss_a (h : Kept (PowOk μ.env) (mul a b)) (sa : a.isScalar = true) (sb : b.isScalar = true)
    (hc : c = 0) (ga : Good μ a c da) (hb : μ.dep b = false) : Good μ (mul a b) c (mulOp cfg b da) := by
  subst hc
  obtain ⟨ar, ac⟩ := scalar_rows sa
  obtain ⟨br, bc⟩ := scalar_rows sb
  have mr : (mul a b).rows = 1 := by rw [rows, mul_rows_l h sa]; exact br
  refine good_mk (val_scal sb h.2.1 ga.1) ?_ ?_ fun i j hi hj => ?_
  · rw [SM.smul_r, ga.r, ar, mr]
  · rw [SM.smul_c, ga.c]
  · rw [mr] at hi
    obtain rfl : i = 0 := by omega
    rw [SM.smul_f]
    exact (deriv_mulL h.1 sa (ga.all h.1 0 hj) (nd h.2.1 hb 0 0 j)).congr_deriv (by ring)

theorem good_l (hs : Sound cfg) (h : Kept (PowOk μ.env) (mul a b)) (sa : a.isScalar = true) (hc : c < b.cols)
    (ga : Good μ a 0 da) (gb : Good μ b c db) :
    Good μ (mul a b) c (addOp cfg (mulOp cfg a db) (mulOp cfg (b.colAcc cfg c) da)) := by
  obtain ⟨ar, ac⟩ := scalar_rows sa
  have mr : (mul a b).rows = b.rows := by rw [rows, mul_rows_l h sa]
  have v1 := val_scal (cfg := cfg) sa h.1 gb.1
  have v2 := val_colm hs h.2.1 hc ga.1 (by rw [ga.rows_eq, ar])
  refine good_mk (val_addOp hs v1 v2 ?_) ?_ ?_ fun i j hi hj => ?_
  · rw [v1.size pw0 ρ0, v2.size pw0 ρ0, SM.smul_r, SM.smul_c, SM.of_r, SM.of_c, gb.r, gb.c, ga.cols_eq]
  · rw [SM.add_r, SM.smul_r, gb.r, mr]
  · rw [SM.add_c, SM.smul_c, gb.c]
  · rw [mr] at hi
    rw [SM.add_f (by rw [SM.smul_r, SM.of_r, gb.r]) (by rw [SM.smul_c, SM.of_c, gb.c, ga.cols_eq]),
      SM.smul_f, SM.f_in _ _ _ hi (by rw [ga.cols_eq]; exact hj)]
    exact (deriv_mulL h.1 sa (ga.all h.1 0 hj) (gb.all h.2.1 i hj)).congr_deriv (by ring)

theorem good_l_a (hs : Sound cfg) (h : Kept (PowOk μ.env) (mul a b)) (sa : a.isScalar = true) (hc : c < b.cols)
    (ga : Good μ a 0 da) (hb : μ.dep b = false) : Good μ (mul a b) c (mulOp cfg (b.colAcc cfg c) da) := by
  obtain ⟨ar, ac⟩ := scalar_rows sa
  have mr : (mul a b).rows = b.rows := by rw [rows, mul_rows_l h sa]
  refine good_mk (val_colm hs h.2.1 hc ga.1 (by rw [ga.rows_eq, ar])) ?_ ?_ fun i j hi hj => ?_
  · rw [SM.of_r, mr]
  · rw [SM.of_c, ga.cols_eq]
  · rw [mr] at hi
    rw [SM.f_in _ _ _ hi (by rw [ga.cols_eq]; exact hj)]
    exact (deriv_mulL h.1 sa (ga.all h.1 0 hj) (nd h.2.1 hb i c j)).congr_deriv (by ring)

theorem good_l_b (h : Kept (PowOk μ.env) (mul a b)) (sa : a.isScalar = true) (ha : μ.dep a = false)
    (gb : Good μ b c db) : Good μ (mul a b) c (mulOp cfg a db) := by
  have mr : (mul a b).rows = b.rows := by rw [rows, mul_rows_l h sa]
  refine good_mk (val_scal sa h.1 gb.1) ?_ ?_ fun i j hi hj => ?_
  · rw [SM.smul_r, gb.r, mr]
  · rw [SM.smul_c, gb.c]
  · rw [SM.smul_f]
    exact (deriv_mulL h.1 sa (nd h.1 ha 0 0 j) (gb.all h.2.1 i hj)).congr_deriv (by ring)

theorem good_r (hs : Sound cfg) (h : Kept (PowOk μ.env) (mul a b)) (sb : b.isScalar = true) (hc : c < a.cols)
    (ga : Good μ a c da) (gb : Good μ b 0 db) :
    Good μ (mul a b) c (addOp cfg (mulOp cfg b da) (mulOp cfg (a.colAcc cfg c) db)) := by
  obtain ⟨br, bc⟩ := scalar_rows sb
  have mr : (mul a b).rows = a.rows := by rw [rows, mul_rows_r h sb]
  have v1 := val_scal (cfg := cfg) sb h.2.1 ga.1
  have v2 := val_colm hs h.1 hc gb.1 (by rw [gb.rows_eq, br])
  refine good_mk (val_addOp hs v1 v2 ?_) ?_ ?_ fun i j hi hj => ?_
  · rw [v1.size pw0 ρ0, v2.size pw0 ρ0, SM.smul_r, SM.smul_c, SM.of_r, SM.of_c, ga.r, ga.c, gb.cols_eq]
  · rw [SM.add_r, SM.smul_r, ga.r, mr]
  · rw [SM.add_c, SM.smul_c, ga.c]
  · rw [mr] at hi
    rw [SM.add_f (by rw [SM.smul_r, SM.of_r, ga.r]) (by rw [SM.smul_c, SM.of_c, ga.c, gb.cols_eq]),
      SM.smul_f, SM.f_in _ _ _ hi (by rw [gb.cols_eq]; exact hj)]
    exact (deriv_mulR h.2.1 sb (ga.all h.1 i hj) (gb.all h.2.1 0 hj)).congr_deriv (by ring)

theorem good_r_a (h : Kept (PowOk μ.env) (mul a b)) (sb : b.isScalar = true)
    (ga : Good μ a c da) (hb : μ.dep b = false) : Good μ (mul a b) c (mulOp cfg b da) := by
  have mr : (mul a b).rows = a.rows := by rw [rows, mul_rows_r h sb]
  refine good_mk (val_scal sb h.2.1 ga.1) ?_ ?_ fun i j hi hj => ?_
  · rw [SM.smul_r, ga.r, mr]
  · rw [SM.smul_c, ga.c]
  · rw [SM.smul_f]
    exact (deriv_mulR h.2.1 sb (ga.all h.1 i hj) (nd h.2.1 hb 0 0 j)).congr_deriv (by ring)

theorem good_r_b (hs : Sound cfg) (h : Kept (PowOk μ.env) (mul a b)) (sb : b.isScalar = true) (hc : c < a.cols)
    (ha : μ.dep a = false) (gb : Good μ b 0 db) : Good μ (mul a b) c (mulOp cfg (a.colAcc cfg c) db) := by
  obtain ⟨br, bc⟩ := scalar_rows sb
  have mr : (mul a b).rows = a.rows := by rw [rows, mul_rows_r h sb]
  refine good_mk (val_colm hs h.1 hc gb.1 (by rw [gb.rows_eq, br])) ?_ ?_ fun i j hi hj => ?_
  · rw [SM.of_r, mr]
  · rw [SM.of_c, gb.cols_eq]
  · rw [mr] at hi
    rw [SM.f_in _ _ _ hi (by rw [gb.cols_eq]; exact hj)]
    exact (deriv_mulR h.2.1 sb (nd h.1 ha i c j) (gb.all h.2.1 0 hj)).congr_deriv (by ring)

/-- Matrix products. -/
theorem val_prod (ha : Kept (PowOk μ.env) a) (hm : a.cols = b.rows) (gb : Good μ b c db) :
    Val (PowOk μ.env) (mulOp cfg a db) fun pw σ =>
      SM.of a.rows v.dim fun i j => ∑ k ∈ Finset.range a.cols, (a.ev pw σ).f i k * (db.ev pw σ).f k j := by
  have hx : ∀ pw σ, (a.ev pw σ).c = (db.ev pw σ).r := fun pw σ => by rw [(dimsK ha pw σ).2, gb.r, hm]
  refine (val_mulOp cfg (Val.self ha) (Val.self gb.1) fun pw σ => Or.inl (hx pw σ)).congr fun pw σ => ?_
  rw [SM.mul_std (hx pw σ), (dimsK ha pw σ).1, gb.c, (dimsK ha pw σ).2]

theorem val_dcols (hs : Sound cfg) (h : Kept (PowOk μ.env) (mul a b)) (hm : a.cols = b.rows) (hc : c < b.cols)
    {g : Nat → Ex ℝ} (ga : ∀ k, k < a.cols → Good μ a k (g k)) :
    Val (PowOk μ.env) (mpd a.cols g (b.colAcc cfg c)) fun pw σ =>
      SM.of a.rows v.dim fun i j => ∑ k ∈ Finset.range a.cols, (b.ev pw σ).f k c * ((g k).ev pw σ).f i j := by
  have vc := (access hs h.2.1).2.1 c hc
  refine (good_mpd (s := (a.rows, v.dim)) (pos h.1).2 vc ?_ fun k hk => ⟨(ga k hk).1, (ga k hk).2.size⟩).congr
    fun pw σ => ?_
  · rw [vc.size pw0 ρ0, SM.col_r, SM.col_c, (dimsK h.2.1 _ _).1, hm]
  · simp only [SM.col_f]

theorem good_s (hs : Sound cfg) (h : Kept (PowOk μ.env) (mul a b)) (hm : a.cols = b.rows) (hc : c < b.cols)
    {g : Nat → Ex ℝ} (ga : ∀ k, k < a.cols → Good μ a k (g k)) (gb : Good μ b c db) :
    Good μ (mul a b) c (addOp cfg (mulOp cfg a db) (mpd a.cols g (b.colAcc cfg c))) := by
  have mr : (mul a b).rows = a.rows := by rw [rows, mul_rows_s h hm]
  have v1 := val_prod (cfg := cfg) h.1 hm gb
  have v2 := val_dcols hs h hm hc ga
  refine good_mk (val_addOp hs v1 v2 ?_) ?_ ?_ fun i j hi hj => ?_
  · rw [v1.size pw0 ρ0, v2.size pw0 ρ0]; rfl
  · rw [SM.add_r, SM.of_r, mr]
  · rw [SM.add_c, SM.of_c]
  · rw [mr] at hi
    rw [SM.add_f (by rw [SM.of_r, SM.of_r]) (by rw [SM.of_c, SM.of_c]), SM.f_in _ _ _ hi hj, SM.f_in _ _ _ hi hj]
    refine (deriv_mulS h.1 h.2.1 hm (fun k hk => (ga k hk).all h.1 i hj) (fun k hk => gb.all h.2.1 k hj)).congr_deriv ?_
    rw [← Finset.sum_add_distrib]
    exact Finset.sum_congr rfl fun k _ => by ring

theorem good_s_a (hs : Sound cfg) (h : Kept (PowOk μ.env) (mul a b)) (hm : a.cols = b.rows) (hc : c < b.cols)
    {g : Nat → Ex ℝ} (ga : ∀ k, k < a.cols → Good μ a k (g k)) (hb : μ.dep b = false) :
    Good μ (mul a b) c (mpd a.cols g (b.colAcc cfg c)) := by
  have mr : (mul a b).rows = a.rows := by rw [rows, mul_rows_s h hm]
  refine good_mk (val_dcols hs h hm hc ga) ?_ ?_ fun i j hi hj => ?_
  · rw [SM.of_r, mr]
  · rw [SM.of_c]
  · rw [mr] at hi
    rw [SM.f_in _ _ _ hi hj]
    refine (deriv_mulS (y := fun _ => 0) h.1 h.2.1 hm (fun k hk => (ga k hk).all h.1 i hj)
      (fun k hk => nd h.2.1 hb k c j)).congr_deriv ?_
    exact Finset.sum_congr rfl fun k _ => by ring

theorem good_s_b (h : Kept (PowOk μ.env) (mul a b)) (hm : a.cols = b.rows)
    (ha : μ.dep a = false) (gb : Good μ b c db) : Good μ (mul a b) c (mulOp cfg a db) := by
  have mr : (mul a b).rows = a.rows := by rw [rows, mul_rows_s h hm]
  refine good_mk (val_prod h.1 hm gb) ?_ ?_ fun i j hi hj => ?_
  · rw [SM.of_r, mr]
  · rw [SM.of_c]
  · rw [mr] at hi
    rw [SM.f_in _ _ _ hi hj]
    refine (deriv_mulS (x := fun _ => 0) h.1 h.2.1 hm (fun k hk => nd h.1 ha i k j)
      (fun k hk => gb.all h.2.1 k hj)).congr_deriv ?_
    exact Finset.sum_congr rfl fun k _ => by ring

/-- Exponents that may be lowered by one. -/
theorem powOk_sub {α : ℝ} (h : PowOk μ.env a α) (h1 : ¬|α - 1| < e15) : PowOk μ.env a (α - 1) := by
  refine ⟨?_, fun n hn => ?_⟩
  · rcases h.1 with h' | ⟨h', z, hz⟩ | ⟨n, hn, hz⟩
    · exact Or.inl h'
    · exact Or.inr (Or.inl ⟨h', z - 1, by rw [hz]; push_cast; ring⟩)
    · refine Or.inr (Or.inr ⟨n - 1, ?_, by rw [hz, Nat.cast_sub hn]; simp⟩)
      have : n ≠ 1 := by
        rintro rfl
        apply h1
        rw [hz, e15]; norm_num
      omega
  · have := h.2 (n + 1) (by push_cast; rwa [show α - ((n : ℝ) + 1) = α - 1 - n by ring])
    rw [this]; push_cast; ring

theorem kept_pow_size {α : ℝ} (h : Kept (PowOk μ.env) (pow a α)) : a.isScalar = true := (isScalar_iff a).2 h.2.1

theorem good_pow1 {α : ℝ} (h : Kept (PowOk μ.env) (pow a α)) (hα : |α - 1| < e15) (ga : Good μ a 0 da) :
    Good μ (pow a α) 0 da := by
  have : α = 1 := by
    have := h.2.2.2 1 (by rw [Nat.cast_one]; exact hα)
    simpa using this
  subst this
  obtain ⟨ar, ac⟩ := scalar_rows (kept_pow_size h)
  refine good_of ga (by rw [ar]; rfl) fun σ i hi => ?_
  obtain rfl : i = 0 := by simpa [rows, size] using hi
  rw [ev, SM.scalar_f, rpow, Real.rpow_one]

theorem good_pow {α : ℝ} (h : Kept (PowOk μ.env) (pow a α)) (hα : ¬|α - 1| < e15) (ga : Good μ a 0 da) :
    Good μ (pow a α) 0 (mulOp cfg (mulOp cfg (pow a (α - 1)) (const 1 1 fun _ _ => α)) da) := by
  obtain ⟨ar, ac⟩ := scalar_rows (kept_pow_size h)
  have hk : Kept (PowOk μ.env) (pow a (α - 1)) := ⟨h.1, h.2.1, powOk_sub h.2.2 hα⟩
  have hc : Kept (PowOk μ.env) (const 1 1 fun _ _ => α : Ex ℝ) := ⟨Nat.one_pos, Nat.one_pos⟩
  have v1 : Val (PowOk μ.env) (mulOp cfg (pow a (α - 1)) (const 1 1 fun _ _ => α)) fun pw σ =>
      SM.scalar (pw ((a.ev pw σ).f 0 0) (α - 1) * α) := by
    refine (val_scal (a := pow a (α - 1)) rfl hk hc).congr fun pw σ => ?_
    rw [SM.smul_scalar (A := (const 1 1 fun _ _ => α : Ex ℝ).ev pw σ) ⟨rfl, rfl⟩]
    simp [ev, SM.of_f]
  have v2 := val_mulOp cfg v1 (Val.self ga.1) fun pw σ => Or.inr (Or.inl ⟨rfl, rfl⟩)
  have v3 := v2.congr fun pw σ => SM.mul_scalar_left ⟨rfl, rfl⟩ _
  refine good_mk v3 ?_ ?_ fun i j hi hj => ?_
  · rw [SM.smul_r, ga.r, ar]; rfl
  · rw [SM.smul_c, ga.c]
  · obtain rfl : i = 0 := by simpa [rows, size] using hi
    simp only [ev, SM.scalar_f, SM.smul_f]
    have g0 := ga.all h.1 0 hj
    have := HasDerivAt.rpow_const (p := α) g0 (by
      simp only [Motion.start]
      rcases h.2.2.1 with h' | ⟨h', _⟩ | ⟨n, hn, hz⟩
      · exact Or.inl h'.ne'
      · exact Or.inl h'
      · exact Or.inr (by rw [hz]; exact_mod_cast hn))
    simp only [Motion.start] at this
    refine this.congr_deriv ?_
    simp only [rpow]; ring

theorem val_powneg (h : Kept (PowOk μ.env) (div a b)) :
    Val (PowOk μ.env) (mulOp cfg a (pow b (-1))) fun pw σ => SM.smul (pw ((b.ev pw σ).f 0 0) (-1)) (a.ev pw σ) := by
  obtain ⟨ha, hb, hc, hbs, hP⟩ := h
  have hk : Kept (PowOk μ.env) (pow b (-1)) := ⟨hb, hbs, hP⟩
  refine (val_mulOp cfg (Val.self ha) (Val.self hk) fun pw σ => Or.inr (Or.inr ⟨rfl, rfl⟩)).congr fun pw σ => ?_
  rw [SM.mul_scalar_right (B := (pow b (-1)).ev pw σ) _ ⟨rfl, rfl⟩]
  simp [ev]

theorem good_div (h : Kept (PowOk μ.env) (div a b)) {d : Ex ℝ}
    (g : Good μ (mulOp cfg a (pow b (-1))) c d) : Good μ (div a b) c d := by
  have vp := val_powneg (cfg := cfg) h
  refine good_of g ?_ fun σ i _ => ?_
  · rw [rows, vp.size pw0 ρ0, SM.smul_r, (dimsK h.1 _ _).1]; rfl
  · rw [vp.2, ev, SM.div_f, SM.smul_f, rpow, Real.rpow_neg_one]; ring

/-- Rows computed one by one. -/
theorem good_byRows {e : Ex ℝ} {m : Nat} (hm : 0 < m) (hr : e.rows = m) {x g : Nat → Ex ℝ}
    (hx : ∀ k, k < m → (x k).size = (1, 1) ∧ ∀ σ, ((x k).ev rpow σ).f 0 0 = (e.ev rpow σ).f k c)
    (hg : ∀ k, k < m → Good μ (x k) 0 (g k)) : Good μ e c (byRows m g) := by
  have gs : ∀ k, k < m → (g k).size = (1, v.dim) := fun k hk => by rw [(hg k hk).2.size, rows, (hx k hk).1]
  have hk : Kept (PowOk μ.env) (byRows m g) :=
    ⟨hm, fun i hi => ⟨(hg i hi).1, by rw [gs i hi, cols, gs 0 hm]⟩⟩
  refine ⟨hk, ?_, fun i j hi hj => ?_⟩
  · rw [size, gs 0 hm, hr]
  · rw [hr] at hi
    rw [ev, SM.f_in _ _ _ hi (by rw [(hg 0 hm).c]; exact hj)]
    have := (hg i hi).2.deriv 0 j (by rw [rows, (hx i hi).1]; exact Nat.one_pos) hj
    have e2 : (fun t => (e.ev rpow (μ.path j t)).f i c) = fun t => ((x i).ev rpow (μ.path j t)).f 0 0 :=
      funext fun t => ((hx i hi).2 _).symm
    rw [e2]; exact this

theorem elem_ok (hs : Sound cfg) (ha : Kept (PowOk μ.env) a) {i j : Nat} (hi : i < a.rows) (hj : j < a.cols) :
    Kept (PowOk μ.env) (a.elemAcc cfg i j) ∧ (a.elemAcc cfg i j).size = (1, 1) ∧
      ∀ σ, ((a.elemAcc cfg i j).ev rpow σ).f 0 0 = (a.ev rpow σ).f i j := by
  have v1 := (access hs ha).2.2 i j hi hj
  exact ⟨v1.1, v1.size pw0 ρ0, fun σ => by rw [v1.2, SM.elem_f]⟩

theorem good_row (ha : Kept (PowOk μ.env) a) {i : Nat} (hi : i < a.rows) (ga : Good μ a c da) :
    Good μ (row a i) c (row da i) := by
  refine ⟨⟨ga.1, by rw [ga.rows_eq]; exact hi⟩, ?_, fun k j hk hj => ?_⟩
  · rw [size, ← cols, ga.cols_eq]; rfl
  · obtain rfl : k = 0 := by simpa [rows, size] using hk
    simp only [ev, SM.row_f]
    exact ga.all ha i hj

theorem good_elem (ha : Kept (PowOk μ.env) a) {i k : Nat} (hi : i < a.rows) (ga : Good μ a k da) :
    Good μ (elem a i k) 0 (row da i) := by
  refine ⟨⟨ga.1, by rw [ga.rows_eq]; exact hi⟩, ?_, fun k j hk hj => ?_⟩
  · rw [size, ← cols, ga.cols_eq]; rfl
  · obtain rfl : k = 0 := by simpa [rows, size] using hk
    simp only [ev, SM.row_f, SM.elem_f]
    exact ga.all ha i hj

theorem good_block (ha : Kept (PowOk μ.env) a) (hv : 0 < v.dim) {i j r cc : Nat} (hr : 0 < r) (hi : i + r ≤ a.rows)
    (hc : c < cc) (ga : Good μ a (j + c) da) : Good μ (block a i j r cc) c (blockOp da i 0 r v.dim) := by
  refine good_mk (val_blockOp (Val.self ga.1) hr hv (by rw [ga.rows_eq]; exact hi) (by rw [ga.cols_eq]; omega)) rfl rfl
    fun k l hk hl => ?_
  rw [SM.block_f _ _ _ _ _ (show k < r from hk) hl]
  simp only [ev, fun A : SM ℝ => SM.block_f A i j r cc (show k < r from hk) hc, Nat.zero_add]
  exact ga.all ha (i + k) hl

theorem skew_col (A : SM ℝ) (pw) (σ : Env ℝ) {i c : Nat} (hi : i < 3) (hc : c < 3) :
    (SM.skew A).f i c = ∑ k ∈ Finset.range 3, (ev pw σ (sparse 3 3 (leviCivita c))).f i k * A.f k 0 := by
  interval_cases i <;> interval_cases c <;> simp [SM.skew, ev, SM.of_f, leviCivita, Finset.sum_range_succ]

theorem good_skew (h : Kept (PowOk μ.env) (skew a)) (hc : c < 3) (ga : Good μ a 0 da) :
    Good μ (skew a) c (mulOp cfg (sparse 3 3 (leviCivita c)) da) := by
  have ar : a.rows = 3 := by rw [rows, h.2]
  have hx : ∀ pw σ, ((sparse 3 3 (leviCivita c) : Ex ℝ).ev pw σ).c = (da.ev pw σ).r := fun pw σ => by rw [ga.r, ar]; rfl
  have v1 := val_mulOp cfg (Val.self (kept_leviCivita (P := PowOk μ.env) c)) (Val.self ga.1) fun pw σ => Or.inl (hx pw σ)
  refine good_mk v1 ?_ ?_ fun i j hi hj => ?_
  · rw [SM.mul_std_r (hx _ _)]; rfl
  · rw [SM.mul_std_c (hx _ _), ga.c]
  · have hi' : i < 3 := hi
    rw [SM.mul_std_f (hx _ _)]
    have e1 : (fun t => ((skew a).ev rpow (μ.path j t)).f i c) = fun t => ∑ k ∈ Finset.range 3,
        (ev rpow μ.env (sparse 3 3 (leviCivita c))).f i k * (a.ev rpow (μ.path j t)).f k 0 := by
      funext t
      exact skew_col _ rpow μ.env hi' hc
    rw [e1]
    exact HasDerivAt.fun_sum fun k _ => (ga.all h.1 k hj).const_mul _

theorem good_vcat (h : Kept (PowOk μ.env) (vcat a b)) (hc : c < a.cols) (ga : Good μ a c da) (gb : Good μ b c db) :
    Good μ (vcat a b) c (vcat da db) := by
  obtain ⟨ha, hb, hcc⟩ := h
  refine ⟨⟨ga.1, gb.1, by rw [ga.cols_eq, gb.cols_eq]⟩, ?_, fun i j _ hj => ?_⟩
  · simp only [size, ga.2.size, gb.2.size, rows]
  · simp only [ev]
    rw [SM.vcat_f _ _ (by rw [ga.c]; exact hj), ga.r]
    have e1 : (fun t => (SM.vcat (a.ev rpow (μ.path j t)) (b.ev rpow (μ.path j t))).f i c) =
        fun t => if i < a.rows then (a.ev rpow (μ.path j t)).f i c else (b.ev rpow (μ.path j t)).f (i - a.rows) c := by
      funext t
      rw [SM.vcat_f _ _ (by rw [(dimsK ha _ _).2]; exact hc), (dimsK ha _ _).1]
    rw [e1]
    by_cases hi : i < a.rows
    · simp only [hi, if_true]; exact ga.all ha i hj
    · simp only [hi, if_false]; exact gb.all hb _ hj

end cases


end Chain
end Verif.Levi
