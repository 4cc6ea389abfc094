import Verif.Model.LeviMatrix
import Verif.Tac
import Mathlib.Algebra.BigOperators.Ring.Finset
/- Algebra of run-time sized matrices. -/
set_option linter.unusedSectionVars false
namespace Verif.Levi.SM
variable {K : Type} [Field K]

@[simp] theorem of_r (r c : Nat) (f : Nat → Nat → K) : (of r c f).r = r := rfl
@[simp] theorem of_c (r c : Nat) (f : Nat → Nat → K) : (of r c f).c = c := rfl
theorem of_f (r c : Nat) (f : Nat → Nat → K) (i j : Nat) :
    (of r c f).f i j = if i < r ∧ j < c then f i j else 0 := rfl

theorem f_in (r c : Nat) (f : Nat → Nat → K) {i j : Nat} (hi : i < r) (hj : j < c) : (of r c f).f i j = f i j := by
  simp [of_f, hi, hj]

/-- Equality of matrices: sizes and entries inside. -/
theorem ext' {A B : SM K} (hr : A.r = B.r) (hc : A.c = B.c)
    (h : ∀ i j, i < A.r → j < A.c → A.f i j = B.f i j) : A = B := by
  apply SM.ext hr hc
  funext i j
  by_cases hij : i < A.r ∧ j < A.c
  · exact h i j hij.1 hij.2
  · rw [A.out i j hij, B.out i j (by rw [← hr, ← hc]; exact hij)]

theorem of_congr {r c r' c' : Nat} {f g : Nat → Nat → K} (hr : r = r') (hc : c = c')
    (h : ∀ i j, i < r → j < c → f i j = g i j) : of r c f = of r' c' g := by
  subst hr; subst hc
  refine ext' rfl rfl fun i j hi hj => ?_
  simp only [of_r, of_c] at hi hj
  rw [f_in _ _ _ hi hj, f_in _ _ _ hi hj, h i j hi hj]

theorem of_self (A : SM K) : of A.r A.c A.f = A :=
  ext' rfl rfl fun _ _ hi hj => f_in _ _ _ hi hj

@[simp] theorem zero_r (r c : Nat) : (zero r c : SM K).r = r := rfl
@[simp] theorem zero_c (r c : Nat) : (zero r c : SM K).c = c := rfl
@[simp] theorem zero_f (r c i j : Nat) : (zero r c : SM K).f i j = 0 := by simp [zero, of_f]
@[simp] theorem one_r (n : Nat) : (one n : SM K).r = n := rfl
@[simp] theorem one_c (n : Nat) : (one n : SM K).c = n := rfl
@[simp] theorem add_r (A B : SM K) : (add A B).r = A.r := rfl
@[simp] theorem add_c (A B : SM K) : (add A B).c = A.c := rfl
@[simp] theorem sub_r (A B : SM K) : (sub A B).r = A.r := rfl
@[simp] theorem sub_c (A B : SM K) : (sub A B).c = A.c := rfl
@[simp] theorem neg_r (A : SM K) : (neg A).r = A.r := rfl
@[simp] theorem neg_c (A : SM K) : (neg A).c = A.c := rfl
@[simp] theorem smul_r (k : K) (A : SM K) : (smul k A).r = A.r := rfl
@[simp] theorem smul_c (k : K) (A : SM K) : (smul k A).c = A.c := rfl
@[simp] theorem scalar_r (x : K) : (scalar x).r = 1 := rfl
@[simp] theorem scalar_c (x : K) : (scalar x).c = 1 := rfl
@[simp] theorem scalar_f (x : K) : (scalar x).f 0 0 = x := by simp [scalar, of_f]
@[simp] theorem div_r (A B : SM K) : (div A B).r = A.r := rfl
@[simp] theorem div_c (A B : SM K) : (div A B).c = A.c := rfl
@[simp] theorem tr_r (A : SM K) : (tr A).r = A.c := rfl
@[simp] theorem tr_c (A : SM K) : (tr A).c = A.r := rfl
@[simp] theorem row_r (A : SM K) (i : Nat) : (row A i).r = 1 := rfl
@[simp] theorem row_c (A : SM K) (i : Nat) : (row A i).c = A.c := rfl
@[simp] theorem col_r (A : SM K) (i : Nat) : (col A i).r = A.r := rfl
@[simp] theorem col_c (A : SM K) (i : Nat) : (col A i).c = 1 := rfl
@[simp] theorem elem_r (A : SM K) (i j : Nat) : (elem A i j).r = 1 := rfl
@[simp] theorem elem_c (A : SM K) (i j : Nat) : (elem A i j).c = 1 := rfl
@[simp] theorem block_r (A : SM K) (i j r c : Nat) : (block A i j r c).r = r := rfl
@[simp] theorem block_c (A : SM K) (i j r c : Nat) : (block A i j r c).c = c := rfl
@[simp] theorem hcat_r (A B : SM K) : (hcat A B).r = A.r := rfl
@[simp] theorem hcat_c (A B : SM K) : (hcat A B).c = A.c + B.c := rfl
@[simp] theorem vcat_r (A B : SM K) : (vcat A B).r = A.r + B.r := rfl
@[simp] theorem vcat_c (A B : SM K) : (vcat A B).c = A.c := rfl
@[simp] theorem skew_r (A : SM K) : (skew A).r = 3 := rfl
@[simp] theorem skew_c (A : SM K) : (skew A).c = 3 := rfl
@[simp] theorem vee_r (A : SM K) : (vee A).r = 3 := rfl
@[simp] theorem vee_c (A : SM K) : (vee A).c = 1 := rfl

@[simp] theorem smul_f (k : K) (A : SM K) (i j : Nat) : (smul k A).f i j = k * A.f i j := by
  simp only [smul, of_f]; split_ifs with h
  · rfl
  · rw [A.out i j h, mul_zero]
@[simp] theorem neg_f (A : SM K) (i j : Nat) : (neg A).f i j = -A.f i j := by
  simp only [neg, of_f]; split_ifs with h
  · rfl
  · rw [A.out i j h, neg_zero]
@[simp] theorem div_f (A B : SM K) (i j : Nat) : (div A B).f i j = A.f i j / B.f 0 0 := by
  simp only [div, of_f]; split_ifs with h
  · rfl
  · rw [A.out i j h, zero_div]
theorem add_f {A B : SM K} (hr : B.r = A.r) (hc : B.c = A.c) (i j : Nat) : (add A B).f i j = A.f i j + B.f i j := by
  simp only [add, of_f]; split_ifs with h
  · rfl
  · rw [A.out i j h, B.out i j (by rw [hr, hc]; exact h), add_zero]
theorem sub_f {A B : SM K} (hr : B.r = A.r) (hc : B.c = A.c) (i j : Nat) : (sub A B).f i j = A.f i j - B.f i j := by
  simp only [sub, of_f]; split_ifs with h
  · rfl
  · rw [A.out i j h, B.out i j (by rw [hr, hc]; exact h), sub_zero]
@[simp] theorem tr_f (A : SM K) (i j : Nat) : (tr A).f i j = A.f j i := by
  simp only [tr, of_f]; split_ifs with h
  · rfl
  · rw [A.out j i (by tauto)]
theorem elem_f (A : SM K) (i j : Nat) : (elem A i j).f 0 0 = A.f i j := by simp [elem, of_f]
theorem row_f (A : SM K) (i j : Nat) : (row A i).f 0 j = A.f i j := by
  simp only [row, of_f]; split_ifs with h
  · rfl
  · rw [A.out i j (by omega)]
theorem col_f (A : SM K) (i j : Nat) : (col A j).f i 0 = A.f i j := by
  simp only [col, of_f]; split_ifs with h
  · rfl
  · rw [A.out i j (by omega)]

/-- Sizes that can be multiplied: matching, or one of the two is 1×1. -/
def Conf (A B : SM K) : Prop := A.c = B.r ∨ A.IsScalar ∨ B.IsScalar

theorem mul_std {A B : SM K} (h : A.c = B.r) :
    mul A B = of A.r B.c fun i j => ∑ k ∈ Finset.range A.c, A.f i k * B.f k j := by
  simp [mul, h]

theorem mul_scalar_left {A : SM K} (hA : A.IsScalar) (B : SM K) : mul A B = smul (A.f 0 0) B := by
  unfold mul
  split_ifs with h
  · obtain ⟨h1, h2⟩ := hA
    refine ext' (by simp [h1, ← h, h2]) rfl fun i j hi hj => ?_
    simp only [of_r, of_c] at hi hj
    rw [f_in _ _ _ hi hj, h2]
    have : i = 0 := by omega
    simp [this]
  · rfl

theorem smul_scalar {A : SM K} (hA : A.IsScalar) (k : K) : smul k A = scalar (k * A.f 0 0) := by
  obtain ⟨h1, h2⟩ := hA
  refine ext' h1 h2 fun i j hi hj => ?_
  simp only [smul_r, smul_c, h1, h2] at hi hj
  obtain rfl : i = 0 := by omega
  obtain rfl : j = 0 := by omega
  simp

theorem mul_scalar_right (A : SM K) {B : SM K} (hB : B.IsScalar) : mul A B = smul (B.f 0 0) A := by
  unfold mul
  split_ifs with h h'
  · obtain ⟨h1, h2⟩ := hB
    refine ext' rfl (by simp [h2, h, h1]) fun i j hi hj => ?_
    simp only [of_r, of_c] at hi hj
    rw [f_in _ _ _ hi hj, h, h1]
    have : j = 0 := by omega
    simp [this, mul_comm]
  · rw [smul_scalar hB, smul_scalar h', mul_comm]
  · rfl

theorem mul_r {A B : SM K} (h : Conf A B) :
    (mul A B).r = if A.r = 1 ∧ A.c = 1 ∧ B.r ≠ 1 then B.r else A.r := by
  rcases h with h | h | h
  · rw [mul_std h, of_r]; split_ifs with h'
    · omega
    · rfl
  · rw [mul_scalar_left h, smul_r]; obtain ⟨h1, h2⟩ := h
    split_ifs with h'
    · rfl
    · simp [h1, h2] at h'; omega
  · rw [mul_scalar_right _ h, smul_r]; obtain ⟨h1, h2⟩ := h
    split_ifs with h'
    · omega
    · rfl

theorem mul_c {A B : SM K} (h : Conf A B) :
    (mul A B).c = if B.r = 1 ∧ B.c = 1 ∧ A.c ≠ 1 then A.c else B.c := by
  rcases h with h | h | h
  · rw [mul_std h, of_c]; split_ifs with h'
    · omega
    · rfl
  · rw [mul_scalar_left h, smul_c]; obtain ⟨h1, h2⟩ := h
    split_ifs with h'
    · omega
    · rfl
  · rw [mul_scalar_right _ h, smul_c]; obtain ⟨h1, h2⟩ := h
    split_ifs with h'
    · rfl
    · simp [h1, h2] at h'; omega

theorem mul_std_r {A B : SM K} (h : A.c = B.r) : (mul A B).r = A.r := by rw [mul_std h]; rfl
theorem mul_std_c {A B : SM K} (h : A.c = B.r) : (mul A B).c = B.c := by rw [mul_std h]; rfl
theorem mul_std_f {A B : SM K} (h : A.c = B.r) (i j : Nat) :
    (mul A B).f i j = ∑ k ∈ Finset.range A.c, A.f i k * B.f k j := by
  rw [mul_std h, of_f]; split_ifs with h'
  · rfl
  · symm; apply Finset.sum_eq_zero; intro k _
    by_cases hi : i < A.r
    · rw [B.out k j (by omega), mul_zero]
    · rw [A.out i k (by omega), zero_mul]

@[simp] theorem smul_smul (k l : K) (A : SM K) : smul k (smul l A) = smul (k * l) A :=
  ext' rfl rfl fun i j _ _ => by simp [mul_assoc]

theorem smul_isScalar {A : SM K} {k : K} : (smul k A).IsScalar ↔ A.IsScalar := Iff.rfl
theorem neg_isScalar {A : SM K} : (neg A).IsScalar ↔ A.IsScalar := Iff.rfl

theorem neg_eq_smul (A : SM K) : neg A = smul (-1) A := ext' rfl rfl fun i j _ _ => by simp

theorem smul_mul (k : K) {A B : SM K} (h : Conf A B) : mul (smul k A) B = smul k (mul A B) := by
  rcases h with h | h | h
  · refine ext' ?_ ?_ fun i j _ _ => ?_
    · rw [mul_std_r (by simpa using h), smul_r, smul_r, mul_std_r h]
    · rw [mul_std_c (by simpa using h), smul_c, mul_std_c h]
    · rw [mul_std_f (by simpa using h), smul_f, mul_std_f h, Finset.mul_sum]
      simp [mul_assoc]
  · rw [mul_scalar_left (smul_isScalar.2 h), mul_scalar_left h]; simp
  · rw [mul_scalar_right _ h, mul_scalar_right _ h]; simp [mul_comm]

theorem mul_smul (k : K) {A B : SM K} (h : Conf A B) : mul A (smul k B) = smul k (mul A B) := by
  rcases h with h | h | h
  · refine ext' ?_ ?_ fun i j _ _ => ?_
    · rw [mul_std_r (by simpa using h), smul_r, mul_std_r h]
    · rw [mul_std_c (by simpa using h), smul_c, smul_c, mul_std_c h]
    · rw [mul_std_f (by simpa using h), smul_f, mul_std_f h, Finset.mul_sum]
      simp [mul_left_comm]
  · rw [mul_scalar_left h, mul_scalar_left h]; simp [mul_comm]
  · rw [mul_scalar_right _ (smul_isScalar.2 h), mul_scalar_right _ h]; simp

theorem neg_mul {A B : SM K} (h : Conf A B) : mul (neg A) B = neg (mul A B) := by
  rw [neg_eq_smul, neg_eq_smul, smul_mul _ h]
theorem mul_neg {A B : SM K} (h : Conf A B) : mul A (neg B) = neg (mul A B) := by
  rw [neg_eq_smul, neg_eq_smul, mul_smul _ h]
@[simp] theorem neg_neg (A : SM K) : neg (neg A) = A := ext' rfl rfl fun i j _ _ => by simp
@[simp] theorem neg_zero (r c : Nat) : neg (zero r c : SM K) = zero r c := ext' rfl rfl fun i j _ _ => by simp

/-- Associativity for matching sizes. -/
theorem mul_assoc' {A B C : SM K} (h1 : A.c = B.r) (h2 : B.c = C.r) : mul (mul A B) C = mul A (mul B C) := by
  have e1 : (mul A B).c = C.r := by rw [mul_std_c h1, h2]
  have e2 : A.c = (mul B C).r := by rw [mul_std_r h2, h1]
  refine ext' ?_ ?_ fun i j _ _ => ?_
  · rw [mul_std_r e1, mul_std_r h1, mul_std_r e2]
  · rw [mul_std_c e1, mul_std_c e2, mul_std_c h2]
  · rw [mul_std_f e1, mul_std_f e2, mul_std_c h1]
    simp only [mul_std_f h1, mul_std_f h2, Finset.sum_mul, Finset.mul_sum]
    rw [Finset.sum_comm]
    exact Finset.sum_congr rfl fun k _ => Finset.sum_congr rfl fun l _ => by ring

/-- The product of expressions after simplification: matching sizes, or a 1×1 factor on the left. -/
def SConf (A B : SM K) : Prop := A.c = B.r ∨ A.IsScalar

theorem SConf.conf {A B : SM K} (h : SConf A B) : Conf A B := by
  rcases h with h | h
  · exact Or.inl h
  · exact Or.inr (Or.inl h)

theorem smul_conf {k : K} {A B : SM K} : Conf (smul k A) B ↔ Conf A B := Iff.rfl
theorem conf_smul {k : K} {A B : SM K} : Conf A (smul k B) ↔ Conf A B := Iff.rfl

/-- Reassociation to the left. -/
theorem assoc_left {A B C : SM K} (h1 : SConf B C) (h2 : SConf A (mul B C)) :
    SConf (mul A B) C ∧ Conf A B ∧ mul (mul A B) C = mul A (mul B C) := by
  rcases h2 with h2 | h2
  · rcases h1 with h1 | h1
    · have h3 : A.c = B.r := by rw [h2, mul_std_r h1]
      exact ⟨Or.inl (by rw [mul_std_c h3, h1]), Or.inl h3, mul_assoc' h3 h1⟩
    · rw [mul_scalar_left h1] at h2 ⊢
      have h2' : A.c = C.r := h2
      refine ⟨Or.inl ?_, Or.inr (Or.inr h1), ?_⟩
      · rw [mul_scalar_right _ h1]; exact h2'
      · rw [mul_scalar_right _ h1, smul_mul _ (Or.inl h2'), mul_smul _ (Or.inl h2')]
  · refine ⟨?_, Or.inr (Or.inl h2), ?_⟩
    · rw [mul_scalar_left h2]; exact h1
    · rw [mul_scalar_left h2, mul_scalar_left h2, smul_mul _ h1.conf]

theorem mul_isScalar {A B : SM K} (hA : A.IsScalar) (hB : B.IsScalar) : (mul A B).IsScalar := by
  rw [mul_scalar_left hA]; exact hB

theorem isScalar_right {A B : SM K} (hA : A.IsScalar) (h : (mul A B).IsScalar) : B.IsScalar := by
  rw [mul_scalar_left hA] at h; exact h

theorem mul_comm_scalar {A B : SM K} (hB : B.IsScalar) : mul A B = mul B A := by
  rw [mul_scalar_right _ hB, mul_scalar_left hB]

theorem mul_one (A : SM K) {n : Nat} (h : n = 1 ∨ A.c = n) : mul A (one n) = A := by
  by_cases hc : A.c = n
  · refine ext' (by rw [mul_std_r (by simpa using hc)]) (by rw [mul_std_c (by simpa using hc)]; simp [hc])
      fun i j hi hj => ?_
    rw [mul_std_f (by simpa using hc)] at *
    rw [mul_std_c (by simpa using hc)] at hj
    simp only [one_c] at hj
    rw [Finset.sum_eq_single j]
    · rw [one, f_in _ _ _ hj hj]; simp
    · intro k hk hkj
      rw [one, f_in _ _ _ (by rw [← hc]; exact Finset.mem_range.1 hk) hj, if_neg hkj, mul_zero]
    · intro hj'; rw [A.out i j (by simp at hj'; omega), zero_mul]
  · obtain rfl : n = 1 := h.resolve_right hc
    rw [mul_scalar_right _ ⟨rfl, rfl⟩]
    exact ext' rfl rfl fun i j _ _ => by simp [one, of_f]

theorem one_mul (A : SM K) {n : Nat} (h : n = 1 ∨ n = A.r) : mul (one n) A = A := by
  by_cases hc : n = A.r
  · refine ext' (by rw [mul_std_r (by simpa using hc)]; simp [hc]) (by rw [mul_std_c (by simpa using hc)])
      fun i j hi hj => ?_
    rw [mul_std_f (by simpa using hc)] at *
    rw [mul_std_r (by simpa using hc)] at hi
    simp only [one_r, one_c] at hi ⊢
    rw [Finset.sum_eq_single i]
    · rw [one, f_in _ _ _ hi hi]; simp
    · intro k hk hki
      rw [one, f_in _ _ _ hi (Finset.mem_range.1 hk), if_neg (Ne.symm hki), zero_mul]
    · intro hi'; exact absurd (Finset.mem_range.2 hi) hi'
  · obtain rfl : n = 1 := h.resolve_right hc
    rw [mul_scalar_left ⟨rfl, rfl⟩]
    exact ext' rfl rfl fun i j _ _ => by simp [one, of_f]

theorem zero_mul' {r c : Nat} (B : SM K) (h : Conf (zero r c) B) :
    mul (zero r c) B = zero (mul (zero r c) B).r (mul (zero r c) B).c := by
  refine ext' rfl rfl fun i j _ _ => ?_
  rw [zero_f]
  rcases h with h | h | h
  · rw [mul_std_f h]; simp
  · rw [mul_scalar_left h]; simp
  · rw [mul_scalar_right _ h]; simp

theorem mul_zero' (A : SM K) {r c : Nat} (h : Conf A (zero r c)) :
    mul A (zero r c) = zero (mul A (zero r c)).r (mul A (zero r c)).c := by
  refine ext' rfl rfl fun i j _ _ => ?_
  rw [zero_f]
  rcases h with h | h | h
  · rw [mul_std_f h]; simp
  · rw [mul_scalar_left h]; simp
  · rw [mul_scalar_right _ h]; simp

theorem add_comm' {A B : SM K} (hr : B.r = A.r) (hc : B.c = A.c) : add A B = add B A :=
  ext' hr.symm hc.symm fun i j _ _ => by rw [add_f hr hc, add_f hr.symm hc.symm, add_comm]

theorem sub_eq_add_neg' (A B : SM K) : sub A B = add A (neg B) :=
  ext' rfl rfl fun i j hi hj => by simp [sub, add, of_f, sub_eq_add_neg]

theorem add_mul' {A B C : SM K} (hr : B.r = A.r) (hc : B.c = A.c) (h : Conf A C) :
    mul (add A B) C = add (mul A C) (mul B C) := by
  have hB : Conf B C := by
    rcases h with h | h | h
    · exact Or.inl (by rw [hc, h])
    · exact Or.inr (Or.inl ⟨by rw [hr, h.1], by rw [hc, h.2]⟩)
    · exact Or.inr (Or.inr h)
  have e1 : (mul B C).r = (mul A C).r := by rw [mul_r hB, mul_r h, hr, hc]
  have e2 : (mul B C).c = (mul A C).c := by rw [mul_c hB, mul_c h, hc]
  rcases h with h | h | h
  · refine ext' ?_ ?_ fun i j _ _ => ?_
    · rw [mul_std_r (by simpa using h), add_r, add_r, mul_std_r h]
    · rw [mul_std_c (by simpa using h), add_c, mul_std_c h]
    · rw [add_f e1 e2, mul_std_f h, mul_std_f (A := B) (B := C) (by rw [hc, h]), mul_std_f (A := add A B) (by simpa using h), add_c, hc,
        ← Finset.sum_add_distrib]
      refine Finset.sum_congr rfl fun k _ => ?_
      rw [add_f hr hc, add_mul]
  · rw [mul_scalar_left (A := add A B) h, mul_scalar_left h, mul_scalar_left ⟨by rw [hr, h.1], by rw [hc, h.2]⟩]
    refine ext' rfl rfl fun i j _ _ => ?_
    rw [add_f (A := smul (A.f 0 0) C) (B := smul (B.f 0 0) C) rfl rfl, smul_f, smul_f, smul_f, add_f hr hc, add_mul]
  · rw [mul_scalar_right _ h, mul_scalar_right _ h, mul_scalar_right _ h]
    refine ext' rfl rfl fun i j _ _ => ?_
    rw [add_f (by simpa using hr) (by simpa using hc), smul_f, smul_f, smul_f, add_f hr hc, mul_add]

/-- Entry of a product, when the left factor may be 1×1. -/
theorem mul_f_scalar_left {A : SM K} (hA : A.IsScalar) (B : SM K) (i j : Nat) :
    (mul A B).f i j = A.f 0 0 * B.f i j := by rw [mul_scalar_left hA, smul_f]

theorem scalar_eq {A : SM K} (h : A.IsScalar) : A = scalar (A.f 0 0) := by
  obtain ⟨h1, h2⟩ := h
  refine ext' h1 h2 fun i j hi hj => ?_
  rw [h1] at hi; rw [h2] at hj
  obtain rfl : i = 0 := by omega
  obtain rfl : j = 0 := by omega
  simp

end Verif.Levi.SM
