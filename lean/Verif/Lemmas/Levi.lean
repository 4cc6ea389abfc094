import Verif.Lemmas.LeviMatrix
import Verif.Spec.Levi
/- Sizes and values of the expressions built by the operators of levi. -/
set_option linter.unusedSectionVars false
namespace Verif.Levi
open Spec Ex
variable {K : Type} [Field K] [LinearOrder K] {P : Ex K → K → Prop}

theorem isScalar_iff (e : Ex K) : e.isScalar = true ↔ e.size = (1, 1) := by
  simp [Ex.isScalar, Prod.ext_iff]

/-- Run-time sizes of a value are those announced by the node. -/
theorem dims {e : Ex K} (h : Written P e) (pw : K → K → K) (ρ : Env K) :
    (e.ev pw ρ).r = e.size.1 ∧ (e.ev pw ρ).c = e.size.2 := by
  induction e with
  | const r c M => exact ⟨rfl, rfl⟩
  | null r c => exact ⟨rfl, rfl⟩
  | ident n => exact ⟨rfl, rfl⟩
  | sparse r c l => exact ⟨rfl, rfl⟩
  | var v => exact ⟨rfl, rfl⟩
  | add a b iha ihb => exact iha h.1
  | sub a b iha ihb => exact iha h.1
  | neg a iha => exact iha h
  | mul a b iha ihb =>
    obtain ⟨ha, hb, hf⟩ := h
    obtain ⟨a1, a2⟩ := iha ha
    obtain ⟨b1, b2⟩ := ihb hb
    have hc : SM.Conf (a.ev pw ρ) (b.ev pw ρ) := by
      rcases hf with hf | hf | hf
      · exact Or.inl (by rw [a2, b1]; exact hf)
      · rw [isScalar_iff] at hf; exact Or.inr (Or.inl ⟨by rw [a1, hf], by rw [a2, hf]⟩)
      · rw [isScalar_iff] at hf; exact Or.inr (Or.inr ⟨by rw [b1, hf], by rw [b2, hf]⟩)
    refine ⟨?_, ?_⟩
    · rw [ev, SM.mul_r hc, a1, a2, b1]; rfl
    · rw [ev, SM.mul_c hc, a2, b1, b2]; rfl
  | pow a e iha => exact ⟨rfl, rfl⟩
  | div a b iha ihb =>
    obtain ⟨ha, hb, h1, h2, _⟩ := h
    refine ⟨(iha ha).1, ?_⟩
    rw [ev, SM.div_c, (iha ha).2, size, h2]; exact h1
  | skew a iha => exact ⟨rfl, rfl⟩
  | transpose a iha => exact ⟨(iha h).2, (iha h).1⟩
  | vee a iha => exact ⟨rfl, rfl⟩
  | row a i iha => exact ⟨rfl, (iha h.1).2⟩
  | col a j iha => exact ⟨(iha h.1).1, rfl⟩
  | elem a i j iha => exact ⟨rfl, rfl⟩
  | block a i j r c iha => exact ⟨rfl, rfl⟩
  | byRows n f ihf => exact ⟨rfl, (ihf 0 (h.2 0 h.1).1).2⟩
  | byCols n f ihf => exact ⟨(ihf 0 (h.2 0 h.1).1).1, rfl⟩
  | hcat a b iha ihb =>
    obtain ⟨ha, hb, _⟩ := h
    exact ⟨(iha ha).1, by rw [ev, SM.hcat_c, (iha ha).2, (ihb hb).2]; rfl⟩
  | vcat a b iha ihb =>
    obtain ⟨ha, hb, _⟩ := h
    exact ⟨by rw [ev, SM.vcat_r, (iha ha).1, (ihb hb).1]; rfl, (iha ha).2⟩
  | mpd n ds x ihd ihx => exact ihd 0 (h.2.1 0 h.1).1

/-- Sizes are positive. -/
theorem pos {M : Ex K → Ex K → Prop} {e : Ex K} (h : Formed M P e) : 0 < e.rows ∧ 0 < e.cols := by
  induction e with
  | const r c M => exact h
  | null r c => exact h
  | ident n => exact ⟨h, h⟩
  | sparse r c l => exact ⟨h.1, h.2.1⟩
  | var v => exact ⟨h, Nat.one_pos⟩
  | add a b iha ihb => exact iha h.1
  | sub a b iha ihb => exact iha h.1
  | neg a iha => exact iha h
  | mul a b iha ihb =>
    have := iha h.1
    have := ihb h.2.1
    simp only [rows, cols, size]
    constructor <;> split_ifs <;> simp_all [rows, cols]
  | pow a e iha => exact ⟨Nat.one_pos, Nat.one_pos⟩
  | div a b iha ihb => exact ⟨(iha h.1).1, (ihb h.2.1).2⟩
  | skew a iha => exact ⟨by simp [rows, size], by simp [cols, size]⟩
  | transpose a iha => exact ⟨(iha h).2, (iha h).1⟩
  | vee a iha => exact ⟨by simp [rows, size], by simp [cols, size]⟩
  | row a i iha => exact ⟨Nat.one_pos, (iha h.1).2⟩
  | col a j iha => exact ⟨(iha h.1).1, Nat.one_pos⟩
  | elem a i j iha => exact ⟨Nat.one_pos, Nat.one_pos⟩
  | block a i j r c iha => exact ⟨h.2.1, h.2.2.1⟩
  | byRows n f ihf => exact ⟨h.1, (ihf 0 (h.2 0 h.1).1).2⟩
  | byCols n f ihf => exact ⟨(ihf 0 (h.2 0 h.1).1).1, h.1⟩
  | hcat a b iha ihb => exact ⟨(iha h.1).1, Nat.add_pos_left (iha h.1).2 _⟩
  | vcat a b iha ihb => exact ⟨Nat.add_pos_left (iha h.1).1 _, (iha h.1).2⟩
  | mpd n ds x ihd ihx => exact ihd 0 (h.2.1 0 h.1).1

theorem Formed.mono {M M' : Ex K → Ex K → Prop} (hM : ∀ a b, M a b → M' a b) {e : Ex K} (h : Formed M P e) :
    Formed M' P e := by
  induction e with
  | const r c M => exact h
  | null r c => exact h
  | ident n => exact h
  | sparse r c l => exact h
  | var v => exact h
  | add a b iha ihb => exact ⟨iha h.1, ihb h.2.1, h.2.2⟩
  | sub a b iha ihb => exact ⟨iha h.1, ihb h.2.1, h.2.2⟩
  | neg a iha => exact iha h
  | mul a b iha ihb => exact ⟨iha h.1, ihb h.2.1, hM _ _ h.2.2⟩
  | pow a e iha => exact ⟨iha h.1, h.2⟩
  | div a b iha ihb => exact ⟨iha h.1, ihb h.2.1, h.2.2⟩
  | skew a iha => exact ⟨iha h.1, h.2⟩
  | transpose a iha => exact iha h
  | vee a iha => exact ⟨iha h.1, h.2⟩
  | row a i iha => exact ⟨iha h.1, h.2⟩
  | col a j iha => exact ⟨iha h.1, h.2⟩
  | elem a i j iha => exact ⟨iha h.1, h.2⟩
  | block a i j r c iha => exact ⟨iha h.1, h.2⟩
  | byRows n f ihf => exact ⟨h.1, fun i hi => ⟨ihf i (h.2 i hi).1, (h.2 i hi).2⟩⟩
  | byCols n f ihf => exact ⟨h.1, fun i hi => ⟨ihf i (h.2 i hi).1, (h.2 i hi).2⟩⟩
  | hcat a b iha ihb => exact ⟨iha h.1, ihb h.2.1, h.2.2⟩
  | vcat a b iha ihb => exact ⟨iha h.1, ihb h.2.1, h.2.2⟩
  | mpd n ds x ihd ihx => exact ⟨h.1, fun i hi => ⟨ihd i (h.2.1 i hi).1, (h.2.1 i hi).2⟩, ihx h.2.2.1, h.2.2.2⟩

theorem Kept.written {e : Ex K} (h : Kept P e) : Written P e :=
  Formed.mono (fun _ _ h => h.elim Or.inl fun h => Or.inr (Or.inl h)) h

theorem dimsK {e : Ex K} (h : Kept P e) (pw : K → K → K) (ρ : Env K) :
    (e.ev pw ρ).r = e.rows ∧ (e.ev pw ρ).c = e.cols := dims (Kept.written h) pw ρ

/-- `x` is a well formed expression whose value is `M`. -/
def Val (P : Ex K → K → Prop) (x : Ex K) (M : (K → K → K) → Env K → SM K) : Prop :=
  Kept P x ∧ ∀ pw ρ, x.ev pw ρ = M pw ρ

theorem Val.size {x : Ex K} {M} (h : Val P x M) (pw : K → K → K) (ρ : Env K) :
    x.size = ((M pw ρ).r, (M pw ρ).c) := by
  rw [← h.2 pw ρ, (dimsK h.1 pw ρ).1, (dimsK h.1 pw ρ).2]

/-- Some values, to transport sizes. -/
def pw0 : K → K → K := fun _ _ => 0
def ρ0 : Env K := fun _ _ => 0

theorem Val.self {x : Ex K} (h : Kept P x) : Val P x fun pw ρ => x.ev pw ρ := ⟨h, fun _ _ => rfl⟩

theorem Val.congr {x : Ex K} {M N} (h : Val P x M) (e : ∀ pw ρ, M pw ρ = N pw ρ) : Val P x N :=
  ⟨h.1, fun pw ρ => (h.2 pw ρ).trans (e pw ρ)⟩

theorem size_of_ev {x y : Ex K} (hx : Kept P x) (hy : Written P y) (h : ∀ pw ρ, x.ev pw ρ = y.ev pw ρ) :
    x.size = y.size := by
  have a := dimsK hx pw0 ρ0
  have b := dims hy pw0 ρ0
  rw [h] at a
  exact Prod.ext (a.1.symm.trans b.1) (a.2.symm.trans b.2)

theorem isScalar_ev {e : Ex K} (h : Kept P e) (pw : K → K → K) (ρ : Env K) :
    e.isScalar = true ↔ (e.ev pw ρ).IsScalar := by
  rw [isScalar_iff, SM.IsScalar, (dimsK h pw ρ).1, (dimsK h pw ρ).2, Prod.ext_iff]

theorem kept_mul {a b : Ex K} (ha : Kept P a) (hb : Kept P b) (pw : K → K → K) (ρ : Env K)
    (h : SM.SConf (a.ev pw ρ) (b.ev pw ρ)) : Kept P (mul a b) := by
  refine ⟨ha, hb, ?_⟩
  rcases h with h | h
  · rw [(dimsK ha pw ρ).2, (dimsK hb pw ρ).1] at h; exact Or.inl h
  · exact Or.inr ((isScalar_ev ha pw ρ).2 h)

theorem sconf_of_kept {a b : Ex K} (h : Kept P (mul a b)) (pw : K → K → K) (ρ : Env K) :
    SM.SConf (a.ev pw ρ) (b.ev pw ρ) := by
  obtain ⟨ha, hb, h⟩ := h
  rcases h with h | h
  · exact Or.inl (by rw [(dimsK ha pw ρ).2, (dimsK hb pw ρ).1, h])
  · exact Or.inr ((isScalar_ev ha pw ρ).1 h)

/-- A product node. -/
theorem val_mul {a b : Ex K} {A B M : (K → K → K) → Env K → SM K} (ha : Val P a A) (hb : Val P b B)
    (h : ∀ pw ρ, SM.SConf (A pw ρ) (B pw ρ) ∧ SM.mul (A pw ρ) (B pw ρ) = M pw ρ) : Val P (mul a b) M := by
  refine ⟨kept_mul ha.1 hb.1 pw0 ρ0 ?_, fun pw ρ => ?_⟩
  · rw [ha.2, hb.2]; exact (h _ _).1
  · rw [ev, ha.2, hb.2]; exact (h _ _).2

theorem val_neg {a : Ex K} {A} (ha : Val P a A) : Val P (negOp a) fun pw ρ => SM.neg (A pw ρ) := by
  have key : ∀ e : Ex K, Val P e A → Val P (Ex.neg e) fun pw ρ => SM.neg (A pw ρ) :=
    fun e he => ⟨he.1, fun pw ρ => by rw [ev, he.2]⟩
  unfold negOp
  split
  · exact ⟨ha.1, fun pw ρ => by simp only [← ha.2]; simp [ev]⟩
  · exact ⟨ha.1, fun pw ρ => by simp only [← ha.2]; simp [ev]⟩
  · exact key _ ha

theorem asNeg_some {a a' : Ex K} (h : a.asNeg = some a') : a = Ex.neg a' := by
  cases a <;> simp [asNeg] at h
  rw [h]

theorem asProduct_some {a a1 a2 : Ex K} (h : a.asProduct = some (a1, a2)) : a = mul a1 a2 := by
  cases a <;> simp [asProduct] at h
  rw [h.1, h.2]

theorem isNull_ev {a : Ex K} (h : a.isNull = true) : ∃ r c, a = null r c := by
  cases a <;> simp [isNull] at h
  exact ⟨_, _, rfl⟩

theorem isIdentity_ev {a : Ex K} (h : a.isIdentity = true) : ∃ n, a = ident n := by
  cases a <;> simp [isIdentity] at h
  exact ⟨_, rfl⟩

theorem conf_of_fits {a b : Ex K} (ha : Kept P a) (hb : Kept P b) (h : Fits a b) (pw : K → K → K) (ρ : Env K) :
    SM.Conf (a.ev pw ρ) (b.ev pw ρ) := by
  rcases h with h | h | h
  · exact Or.inl (by rw [(dimsK ha pw ρ).2, (dimsK hb pw ρ).1, h])
  · exact Or.inr (Or.inl ((isScalar_ev ha pw ρ).1 h))
  · exact Or.inr (Or.inr ((isScalar_ev hb pw ρ).1 h))

theorem fits_of_conf {a b : Ex K} (ha : Kept P a) (hb : Kept P b) (pw : K → K → K) (ρ : Env K)
    (h : SM.Conf (a.ev pw ρ) (b.ev pw ρ)) : Fits a b := by
  rcases h with h | h | h
  · rw [(dimsK ha pw ρ).2, (dimsK hb pw ρ).1] at h; exact Or.inl h
  · exact Or.inr (Or.inl ((isScalar_ev ha pw ρ).2 h))
  · exact Or.inr (Or.inr ((isScalar_ev hb pw ρ).2 h))

theorem SM.smul_eq_mul_scalar {A B : SM K} (h : A.IsScalar) : SM.mul A B = SM.smul (A.f 0 0) B := SM.mul_scalar_left h B

/-- `operator*`: whatever the rewriting does, the value is the product. -/
theorem val_mulF (n : Nat) {a b : Ex K} (ha : Kept P a) (hb : Kept P b)
    (h : ∀ pw ρ, SM.Conf (a.ev pw ρ) (b.ev pw ρ)) :
    Val P (mulF n a b) fun pw ρ => SM.mul (a.ev pw ρ) (b.ev pw ρ) := by
  induction n generalizing a b with
  | zero =>
    unfold mulF
    split_ifs with hs
    · refine val_mul (Val.self ha) (Val.self hb) fun pw ρ => ⟨?_, rfl⟩
      rcases h pw ρ with h | h | h
      · exact Or.inl h
      · exact Or.inr h
      · simp only [Bool.or_eq_true, Bool.not_eq_true', ← Bool.not_eq_true, isScalar_ev ha pw ρ, isScalar_ev hb pw ρ] at hs
        exact Or.inr (hs.resolve_right (fun x => x h))
    · simp only [Bool.or_eq_true, Bool.not_eq_true', not_or, Bool.not_eq_false] at hs
      refine val_mul (Val.self hb) (Val.self ha) fun pw ρ => ⟨Or.inr ((isScalar_ev hb pw ρ).1 hs.2), ?_⟩
      rw [SM.mul_comm_scalar ((isScalar_ev hb pw ρ).1 hs.2)]
  | succ n ih =>
    unfold mulF
    by_cases h1 : (a.isNull || b.isNull) = true
    · rw [if_pos h1]
      have hd := fun pw ρ => SM.mul_r (h pw ρ)
      have hd' := fun pw ρ => SM.mul_c (h pw ρ)
      simp only [(dimsK ha _ _).1, (dimsK ha _ _).2, (dimsK hb _ _).1, (dimsK hb _ _).2] at hd hd'
      refine ⟨?_, fun pw ρ => ?_⟩
      · have p1 := pos ha
        have p2 := pos hb
        constructor <;> split_ifs <;> simp_all
      · rw [Bool.or_eq_true] at h1
        simp only [ev, ← hd pw ρ, ← hd' pw ρ]
        rcases h1 with h1 | h1 <;> obtain ⟨r, c, rfl⟩ := isNull_ev h1
        · exact (SM.zero_mul' _ (h pw ρ)).symm
        · exact (SM.mul_zero' _ (h pw ρ)).symm
    rw [if_neg h1]
    by_cases h2 : (b.isIdentity && (b.rows == b.cols) && (b.rows == 1 || a.cols == b.rows)) = true
    · rw [if_pos h2]
      simp only [Bool.and_eq_true, beq_iff_eq, Bool.or_eq_true] at h2
      obtain ⟨⟨h2, _⟩, h3⟩ := h2
      obtain ⟨m, rfl⟩ := isIdentity_ev h2
      refine ⟨ha, fun pw ρ => ?_⟩
      simp only [ev]
      rw [SM.mul_one]
      rw [(dimsK ha pw ρ).2]; exact h3
    rw [if_neg h2]
    by_cases h3 : (a.isIdentity && (a.rows == a.cols) && (a.rows == 1 || a.cols == b.rows)) = true
    · rw [if_pos h3]
      simp only [Bool.and_eq_true, beq_iff_eq, Bool.or_eq_true] at h3
      obtain ⟨⟨h3, _⟩, h4⟩ := h3
      obtain ⟨m, rfl⟩ := isIdentity_ev h3
      refine ⟨hb, fun pw ρ => ?_⟩
      simp only [ev]
      rw [SM.one_mul]
      rw [(dimsK hb pw ρ).1]; exact h4
    · rw [if_neg h3]
      split
      · rename_i a' e
        obtain rfl := asNeg_some e
        refine (val_neg (ih (a := a') ha hb h)).congr fun pw ρ => ?_
        exact (SM.neg_mul (A := a'.ev pw ρ) (h pw ρ)).symm
      · split
        · rename_i b' e
          obtain rfl := asNeg_some e
          refine (val_neg (ih (b := b') ha hb h)).congr fun pw ρ => ?_
          exact (SM.mul_neg (B := b'.ev pw ρ) (h pw ρ)).symm
        · by_cases sa : a.isScalar = true
          · rw [if_pos sa]
            by_cases sb : b.isScalar = true
            · rw [if_pos sb]
              exact val_mul (Val.self ha) (Val.self hb) fun pw ρ => ⟨Or.inr ((isScalar_ev ha pw ρ).1 sa), rfl⟩
            rw [if_neg sb]
            have sa' := fun pw ρ => (isScalar_ev ha pw ρ).1 sa
            split
            · rename_i b1 b2 e
              obtain rfl := asProduct_some e
              have h12 := fun pw ρ => sconf_of_kept hb pw ρ
              have hx := fun pw ρ => SM.assoc_left (h12 pw ρ) (Or.inr (sa' pw ρ))
              have r := val_mul (ih ha hb.1 fun pw ρ => (hx pw ρ).2.1) (Val.self hb.2.1)
                (M := fun pw ρ => SM.mul (a.ev pw ρ) ((mul b1 b2).ev pw ρ))
                fun pw ρ => ⟨(hx pw ρ).1, (hx pw ρ).2.2⟩
              simp only [ite_self]
              exact r
            · exact val_mul (Val.self ha) (Val.self hb) fun pw ρ => ⟨Or.inr (sa' pw ρ), rfl⟩
          · rw [if_neg sa]
            have nsa := fun pw ρ => (isScalar_ev ha pw ρ).not.1 sa
            split
            · rename_i a1 a2 e
              obtain rfl := asProduct_some e
              have a12 := fun pw ρ => sconf_of_kept ha pw ρ
              by_cases sb : b.isScalar = true
              · rw [if_pos sb]
                split_ifs with sa1
                rotate_left
                · have sb' := fun pw ρ => (isScalar_ev hb pw ρ).1 sb
                  refine val_mul (ih hb ha.1 fun pw ρ => Or.inr (Or.inl (sb' pw ρ))) (Val.self ha.2.1) fun pw ρ => ?_
                  rw [SM.mul_comm_scalar (A := (mul a1 a2).ev pw ρ) (sb' pw ρ), ev, SM.mul_scalar_left (sb' pw ρ),
                    SM.mul_scalar_left (sb' pw ρ)]
                  exact ⟨a12 pw ρ, SM.smul_mul _ (a12 pw ρ).conf⟩
                have sb' := fun pw ρ => (isScalar_ev hb pw ρ).1 sb
                have sa1' := fun pw ρ => (isScalar_ev ha.1 pw ρ).1 sa1
                refine val_mul (ih ha.1 hb fun pw ρ => Or.inr (Or.inl (sa1' pw ρ))) (Val.self ha.2.1) fun pw ρ =>
                  ⟨Or.inr (SM.mul_isScalar (sa1' pw ρ) (sb' pw ρ)), ?_⟩
                rw [SM.mul_comm_scalar (A := (mul a1 a2).ev pw ρ) (sb' pw ρ), ev, SM.mul_comm_scalar (sb' pw ρ),
                  SM.mul_scalar_left (sb' pw ρ), SM.mul_scalar_left (sb' pw ρ),
                  SM.smul_mul _ (Or.inr (Or.inl (sa1' pw ρ)))]
              · rw [if_neg sb]
                have nsb := fun pw ρ => (isScalar_ev hb pw ρ).not.1 sb
                have hab := fun pw ρ => (h pw ρ).resolve_right (not_or.2 ⟨nsa pw ρ, nsb pw ρ⟩)
                have hA : ∀ pw ρ, ((mul a1 a2).ev pw ρ).c = (a2.ev pw ρ).c ∨
                    (a1.ev pw ρ).c = (a2.ev pw ρ).r := by
                  intro pw ρ
                  rcases a12 pw ρ with h | h
                  · exact Or.inr h
                  · rw [ev, SM.mul_scalar_left h]; exact Or.inl rfl
                have hA2 : ∀ pw ρ, (a2.ev pw ρ).c = (b.ev pw ρ).r := by
                  intro pw ρ
                  rcases a12 pw ρ with h | h
                  · rw [← hab pw ρ, ev, SM.mul_std_c h]
                  · rw [← hab pw ρ, ev, SM.mul_scalar_left h]; rfl
                have right : Val P (mul a1 (mulF n a2 b)) fun pw ρ =>
                    SM.mul ((mul a1 a2).ev pw ρ) (b.ev pw ρ) := by
                  refine val_mul (Val.self ha.1) (ih ha.2.1 hb fun pw ρ => Or.inl (hA2 pw ρ)) fun pw ρ => ?_
                  rcases a12 pw ρ with h | h
                  · refine ⟨Or.inl ?_, (SM.mul_assoc' h (hA2 pw ρ)).symm⟩
                    rw [SM.mul_std_r (hA2 pw ρ), h]
                  · refine ⟨Or.inr h, ?_⟩
                    rw [SM.mul_scalar_left h, ev, SM.mul_scalar_left h, SM.smul_mul _ (Or.inl (hA2 pw ρ))]
                have plain : Val P (mul (mul a1 a2) b) fun pw ρ =>
                    SM.mul ((mul a1 a2).ev pw ρ) (b.ev pw ρ) :=
                  val_mul (Val.self ha) (Val.self hb) fun pw ρ => ⟨Or.inl (hab pw ρ), rfl⟩
                split
                · rename_i b1 b2 e
                  obtain rfl := asProduct_some e
                  have b12 := fun pw ρ => sconf_of_kept hb pw ρ
                  have left := fun pw ρ => SM.assoc_left (b12 pw ρ) (Or.inl (hab pw ρ))
                  have leftV : Val P (mul (mulF n (mul a1 a2) b1) b2) fun pw ρ =>
                      SM.mul ((mul a1 a2).ev pw ρ) ((mul b1 b2).ev pw ρ) :=
                    val_mul (ih ha hb.1 fun pw ρ => (left pw ρ).2.1) (Val.self hb.2.1) fun pw ρ =>
                      ⟨(left pw ρ).1, (left pw ρ).2.2⟩
                  have sb1V : b1.isScalar = true → ∀ pw ρ, (b1.ev pw ρ).IsScalar ∧
                      ((mul b1 b2).ev pw ρ).r = (b2.ev pw ρ).r := by
                    intro s pw ρ
                    have := (isScalar_ev hb.1 pw ρ).1 s
                    exact ⟨this, by rw [ev, SM.mul_scalar_left this]; rfl⟩
                  dsimp only
                  split_ifs with sa1 sb1 sb1 c1 c2
                  · have sa1' := fun pw ρ => (isScalar_ev ha.1 pw ρ).1 sa1
                    have k := sb1V sb1
                    have hc : ∀ pw ρ, (a2.ev pw ρ).c = (b2.ev pw ρ).r := fun pw ρ => by rw [hA2, (k pw ρ).2]
                    refine val_mul (ih ha.1 hb.1 fun pw ρ => Or.inr (Or.inl (sa1' pw ρ)))
                      (ih ha.2.1 hb.2.1 fun pw ρ => Or.inl (hc pw ρ)) fun pw ρ =>
                      ⟨Or.inr (SM.mul_isScalar (sa1' pw ρ) (k pw ρ).1), ?_⟩
                    rw [ev, ev, SM.mul_scalar_left (SM.mul_isScalar (sa1' pw ρ) (k pw ρ).1),
                      SM.mul_scalar_left (sa1' pw ρ), SM.mul_scalar_left (sa1' pw ρ), SM.mul_scalar_left (k pw ρ).1,
                      SM.smul_f, SM.smul_mul _ (B := SM.smul ((ev pw ρ b1).f 0 0) (ev pw ρ b2)) (Or.inl (hc pw ρ)),
                      SM.mul_smul _ (Or.inl (hc pw ρ)), SM.smul_smul]
                  · exact right
                  · have k := sb1V sb1
                    have hc : ∀ pw ρ, ((mul a1 a2).ev pw ρ).c = (b2.ev pw ρ).r := fun pw ρ => by rw [hab, (k pw ρ).2]
                    refine val_mul (Val.self hb.1) (ih ha hb.2.1 fun pw ρ => Or.inl (hc pw ρ)) fun pw ρ =>
                      ⟨Or.inr (k pw ρ).1, ?_⟩
                    conv_rhs => rw [ev.eq_9 (a := b1)]
                    rw [SM.mul_scalar_left (k pw ρ).1, SM.mul_scalar_left (k pw ρ).1, SM.mul_smul _ (Or.inl (hc pw ρ))]
                  · exact leftV
                  · exact right
                  · exact plain
                · dsimp only
                  split_ifs
                  · exact right
                  · exact right
                  · exact plain
            · by_cases sb : b.isScalar = true
              · rw [if_pos sb]
                have sb' := fun pw ρ => (isScalar_ev hb pw ρ).1 sb
                refine val_mul (Val.self hb) (Val.self ha) fun pw ρ => ⟨Or.inr (sb' pw ρ), ?_⟩
                rw [SM.mul_comm_scalar (sb' pw ρ)]
              · rw [if_neg sb]
                have nsb := fun pw ρ => (isScalar_ev hb pw ρ).not.1 sb
                have hab := fun pw ρ => (h pw ρ).resolve_right (not_or.2 ⟨nsa pw ρ, nsb pw ρ⟩)
                split
                · rename_i b1 b2 e
                  obtain rfl := asProduct_some e
                  have b12 := fun pw ρ => sconf_of_kept hb pw ρ
                  have left := fun pw ρ => SM.assoc_left (b12 pw ρ) (Or.inl (hab pw ρ))
                  dsimp only
                  split_ifs with sb1
                  · have sb1' := fun pw ρ => (isScalar_ev hb.1 pw ρ).1 sb1
                    have hc : ∀ pw ρ, (a.ev pw ρ).c = (b2.ev pw ρ).r := fun pw ρ => by
                      rw [hab, ev, SM.mul_scalar_left (sb1' pw ρ)]; rfl
                    refine val_mul (Val.self hb.1) (ih ha hb.2.1 fun pw ρ => Or.inl (hc pw ρ)) fun pw ρ =>
                      ⟨Or.inr (sb1' pw ρ), ?_⟩
                    conv_rhs => rw [ev.eq_9 (a := b1)]
                    rw [SM.mul_scalar_left (sb1' pw ρ), SM.mul_scalar_left (sb1' pw ρ),
                      SM.mul_smul _ (Or.inl (hc pw ρ))]
                  · exact val_mul (ih ha hb.1 fun pw ρ => (left pw ρ).2.1) (Val.self hb.2.1) fun pw ρ =>
                      ⟨(left pw ρ).1, (left pw ρ).2.2⟩
                  · exact val_mul (Val.self ha) (Val.self hb) fun pw ρ => ⟨Or.inl (hab pw ρ), rfl⟩
                · exact val_mul (Val.self ha) (Val.self hb) fun pw ρ => ⟨Or.inl (hab pw ρ), rfl⟩

theorem val_mulOp (cfg : Cfg K) {a b : Ex K} {A B} (ha : Val P a A) (hb : Val P b B)
    (h : ∀ pw ρ, SM.Conf (A pw ρ) (B pw ρ)) :
    Val P (mulOp cfg a b) fun pw ρ => SM.mul (A pw ρ) (B pw ρ) := by
  refine (val_mulF cfg.depth ha.1 hb.1 fun pw ρ => ?_).congr fun pw ρ => ?_
  · rw [ha.2, hb.2]; exact h pw ρ
  · rw [ha.2, hb.2]

end Verif.Levi
