import Verif.Lemmas.LeviDeriv
/- The rewriting done while an expression is written preserves its value. -/
set_option linter.unusedSectionVars false
namespace Verif.Levi
open Spec Ex
variable {K : Type} [Field K] [LinearOrder K] {P : Ex K → K → Prop} {cfg : Cfg K}

theorem build_val (hs : Sound cfg)
    (hP : ∀ a a' α, (∀ pw ρ, a'.ev pw ρ = a.ev pw ρ) → P a α → P a' α) {e : Ex K} (h : Written P e) :
    Val P (build cfg e) fun pw ρ => e.ev pw ρ := by
  have sz : ∀ {a : Ex K}, Written P a → Val P (build cfg a) (fun pw ρ => a.ev pw ρ) → (build cfg a).size = a.size :=
    fun hw hv => size_of_ev hv.1 hw hv.2
  induction e with
  | const r c M => exact Val.self h
  | null r c => exact Val.self h
  | ident n => exact Val.self h
  | sparse r c l => exact Val.self h
  | var v => exact Val.self h
  | add a b iha ihb =>
    exact val_addOp hs (iha h.1) (ihb h.2.1) (by rw [sz h.1 (iha h.1), sz h.2.1 (ihb h.2.1), h.2.2])
  | sub a b iha ihb =>
    exact val_subOp hs (iha h.1) (ihb h.2.1) (by rw [sz h.1 (iha h.1), sz h.2.1 (ihb h.2.1), h.2.2])
  | neg a iha => exact val_neg (iha h)
  | mul a b iha ihb =>
    refine val_mulOp cfg (iha h.1) (ihb h.2.1) fun pw ρ => ?_
    have ea := dims h.1 pw ρ
    have eb := dims h.2.1 pw ρ
    rcases h.2.2 with h3 | h3 | h3
    · exact Or.inl (by rw [ea.2, eb.1]; exact h3)
    · rw [isScalar_iff] at h3; exact Or.inr (Or.inl ⟨by rw [ea.1, h3], by rw [ea.2, h3]⟩)
    · rw [isScalar_iff] at h3; exact Or.inr (Or.inr ⟨by rw [eb.1, h3], by rw [eb.2, h3]⟩)
  | pow a α iha =>
    have va := iha h.1
    exact ⟨⟨va.1, by rw [sz h.1 va, h.2.1], hP _ _ _ va.2 h.2.2⟩, fun pw ρ => by rw [build, ev, va.2]; rfl⟩
  | div a b iha ihb =>
    have va := iha h.1
    have vb := ihb h.2.1
    exact ⟨⟨va.1, vb.1, by rw [cols, sz h.1 va]; exact h.2.2.1, by rw [sz h.2.1 vb]; exact h.2.2.2.1,
      hP _ _ _ vb.2 h.2.2.2.2⟩, fun pw ρ => by rw [build, ev, va.2, vb.2]; rfl⟩
  | skew a iha =>
    have va := iha h.1
    exact ⟨⟨va.1, by rw [sz h.1 va, h.2]⟩, fun pw ρ => by rw [build, ev, va.2]; rfl⟩
  | transpose a iha => exact val_transposeOp (iha h)
  | vee a iha =>
    have va := iha h.1
    exact ⟨⟨va.1, by rw [sz h.1 va, h.2]⟩, fun pw ρ => by rw [build, ev, va.2]; rfl⟩
  | row a i iha =>
    have va := iha h.1
    refine ((access hs va.1).1 i (by rw [rows, sz h.1 va]; exact h.2)).congr fun pw ρ => ?_
    rw [va.2]; rfl
  | col a j iha =>
    have va := iha h.1
    refine ((access hs va.1).2.1 j (by rw [cols, sz h.1 va]; exact h.2)).congr fun pw ρ => ?_
    rw [va.2]; rfl
  | elem a i j iha =>
    have va := iha h.1
    refine ((access hs va.1).2.2 i j (by rw [rows, sz h.1 va]; exact h.2.1) (by rw [cols, sz h.1 va]; exact h.2.2)).congr
      fun pw ρ => ?_
    rw [va.2]; rfl
  | block a i j r c iha =>
    have va := iha h.1
    exact val_blockOp va h.2.1 h.2.2.1 (by rw [rows, sz h.1 va]; exact h.2.2.2.1) (by rw [cols, sz h.1 va]; exact h.2.2.2.2)
  | byRows n f ihf =>
    have vf := fun i (hi : i < n) => ihf i (h.2 i hi).1
    refine ⟨⟨h.1, fun i hi => ⟨(vf i hi).1, ?_⟩⟩, fun pw ρ => ?_⟩
    · rw [cols, sz (h.2 i hi).1 (vf i hi), sz (h.2 0 h.1).1 (vf 0 h.1), (h.2 i hi).2]
    · simp only [build, ev, (vf 0 h.1).2]
      exact SM.of_congr rfl rfl fun i j hi _ => by rw [(vf i hi).2]
  | byCols n f ihf =>
    have vf := fun i (hi : i < n) => ihf i (h.2 i hi).1
    refine ⟨⟨h.1, fun i hi => ⟨(vf i hi).1, ?_⟩⟩, fun pw ρ => ?_⟩
    · rw [rows, sz (h.2 i hi).1 (vf i hi), sz (h.2 0 h.1).1 (vf 0 h.1), (h.2 i hi).2]
    · simp only [build, ev, (vf 0 h.1).2]
      exact SM.of_congr rfl rfl fun j i _ hi => by rw [(vf i hi).2]
  | hcat a b iha ihb =>
    have va := iha h.1
    have vb := ihb h.2.1
    exact ⟨⟨va.1, vb.1, by rw [rows, rows, sz h.1 va, sz h.2.1 vb]; exact h.2.2⟩,
      fun pw ρ => by rw [build, ev, va.2, vb.2]; rfl⟩
  | vcat a b iha ihb =>
    have va := iha h.1
    have vb := ihb h.2.1
    exact ⟨⟨va.1, vb.1, by rw [cols, cols, sz h.1 va, sz h.2.1 vb]; exact h.2.2⟩,
      fun pw ρ => by rw [build, ev, va.2, vb.2]; rfl⟩
  | mpd n ds x ihd ihx =>
    have vd := fun i (hi : i < n) => ihd i (h.2.1 i hi).1
    have vx := ihx h.2.2.1
    refine ⟨⟨h.1, fun i hi => ⟨(vd i hi).1, ?_⟩, vx.1, by rw [sz h.2.2.1 vx, h.2.2.2]⟩, fun pw ρ => ?_⟩
    · rw [sz (h.2.1 i hi).1 (vd i hi), sz (h.2.1 0 h.1).1 (vd 0 h.1), (h.2.1 i hi).2]
    · simp only [build, ev, (vd 0 h.1).2, vx.2]
      refine SM.of_congr rfl rfl fun i j _ _ => Finset.sum_congr rfl fun k hk => ?_
      rw [(vd k (Finset.mem_range.1 hk)).2]

end Verif.Levi
