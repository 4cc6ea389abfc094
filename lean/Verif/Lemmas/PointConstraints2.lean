import Verif.Lemmas.PointConstraints
/- Lemmas: the second derivatives of the positions of points, as the loops write them. -/
set_option linter.unusedSectionVars false
namespace Verif.NLP.Kin
open Matrix Verif.Rigid Function Verif.NLP.Spec Filter Topology
open Verif.NLP.Dynamics (quatOf velOf baseRotation rpow env NonNull rotE)
open Verif.Levi Verif.Levi.Ex
noncomputable section
variable {n nj : ℕ} {x : SVec n} {u : CVec n} {lam : Fin 3 → ℝ} {E : RotExprs} {cfg : Cfg ℝ} {I : Inner n nj}

/-! ### The loops -/

/-- The entries written. -/
def pEntry (e : SMat (PAtom nj) 3 1) (v : PAtom nj → ℝ) (lam : Fin 3 → ℝ) (p q : Idx (SBlk n)) : ℝ :=
  if hp : p.1 = .baseQuat ∧ p.2 < 4 then
    if hq : q.1 = .baseQuat ∧ q.2 < 4 then ∑ a, lam a * (pder (.q ⟨q.2, hq.2⟩) (pder (.q ⟨p.2, hp.2⟩) (e a 0))).eval v
    else if hq : q.1 = .joints ∧ q.2 < nj then ∑ a, (pder (.joint ⟨q.2, hq.2⟩) (pder (.q ⟨p.2, hp.2⟩) (e a 0))).eval v * lam a
    else 0
  else if hp : p.1 = .joints ∧ p.2 < nj then
    if hq : q.1 = .baseQuat ∧ q.2 < 4 then ∑ a, (pder (.joint ⟨p.2, hp.2⟩) (pder (.q ⟨q.2, hq.2⟩) (e a 0))).eval v * lam a
    else if hq : q.1 = .joints ∧ q.2 < nj then ∑ a, (pder (.joint ⟨p.2, hp.2⟩) (pder (.joint ⟨q.2, hq.2⟩) (e a 0))).eval v * lam a
    else 0
  else 0

theorem foldl_writes {ι A B : Type} (step : (A → B → ℝ) → ι → A → B → ℝ) (S : ι → A → B → Prop) (V : A → B → ℝ)
    (h : ∀ H i p q, (S i p q → step H i p q = V p q) ∧ (¬ S i p q → step H i p q = H p q)) (l : List ι) (H : A → B → ℝ) (p : A) (q : B) :
    ((∃ i ∈ l, S i p q) → l.foldl step H p q = V p q) ∧ ((¬ ∃ i ∈ l, S i p q) → l.foldl step H p q = H p q) := by
  induction l generalizing H with
  | nil => simp
  | cons i l ih =>
    rw [List.foldl_cons]
    by_cases h2 : ∃ i ∈ l, S i p q
    · rw [(ih _).1 h2]
      exact ⟨fun _ => rfl, fun h3 => absurd (h2.imp fun i hi => ⟨List.mem_cons_of_mem _ hi.1, hi.2⟩) h3⟩
    · rw [(ih _).2 h2]
      refine ⟨?_, fun h3 => (h H i p q).2 fun hS => h3 ⟨i, List.mem_cons_self, hS⟩⟩
      rintro ⟨i', hi', hS⟩
      rcases List.mem_cons.1 hi' with rfl | hi'
      · exact (h H i' p q).1 hS
      · exact absurd ⟨i', hi', hS⟩ h2

open Classical in
theorem quatStep_eq (e : SMat (PAtom nj) 3 1) (v : PAtom nj → ℝ) (H : Idx (SBlk n) → Idx (SBlk n) → ℝ) (i : Fin 4) (p q : Idx (SBlk n)) :
    quatStep e v lam H i p q = if (p = (.baseQuat, (i : ℕ)) ∧ (q.1 = .baseQuat ∧ q.2 < 4 ∨ q.1 = .joints ∧ q.2 < nj)) ∨
      (q = (.baseQuat, (i : ℕ)) ∧ p.1 = .joints ∧ p.2 < nj) then pEntry e v lam p q else H p q := by
  unfold quatStep
  simp only [putCol, putRow]
  by_cases h1 : (p.1 = .joints ∧ p.2 < nj) ∧ q = (.baseQuat, (i : ℕ))
  · rw [dif_pos h1, if_pos (Or.inr ⟨h1.2, h1.1⟩)]
    obtain ⟨h1, rfl⟩ := h1
    unfold pEntry
    rw [dif_neg (by rw [h1.1]; simp), dif_pos h1, dif_pos ⟨rfl, i.2⟩]
  · rw [dif_neg h1]
    by_cases h2 : p = (.baseQuat, (i : ℕ)) ∧ q.1 = .joints ∧ q.2 < nj
    · rw [dif_pos h2, if_pos (Or.inl ⟨h2.1, Or.inr h2.2⟩)]
      obtain ⟨rfl, h2⟩ := h2
      unfold pEntry
      rw [dif_pos ⟨rfl, i.2⟩, dif_neg (by rw [h2.1]; simp), dif_pos h2]
    · rw [dif_neg h2]
      by_cases h3 : p = (.baseQuat, (i : ℕ)) ∧ q.1 = .baseQuat ∧ q.2 < 4
      · rw [dif_pos h3, if_pos (Or.inl ⟨h3.1, Or.inl h3.2⟩)]
        obtain ⟨rfl, h3⟩ := h3
        unfold pEntry
        rw [dif_pos ⟨rfl, i.2⟩, dif_pos h3]
      · rw [dif_neg h3, if_neg]
        tauto

open Classical in
theorem jointStep_eq (e : SMat (PAtom nj) 3 1) (v : PAtom nj → ℝ) (H : Idx (SBlk n) → Idx (SBlk n) → ℝ) (i : Fin nj) (p q : Idx (SBlk n)) :
    jointStep e v lam H i p q = if (p.1 = .joints ∧ p.2 < nj) ∧ q = (.joints, (i : ℕ)) then pEntry e v lam p q else H p q := by
  unfold jointStep
  simp only [putCol]
  by_cases h1 : (p.1 = .joints ∧ p.2 < nj) ∧ q = (.joints, (i : ℕ))
  · rw [dif_pos h1, if_pos h1]
    obtain ⟨h1, rfl⟩ := h1
    unfold pEntry
    rw [dif_neg (by rw [h1.1]; simp), dif_pos h1, dif_neg (by simp), dif_pos ⟨rfl, i.2⟩]
  · rw [dif_neg h1, if_neg h1]

theorem pEntry_zero (e : SMat (PAtom nj) 3 1) (v : PAtom nj → ℝ) (p q : Idx (SBlk n))
    (h : ¬ ((p.1 = .baseQuat ∧ p.2 < 4 ∨ p.1 = .joints ∧ p.2 < nj) ∧ (q.1 = .baseQuat ∧ q.2 < 4 ∨ q.1 = .joints ∧ q.2 < nj))) : pEntry e v lam p q = 0 := by
  unfold pEntry
  split_ifs <;> tauto

theorem pointHess_eq (e : SMat (PAtom nj) 3 1) (v : PAtom nj → ℝ) (p q : Idx (SBlk n)) : pointHess e v lam (fun _ _ => 0) p q = pEntry e v lam p q := by
  classical
  unfold pointHess
  have hj := foldl_writes (jointStep e v lam) (fun (i : Fin nj) p q => (p.1 = .joints ∧ p.2 < nj) ∧ q = (.joints, (i : ℕ))) (pEntry e v lam)
    (fun H i p q => ⟨fun h => by rw [jointStep_eq, if_pos h], fun h => by rw [jointStep_eq, if_neg h]⟩) (List.finRange nj)
    ((List.finRange 4).foldl (quatStep e v lam) fun _ _ => 0) p q
  have hq := foldl_writes (quatStep e v lam) (fun (i : Fin 4) p q => (p = (.baseQuat, (i : ℕ)) ∧ (q.1 = .baseQuat ∧ q.2 < 4 ∨ q.1 = .joints ∧ q.2 < nj)) ∨
      (q = (.baseQuat, (i : ℕ)) ∧ p.1 = .joints ∧ p.2 < nj)) (pEntry e v lam)
    (fun H i p q => ⟨fun h => by rw [quatStep_eq, if_pos h], fun h => by rw [quatStep_eq, if_neg h]⟩) (List.finRange 4) (fun _ _ => 0) p q
  by_cases h1 : ∃ i ∈ List.finRange nj, (p.1 = .joints ∧ p.2 < nj) ∧ q = (.joints, (i : ℕ))
  · exact hj.1 h1
  · rw [hj.2 h1]
    by_cases h2 : ∃ i ∈ List.finRange 4, (p = (.baseQuat, (i : ℕ)) ∧ (q.1 = .baseQuat ∧ q.2 < 4 ∨ q.1 = .joints ∧ q.2 < nj)) ∨
      (q = (.baseQuat, (i : ℕ)) ∧ p.1 = .joints ∧ p.2 < nj)
    · exact hq.1 h2
    · rw [hq.2 h2]
      refine (pEntry_zero e v p q ?_).symm
      rintro ⟨hp | hp, hq | hq⟩
      · exact h2 ⟨⟨p.2, hp.2⟩, List.mem_finRange _, Or.inl ⟨Prod.ext hp.1 rfl, Or.inl hq⟩⟩
      · exact h2 ⟨⟨p.2, hp.2⟩, List.mem_finRange _, Or.inl ⟨Prod.ext hp.1 rfl, Or.inr hq⟩⟩
      · exact h2 ⟨⟨q.2, hq.2⟩, List.mem_finRange _, Or.inr ⟨Prod.ext hq.1 rfl, hp⟩⟩
      · exact h1 ⟨⟨q.2, hq.2⟩, List.mem_finRange _, hp, Prod.ext hq.1 rfl⟩

/-! ### The derivatives commute -/

/-- The expressions of the positions: the position of the base plus what does not depend on it. -/
structure PointExpr (e : SMat (PAtom nj) 3 1) : Prop where
  order0 : ∀ a, (e a 0).All POrder0
  notBase : ∀ a d, (∀ i, d ≠ .base i) → (pder d (e a 0)).All NotBase
  base : ∀ a i v, (pder (.base i) (e a 0)).eval v = if i = a then 1 else 0

theorem pointExpr_com : PointExpr (comPositionE (nj := nj)) where
  order0 a := ⟨trivial, fun _ => ⟨trivial, trivial⟩⟩
  notBase a d hd := by
    cases d with
    | q k => exact ⟨trivial, fun _ => ⟨⟨trivial, trivial⟩, trivial, trivial⟩⟩
    | joint j => exact ⟨trivial, fun _ => ⟨⟨trivial, trivial⟩, trivial, trivial⟩⟩
    | base i => exact absurd rfl (hd i)
  base a i v := by simp [pder, comPositionE, SMat.add, SMat.mul, basePosE, baseRotE, SExp.der, pAtomDer, SExp.eval]

theorem pointExpr_contact (p : Vec) : PointExpr (contactPositionE (nj := nj) p) where
  order0 a := ⟨⟨trivial, fun _ => ⟨trivial, trivial⟩⟩, fun _ => ⟨fun _ => ⟨trivial, trivial⟩, trivial⟩⟩
  notBase a d hd := by
    cases d with
    | q k => exact ⟨⟨trivial, fun _ => ⟨⟨trivial, trivial⟩, trivial, trivial⟩⟩,
        fun _ => ⟨⟨fun _ => ⟨⟨trivial, trivial⟩, trivial, trivial⟩, trivial⟩, fun _ => ⟨trivial, trivial⟩, trivial⟩⟩
    | joint j => exact ⟨⟨trivial, fun _ => ⟨⟨trivial, trivial⟩, trivial, trivial⟩⟩,
        fun _ => ⟨⟨fun _ => ⟨⟨trivial, trivial⟩, trivial, trivial⟩, trivial⟩, fun _ => ⟨trivial, trivial⟩, trivial⟩⟩
    | base i => exact absurd rfl (hd i)
  base a i v := by simp [pder, contactPositionE, SMat.add, SMat.mul, basePosE, baseRotE, SExp.der, pAtomDer, SExp.eval]

theorem notBase_order1 (a : PAtom nj) (h : NotBase a) : POrder1 a := by cases a <;> first | trivial | exact h.elim
theorem porder0_order1 (a : PAtom nj) (h : POrder0 a) : POrder1 a := by cases a <;> first | trivial | exact h.elim

theorem pder_base_zero (v : PAtom nj → ℝ) (i : Fin 3) {e : SExp (PAtom nj)} (he : e.All NotBase) : (pder (.base i) e).eval v = 0 := by
  refine SExp.eval_der_zero v (P := NotBase) (fun a ha => ?_) he
  cases a <;> first | rfl | exact ha.elim

theorem pder_comm (v : PAtom nj → ℝ) (k : Fin 4) (j : Fin nj) {e : SExp (PAtom nj)} (he : e.All POrder0) :
    (pder (.joint j) (pder (.q k) e)).eval v = (pder (.q k) (pder (.joint j) e)).eval v := by
  refine SExp.der_comm v (P := POrder0) (fun a ha => ?_) he
  cases a <;> first | rfl | exact ha.elim

theorem pder_joints_comm (hI : I.Right) (j k : Fin nj) {e : SExp (PAtom nj)} (he : e.All POrder0) :
    (pder (.joint j) (pder (.joint k) e)).eval (pVal E I x u) = (pder (.joint k) (pder (.joint j) e)).eval (pVal E I x u) := by
  refine SExp.der_comm _ (P := POrder0) (fun a ha => ?_) he
  cases a with
  | c b => exact congrFun (hI.c2_symm x k j) b
  | m b e => exact congrFun (hI.m2_symm x e k j) b
  | base i => rfl
  | R a b => rfl
  | R1 _ _ _ => exact ha.elim
  | R2 _ _ _ _ => exact ha.elim
  | c1 _ _ => exact ha.elim
  | c2 _ _ _ => exact ha.elim
  | m1 _ _ _ => exact ha.elim
  | m2 _ _ _ _ => exact ha.elim

/-! ### The second derivatives are right -/

/-- The gradient of the weighted constraint. -/
def pG (e : SMat (PAtom nj) 3 1) (blk : SBlk n) (lam : Fin 3 → ℝ) (v : PAtom nj → ℝ) (p : Idx (SBlk n)) : ℝ :=
  ∑ a : Fin 3, lam a * (pGrad v (e a 0) p - if p = (blk, (a : ℕ)) then 1 else 0)

theorem row_grad (hs : Levi.Spec.Sound cfg) (hE : E.Made cfg) (hI : I.Right) (hx : quatOf x ≠ 0) {e : SMat (PAtom nj) 3 1} (he : PointExpr e) (blk : SBlk n)
    (a : Fin 3) : GradAt (fun y => (e a 0).eval (pVal E I y u) - y (blk, (a : ℕ))) (fun p => pGrad (pVal E I x u) (e a 0) p - if p = (blk, (a : ℕ)) then 1 else 0) x := by
  intro p
  refine (pGrad_right hs hE hI hx ((he.order0 a).mono porder0_order1) p).sub ?_
  by_cases h : p = (blk, (a : ℕ))
  · subst h; simp only [update_self, if_true]; exact hasDerivAt_id _
  · rw [if_neg h]; simp only [update_of_ne (Ne.symm h)]; exact hasDerivAt_const _ _

theorem pointHess_right (hs : Levi.Spec.Sound cfg) (hE : E.Made cfg) (hI : I.Right) (hx : quatOf x ≠ 0) {e : SMat (PAtom nj) 3 1} (he : PointExpr e)
    (blk : SBlk n) {f : SVec n → ℝ} (hf : ∀ y, quatOf y ≠ 0 → f y = ∑ a : Fin 3, lam a * ((e a 0).eval (pVal E I y u) - y (blk, (a : ℕ)))) :
    HessNear f (pointHess e (pVal E I x u) lam fun _ _ => 0) x := by
  refine ⟨fun y => pG e blk lam (pVal E I y u), ?_, fun p => ?_⟩
  · filter_upwards [Dynamics.eventually_nonNull hx] with y hy
    intro p
    have h : HasDerivAt (fun t => ∑ a : Fin 3, lam a * ((e a 0).eval (pVal E I (update y p t) u) - update y p t (blk, (a : ℕ))))
        (pG e blk lam (pVal E I y u) p) (y p) :=
      HasDerivAt.fun_sum (u := Finset.univ) fun a _ => (row_grad hs hE hI hy he blk a p).const_mul (lam a)
    refine h.congr_of_eventuallyEq ?_
    filter_upwards [Dynamics.eventually_update (p := p) (Dynamics.eventually_nonNull hy)] with t ht
    exact hf _ ht
  · intro q
    simp only [pointHess_eq]
    have key : ∀ (F' : Fin 3 → SExp (PAtom nj)), (∀ a, (F' a).All POrder1) →
        HasDerivAt (fun t => ∑ a : Fin 3, lam a * ((F' a).eval (pVal E I (update x q t) u) - if p = (blk, (a : ℕ)) then 1 else 0))
          (∑ a, lam a * pGrad (pVal E I x u) (F' a) q) (x q) := by
      intro F' hF
      exact HasDerivAt.fun_sum (u := Finset.univ) fun a _ => ((pGrad_right hs hE hI hx (hF a) q).sub_const _).const_mul (lam a)
    unfold pEntry pG
    by_cases hp : p.1 = .baseQuat ∧ p.2 < 4
    · simp only [pGrad, dif_pos hp]
      refine (key (fun a => pder (.q ⟨p.2, hp.2⟩) (e a 0)) (fun a => (he.notBase a _ (by simp)).mono notBase_order1)).congr_deriv ?_
      unfold pGrad
      split_ifs with h1 h2 h3
      · rfl
      · exact Finset.sum_congr rfl fun a _ => mul_comm _ _
      · exact Finset.sum_eq_zero fun a _ => by rw [pder_base_zero _ _ (he.notBase a _ (by simp)), mul_zero]
      · simp
    · simp only [pGrad, dif_neg hp]
      by_cases hp' : p.1 = .joints ∧ p.2 < nj
      · simp only [dif_pos hp']
        refine (key (fun a => pder (.joint ⟨p.2, hp'.2⟩) (e a 0)) (fun a => (he.notBase a _ (by simp)).mono notBase_order1)).congr_deriv ?_
        unfold pGrad
        split_ifs with h1 h2 h3
        · exact Finset.sum_congr rfl fun a _ => by rw [pder_comm _ _ _ (he.order0 a), mul_comm]
        · exact Finset.sum_congr rfl fun a _ => by rw [pder_joints_comm hI _ _ (he.order0 a), mul_comm]
        · exact Finset.sum_eq_zero fun a _ => by rw [pder_base_zero _ _ (he.notBase a _ (by simp)), mul_zero]
        · simp
      · simp only [dif_neg hp']
        by_cases hb : p.1 = .basePos ∧ p.2 < 3
        · simp only [dif_pos hb, he.base]; exact hasDerivAt_const _ _
        · simp only [dif_neg hb]; exact hasDerivAt_const _ _

end
end Verif.NLP.Kin
