import Verif.Model.Costs
import Verif.Lemmas.Calculus
import Mathlib.Tactic.IntervalCases
/- Exact derivatives of the costs. -/
set_option linter.unusedSectionVars false
set_option linter.unusedSimpArgs false
namespace Verif.NLP
open Verif.NLP.Spec Verif.Smooth
variable {n : Nat}

theorem putV_apply {ρ : Type} [DecidableEq ρ] (M : ρ → ℝ) (i : ρ) (v : ℝ) (a : ρ) : putV M i v a = if a = i then v else M a := rfl

/-- Half a weighted sum of squares of affine functions. -/
theorem quad_grad {ι α : Type} [DecidableEq ι] (s : Finset α) (w : α → ℝ) (L : α → (ι → ℝ) → ℝ) (c : α → ι → ℝ) (x : ι → ℝ)
    (h : ∀ a, GradAt (L a) (c a) x) :
    GradAt (fun y => ∑ a ∈ s, 1 / 2 * w a * (L a y * L a y)) (fun j => ∑ a ∈ s, w a * L a x * c a j) x := by
  refine (GradAt.sum s fun a _ => GradAt.const_mul (1 / 2 * w a) ((h a).mul (h a))).congr fun j => ?_
  refine Finset.sum_congr rfl fun a _ => ?_
  ring

theorem quad_hess {ι α : Type} [DecidableEq ι] (s : Finset α) (w : α → ℝ) (L : α → (ι → ℝ) → ℝ) (c : α → ι → ℝ) (x : ι → ℝ)
    (h : ∀ a y, GradAt (L a) (c a) y) :
    HessAt (fun y => ∑ a ∈ s, 1 / 2 * w a * (L a y * L a y)) (fun i j => ∑ a ∈ s, w a * c a i * c a j) x := by
  refine ⟨fun y j => ∑ a ∈ s, w a * L a y * c a j, fun y => quad_grad s w L c y fun a => h a y, fun i => ?_⟩
  refine (GradAt.sum s fun a _ => GradAt.mul (GradAt.const_mul (w a) (h a x)) (GradAt.const (c a i) x)).congr fun j => ?_
  refine Finset.sum_congr rfl fun a _ => ?_
  ring

/-- A loop writing entries, all in agreement with `H`. -/
theorem writes {ε ρ κ : Type} (l : List ε) (f : (ρ → κ → ℝ) → ε → ρ → κ → ℝ) (H : ρ → κ → ℝ) (W : ε → ρ → κ → Prop) (a : ρ) (b : κ)
    (h1 : ∀ e ∈ l, W e a b → ∀ M, f M e a b = H a b) (h2 : ∀ e ∈ l, ¬ W e a b → ∀ M, f M e a b = M a b) (M : ρ → κ → ℝ) :
    ((∃ e ∈ l, W e a b) → l.foldl f M a b = H a b) ∧ ((¬ ∃ e ∈ l, W e a b) → l.foldl f M a b = M a b) := by
  induction l using List.reverseRecOn with
  | nil => simp
  | append_singleton l e ih =>
    have ih := ih (fun e he => h1 e (List.mem_append_left _ he)) (fun e he => h2 e (List.mem_append_left _ he))
    have he : e ∈ l ++ [e] := by simp
    rw [List.foldl_append, List.foldl_cons, List.foldl_nil]
    by_cases hw : W e a b
    · exact ⟨fun _ => h1 e he hw _, fun hn => absurd ⟨e, he, hw⟩ hn⟩
    · rw [h2 e he hw]
      constructor
      · rintro ⟨e', he', hw'⟩
        rcases List.mem_append.1 he' with h | h
        · exact ih.1 ⟨e', h, hw'⟩
        · rw [List.mem_singleton.1 h] at hw'; exact absurd hw' hw
      · intro hn
        exact ih.2 fun ⟨e', h, hw'⟩ => hn ⟨e', List.mem_append_left _ h, hw'⟩

theorem writesV {ε ρ : Type} (l : List ε) (f : (ρ → ℝ) → ε → ρ → ℝ) (H : ρ → ℝ) (W : ε → ρ → Prop) (a : ρ)
    (h1 : ∀ e ∈ l, W e a → ∀ M, f M e a = H a) (h2 : ∀ e ∈ l, ¬ W e a → ∀ M, f M e a = M a) (M : ρ → ℝ) :
    ((∃ e ∈ l, W e a) → l.foldl f M a = H a) ∧ ((¬ ∃ e ∈ l, W e a) → l.foldl f M a = M a) := by
  induction l using List.reverseRecOn with
  | nil => simp
  | append_singleton l e ih =>
    have ih := ih (fun e he => h1 e (List.mem_append_left _ he)) (fun e he => h2 e (List.mem_append_left _ he))
    have he : e ∈ l ++ [e] := by simp
    rw [List.foldl_append, List.foldl_cons, List.foldl_nil]
    by_cases hw : W e a
    · exact ⟨fun _ => h1 e he hw _, fun hn => absurd ⟨e, he, hw⟩ hn⟩
    · rw [h2 e he hw]
      constructor
      · rintro ⟨e', he', hw'⟩
        rcases List.mem_append.1 he' with h | h
        · exact ih.1 ⟨e', h, hw'⟩
        · rw [List.mem_singleton.1 h] at hw'; exact absurd hw' hw
      · intro hn
        exact ih.2 fun ⟨e', h, hw'⟩ => hn ⟨e', List.mem_append_left _ h, hw'⟩

theorem mem_upper {α : Type} {l : List α} {e : α × α × Bool} (h : e ∈ upper l) : e.1 ∈ l ∧ e.2.1 ∈ l := by
  induction l with
  | nil => cases h
  | cons a l ih =>
    rw [upper, List.mem_append, List.mem_cons, List.mem_map] at h
    rcases h with (rfl | ⟨b, hb, rfl⟩) | h
    · simp
    · simp [hb]
    · exact ⟨List.mem_cons_of_mem _ (ih h).1, List.mem_cons_of_mem _ (ih h).2⟩

theorem upper_covers {α : Type} {l : List α} {a b : α} (ha : a ∈ l) (hb : b ∈ l) :
    (∃ f, (a, b, f) ∈ upper l) ∨ (b, a, true) ∈ upper l := by
  induction l with
  | nil => cases ha
  | cons c l ih =>
    rw [upper]
    simp only [List.mem_append, List.mem_cons, List.mem_map]
    rcases List.mem_cons.1 ha with rfl | ha' <;> rcases List.mem_cons.1 hb with rfl | hb'
    · exact Or.inl ⟨false, Or.inl (Or.inl rfl)⟩
    · exact Or.inl ⟨true, Or.inl (Or.inr ⟨b, hb', rfl⟩)⟩
    · exact Or.inr (Or.inl (Or.inr ⟨a, ha', rfl⟩))
    · rcases ih ha' hb' with ⟨f, h⟩ | h
      · exact Or.inl ⟨f, Or.inr h⟩
      · exact Or.inr (Or.inr h)

section blocks
variable {B : Type} [DecidableEq B]

/-- Writing a diagonal block and, if asked, copying it in the symmetric position. -/
theorem sym_apply (M : Idx B → Idx B → ℝ) (b c : B) (r : Nat) (A : Nat → Nat → ℝ) (flag : Bool) (p q : Idx B) :
    (let M' := putBlock M b 0 c 0 r r A
     if flag then copyBlock M' c b b c r else M') p q =
      if (p.1 = b ∧ q.1 = c ∨ flag = true ∧ p.1 = c ∧ q.1 = b) ∧ p.2 < r ∧ q.2 < r then A p.2 q.2 else M p q := by
  obtain ⟨p1, k⟩ := p
  obtain ⟨q1, l⟩ := q
  cases flag <;> simp only [copyBlock, putBlock, Bool.false_eq_true, if_false, if_true, Nat.zero_le, true_and, Nat.zero_add, Nat.sub_zero] <;> grind

theorem identity_eq (M : Idx B → Idx B → ℝ) (b c : B) (r : Nat) (v : ℝ) :
    identityBlock M b c r v = putBlock M b 0 c 0 r r (fun k l => eye k l * v) := by
  funext p q
  simp only [identityBlock, scaleBlock, putBlock]
  grind

theorem block_apply (M : Idx B → Idx B → ℝ) (b c : B) (r : Nat) (A : Nat → Nat → ℝ) (p q : Idx B) :
    putBlock M b 0 c 0 r r A p q = if p.1 = b ∧ q.1 = c ∧ p.2 < r ∧ q.2 < r then A p.2 q.2 else M p q := by
  simp only [putBlock, Nat.zero_le, true_and, Nat.zero_add, Nat.sub_zero]
  grind

theorem seg_apply (M : Idx B → ℝ) (b : B) (r : Nat) (v : Nat → ℝ) (p : Idx B) :
    putSeg M b 0 r v p = if p.1 = b ∧ p.2 < r then v p.2 else M p := by
  simp only [putSeg, Nat.zero_le, true_and, Nat.zero_add, Nat.sub_zero]

theorem mem_diag0 {C : Type} {b : B} {c : C} {r k : Nat} (h : k < r) : ((b, k), (c, k)) ∈ diag (seg b 0 r) (seg c 0 r) := by
  simp only [diag, seg, List.zip_map', List.mem_map, List.mem_range]
  exact ⟨k, h, by simp⟩

theorem mem_dense0 {C : Type} {b : B} {c : C} {r s k l : Nat} (h : k < r) (h' : l < s) : ((b, k), (c, l)) ∈ dense (seg b 0 r) (seg c 0 s) := by
  simp only [dense, seg, List.mem_flatMap, List.mem_map, List.mem_range]
  exact ⟨(b, k), ⟨k, h, by simp⟩, (c, l), ⟨l, h', by simp⟩, rfl⟩

end blocks

theorem mem_others {i j : Fin n} : j ∈ others i ↔ j ≠ i := by simp [others]

theorem sum_others (i : Fin n) (f : Fin n → ℝ) : f i + ((others i).map f).sum = ∑ j, f j := by
  have h : ((others i).map f).sum = ∑ j ∈ Finset.univ.erase i, f j := by
    have hn : (others i).Nodup := (List.nodup_finRange n).filter _
    rw [← List.sum_toFinset f hn]
    congr 1
    ext j
    simp [mem_others]
  rw [h, add_comm, Finset.sum_erase_add _ _ (Finset.mem_univ i)]

theorem length_others (i : Fin n) : ((others i).length : ℝ) + 1 = n := by
  have h := sum_others i (fun _ => (1 : ℝ))
  simp only [List.map_const', List.sum_replicate, nsmul_eq_mul, mul_one, Finset.sum_const, Finset.card_univ, Fintype.card_fin] at h
  linarith

theorem foldl_v3 {α : Type} (l : List α) (f : α → V3 ℝ) (a : V3 ℝ) :
    (l.foldl (fun a j => a + f j) a).x = a.x + (l.map fun j => (f j).x).sum ∧
    (l.foldl (fun a j => a + f j) a).y = a.y + (l.map fun j => (f j).y).sum ∧
    (l.foldl (fun a j => a + f j) a).z = a.z + (l.map fun j => (f j).z).sum := by
  induction l generalizing a with
  | nil => simp
  | cons b l ih =>
    rw [List.foldl_cons]
    obtain ⟨h1, h2, h3⟩ := ih (a + f b)
    rw [h1, h2, h3]
    simp [add_assoc]

theorem sumOfForces_eq (x : SVec n) (s : Side) (i : Fin n) :
    sumOfForces x s i = ⟨∑ j, x (.force s j, 0), ∑ j, x (.force s j, 1), ∑ j, x (.force s j, 2)⟩ := by
  obtain ⟨h1, h2, h3⟩ := foldl_v3 (others i) (fun j => vec3 x (.force s j)) (vec3 x (.force s i))
  unfold sumOfForces
  ext
  · exact h1.trans (sum_others i fun j => x (.force s j, 0))
  · exact h2.trans (sum_others i fun j => x (.force s j, 1))
  · exact h3.trans (sum_others i fun j => x (.force s j, 2))

theorem sumOfNormalForces_eq (x : SVec n) (s : Side) (i : Fin n) : sumOfNormalForces x s i = ∑ j, x (.force s j, 2) := by
  have h := foldl_accum (others i) (fun a j => a + (vec3 x (.force s j)).z) id (vec3 x (.force s i)).z (fun j => x (.force s j, 2)) (fun _ _ _ => rfl)
  exact h.trans (sum_others i fun j => x (.force s j, 2))

/-! ### Costs of one point -/

macro "kunf" : tactic => `(tactic|
  simp only [swing, phantomForces, complementarityCost, put_apply, putV_apply, vec3, zeroVec])

macro "kentries" : tactic => `(tactic| (
  (try kunf)
  all_goals ((try split_ifs) <;> simp_all <;> try first | ring1 | (left; ring1) | (right; ring1))))

macro "kgrad" : tactic => `(tactic| (
  intro x u
  constructor
  · refine GradAt.congr (x := x) (by kunf; sgrad) ?_
    intro j
    kentries
  · refine GradAt.congr (x := u) (by kunf; sgrad) ?_
    intro j
    kentries))

macro "khess" : tactic => `(tactic| (
  kunf
  (try split_ifs)
  all_goals
    refine GradAt.congr (by sgrad) ?_
    intro j
    kentries))

theorem exactCostHessians_of {σ κ : Type} [DecidableEq σ] [DecidableEq κ] (c : Cost σ κ) (hj : ExactGradients c)
    (hs : ∀ x u i, GradAt (fun y => c.stateGrad y u (fun _ => 0) i) (c.stateHess x u (fun _ _ => 0) i) x)
    (hc : ∀ x u i, GradAt (fun v => c.ctrlGrad x v (fun _ => 0) i) (c.ctrlHess x u (fun _ _ => 0) i) u)
    (hm : ∀ x u i, GradAt (fun v => c.stateGrad x v (fun _ => 0) i) (c.mixedHess x u (fun _ _ => 0) i) u) : ExactCostHessians c :=
  fun x u => ⟨⟨fun y => c.stateGrad y u fun _ => 0, fun y => (hj y u).1, hs x u⟩,
    ⟨fun v => c.ctrlGrad x v fun _ => 0, fun v => (hj x v).2, hc x u⟩,
    ⟨fun y v => c.stateGrad y v fun _ => 0, fun y v => (hj y v).1, hm x u⟩⟩

theorem swing_grad (s : Side) (i : Fin n) (h : ℝ) (w : V3 ℝ) : ExactGradients (swing s i h w) := by kgrad

theorem swing_hess (s : Side) (i : Fin n) (h : ℝ) (w : V3 ℝ) : ExactCostHessians (swing s i h w) := by
  apply exactCostHessians_of _ (swing_grad s i h w)
  all_goals
    intro x u k
    khess

theorem complementarityCost_grad (s : Side) (i : Fin n) : ExactGradients (complementarityCost s i) := by kgrad

theorem complementarityCost_hess (s : Side) (i : Fin n) : ExactCostHessians (complementarityCost s i) := by
  apply exactCostHessians_of _ (complementarityCost_grad s i)
  all_goals
    intro x u k
    khess

theorem phantomForces_grad (s : Side) (i : Fin n) (act : Params) : ExactGradients (phantomForces s i act) := by kgrad

/-- The second derivatives of the phantom force cost. -/
noncomputable def phantomTrue (s : Side) (i : Fin n) (act : Params) (x : SVec n) (u : CVec n) : Idx (SBlk n) → Idx (SBlk n) → ℝ :=
  let δ := (Fn.mk .secant act).eval (x (.pos s i, 2))
  let δ' := (Fn.mk .secant act).evalDerivative (x (.pos s i, 2))
  let δ'' := (Fn.mk .secant act).evalDoubleDerivative (x (.pos s i, 2))
  put ((phantomForces s i act).stateHess x u fun _ _ => 0) (.pos s i, 2) (.pos s i, 2)
    ((δ' * x (.force s i, 2)) * (δ' * x (.force s i, 2)) - (1 - δ) * x (.force s i, 2) * δ'' * x (.force s i, 2))

theorem phantomForces_true_hess (s : Side) (i : Fin n) (act : Params) (x : SVec n) (u : CVec n) :
    HessAt (fun y => (phantomForces s i act).value y u) (phantomTrue s i act x u) x := by
  refine ⟨fun y => (phantomForces s i act).stateGrad y u fun _ => 0, fun y => (phantomForces_grad s i act y u).1, fun k => ?_⟩
  simp only [phantomTrue]
  khess

/-! ### Costs of several points -/

/-- Deviation from the mean: coefficient of point `j`. -/
noncomputable def dev (i j : Fin n) (r : ℝ) : ℝ := (if j = i then 1 else 0) - r

/-- Gradient of `f_i - r Σ f` along component `a`. -/
noncomputable def devGrad (s : Side) (i : Fin n) (r : ℝ) (a : Nat) : Idx (SBlk n) → ℝ
  | (.force s' j, k) => if s' = s ∧ k = a then dev i j r else 0
  | _ => 0

theorem devGrad_at (s : Side) (i : Fin n) (r : ℝ) (a : Nat) (x : SVec n) :
    GradAt (fun y => y (.force s i, a) - r * ∑ j, y (.force s j, a)) (devGrad s i r a) x := by
  refine (GradAt.sub (GradAt.coord _ _) (GradAt.const_mul r (GradAt.sum _ fun j _ => GradAt.coord _ _))).congr ?_
  rintro ⟨b, k⟩
  rcases b with ⟨s', j⟩ | ⟨s', j⟩ | _ | _ | _ | _ | _ <;> simp only [devGrad, Prod.mk.injEq, SBlk.force.injEq, reduceCtorEq, false_and, if_false, Finset.sum_const_zero, mul_zero, sub_zero]
  by_cases h : s' = s ∧ k = a
  · obtain ⟨rfl, rfl⟩ := h
    simp [dev]
  · have h1 : ∀ j', ¬ ((s' = s ∧ j = j') ∧ k = a) := fun j' hh => h ⟨hh.1.1, hh.2⟩
    simp [h, h1]

theorem numberOfPoints_eq (i : Fin n) : numberOfPoints i = n := length_others i

theorem forceMean_value (s : Side) (i : Fin n) (x : SVec n) (u : CVec n) :
    (forceMean s i).value x u = ∑ a : Fin 2, 1 / 2 * 1 *
      ((x (.force s i, (a : Nat)) - 1 / (n : ℝ) * ∑ j, x (.force s j, (a : Nat))) * (x (.force s i, (a : Nat)) - 1 / (n : ℝ) * ∑ j, x (.force s j, (a : Nat)))) := by
  simp [forceMean, differenceFromMean, sumOfForces_eq, numberOfPoints_eq, vec3]
  ring

theorem forceMean_stateGrad (s : Side) (i : Fin n) (x : SVec n) (u : CVec n) (g : SVec n) (p : Idx (SBlk n)) :
    (forceMean s i).stateGrad x u g p = ∑ a : Fin 2, 1 * (x (.force s i, (a : Nat)) - 1 / (n : ℝ) * ∑ j, x (.force s j, (a : Nat))) * devGrad s i (1 / n) a p := by
  obtain ⟨b, k⟩ := p
  have hd : ∀ k < 2, at3 (differenceFromMean x s i) k = x (.force s i, k) - 1 / (n : ℝ) * ∑ j, x (.force s j, k) := by
    intro k hk
    interval_cases k <;> simp [at3, differenceFromMean, sumOfForces_eq, numberOfPoints_eq, vec3]
  by_cases hb : ∃ j, b = .force s j ∧ k < 2
  · obtain ⟨j, rfl, hk⟩ := hb
    have e : ∀ j, ∑ a : Fin 2, 1 * (x (.force s i, (a : Nat)) - 1 / (n : ℝ) * ∑ j, x (.force s j, (a : Nat))) * devGrad s i (1 / n) a (.force s j, k) =
        dev i j (1 / n) * at3 (differenceFromMean x s i) k := by
      intro j
      rw [hd k hk]
      interval_cases k <;> simp [devGrad] <;> ring
    rw [e]
    simp only [forceMean, numberOfPoints_eq]
    by_cases hij : j = i
    · subst hij
      refine ((writesV (others j) _ (fun _ => 0) (fun _ _ => False) _ (fun _ _ h => h.elim) ?_ _).2 (by simp)).trans ?_
      · intro e he _ M
        rw [seg_apply, if_neg]
        rintro ⟨h, -⟩
        exact mem_others.1 he (by simpa using h.symm)
      · simp [seg_apply, hk, dev]
    · refine ((writesV (others i) _ (fun (q : Idx (SBlk n)) => dev i j (1 / n) * at3 (differenceFromMean x s i) q.2) (fun e _ => e = j) _ ?_ ?_ _).1 ⟨j, mem_others.2 hij, rfl⟩)
      · rintro e - rfl M
        simp [seg_apply, hk, dev, hij]
      · intro e he hne M
        rw [seg_apply, if_neg]
        rintro ⟨h, -⟩
        exact hne (by simpa using h.symm)
  · have e : ∑ a : Fin 2, 1 * (x (.force s i, (a : Nat)) - 1 / (n : ℝ) * ∑ j, x (.force s j, (a : Nat))) * devGrad s i (1 / n) a (b, k) = 0 := by
      refine Finset.sum_eq_zero fun a _ => ?_
      have : devGrad s i (1 / n) a (b, k) = 0 := by
        rcases b with ⟨s', j⟩ | ⟨s', j⟩ | _ | _ | _ | _ | _ <;> simp only [devGrad]
        rw [if_neg]
        rintro ⟨rfl, rfl⟩
        exact hb ⟨j, rfl, a.2⟩
      rw [this, mul_zero]
    rw [e]
    simp only [forceMean]
    refine ((writesV (others i) _ (fun _ => 0) (fun _ _ => False) _ (fun _ _ h => h.elim) ?_ _).2 (by simp)).trans ?_
    · intro e he _ M
      rw [seg_apply, if_neg]
      rintro ⟨h, hk⟩
      exact hb ⟨e, h, hk⟩
    · rw [seg_apply, if_neg]
      · rfl
      · rintro ⟨h, hk⟩
        exact hb ⟨i, h, hk⟩

theorem forceMean_stateHess (s : Side) (i : Fin n) (x : SVec n) (u : CVec n) (p q : Idx (SBlk n)) :
    (forceMean s i).stateHess x u (fun _ _ => 0) p q = ∑ a : Fin 2, 1 * devGrad s i (1 / n) a p * devGrad s i (1 / n) a q := by
  set H : Idx (SBlk n) → Idx (SBlk n) → ℝ := fun p q => ∑ a : Fin 2, 1 * devGrad s i (1 / n) a p * devGrad s i (1 / n) a q with hH
  have hv : ∀ j j' k l, k < 2 → l < 2 → H (.force s j, k) (.force s j', l) = eye k l * (dev i j (1 / n) * dev i j' (1 / n)) := by
    intro j j' k l hk hl
    interval_cases k <;> interval_cases l <;> simp [hH, devGrad, eye]
  have hz : ∀ p q, ¬ (∃ j j', p.1 = .force s j ∧ q.1 = .force s j' ∧ p.2 < 2 ∧ q.2 < 2) → H p q = 0 := by
    rintro ⟨b, k⟩ ⟨c, l⟩ h
    refine Finset.sum_eq_zero fun a _ => ?_
    by_contra hne
    have h1 : devGrad s i (1 / n) a (b, k) ≠ 0 := fun e => hne (by rw [e]; ring)
    have h2 : devGrad s i (1 / n) a (c, l) ≠ 0 := fun e => hne (by rw [e]; ring)
    rcases b with ⟨s', j⟩ | ⟨s', j⟩ | _ | _ | _ | _ | _ <;> simp only [devGrad, ne_eq, not_true] at h1
    rcases c with ⟨s'', j'⟩ | ⟨s'', j'⟩ | _ | _ | _ | _ | _ <;> simp only [devGrad, ne_eq, not_true] at h2
    by_cases c1 : s' = s ∧ k = a
    · by_cases c2 : s'' = s ∧ l = a
      · obtain ⟨rfl, rfl⟩ := c1
        obtain ⟨rfl, rfl⟩ := c2
        exact h ⟨j, j', rfl, rfl, a.2, a.2⟩
      · exact h2 (if_neg c2)
    · exact h1 (if_neg c1)
  have di : ∀ j, j ≠ i → dev i j (1 / (n : ℝ)) = -(1 / n) := fun j h => by simp [dev, h]
  have dii : dev i i (1 / (n : ℝ)) = 1 - 1 / n := by simp [dev]
  simp only [forceMean, identity_eq, numberOfPoints_eq]
  -- the last loop
  have last := writes (upper (others i)) (fun (M : Idx (SBlk n) → Idx (SBlk n) → ℝ) (e : Fin n × Fin n × Bool) =>
      let M' := putBlock M (.force s e.1) 0 (.force s e.2.1) 0 2 2 (fun k l => eye k l * (1 / (n : ℝ) * (1 / n)))
      if e.2.2 then copyBlock M' (.force s e.2.1) (.force s e.1) (.force s e.1) (.force s e.2.1) 2 else M') H
    (fun e p q => (p.1 = .force s e.1 ∧ q.1 = .force s e.2.1 ∨ e.2.2 = true ∧ p.1 = .force s e.2.1 ∧ q.1 = .force s e.1) ∧ p.2 < 2 ∧ q.2 < 2)
    p q (by
      intro e he hw M
      rw [sym_apply, if_pos hw]
      obtain ⟨h1, h2⟩ := mem_upper he
      obtain ⟨p1, k⟩ := p
      obtain ⟨q1, l⟩ := q
      obtain ⟨(⟨a, b⟩ | ⟨-, a, b⟩), hk, hl⟩ := hw <;> dsimp only at a b hk hl <;> subst a <;> subst b <;> rw [hv _ _ _ _ hk hl, di _ (mem_others.1 h1), di _ (mem_others.1 h2)] <;> ring)
    (by
      intro e he hw M
      rw [sym_apply, if_neg hw])
  have mid := fun M => writes (others i) (fun (M : Idx (SBlk n) → Idx (SBlk n) → ℝ) (j : Fin n) =>
      copyBlock (putBlock M (.force s i) 0 (.force s j) 0 2 2 (fun k l => eye k l * (-(1 / (n : ℝ)) * (1 - 1 / n)))) (.force s j) (.force s i) (.force s i) (.force s j) 2) H
    (fun j p q => (p.1 = .force s i ∧ q.1 = .force s j ∨ true = true ∧ p.1 = .force s j ∧ q.1 = .force s i) ∧ p.2 < 2 ∧ q.2 < 2)
    p q (by
      intro e he hw M
      refine (sym_apply M (.force s i) (.force s e) 2 _ true p q).trans ?_
      rw [if_pos hw]
      obtain ⟨p1, k⟩ := p
      obtain ⟨q1, l⟩ := q
      obtain ⟨(⟨a, b⟩ | ⟨-, a, b⟩), hk, hl⟩ := hw <;> dsimp only at a b hk hl <;> subst a <;> subst b <;> rw [hv _ _ _ _ hk hl, di _ (mem_others.1 he), dii] <;> ring)
    (by
      intro e he hw M
      refine (sym_apply M (.force s i) (.force s e) 2 _ true p q).trans ?_
      rw [if_neg hw]) M
  by_cases c : ∃ j j', p.1 = .force s j ∧ q.1 = .force s j' ∧ p.2 < 2 ∧ q.2 < 2
  · by_cases c1 : ∃ e ∈ upper (others i), (p.1 = .force s e.1 ∧ q.1 = .force s e.2.1 ∨ e.2.2 = true ∧ p.1 = .force s e.2.1 ∧ q.1 = .force s e.1) ∧ p.2 < 2 ∧ q.2 < 2
    · exact (last _).1 c1
    · refine ((last _).2 c1).trans ?_
      by_cases c2 : ∃ j ∈ others i, (p.1 = .force s i ∧ q.1 = .force s j ∨ true = true ∧ p.1 = .force s j ∧ q.1 = .force s i) ∧ p.2 < 2 ∧ q.2 < 2
      · exact (mid _).1 c2
      · refine ((mid _).2 c2).trans ?_
        obtain ⟨p1, k⟩ := p
        obtain ⟨q1, l⟩ := q
        obtain ⟨j, j', a, b, hk, hl⟩ := c
        dsimp only at a b hk hl
        subst a; subst b
        have hj : j = i := by
          by_contra hj
          by_cases hj' : j' = i
          · subst hj'; exact c2 ⟨j, mem_others.2 hj, Or.inr ⟨rfl, rfl, rfl⟩, hk, hl⟩
          · rcases upper_covers (mem_others.2 hj) (mem_others.2 hj') with ⟨f, h⟩ | h
            · exact c1 ⟨_, h, Or.inl ⟨rfl, rfl⟩, hk, hl⟩
            · exact c1 ⟨_, h, Or.inr ⟨rfl, rfl, rfl⟩, hk, hl⟩
        subst hj
        have hj' : j' = j := by
          by_contra hj'
          exact c2 ⟨j', mem_others.2 hj', Or.inl ⟨rfl, rfl⟩, hk, hl⟩
        subst hj'
        rw [block_apply, if_pos ⟨rfl, rfl, hk, hl⟩]
        exact (by rw [hv _ _ _ _ hk hl, dii] : _ = H _ _)
  · refine ((last _).2 ?_).trans (((mid _).2 ?_).trans ?_)
    · rintro ⟨e, -, (⟨a, b⟩ | ⟨-, a, b⟩), hk, hl⟩
      · exact c ⟨_, _, a, b, hk, hl⟩
      · exact c ⟨_, _, a, b, hk, hl⟩
    · rintro ⟨e, -, (⟨a, b⟩ | ⟨-, a, b⟩), hk, hl⟩
      · exact c ⟨_, _, a, b, hk, hl⟩
      · exact c ⟨_, _, a, b, hk, hl⟩
    · rw [block_apply, if_neg]
      · exact (hz _ _ c).symm
      rintro ⟨a, b, hk, hl⟩
      exact c ⟨_, _, a, b, hk, hl⟩

theorem forceMean_grad (s : Side) (i : Fin n) : ExactGradients (forceMean s i) := by
  refine fun x u => ⟨?_, ?_⟩
  · have := quad_grad Finset.univ (fun _ => (1 : ℝ)) (fun (a : Fin 2) (y : SVec n) => y (.force s i, (a : Nat)) - 1 / (n : ℝ) * ∑ j, y (.force s j, (a : Nat)))
      (fun a => devGrad s i (1 / n) a) x (fun a => devGrad_at s i _ _ x)
    simp only [forceMean_value]
    exact this.congr fun p => (forceMean_stateGrad s i x u _ p).symm
  · exact (GradAt.const _ _).congr fun _ => rfl

theorem mixed_zero {σ κ : Type} [DecidableEq σ] [DecidableEq κ] (c : Cost σ κ) (x : σ → ℝ) (u : κ → ℝ) (g : (σ → ℝ) → σ → ℝ)
    (h : ∀ y v, GradAt (fun y' => c.value y' v) (g y) y) : MixedAt c.value (fun _ _ => 0) x u :=
  ⟨fun y _ => g y, fun y v => h y v, fun i => (GradAt.const (g x i) u).congr fun _ => rfl⟩

theorem forceMean_hess (s : Side) (i : Fin n) : ExactCostHessians (forceMean s i) := by
  refine fun x u => ⟨?_, ⟨fun _ _ => 0, fun v => GradAt.const _ _, fun k => GradAt.const _ _⟩, ?_⟩
  · have := quad_hess Finset.univ (fun _ => (1 : ℝ)) (fun (a : Fin 2) (y : SVec n) => y (.force s i, (a : Nat)) - 1 / (n : ℝ) * ∑ j, y (.force s j, (a : Nat)))
      (fun a => devGrad s i (1 / n) a) x (fun a y => devGrad_at s i _ _ y)
    simp only [forceMean_value]
    rwa [show (forceMean s i).stateHess x u (fun _ _ => 0) = fun p q => ∑ a : Fin 2, 1 * devGrad s i (1 / n) a p * devGrad s i (1 / n) a q from
      funext fun p => funext fun q => forceMean_stateHess s i x u p q]
  · exact mixed_zero _ x u (fun y => (forceMean s i).stateGrad y u fun _ => 0) fun y v => (forceMean_grad s i y v).1

end Verif.NLP
