import Verif.Lemmas.DynamicsJacobian
/- The Jacobians are the partial derivatives. -/
set_option linter.unusedSectionVars false
set_option linter.unusedSimpArgs false
namespace Verif.NLP.Dynamics
open Verif.NLP.Spec Verif.Smooth Matrix Function
open Verif.Quaternion (rotationFromQuaternion normalized normalizedDerivative rotatedVectorJacobian)
variable {n : Nat}

theorem GradAt.of_eq {ι : Type} [DecidableEq ι] {f f' : (ι → ℝ) → ℝ} {g : ι → ℝ} {x : ι → ℝ} (h : GradAt f' g x) (e : ∀ y, f y = f' y) :
    GradAt f g x := by
  have : f = f' := funext e
  rw [this]; exact h

theorem quatOf_update_quat (x : SVec n) (l : Nat) (h : l < 4) (t : ℝ) :
    quatOf (update x (.baseQuat, l) t) = update (quatOf x) ⟨l, h⟩ t := by
  funext k
  by_cases e : k = ⟨l, h⟩
  · subst e; simp [quatOf]
  · have : (k : Nat) ≠ l := fun h' => e (Fin.ext h')
    simp [quatOf, Function.update_of_ne e, this]

theorem quatOf_update_other (x : SVec n) (q : Idx (SBlk n)) (h : q.1 ≠ .baseQuat ∨ 4 ≤ q.2) (t : ℝ) :
    quatOf (update x q t) = quatOf x := by
  funext k
  have hk := k.2
  have : ((.baseQuat, (k : Nat)) : Idx (SBlk n)) ≠ q := by
    rintro rfl
    rcases h with h | h
    · exact h rfl
    · simp only at h; omega
  simp [quatOf, Function.update_of_ne this]

/-- The base position row. -/
theorem base_grad (x : SVec n) (hq : quatOf x ≠ 0) (u : CVec n) (k : Fin 3) :
    GradAt (fun y => (baseRotation y *ᵥ velOf u) k) (fun q => if q.1 = .baseQuat ∧ q.2 < 4 then ent (quatJac x u) k q.2 else 0) x := by
  rintro ⟨c, l⟩
  by_cases h : c = .baseQuat ∧ l < 4
  · obtain ⟨rfl, h⟩ := h
    simp only [baseRotation, quatOf_update_quat x l h, h, true_and, if_true]
    have := rotated_normalized_isJacobian (velOf u) (quatOf x) hq k ⟨l, h⟩
    refine HasDerivAt.congr_deriv this ?_
    simp [ent, h, quatJac]
  · simp only [h, if_false, baseRotation]
    have hne : c ≠ .baseQuat ∨ 4 ≤ l := by
      by_cases hc : c = .baseQuat
      · exact Or.inr (by by_contra hl; exact h ⟨hc, by omega⟩)
      · exact Or.inl hc
    simp only [quatOf_update_other x (c, l) hne]
    exact hasDerivAt_const _ _

/-- Sum over the points of expressions of which only one depends on the column. -/
theorem sum_one {f : Pt n → ℝ} (a0 : Pt n) (h : ∀ a, a ≠ a0 → f a = 0) : ∑ a, f a = f a0 :=
  Finset.sum_eq_single a0 (fun a _ ha => h a ha) (fun h => absurd (Finset.mem_univ _) h)

theorem cross_grad (x : SVec n) (a : Pt n) (k : Nat) (hk : k < 3) :
    GradAt (fun y => comp (V3.cross (distance y a.1 a.2) (vec3 y (.force a.1 a.2))) k) (fun q => match q.1 with
      | .force s i => if (s, i) = a ∧ q.2 < 3 then skew3 (distance x a.1 a.2) k q.2 else 0
      | .pos s i => if (s, i) = a ∧ q.2 < 3 then -skew3 (vec3 x (.force a.1 a.2)) k q.2 else 0
      | .com => if q.2 < 3 then skew3 (vec3 x (.force a.1 a.2)) k q.2 else 0
      | _ => 0) x := by
  rcases a with ⟨s, i⟩
  have : k = 0 ∨ k = 1 ∨ k = 2 := by omega
  rcases this with rfl | rfl | rfl
  all_goals
    simp only [comp, V3.cross, distance, vec3, V3.sub_x, V3.sub_y, V3.sub_z, if_true, one_ne_zero, if_false, OfNat.ofNat_ne_zero, OfNat.ofNat_ne_one]
    refine GradAt.congr (by sgrad) ?_
    rintro ⟨c, l⟩
    rcases c with ⟨s', i'⟩ | ⟨s', i'⟩ | _ | _ | _ | _ | _ <;> simp [skew3]
    all_goals try (by_cases h : s' = s ∧ i' = i)
    all_goals
      rcases l with _ | _ | _ | l <;> simp_all
    all_goals rw [if_neg (by tauto), if_neg (by tauto), neg_zero]

theorem state_grad (P : Params) (x : SVec n) (hq : quatOf x ≠ 0) (u : CVec n) (d : SVec n) (p : Idx (SBlk n)) :
    GradAt (fun y => dynamics P y u d p) (stateJac P x u (fun _ _ => 0) p) x := by
  obtain ⟨b, k⟩ := p
  refine GradAt.congr (g := fun q => SJ P x u b k q.1 q.2) ?_ (fun q => (stateJac_entry P x u b q.1 k q.2).symm)
  rcases b with ⟨s, i⟩ | ⟨s, i⟩ | _ | _ | _ | _ | _
  · refine GradAt.of_eq ?_ (fun y => dyn_force P y u d s i k)
    by_cases h2 : k = 2
    · subst h2
      simp only [lt_irrefl, if_false, if_true]
      refine GradAt.congr (by sgrad) ?_
      rintro ⟨c, l⟩
      rcases c with ⟨s', i'⟩ | ⟨s', i'⟩ | _ | _ | _ | _ | _ <;> simp [SJ]
      · by_cases h : s = s' ∧ i = i' ∧ l = 2
        · obtain ⟨rfl, rfl, rfl⟩ := h; simp
        · grind
      · by_cases h : s = s' ∧ i = i' ∧ l = 2
        · obtain ⟨rfl, rfl, rfl⟩ := h; simp; ring
        · grind
    · by_cases h : k < 2
      · simp only [h, if_true]
        refine GradAt.congr (GradAt.const _ _) ?_
        rintro ⟨c, l⟩
        rcases c with ⟨s', i'⟩ | ⟨s', i'⟩ | _ | _ | _ | _ | _ <;> simp [SJ, h2]
      · simp only [h, h2, if_false]
        refine GradAt.congr (GradAt.const _ _) ?_
        rintro ⟨c, l⟩
        rcases c with ⟨s', i'⟩ | ⟨s', i'⟩ | _ | _ | _ | _ | _ <;> simp [SJ, h2]
  · refine GradAt.of_eq ?_ (fun y => dyn_pos P y u d s i k)
    by_cases h : k < 2
    · simp only [h, if_true]
      refine GradAt.congr (by sgrad) ?_
      rintro ⟨c, l⟩
      rcases c with ⟨s', i'⟩ | ⟨s', i'⟩ | _ | _ | _ | _ | _ <;> simp [SJ, h]
      grind
    · simp only [h, if_false]
      refine GradAt.congr (GradAt.const _ _) ?_
      rintro ⟨c, l⟩
      rcases c with ⟨s', i'⟩ | ⟨s', i'⟩ | _ | _ | _ | _ | _ <;> simp [SJ]
      omega
  · refine GradAt.of_eq ?_ (fun y => dyn_momentum P y u d k)
    by_cases h : k < 3
    · simp only [h, if_true]
      refine GradAt.congr (GradAt.add (GradAt.const _ _) (GradAt.sum _ fun a _ => GradAt.coord _ _)) ?_
      rintro ⟨c, l⟩
      rcases c with ⟨s', i'⟩ | ⟨s', i'⟩ | _ | _ | _ | _ | _ <;> simp [-Finset.sum_boole, SJ, h, show ¬ 3 ≤ k by omega]
      rw [sum_one (s', i') (by rintro ⟨s, i⟩ hne; grind)]
      simp [eye]; grind
    · by_cases h6 : k < 6
      · simp only [h, h6, if_false, if_true]
        refine GradAt.congr (GradAt.add (GradAt.const _ _) (GradAt.sum _ fun a _ => cross_grad x a (k - 3) (by omega))) ?_
        rintro ⟨c, l⟩
        rcases c with ⟨s', i'⟩ | ⟨s', i'⟩ | _ | _ | _ | _ | _ <;> simp [SJ, h, h6, show 3 ≤ k by omega]
        · rw [sum_one (s', i') (by rintro ⟨s, i⟩ hne; grind)]
          simp
        · rw [sum_one (s', i') (by rintro ⟨s, i⟩ hne; grind)]
          simp
      · simp only [h, h6, if_false]
        refine GradAt.congr (GradAt.const _ _) ?_
        rintro ⟨c, l⟩
        rcases c with ⟨s', i'⟩ | ⟨s', i'⟩ | _ | _ | _ | _ | _ <;> simp [SJ, h, h6]
  · refine GradAt.of_eq ?_ (fun y => dyn_com P y u d k)
    by_cases h : k < 3
    · simp only [h, if_true]
      refine GradAt.congr (by sgrad) ?_
      rintro ⟨c, l⟩
      rcases c with ⟨s', i'⟩ | ⟨s', i'⟩ | _ | _ | _ | _ | _ <;> simp [SJ, h, eye]
      grind
    · simp only [h, if_false]
      refine GradAt.congr (GradAt.const _ _) ?_
      rintro ⟨c, l⟩
      rcases c with ⟨s', i'⟩ | ⟨s', i'⟩ | _ | _ | _ | _ | _ <;> simp [SJ, h]
  · refine GradAt.of_eq ?_ (fun y => dyn_basePos P y u d k)
    by_cases h : k < 3
    · simp only [h, dif_pos]
      refine GradAt.congr (base_grad x hq u ⟨k, h⟩) ?_
      rintro ⟨c, l⟩
      rcases c with ⟨s', i'⟩ | ⟨s', i'⟩ | _ | _ | _ | _ | _ <;> simp [SJ, h]
    · simp only [h, dif_neg, not_false_iff]
      refine GradAt.congr (GradAt.const _ _) ?_
      rintro ⟨c, l⟩
      rcases c with ⟨s', i'⟩ | ⟨s', i'⟩ | _ | _ | _ | _ | _ <;> simp [SJ, h]
  · refine GradAt.of_eq ?_ (fun y => dyn_quat P y u d k)
    refine GradAt.congr (GradAt.const _ _) ?_
    rintro ⟨c, l⟩
    rcases c with ⟨s', i'⟩ | ⟨s', i'⟩ | _ | _ | _ | _ | _ <;> simp [SJ]
  · refine GradAt.of_eq ?_ (fun y => dyn_joints P y u d k)
    refine GradAt.congr (GradAt.const _ _) ?_
    rintro ⟨c, l⟩
    rcases c with ⟨s', i'⟩ | ⟨s', i'⟩ | _ | _ | _ | _ | _ <;> simp [SJ]

theorem ctrl_grad (P : Params) (x : SVec n) (u : CVec n) (d : SVec n) (p : Idx (SBlk n)) :
    GradAt (fun v => dynamics P x v d p) (ctrlJac P x (fun _ _ => 0) p) u := by
  obtain ⟨b, k⟩ := p
  refine GradAt.congr (g := fun q => CJ P x b k q.1 q.2) ?_ (fun q => (ctrlJac_entry P x b q.1 k q.2).symm)
  rcases b with ⟨s, i⟩ | ⟨s, i⟩ | _ | _ | _ | _ | _
  · refine GradAt.of_eq ?_ (fun y => dyn_force P x y d s i k)
    by_cases h : k < 2
    · simp only [h, if_true]
      refine GradAt.congr (by sgrad) ?_
      rintro ⟨c, l⟩
      rcases c with ⟨s', i'⟩ | ⟨s', i'⟩ | _ | _ | _ <;> simp [CJ, h]
      grind
    · by_cases h2 : k = 2
      · subst h2
        simp only [lt_irrefl, if_false, if_true]
        refine GradAt.congr (by sgrad) ?_
        rintro ⟨c, l⟩
        rcases c with ⟨s', i'⟩ | ⟨s', i'⟩ | _ | _ | _ <;> simp [CJ]
        grind
      · simp only [h, h2, if_false]
        refine GradAt.congr (GradAt.const _ _) ?_
        rintro ⟨c, l⟩
        rcases c with ⟨s', i'⟩ | ⟨s', i'⟩ | _ | _ | _ <;> simp [CJ]
        omega
  · refine GradAt.of_eq ?_ (fun y => dyn_pos P x y d s i k)
    by_cases h : k < 2
    · simp only [h, if_true]
      refine GradAt.congr (by sgrad) ?_
      rintro ⟨c, l⟩
      rcases c with ⟨s', i'⟩ | ⟨s', i'⟩ | _ | _ | _ <;> simp [CJ, h]
      grind
    · by_cases h2 : k = 2
      · subst h2
        simp only [lt_irrefl, if_false, if_true]
        refine GradAt.congr (by sgrad) ?_
        rintro ⟨c, l⟩
        rcases c with ⟨s', i'⟩ | ⟨s', i'⟩ | _ | _ | _ <;> simp [CJ]
        grind
      · simp only [h, h2, if_false]
        refine GradAt.congr (GradAt.const _ _) ?_
        rintro ⟨c, l⟩
        rcases c with ⟨s', i'⟩ | ⟨s', i'⟩ | _ | _ | _ <;> simp [CJ]
        omega
  · refine GradAt.of_eq ?_ (fun y => dyn_momentum P x y d k)
    refine GradAt.congr (GradAt.const _ _) ?_
    rintro ⟨c, l⟩
    rcases c with ⟨s', i'⟩ | ⟨s', i'⟩ | _ | _ | _ <;> simp [CJ]
  · refine GradAt.of_eq ?_ (fun y => dyn_com P x y d k)
    refine GradAt.congr (GradAt.const _ _) ?_
    rintro ⟨c, l⟩
    rcases c with ⟨s', i'⟩ | ⟨s', i'⟩ | _ | _ | _ <;> simp [CJ]
  · refine GradAt.of_eq ?_ (fun y => dyn_basePos P x y d k)
    by_cases h : k < 3
    · simp only [h, dif_pos, Matrix.mulVec, dotProduct, Fin.sum_univ_three, velOf]
      refine GradAt.congr (by sgrad) ?_
      rintro ⟨c, l⟩
      rcases c with ⟨s', i'⟩ | ⟨s', i'⟩ | _ | _ | _ <;> simp [CJ, h, ent]
      rcases l with _ | _ | _ | l <;> simp
    · simp only [h, dif_neg, not_false_iff]
      refine GradAt.congr (GradAt.const _ _) ?_
      rintro ⟨c, l⟩
      rcases c with ⟨s', i'⟩ | ⟨s', i'⟩ | _ | _ | _ <;> simp [CJ, h]
  · refine GradAt.of_eq ?_ (fun y => dyn_quat P x y d k)
    by_cases h : k < 4
    · simp only [h, if_true]
      refine GradAt.congr (by sgrad) ?_
      rintro ⟨c, l⟩
      rcases c with ⟨s', i'⟩ | ⟨s', i'⟩ | _ | _ | _ <;> simp [CJ, h, eq_comm]
    · simp only [h, if_false]
      refine GradAt.congr (GradAt.const _ _) ?_
      rintro ⟨c, l⟩
      rcases c with ⟨s', i'⟩ | ⟨s', i'⟩ | _ | _ | _ <;> simp [CJ, h]
  · refine GradAt.of_eq ?_ (fun y => dyn_joints P x y d k)
    by_cases h : k < P.joints
    · simp only [h, if_true]
      refine GradAt.congr (by sgrad) ?_
      rintro ⟨c, l⟩
      rcases c with ⟨s', i'⟩ | ⟨s', i'⟩ | _ | _ | _ <;> simp [CJ, h, eq_comm]
    · simp only [h, if_false]
      refine GradAt.congr (GradAt.const _ _) ?_
      rintro ⟨c, l⟩
      rcases c with ⟨s', i'⟩ | ⟨s', i'⟩ | _ | _ | _ <;> simp [CJ, h]

end Verif.NLP.Dynamics
