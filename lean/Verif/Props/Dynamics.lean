import Verif.Lemmas.DynamicsSecond
/- Properties of the dynamics (C15, C16, C17, C18). -/
set_option linter.unusedSectionVars false
set_option linter.unusedSimpArgs false
namespace Verif.NLP.Dynamics
open Verif.NLP.Spec Verif.Smooth Matrix Function
open Verif.Levi Verif.Levi.Ex
open Verif.Quaternion.Spec (toH imag)
variable {n : Nat}

theorem V3.sum_x {α : Type} (s : Finset α) (f : α → V3 ℝ) : (∑ a ∈ s, f a).x = ∑ a ∈ s, (f a).x := map_sum V3.xHom f s
theorem V3.sum_y {α : Type} (s : Finset α) (f : α → V3 ℝ) : (∑ a ∈ s, f a).y = ∑ a ∈ s, (f a).y := map_sum V3.yHom f s
theorem V3.sum_z {α : Type} (s : Finset α) (f : α → V3 ℝ) : (∑ a ∈ s, f a).z = ∑ a ∈ s, (f a).z := map_sum V3.zHom f s

/-- The last three entries of the momentum. -/
def angularMomentum (x : SVec n) : V3 ℝ := ⟨x (.momentum, 3), x (.momentum, 4), x (.momentum, 5)⟩

/-- **C15.** Newton-Euler: the rate of the linear momentum is the weight plus the contact forces, the rate of the angular momentum is the
moment of the contact forces about the centre of mass, the centre of mass moves with the linear momentum divided by the mass;
whatever was computed before (`d`). -/
theorem C15_newton_euler (P : Params) (x : SVec n) (u : CVec n) (d : SVec n) :
    vec3 (dynamics P x u d) .momentum = V3.smul P.mass ⟨0, 0, -9.81⟩ + ∑ s : Side, ∑ i : Fin n, vec3 x (.force s i) ∧
    angularMomentum (dynamics P x u d) =
      ∑ s : Side, ∑ i : Fin n, V3.cross (vec3 x (.pos s i) - vec3 x .com) (vec3 x (.force s i)) ∧
    vec3 (dynamics P x u d) .com = V3.smul (1 / P.mass) (vec3 x .momentum) := by
  refine ⟨?_, ?_, ?_⟩
  · rw [← Fintype.sum_prod_type' (f := fun s i => vec3 x (.force s i))]
    ext
    · simp [vec3, dyn_momentum, V3.sum_x, gravity]
    · simp [vec3, dyn_momentum, V3.sum_y, gravity]
    · simp [vec3, dyn_momentum, V3.sum_z, gravity]; norm_num
  · rw [← Fintype.sum_prod_type' (f := fun s i => V3.cross (vec3 x (.pos s i) - vec3 x .com) (vec3 x (.force s i)))]
    ext
    · simp [angularMomentum, dyn_momentum, V3.sum_x, gravity, comp, distance]
    · simp [angularMomentum, dyn_momentum, V3.sum_y, gravity, comp, distance]
    · simp [angularMomentum, dyn_momentum, V3.sum_z, gravity, comp, distance]
  · ext <;> simp [vec3, dyn_com] <;> ring

/-- **C15.** The base moves with the commanded velocity rotated by the (not necessarily unit) base quaternion: `|q|² v' = q v q*`. -/
theorem C15_base_velocity (P : Params) (x : SVec n) (u : CVec n) (d : SVec n) (hq : quatOf x ≠ 0) :
    (∑ k : Fin 4, x (.baseQuat, (k : Nat)) ^ 2) • imag (fun k => dynamics P x u d (.basePos, (k : Nat))) =
      toH (fun k => x (.baseQuat, (k : Nat))) * imag (fun k => u (.baseVel, (k : Nat))) * star (toH fun k => x (.baseQuat, (k : Nat))) := by
  have hp := Quaternion.quat_ne_zero hq
  have hs : Real.sqrt (Quaternion.squaredNorm (quatOf x)) ≠ 0 := (Real.sqrt_pos.2 hp).ne'
  have sq : Real.sqrt (Quaternion.squaredNorm (quatOf x)) ^ 2 = Quaternion.squaredNorm (quatOf x) := Real.sq_sqrt hp.le
  have e : (fun k : Fin 3 => dynamics P x u d (.basePos, (k : Nat))) = Quaternion.rotationFromQuaternion (Quaternion.normalized Real.sqrt (quatOf x)) *ᵥ velOf u := by
    funext k; rw [dyn_basePos, dif_pos k.2]; rfl
  have m := (Quaternion.C33_maps_are_the_quaternion_products (Quaternion.normalized Real.sqrt (quatOf x)) 0 (velOf u)).1
    (Quaternion.C33_normalised_is_unit _ hq).1
  rw [e, ← m]
  have hn : toH (Quaternion.normalized Real.sqrt (quatOf x)) = (Real.sqrt (Quaternion.squaredNorm (quatOf x)))⁻¹ • toH (quatOf x) := by
    unfold Quaternion.normalized Quaternion.norm
    rw [if_pos hp]
    refine QuaternionAlgebra.ext ?_ ?_ ?_ ?_ <;> exact div_eq_inv_mul _ _
  have hsum : ∑ k : Fin 4, x (.baseQuat, (k : Nat)) ^ 2 = Real.sqrt (Quaternion.squaredNorm (quatOf x)) ^ 2 := by
    rw [sq, Quaternion.squaredNorm]
    exact Finset.sum_congr rfl fun k _ => by rw [quatOf]; ring
  have hst : star ((Real.sqrt (Quaternion.squaredNorm (quatOf x)))⁻¹ • toH (quatOf x)) = (Real.sqrt (Quaternion.squaredNorm (quatOf x)))⁻¹ • star (toH (quatOf x)) := by
    refine QuaternionAlgebra.ext ?_ ?_ ?_ ?_ <;> simp
  have hc : Real.sqrt (Quaternion.squaredNorm (quatOf x)) * (Real.sqrt (Quaternion.squaredNorm (quatOf x)))⁻¹ = 1 := mul_inv_cancel₀ hs
  rw [hn, hsum, hst]
  change _ = toH (quatOf x) * imag (velOf u) * star (toH (quatOf x))
  generalize (Real.sqrt (Quaternion.squaredNorm (quatOf x)))⁻¹ = t at *
  generalize Real.sqrt (Quaternion.squaredNorm (quatOf x)) = r at *
  generalize toH (quatOf x) = a
  generalize imag (velOf u) = b
  refine QuaternionAlgebra.ext ?_ ?_ ?_ ?_ <;> simp <;> clear hn hst m e <;> grind

/-- **C15.** The remaining rates are the control inputs: quaternion and joints directly; each point moves with its velocity input, the planar
part scaled by the planar activation at its height; each force changes with its input, the normal part scaled by the normal
activation `δ` and with a dissipation `-(1-δ) D f_z`. -/
theorem C15_rates_follow_the_inputs (P : Params) (x : SVec n) (u : CVec n) (d : SVec n) :
    (∀ k < 4, dynamics P x u d (.baseQuat, k) = u (.quatDer, k)) ∧
    (∀ k < P.joints, dynamics P x u d (.joints, k) = u (.jointVel, k)) ∧
    ∀ s i, let δxy := P.δxy.eval (vec3 x (.pos s i)).z; let δz := P.δz.eval (vec3 x (.pos s i)).z
      let v := vec3 u (.velCtl s i); let f' := vec3 u (.forceCtl s i)
      vec3 (dynamics P x u d) (.pos s i) = ⟨δxy * v.x, δxy * v.y, v.z⟩ ∧
      vec3 (dynamics P x u d) (.force s i) = ⟨f'.x, f'.y, δz * f'.z - P.dissipation * (1 - δz) * (vec3 x (.force s i)).z⟩ := by
  refine ⟨fun k hk => by rw [dyn_quat, if_pos hk], fun k hk => by rw [dyn_joints, if_pos hk], fun s i => ⟨?_, ?_⟩⟩
  · ext <;> simp [vec3, dyn_pos]
  · ext <;> simp [vec3, dyn_force]; ring

/-- **C15.** With both activations disabled at one, points and forces are integrated exactly from their inputs. -/
theorem C15_without_smoothing (P : Params) (x : SVec n) (u : CVec n) (d : SVec n) (hxy : P.xy.disabled = true ∧ P.xy.disabledValue = 1)
    (hz : P.z.disabled = true ∧ P.z.disabledValue = 1) (s : Side) (i : Fin n) :
    vec3 (dynamics P x u d) (.pos s i) = vec3 u (.velCtl s i) ∧ vec3 (dynamics P x u d) (.force s i) = vec3 u (.forceCtl s i) := by
  have h := (C15_rates_follow_the_inputs P x u d).2.2 s i
  simp only [Params.δxy, Params.δz, Fn.eval, hxy.1, hxy.2, hz.1, hz.2, if_true] at h
  refine ⟨h.1.trans (by ext <;> simp), h.2.trans (by ext <;> simp)⟩

/-- **C15.** The mass used is the sum of the masses of the links. -/
theorem C15_total_mass (links : List ℝ) : totalMass links = links.sum := by
  unfold totalMass
  have : ∀ (l : List ℝ) (a : ℝ), l.foldl (fun m l => m + l) a = a + l.sum := by
    intro l
    induction l with
    | nil => simp
    | cons b l ih => intro a; rw [List.foldl_cons, ih, List.sum_cons]; ring
  simpa using this links 0

/-- **C15.** Entries that exist do not depend on what the buffer held before. -/
theorem C15_independent_of_earlier_calls (P : Params) (x : SVec n) (u : CVec n) (d d' : SVec n) (p : Idx (SBlk n))
    (hp : p ∈ stateEntries n P.joints) : dynamics P x u d p = dynamics P x u d' p := by
  obtain ⟨b, k⟩ := p
  have hk : k < stateSize P.joints b := by
    simp only [stateEntries, List.mem_flatMap, List.mem_map, List.mem_range] at hp
    obtain ⟨b', -, k', hk', e⟩ := hp
    obtain ⟨rfl, rfl⟩ := Prod.mk.inj e
    exact hk'
  rcases b with ⟨s, i⟩ | ⟨s, i⟩ | _ | _ | _ | _ | _ <;> simp only [stateSize] at hk
  · rw [dyn_force, dyn_force]; grind
  · rw [dyn_pos, dyn_pos]; grind
  · rw [dyn_momentum, dyn_momentum]; grind
  · rw [dyn_com, dyn_com]; grind
  · rw [dyn_basePos, dyn_basePos, dif_pos hk, dif_pos hk]
  · rw [dyn_quat, dyn_quat]; grind
  · rw [dyn_joints, dyn_joints]; grind

/-- **C16.** The state and control Jacobians hold the partial derivatives of the dynamics, at every state with a non null quaternion. -/
theorem C16_jacobians (P : Params) (x : SVec n) (hq : quatOf x ≠ 0) (u : CVec n) (d : SVec n) (p : Idx (SBlk n)) :
    GradAt (fun y => dynamics P y u d p) (stateJac P x u (fun _ _ => 0) p) x ∧
    GradAt (fun v => dynamics P x v d p) (ctrlJac P x (fun _ _ => 0) p) u :=
  ⟨state_grad P x hq u d p, ctrl_grad P x u d p⟩

/-- **C17.** levi answers all the derivatives the constructor and the Hessians ask for. -/
theorem C17_expressions_exist {cfg : Cfg ℝ} (hs : Levi.Spec.Sound cfg) : ∃ E : Exprs, E.Made cfg := by
  let ρ : Env ℝ := fun _ _ => 1
  have hρ : ρ ∈ NonNull := by simp [NonNull, ρ]; norm_num
  have ne : NonNull.Nonempty := ⟨ρ, hρ⟩
  have size {e : Ex ℝ} (hw : Levi.Spec.Written (Levi.Spec.PowOk ρ) e) : (build cfg e).size = e.size := by
    have vb := build_val hs (fun a a' α => PowOk.transfer a a' α) hw
    exact size_of_ev vb.1 hw vb.2
  have any {e x : Ex ℝ} (h : ∀ σ ∈ NonNull, Levi.Spec.Written (Levi.Spec.PowOk σ) e) (hx : Levi.Spec.Obtained cfg e x) (c : Nat) (hc : c < x.cols) (v : Var)
      (hv : 0 < v.dim) : ∃ m d, D cfg m x c v = some d := by
    obtain ⟨N, hN⟩ := (C25_column_derivatives_exist_and_are_true hs e NonNull h ne hx c hc v hv).1
    obtain ⟨d, hd⟩ := hN N le_rfl
    exact ⟨N, d, hd⟩
  have hb := fun (σ : Env ℝ) (hσ : σ ∈ NonNull) => written_bpdE hσ
  have hcb : 0 < (build cfg bpdE).cols := by rw [cols, size (hb ρ hρ)]; decide
  obtain ⟨m, j, hj⟩ := any hb Levi.Spec.Obtained.built 0 hcb Quat.q (by decide)
  have jc := ((C25_column_derivatives_exist_and_are_true hs bpdE NonNull hb ne Levi.Spec.Obtained.built 0 hcb Quat.q (by decide)).2 m j hj ρ hρ).size
  have h1 : ∀ i : Fin 4, ∃ d m', D cfg m' j i Quat.q = some d := fun i => by
    obtain ⟨m', d, h⟩ := any hb (Levi.Spec.Obtained.derived Levi.Spec.Obtained.built hcb (by decide) hj) i
      (by rw [cols, jc]; exact i.2) Quat.q (by decide)
    exact ⟨d, m', h⟩
  have h2 : ∀ i : Fin 3, ∃ d m', D cfg m' (build cfg rotE) i Quat.q = some d := fun i => by
    obtain ⟨m', d, h⟩ := any (fun σ hσ => written_rotE hσ) Levi.Spec.Obtained.built i
      (by rw [cols, size (written_rotE hρ)]; exact i.2) Quat.q (by decide)
    exact ⟨d, m', h⟩
  have h3 : ∀ i : Fin 3, ∃ d m', D cfg m' (build cfg (.skew (.var fVar))) i fVar = some d := fun i => by
    obtain ⟨m', d, h⟩ := any (fun σ _ => written_skew (Levi.Spec.PowOk σ)) Levi.Spec.Obtained.built i
      (by rw [cols, size (written_skew _)]; exact i.2) fVar (Nat.succ_pos 2)
    exact ⟨d, m', h⟩
  choose H hH using h1
  choose R hR using h2
  choose S hS using h3
  exact ⟨⟨H, R, S⟩, ⟨m, j, hj, hH⟩, hR, hS⟩

/-- **C17.** The state, control and mixed Hessians hold the second partial derivatives of the multiplier-weighted dynamics, at every state
with a non null quaternion, however levi rewrites the expressions it is given. -/
theorem C17_hessians {cfg : Cfg ℝ} (hs : Levi.Spec.Sound cfg) {E : Exprs} (hE : E.Made cfg) (P : Params) (x : SVec n) (hq : quatOf x ≠ 0)
    (u : CVec n) (lam d : SVec n) :
    HessNear (fun y => weightedRows P.joints lam (dynamics P y u d)) (stateHess P E x u lam fun _ _ => 0) x ∧
    HessNear (fun v => weightedRows P.joints lam (dynamics P x v d)) (ctrlHess fun _ _ => 0) u ∧
    MixedNear (fun y v => weightedRows P.joints lam (dynamics P y v d)) (mixedHess P E x u lam fun _ _ => 0) x u := by
  refine ⟨⟨fun y q => WC P lam y u q.1 q.2, ?_, ?_⟩, ⟨_, Filter.Eventually.of_forall fun v => weighted_ctrl_grad P lam d v x, ?_⟩,
    ⟨fun v q => WC P lam x v q.1 q.2, fun v => weighted_state_grad P lam d v hq, ?_⟩⟩
  · filter_upwards [eventually_nonNull hq] with y hy
    exact weighted_state_grad P lam d u hy
  · rintro ⟨b, k⟩
    exact (WC_state_grad hs hE P lam u hq b k).congr fun q => (stateHess_entry hs hE P x u lam b q.1 k q.2).symm
  · intro i
    exact GradAt.const _ _
  · rintro ⟨b, k⟩
    exact (WC_ctrl_grad hs hE P lam u hq b k).congr fun q => (mixedHess_entry P E x u lam b q.1 k q.2).symm

/-! ### Sparsity -/

theorem mem_seg {B : Type} {b : B} {k0 r k : Nat} : (b, k) ∈ seg b k0 r ↔ k0 ≤ k ∧ k < k0 + r := by
  simp only [seg, List.mem_map, List.mem_range, Prod.mk.injEq, true_and]
  constructor
  · rintro ⟨a, h, rfl⟩; omega
  · rintro ⟨h1, h2⟩; exact ⟨k - k0, by omega, by omega⟩

theorem mem_dense {ρ κ : Type} {R : List ρ} {C : List κ} {p : ρ} {q : κ} : (p, q) ∈ dense R C ↔ p ∈ R ∧ q ∈ C := by
  simp [dense]

theorem mem_diag {B C : Type} {b : B} {c : C} {k0 l0 r k : Nat} (h : k < r) : ((b, k0 + k), (c, l0 + k)) ∈ diag (seg b k0 r) (seg c l0 r) := by
  simp only [diag, seg, List.zip_map', List.mem_map, List.mem_range]
  exact ⟨k, h, rfl⟩

/-- **C18** (partial: for the state Jacobian the entries of each normal force with respect to itself are excepted; see the finding
below, they are not declared).  Every entry of the Jacobians and Hessians that is not zero is declared. -/
theorem C18_sparsity_partial (P : Params) (E : Exprs) {cfg : Cfg ℝ} (hs : Levi.Spec.Sound cfg) (hE : E.Made cfg) (x : SVec n) (u : CVec n) (lam : SVec n) :
    (∀ p q, stateJac P x u (fun _ _ => 0) p q ≠ 0 → (¬ ∃ s i, p = (.force s i, 2) ∧ q = (.force s i, 2)) → (p, q) ∈ stateJacPat) ∧
    (∀ p q, ctrlJac P x (fun _ _ => 0) p q ≠ 0 → (p, q) ∈ ctrlJacPat P.joints) ∧
    (∀ p q, stateHess P E x u lam (fun _ _ => 0) p q ≠ 0 → (p, q) ∈ stateHessPat) ∧
    (∀ p q, ctrlHess (n := n) (fun _ _ => 0) p q ≠ 0 → (p, q) ∈ ctrlHessPat) ∧
    (∀ p q, mixedHess P E x u lam (fun _ _ => 0) p q ≠ 0 → (p, q) ∈ mixedHessPat) := by
  have foot : ∀ {α : Type} (F : Side → List α) (a : α) (s : Side), a ∈ F s → a ∈ F .left ++ F .right := by
    intro α F a s h; cases s
    · exact List.mem_append_left _ h
    · exact List.mem_append_right _ h
  refine ⟨?_, ?_, ?_, ?_, ?_⟩
  · rintro ⟨b, k⟩ ⟨c, l⟩ h hne
    rw [stateJac_entry] at h
    simp only [stateJacPat, List.append_assoc]
    rw [← List.append_assoc]
    rcases b with ⟨s, i⟩ | ⟨s, i⟩ | _ | _ | _ | _ | _ <;> rcases c with ⟨s', i'⟩ | ⟨s', i'⟩ | _ | _ | _ | _ | _ <;> simp only [SJ, ne_eq, not_true] at h
    · exfalso
      by_cases hh : (s, i) = (s', i') ∧ k = 2 ∧ l = 2
      · obtain ⟨e, rfl, rfl⟩ := hh
        obtain ⟨rfl, rfl⟩ := Prod.mk.inj e
        exact hne ⟨s, i, rfl, rfl⟩
      · exact absurd (by first | exact if_neg hh | exact dif_neg hh | (rw [if_neg hh]) | (rw [dif_neg hh]) | simp [hh]) h
    · by_cases hh : (s, i) = (s', i') ∧ k = 2 ∧ l = 2
      · obtain ⟨e, rfl, rfl⟩ := hh
        obtain ⟨rfl, rfl⟩ := Prod.mk.inj e
        refine List.mem_append_left _ (foot footStateJacPat _ s ?_)
        simp [footStateJacPat, mem_dense, mem_seg, dense, diag, seg]
      · exact absurd (by first | exact if_neg hh | exact dif_neg hh | (rw [if_neg hh]) | (rw [dif_neg hh]) | simp [hh]) h
    · by_cases hh : (s, i) = (s', i') ∧ k < 2 ∧ l = 2
      · obtain ⟨e, hk, rfl⟩ := hh
        obtain ⟨rfl, rfl⟩ := Prod.mk.inj e
        refine List.mem_append_left _ (foot footStateJacPat _ s ?_)
        simp only [footStateJacPat, List.mem_flatMap, List.mem_append]
        exact ⟨i, List.mem_finRange i, Or.inl (Or.inr (mem_dense.2 ⟨mem_seg.2 ⟨by omega, by omega⟩, mem_seg.2 ⟨by omega, by omega⟩⟩))⟩
      · exact absurd (by first | exact if_neg hh | exact dif_neg hh | (rw [if_neg hh]) | (rw [dif_neg hh]) | simp [hh]) h
    · refine List.mem_append_left _ (foot footStateJacPat _ s' ?_)
      simp only [footStateJacPat, List.mem_flatMap, List.mem_append]
      refine ⟨i', List.mem_finRange i', ?_⟩
      by_cases hh : k < 3 ∧ l < 3
      · rw [if_pos hh] at h
        have : k = l := by by_contra e; simp [eye, e] at h
        subst this
        have := mem_diag (b := (SBlk.momentum : SBlk n)) (c := SBlk.force s' i') (k0 := 0) (l0 := 0) hh.1
        simp only [Nat.zero_add] at this
        exact Or.inl (Or.inl (Or.inl (Or.inl this)))
      · rw [if_neg hh] at h
        by_cases h3 : 3 ≤ k ∧ k < 6 ∧ l < 3
        · exact Or.inl (Or.inl (Or.inl (Or.inr (mem_dense.2 ⟨mem_seg.2 ⟨by omega, by omega⟩, mem_seg.2 ⟨by omega, by omega⟩⟩))))
        · exact absurd (by first | exact if_neg h3 | exact dif_neg h3 | (rw [if_neg h3]) | (rw [dif_neg h3]) | simp [h3]) h
    · refine List.mem_append_left _ (foot footStateJacPat _ s' ?_)
      simp only [footStateJacPat, List.mem_flatMap, List.mem_append]
      refine ⟨i', List.mem_finRange i', ?_⟩
      by_cases h3 : 3 ≤ k ∧ k < 6 ∧ l < 3
      · exact Or.inl (Or.inl (Or.inr (mem_dense.2 ⟨mem_seg.2 ⟨by omega, by omega⟩, mem_seg.2 ⟨by omega, by omega⟩⟩)))
      · exact absurd (by first | exact if_neg h3 | exact dif_neg h3 | (rw [if_neg h3]) | (rw [dif_neg h3]) | simp [h3]) h
    · by_cases h3 : 3 ≤ k ∧ k < 6 ∧ l < 3
      · exact List.mem_append_right _ (List.mem_append_left _ (mem_dense.2 ⟨mem_seg.2 ⟨by omega, by omega⟩, mem_seg.2 ⟨by omega, by omega⟩⟩))
      · exact absurd (by first | exact if_neg h3 | exact dif_neg h3 | (rw [if_neg h3]) | (rw [dif_neg h3]) | simp [h3]) h
    · by_cases hh : k < 3 ∧ l < 3
      · rw [if_pos hh] at h
        have : k = l := by by_contra e; simp [eye, e] at h
        subst this
        have := mem_diag (b := (SBlk.com : SBlk n)) (c := (SBlk.momentum : SBlk n)) (k0 := 0) (l0 := 0) hh.1
        simp only [Nat.zero_add] at this
        exact List.mem_append_right _ (List.mem_append_right _ (List.mem_append_left _ this))
      · exact absurd (by first | exact if_neg hh | exact dif_neg hh | (rw [if_neg hh]) | (rw [dif_neg hh]) | simp [hh]) h
    · by_cases hh : k < 3 ∧ l < 4
      · exact List.mem_append_right _ (List.mem_append_right _ (List.mem_append_right _ (List.mem_append_left _
          (mem_dense.2 ⟨mem_seg.2 ⟨by omega, by omega⟩, mem_seg.2 ⟨by omega, by omega⟩⟩))))
      · exact absurd (by first | exact if_neg hh | exact dif_neg hh | (rw [if_neg hh]) | (rw [dif_neg hh]) | simp [hh]) h
  · rintro ⟨b, k⟩ ⟨c, l⟩ h
    rw [ctrlJac_entry] at h
    simp only [ctrlJacPat, List.append_assoc]
    rw [← List.append_assoc]
    rcases b with ⟨s, i⟩ | ⟨s, i⟩ | _ | _ | _ | _ | _ <;> rcases c with ⟨s', i'⟩ | ⟨s', i'⟩ | _ | _ | _ <;> simp only [CJ, ne_eq, not_true] at h
    · by_cases hh : (s, i) = (s', i') ∧ k = l ∧ k < 3
      · obtain ⟨e, rfl, hk⟩ := hh
        obtain ⟨rfl, rfl⟩ := Prod.mk.inj e
        refine List.mem_append_left _ (foot footCtrlJacPat _ s ?_)
        simp only [footCtrlJacPat, List.mem_flatMap, List.mem_append]
        have := mem_diag (b := (SBlk.force s i : SBlk n)) (c := (CBlk.forceCtl s i : CBlk n)) (k0 := 0) (l0 := 0) hk
        simp only [Nat.zero_add] at this
        exact ⟨i, List.mem_finRange i, Or.inl this⟩
      · exact absurd (by first | exact if_neg hh | exact dif_neg hh | (rw [if_neg hh]) | (rw [dif_neg hh]) | simp [hh]) h
    · by_cases hh : (s, i) = (s', i') ∧ k = l ∧ k < 3
      · obtain ⟨e, rfl, hk⟩ := hh
        obtain ⟨rfl, rfl⟩ := Prod.mk.inj e
        refine List.mem_append_left _ (foot footCtrlJacPat _ s ?_)
        simp only [footCtrlJacPat, List.mem_flatMap, List.mem_append]
        have := mem_diag (b := (SBlk.pos s i : SBlk n)) (c := (CBlk.velCtl s i : CBlk n)) (k0 := 0) (l0 := 0) hk
        simp only [Nat.zero_add] at this
        exact ⟨i, List.mem_finRange i, Or.inr this⟩
      · exact absurd (by first | exact if_neg hh | exact dif_neg hh | (rw [if_neg hh]) | (rw [dif_neg hh]) | simp [hh]) h
    · by_cases hh : k < 3 ∧ l < 3
      · exact List.mem_append_right _ (List.mem_append_left _ (mem_dense.2 ⟨mem_seg.2 ⟨by omega, by omega⟩, mem_seg.2 ⟨by omega, by omega⟩⟩))
      · exact absurd (by first | exact if_neg hh | exact dif_neg hh | (rw [if_neg hh]) | (rw [dif_neg hh]) | simp [hh]) h
    · by_cases hh : k = l ∧ k < 4
      · obtain ⟨rfl, hk⟩ := hh
        have := mem_diag (b := (SBlk.baseQuat : SBlk n)) (c := (CBlk.quatDer : CBlk n)) (k0 := 0) (l0 := 0) hk
        simp only [Nat.zero_add] at this
        exact List.mem_append_right _ (List.mem_append_right _ (List.mem_append_left _ this))
      · exact absurd (by first | exact if_neg hh | exact dif_neg hh | (rw [if_neg hh]) | (rw [dif_neg hh]) | simp [hh]) h
    · by_cases hh : k = l ∧ k < P.joints
      · obtain ⟨rfl, hk⟩ := hh
        have := mem_diag (b := (SBlk.joints : SBlk n)) (c := (CBlk.jointVel : CBlk n)) (k0 := 0) (l0 := 0) hk
        simp only [Nat.zero_add] at this
        exact List.mem_append_right _ (List.mem_append_right _ (List.mem_append_right _ this))
      · exact absurd (by first | exact if_neg hh | exact dif_neg hh | (rw [if_neg hh]) | (rw [dif_neg hh]) | simp [hh]) h
  · rintro ⟨b, k⟩ ⟨c, l⟩ h
    rw [stateHess_entry hs hE] at h
    rw [stateHessPat]
    rcases b with ⟨s, i⟩ | ⟨s, i⟩ | _ | _ | _ | _ | _ <;> rcases c with ⟨s', i'⟩ | ⟨s', i'⟩ | _ | _ | _ | _ | _ <;> simp only [SH, ne_eq, not_true] at h
    · by_cases hh : (s, i) = (s', i') ∧ k < 3 ∧ l < 3
      · obtain ⟨e, hk, hl⟩ := hh
        obtain ⟨rfl, rfl⟩ := Prod.mk.inj e
        refine List.mem_append_left _ (foot footStateHessPat _ s ?_)
        simp only [footStateHessPat, List.mem_flatMap, List.mem_append]
        exact ⟨i, List.mem_finRange i, Or.inl (Or.inr (mem_dense.2 ⟨mem_seg.2 ⟨by omega, by omega⟩, mem_seg.2 ⟨by omega, by omega⟩⟩))⟩
      · exact absurd (by first | exact if_neg hh | exact dif_neg hh | (rw [if_neg hh]) | (rw [dif_neg hh]) | simp [hh]) h
    · by_cases hh : k < 3 ∧ l < 3
      · refine List.mem_append_left _ (foot footStateHessPat _ s ?_)
        simp only [footStateHessPat, List.mem_flatMap, List.mem_append]
        exact ⟨i, List.mem_finRange i, Or.inl (Or.inl (Or.inl (Or.inr (mem_dense.2 ⟨mem_seg.2 ⟨by omega, by omega⟩, mem_seg.2 ⟨by omega, by omega⟩⟩))))⟩
      · exact absurd (by first | exact if_neg hh | exact dif_neg hh | (rw [if_neg hh]) | (rw [dif_neg hh]) | simp [hh]) h
    · by_cases hh : (s, i) = (s', i') ∧ k < 3 ∧ l < 3
      · obtain ⟨e, hk, hl⟩ := hh
        obtain ⟨rfl, rfl⟩ := Prod.mk.inj e
        refine List.mem_append_left _ (foot footStateHessPat _ s ?_)
        simp only [footStateHessPat, List.mem_flatMap, List.mem_append]
        exact ⟨i, List.mem_finRange i, Or.inl (Or.inl (Or.inr (mem_dense.2 ⟨mem_seg.2 ⟨by omega, by omega⟩, mem_seg.2 ⟨by omega, by omega⟩⟩)))⟩
      · exact absurd (by first | exact if_neg hh | exact dif_neg hh | (rw [if_neg hh]) | (rw [dif_neg hh]) | simp [hh]) h
    · by_cases hh : (s, i) = (s', i') ∧ k = 2 ∧ l = 2
      · obtain ⟨e, rfl, rfl⟩ := hh
        obtain ⟨rfl, rfl⟩ := Prod.mk.inj e
        refine List.mem_append_left _ (foot footStateHessPat _ s ?_)
        simp only [footStateHessPat, List.mem_flatMap, List.mem_append]
        exact ⟨i, List.mem_finRange i, Or.inr (List.mem_singleton_self _)⟩
      · exact absurd (by first | exact if_neg hh | exact dif_neg hh | (rw [if_neg hh]) | (rw [dif_neg hh]) | simp [hh]) h
    · by_cases hh : k < 3 ∧ l < 3
      · refine List.mem_append_left _ (foot footStateHessPat _ s' ?_)
        simp only [footStateHessPat, List.mem_flatMap, List.mem_append]
        exact ⟨i', List.mem_finRange i', Or.inl (Or.inl (Or.inl (Or.inl (mem_dense.2 ⟨mem_seg.2 ⟨by omega, by omega⟩, mem_seg.2 ⟨by omega, by omega⟩⟩))))⟩
      · exact absurd (by first | exact if_neg hh | exact dif_neg hh | (rw [if_neg hh]) | (rw [dif_neg hh]) | simp [hh]) h
    · by_cases hh : k < 4 ∧ l < 4
      · exact List.mem_append_right _ (mem_dense.2 ⟨mem_seg.2 ⟨by omega, by omega⟩, mem_seg.2 ⟨by omega, by omega⟩⟩)
      · exact absurd (by first | exact if_neg hh | exact dif_neg hh | (rw [if_neg hh]) | (rw [dif_neg hh]) | simp [hh]) h
  · intro p q h; exact absurd rfl h
  · rintro ⟨b, k⟩ ⟨c, l⟩ h
    rw [mixedHess_entry] at h
    rw [mixedHessPat]
    rcases b with ⟨s, i⟩ | ⟨s, i⟩ | _ | _ | _ | _ | _ <;> rcases c with ⟨s', i'⟩ | ⟨s', i'⟩ | _ | _ | _ <;> simp only [MH, ne_eq, not_true] at h
    · by_cases hh : (s, i) = (s', i') ∧ k = 2 ∧ l < 2
      · obtain ⟨e, rfl, hl⟩ := hh
        obtain ⟨rfl, rfl⟩ := Prod.mk.inj e
        refine List.mem_append_left _ (foot footMixedHessPat _ s ?_)
        have : l = 0 ∨ l = 1 := by omega
        rcases this with rfl | rfl <;> simp [footMixedHessPat]
      · exact absurd (by first | exact if_neg hh | exact dif_neg hh | (rw [if_neg hh]) | (rw [dif_neg hh]) | simp [hh]) h
    · by_cases hh : (s, i) = (s', i') ∧ k = 2 ∧ l = 2
      · obtain ⟨e, rfl, rfl⟩ := hh
        obtain ⟨rfl, rfl⟩ := Prod.mk.inj e
        refine List.mem_append_left _ (foot footMixedHessPat _ s ?_)
        simp [footMixedHessPat]
      · exact absurd (by first | exact if_neg hh | exact dif_neg hh | (rw [if_neg hh]) | (rw [dif_neg hh]) | simp [hh]) h
    · by_cases hh : k < 4 ∧ l < 3
      · exact List.mem_append_right _ (mem_dense.2 ⟨mem_seg.2 ⟨by omega, by omega⟩, mem_seg.2 ⟨by omega, by omega⟩⟩)
      · exact absurd (by first | exact if_neg hh | exact dif_neg hh | (rw [if_neg hh]) | (rw [dif_neg hh]) | simp [hh]) h

/-- **C18**, finding: the derivative of the rate of a normal force with respect to that force, `D (δ - 1)`, is not declared although it
is not zero as soon as there is dissipation and the activation is below one. -/
theorem C18_finding_normal_force_entry_not_declared (P : Params) (hD : P.dissipation ≠ 0) (x : SVec n) (u : CVec n) (s : Side) (i : Fin n)
    (h : P.δz.eval (x (.pos s i, 2)) ≠ 1) :
    stateJac P x u (fun _ _ => 0) (.force s i, 2) (.force s i, 2) ≠ 0 ∧
    (((.force s i, 2), (.force s i, 2)) : Idx (SBlk n) × Idx (SBlk n)) ∉ stateJacPat := by
  constructor
  · rw [stateJac_entry]
    simp only [SJ, true_and, and_self, if_true]
    exact mul_ne_zero hD (sub_ne_zero.2 h)
  · simp [stateJacPat, footStateJacPat, dense, seg, diag, List.range, List.range.loop]

/-! Concrete cases meeting the hypotheses. -/

/-- One point per foot, at height 1 with a unit normal force, base quaternion (2, 0, 0, 0). -/
noncomputable def sample : SVec 1 := fun p => match p with
  | (.pos _ _, 2) => 1 | (.force _ _, 2) => 1 | (.baseQuat, 0) => 2 | _ => 0

noncomputable def sampleParams : Params := ⟨50, 23, {}, { K := 10 }, 1⟩

example : quatOf sample ≠ 0 := fun h => by have := congrFun h 0; simp [quatOf, sample] at this

example : sampleParams.dissipation ≠ 0 ∧ sampleParams.δz.eval (sample (.pos .left 0, 2)) ≠ 1 := by
  refine ⟨one_ne_zero, ?_⟩
  simp only [sampleParams, Params.δz, Fn.eval, sample, mul_one, Bool.false_eq_true, if_false]
  have : 1 < Real.cosh 10 := Real.one_lt_cosh.2 (by norm_num)
  intro h
  rw [div_eq_one_iff_eq (by linarith)] at h
  linarith

example : ∃ E : Exprs, E.Made (cfgVars : Cfg ℝ) := C17_expressions_exist cfgVars_sound

/-- The Jacobian of the sample is not trivial: the normal force of the left foot decays. -/
example : stateJac sampleParams sample (fun _ => 0) (fun _ _ => 0) (.force .left 0, 2) (.force .left 0, 2) = 1 / Real.cosh 10 - 1 := by
  rw [stateJac_entry]; simp [SJ, sampleParams, sample, Params.δz, Fn.eval]

end Verif.NLP.Dynamics
