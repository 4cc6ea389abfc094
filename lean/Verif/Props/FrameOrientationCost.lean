import Verif.Lemmas.FrameOrientation4
import Verif.Props.StaticTorquesCost
import Verif.Props.QuaternionUtils
import Verif.Props.CentroidalMomentum
import Verif.Lemmas.Costs
/- C69: the cost of the orientation of a frame. -/
set_option linter.unusedSectionVars false
namespace Verif.NLP.Kin
open Matrix Verif.Rigid Function Verif.NLP.Spec
open Verif.Quaternion (rotationFromQuaternion traceQuaternion Rotations Steady steady_trace trace_quaternion errorQuaternion squaredNorm unit_same)
open Verif.Quaternion.Spec (UnitQ)
open Verif.NLP.Dynamics (quatOf baseRotation)
open Verif.Levi.Ex (Cfg)
noncomputable section
variable {n nj : ℕ} {L F : Type} [DecidableEq L] [DecidableEq F] {m : Model L (Fin nj)}

/-- Specification: what is expected from the library for the rotation `R`: the unit quaternion of the rotation with non negative real part. -/
def GivesQuaternion (asQ : Matrix (Fin 3) (Fin 3) ℝ → Fin 4 → ℝ) (R : Matrix (Fin 3) (Fin 3) ℝ) : Prop :=
  UnitQ (asQ R) ∧ rotationFromQuaternion (asQ R) = R ∧ 0 ≤ asQ R 0

theorem GivesQuaternion.real {asQ : Matrix (Fin 3) (Fin 3) ℝ → Fin 4 → ℝ} {R : Matrix (Fin 3) (Fin 3) ℝ} (h : GivesQuaternion asQ R) :
    asQ R 0 = Real.sqrt (1 + R.trace) / 2 := by
  obtain ⟨hu, hr, h0⟩ := h
  have ht : 1 + R.trace = (2 * asQ R 0) ^ 2 := by
    unfold UnitQ at hu
    conv_lhs => rw [← hr]
    rw [Quaternion.rotation_entry, Matrix.trace_fin_three]
    simp
    nlinarith
  rw [ht, Real.sqrt_sq (by linarith)]
  ring

theorem GivesQuaternion.one {asQ : Matrix (Fin 3) (Fin 3) ℝ → Fin 4 → ℝ} (h : GivesQuaternion asQ 1) : asQ 1 = ![1, 0, 0, 0] := by
  have h0 : asQ 1 0 = 1 := by
    rw [h.real]
    have : Real.sqrt (1 + (1 : Matrix (Fin 3) (Fin 3) ℝ).trace) = 2 := by
      rw [show (1 + (1 : Matrix (Fin 3) (Fin 3) ℝ).trace) = 2 ^ 2 by simp; norm_num]; exact Real.sqrt_sq (by norm_num)
    rw [this]; norm_num
  have hu := h.1
  unfold UnitQ at hu
  rw [h0] at hu
  have : asQ 1 1 ^ 2 + asQ 1 2 ^ 2 + asQ 1 3 ^ 2 = 0 := by linarith
  have h1 : asQ 1 1 = 0 := by nlinarith [sq_nonneg (asQ 1 1), sq_nonneg (asQ 1 2), sq_nonneg (asQ 1 3)]
  have h2 : asQ 1 2 = 0 := by nlinarith [sq_nonneg (asQ 1 1), sq_nonneg (asQ 1 2), sq_nonneg (asQ 1 3)]
  have h3 : asQ 1 3 = 0 := by nlinarith [sq_nonneg (asQ 1 1), sq_nonneg (asQ 1 2), sq_nonneg (asQ 1 3)]
  funext i; fin_cases i <;> simp [h0, h1, h2, h3]

/-- **C69.** The cost, from the rotation of the frame in the world and the desired one only: the weight times one minus half of the square root of
one plus the trace of the rotation between the two, that is one minus the cosine of half of the angle between them. -/
theorem C69_value (c : Orientation m F) (E : NormExprs) (left : Leftover nj) (w : ℝ) (Rd : Matrix (Fin 3) (Fin 3) ℝ) (x : SVec n) (u : CVec n)
    (h1 : GivesQuaternion c.asQuaternion 1) (h : GivesQuaternion c.asQuaternion (Rdᵀ * c.frameRotation x)) :
    (c.cost E left w Rd).value x u = w * (1 - Real.sqrt (1 + (Rdᵀ * c.frameRotation x).trace) / 2) := by
  show c.value w Rd x = _
  rw [← h.real, Orientation.value, Orientation.difference, Orientation.identity, h1.one]
  have hu := h.1
  unfold UnitQ at hu
  simp only [Orientation.error, errorQuaternion, squaredNorm, Fin.sum_univ_four, Pi.sub_apply, cons_val]
  linear_combination (w / 2) * hu

/-- **C69.** With a positive weight the cost is not negative, and it is zero exactly when the frame has the desired orientation. -/
theorem C69_zero_iff (c : Orientation m F) (E : NormExprs) (left : Leftover nj) (w : ℝ) (hw : 0 < w) (Rd : Matrix (Fin 3) (Fin 3) ℝ) (hRd : Rd ∈ Rotations)
    (x : SVec n) (u : CVec n) (h1 : GivesQuaternion c.asQuaternion 1) (h : GivesQuaternion c.asQuaternion (Rdᵀ * c.frameRotation x)) :
    0 ≤ (c.cost E left w Rd).value x u ∧ ((c.cost E left w Rd).value x u = 0 ↔ c.frameRotation x = Rd) := by
  have hv : (c.cost E left w Rd).value x u = 0.5 * w * squaredNorm (c.difference Rd x) := rfl
  have hn : 0 ≤ squaredNorm (c.difference Rd x) := Finset.sum_nonneg fun i _ => mul_self_nonneg _
  refine ⟨by rw [hv]; positivity, ?_⟩
  rw [← Quaternion.C33_error_quaternion_identity_iff_equal c.asQuaternion (c.frameRotation x) Rd (mul_eq_one_comm.1 hRd.1) h.1 h.2.2 h.2.1, hv]
  have e : (0.5 * w * squaredNorm (c.difference Rd x) = 0) ↔ squaredNorm (c.difference Rd x) = 0 := by
    constructor
    · intro h
      rcases mul_eq_zero.1 h with h | h
      · exfalso; rcases mul_eq_zero.1 h with h | h <;> [norm_num at h; exact hw.ne' h]
      · exact h
    · intro h; rw [h, mul_zero]
  rw [e]
  have hd : c.difference Rd x = errorQuaternion c.asQuaternion (c.frameRotation x) Rd - ![1, 0, 0, 0] := by
    rw [Orientation.difference, Orientation.identity, h1.one]; rfl
  rw [hd]
  constructor
  · intro h
    funext i
    have := (Finset.sum_eq_zero_iff_of_nonneg (fun i _ => mul_self_nonneg _)).1 h i (Finset.mem_univ _)
    have := mul_self_eq_zero.1 this
    rw [Pi.sub_apply] at this
    linarith
  · intro h
    rw [h]; simp [squaredNorm]

/-- **C69.** The gradients are the derivatives of the cost, for every robot, frame, weight and desired rotation, wherever the quaternion that the
library gives for the rotation of the error does not jump. -/
theorem C69_gradients (c : Orientation m F) (E : NormExprs) (left : Leftover nj) (hm : m.Regular) (w : ℝ) (Rd : Matrix (Fin 3) (Fin 3) ℝ) (hRd : Rd ∈ Rotations)
    (x : SVec n) (hx : quatOf x ≠ 0) (u : CVec n) (hS : Steady c.asQuaternion (Rdᵀ * c.frameRotation x)) :
    GradAt (fun y => (c.cost E left w Rd).value y u) ((c.cost E left w Rd).stateGrad x u fun _ => 0) x ∧
    GradAt (fun v => (c.cost E left w Rd).value x v) ((c.cost E left w Rd).ctrlGrad x u fun _ => 0) u :=
  ⟨c.gradient_right hm hx hRd hS w, fun _ => hasDerivAt_const _ _⟩

/-- **C69.** The second derivatives are exact for every frame (also the ones that are turned with respect to their link). -/
theorem C69_hessians (c : Orientation m F) {E : NormExprs} {cfg : Cfg ℝ} (hs : Levi.Spec.Sound cfg) (hE : E.Made cfg) (left : Leftover nj) (hm : m.Regular) (w : ℝ)
    (Rd : Matrix (Fin 3) (Fin 3) ℝ) (hRd : Rd ∈ Rotations) (hd : rotationFromQuaternion (c.asQuaternion Rd) = Rd)
    (x : SVec n) (hx : quatOf x ≠ 0) (u : CVec n) (hS : Steady c.asQuaternion (Rdᵀ * c.frameRotation x)) :
    HessNear (fun y => (c.cost E left w Rd).value y u) ((c.cost E left w Rd).stateHess x u fun _ _ => 0) x ∧
    HessNear (fun v => (c.cost E left w Rd).value x v) ((c.cost E left w Rd).ctrlHess x u fun _ _ => 0) u ∧
    MixedNear (fun y v => (c.cost E left w Rd).value y v) ((c.cost E left w Rd).mixedHess x u fun _ _ => 0) x u :=
  ⟨c.hessian_right hm hs hE hx hRd hS hd w,
   ⟨fun _ _ => 0, Filter.Eventually.of_forall fun _ _ => hasDerivAt_const _ _, fun _ _ => hasDerivAt_const _ _⟩,
   ⟨fun _ => c.gradient w Rd x, fun _ => c.gradient_right hm hx hRd hS w, fun _ _ => hasDerivAt_const _ _⟩⟩

/-- **C69.** The declared entries cover the second derivatives. -/
theorem C69_sparsity (c : Orientation m F) (E : NormExprs) (left : Leftover nj) (w : ℝ) (Rd : Matrix (Fin 3) (Fin 3) ℝ) :
    CostSparsityCovers (c.cost (n := n) E left w Rd) := by
  refine ⟨fun x u p q h => ?_, fun _ _ _ _ h => absurd rfl h, fun _ _ _ _ h => absurd rfl h⟩
  obtain ⟨p1, p2⟩ := p
  obtain ⟨q1, q2⟩ := q
  by_contra hn
  apply h
  have hn' : ¬ (((p1 = .baseQuat ∧ p2 < 4) ∨ (p1 = .joints ∧ p2 < nj)) ∧ ((q1 = .baseQuat ∧ q2 < 4) ∨ (q1 = .joints ∧ q2 < nj))) := by
    rintro ⟨hp | hp, hq | hq⟩ <;> obtain ⟨hp1, hp2⟩ := hp <;> obtain ⟨hq1, hq2⟩ := hq <;> subst hp1 <;> subst hq1 <;> apply hn <;>
      simp only [Orientation.cost, List.mem_append]
    · exact Or.inl (Or.inl (Or.inl (mem_dense0 hp2 hq2)))
    · exact Or.inl (Or.inl (Or.inr (mem_dense0 hp2 hq2)))
    · exact Or.inl (Or.inr (mem_dense0 hp2 hq2))
    · exact Or.inr (mem_dense0 hp2 hq2)
  simp only [Orientation.cost, Orientation.hessian, Orientation.putBlock]
  rw [dif_neg fun h => hn' ⟨Or.inr h.1, Or.inl h.2⟩, dif_neg fun h => hn' ⟨Or.inl h.1, Or.inr h.2⟩, dif_neg fun h => hn' ⟨Or.inr h.1, Or.inr h.2⟩,
    dif_neg fun h => hn' ⟨Or.inl h.1, Or.inl h.2⟩]

/-- **C69.** The calls fail exactly when the desired rotation or the weight are not valid at that time; a null trajectory is refused and changes
nothing; a fixed rotation is used at every time. -/
theorem C69_validity (c : Orientation m F) (E : NormExprs) (left : Leftover nj) (r : OrientationRef) (t : ℝ) :
    ((c.atTime (n := n) E left r t = none ↔ r.desired t = none ∨ r.weight t = none) ∧
      ∀ Rd w, r.desired t = some Rd → r.weight t = some w → c.atTime (n := n) E left r t = some (c.cost E left w Rd)) ∧
    r.setDesiredRotationTrajectory none = (r, false) ∧
    (∀ d, (r.setDesiredRotationTrajectory (some d)).2 = true ∧ (r.setDesiredRotationTrajectory (some d)).1.desired = d ∧
      (r.setDesiredRotationTrajectory (some d)).1.weight = r.weight) ∧
    (∀ R, (r.setDesiredRotation R).desired t = some R ∧ (r.setDesiredRotation R).weight = r.weight) ∧
    ∀ w, (r.setTimeVaryingWeight w).weight = w ∧ (r.setTimeVaryingWeight w).desired = r.desired := by
  refine ⟨⟨?_, fun Rd w h1 h2 => by simp only [Orientation.atTime, h1, h2]⟩, rfl, fun _ => ⟨rfl, rfl, rfl⟩, fun _ => ⟨rfl, rfl⟩, fun _ => ⟨rfl, rfl⟩⟩
  unfold Orientation.atTime
  cases h1 : r.desired t with
  | none => simp
  | some Rd => cases h2 : r.weight t <;> simp

/-! ### The memory of the expressions -/

/-- Specification: no call yet. -/
def OrientationPool.empty (F : Type) (vars : ℕ → Fin 4 → ℝ) : OrientationPool F := ⟨fun _ => none, vars, []⟩

/-- Specification: the state after some calls. -/
def OrientationPool.after (asQ : Matrix (Fin 3) (Fin 3) ℝ → Fin 4 → ℝ) (vars : ℕ → Fin 4 → ℝ) (calls : List (OrientationCall F)) : OrientationPool F :=
  calls.foldl (OrientationPool.step asQ) (OrientationPool.empty F vars)

theorem OrientationPool.memo_first (asQ : Matrix (Fin 3) (Fin 3) ℝ → Fin 4 → ℝ) (vars : ℕ → Fin 4 → ℝ) (calls : List (OrientationCall F)) (f : F) :
    ((OrientationPool.after asQ vars calls).memo f = none ∧ f ∉ (OrientationPool.after asQ vars calls).frames) ∨
    ∃ i, (OrientationPool.after asQ vars calls).memo f = some i ∧ (OrientationPool.after asQ vars calls).frames[i]? = some f ∧
      ∀ k < i, (OrientationPool.after asQ vars calls).frames[k]? ≠ some f := by
  induction calls using List.reverseRecOn with
  | nil => left; simp [OrientationPool.after, OrientationPool.empty]
  | append_singleton calls call ih =>
    have e : OrientationPool.after asQ vars (calls ++ [call]) = (OrientationPool.after asQ vars calls).step asQ call := by
      simp [OrientationPool.after]
    rw [e]
    generalize OrientationPool.after asQ vars calls = p at ih
    cases call with
    | hessian i R => exact ih
    | make g =>
      simp only [OrientationPool.step]
      rcases ih with ⟨h1, h2⟩ | ⟨i, h1, h2, h3⟩
      · by_cases hg : g = f
        · subst hg
          right
          refine ⟨p.frames.length, by rw [h1]; simp, by simp, fun k hk => ?_⟩
          rw [List.getElem?_append_left hk]
          intro hc
          exact h2 (List.mem_of_getElem? hc)
        · left
          refine ⟨?_, by simp [h2, Ne.symm hg]⟩
          cases hp : p.memo g with
          | some _ => simpa using h1
          | none => simp only; rw [update_of_ne (Ne.symm hg)]; exact h1
      · right
        have hi : i < p.frames.length := by
          by_contra hc
          rw [List.getElem?_eq_none (by omega)] at h2; cases h2
        refine ⟨i, ?_, by rw [List.getElem?_append_left hi]; exact h2, fun k hk => by rw [List.getElem?_append_left (by omega)]; exact h3 k hk⟩
        cases hp : p.memo g with
        | some _ => simpa using h1
        | none =>
          simp only
          have : f ≠ g := by rintro rfl; rw [h1] at hp; cases hp
          rw [update_of_ne this]; exact h1

/-- **C69.** Whatever was called before, the second derivatives of the first cost made on its frame use the quaternion of its own desired rotation. -/
theorem C69_own_reference (asQ : Matrix (Fin 3) (Fin 3) ℝ → Fin 4 → ℝ) (vars : ℕ → Fin 4 → ℝ) (calls : List (OrientationCall F)) (i : ℕ) (f : F)
    (hi : (OrientationPool.after asQ vars calls).frames[i]? = some f) (hfirst : ∀ k < i, (OrientationPool.after asQ vars calls).frames[k]? ≠ some f)
    (R : Matrix (Fin 3) (Fin 3) ℝ) : (OrientationPool.after asQ vars (calls ++ [.hessian i R])).seen i = some (asQ R) := by
  have e : OrientationPool.after asQ vars (calls ++ [.hessian i R]) = (OrientationPool.after asQ vars calls).step asQ (.hessian i R) := by
    simp [OrientationPool.after]
  rw [e]
  have hm := OrientationPool.memo_first asQ vars calls f
  generalize OrientationPool.after asQ vars calls = p at *
  have hmem : p.memo f = some i := by
    rcases hm with ⟨-, h⟩ | ⟨k, h1, h2, h3⟩
    · exact absurd (List.mem_of_getElem? hi) h
    · rcases lt_trichotomy k i with h | h | h
      · exact absurd h2 (hfirst k h)
      · rw [h1, h]
      · exact absurd hi (h3 i h)
  simp only [OrientationPool.seen, OrientationPool.step, hi, hmem, Option.map_some, update_self]

/-- **C69, finding.** The second cost made on a frame that already has one uses, in its second derivatives, the reference of the first one,
whatever its own desired rotation is. -/
theorem C69_finding_shared_reference (asQ : Matrix (Fin 3) (Fin 3) ℝ → Fin 4 → ℝ) (vars : ℕ → Fin 4 → ℝ) (calls : List (OrientationCall F)) (i k : ℕ) (f : F)
    (hi : (OrientationPool.after asQ vars calls).frames[i]? = some f) (hki : k < i) (hk : (OrientationPool.after asQ vars calls).frames[k]? = some f)
    (hfirst : ∀ l < k, (OrientationPool.after asQ vars calls).frames[l]? ≠ some f) (R R' : Matrix (Fin 3) (Fin 3) ℝ) :
    (OrientationPool.after asQ vars (calls ++ [.hessian k R, .hessian i R'])).seen i = some (asQ R) := by
  have e : OrientationPool.after asQ vars (calls ++ [.hessian k R, .hessian i R']) =
      ((OrientationPool.after asQ vars calls).step asQ (.hessian k R)).step asQ (.hessian i R') := by simp [OrientationPool.after]
  rw [e]
  have hm := OrientationPool.memo_first asQ vars calls f
  generalize OrientationPool.after asQ vars calls = p at *
  have hmem : p.memo f = some k := by
    rcases hm with ⟨-, h⟩ | ⟨l, h1, h2, h3⟩
    · exact absurd (List.mem_of_getElem? hi) h
    · rcases lt_trichotomy l k with h | h | h
      · exact absurd h2 (hfirst l h)
      · rw [h1, h]
      · exact absurd hk (h3 k h)
  have hne : k ≠ i := by omega
  simp only [OrientationPool.seen, OrientationPool.step, hi, hmem, Option.map_some, update_of_ne hne, update_self]

/-! ### Examples -/

/-- The frame turned of 90 degrees of the sample robot, with the quaternion from the trace. -/
def sampleOrientation : Orientation sampleModel (Option (Fin 3)) := ⟨sampleServer, none, traceQuaternion⟩

theorem gives_trace {R : Matrix (Fin 3) (Fin 3) ℝ} (hR : R ∈ Rotations) (h : -1 < R.trace) : GivesQuaternion traceQuaternion R :=
  have := trace_quaternion hR.1 hR.2 h
  ⟨this.1, this.2.1, this.2.2.le⟩

theorem one_rotation : (1 : Matrix (Fin 3) (Fin 3) ℝ) ∈ Rotations := by simp [Rotations]

theorem sampleOrientation_rotation : sampleOrientation.frameRotation uprightState = quarterX.R := by
  have hj : (jointsOf uprightState : Fin 2 → ℝ) = 0 := by funext k; simp [jointsOf, uprightState]
  have h0 : ∀ H, sampleTraversal.world H 0 0 = H := fun H => sampleTraversal.world_root H 0
  have h1 : ∀ H, (sampleTraversal.world H 0 1).R = H.R := by
    intro H
    rw [sampleTraversal.world_step H 0 (show (1 : Fin 3) ≠ sampleTraversal.root by decide)]
    show (sampleTraversal.world H 0 0 * _ : SE3).R = _
    rw [h0]
    have : (sampleTraversal.jointTransform 0 1).R = 1 := by
      simp [Traversal.jointTransform, sampleTraversal, sampleModel, sampleAxes, Axis.T, rotZ, transZ]
      ext i k; fin_cases i <;> fin_cases k <;> simp
    simp [this]
  rw [Orientation.frameRotation, hj]
  show ((sampleTraversal.world _ 0 1) * quarterX : SE3).R = _
  rw [SE3.mul_R, h1, upright_base, Matrix.one_mul]

theorem sample_trace : -1 < ((1 : Matrix (Fin 3) (Fin 3) ℝ)ᵀ * sampleOrientation.frameRotation uprightState).trace := by
  rw [sampleOrientation_rotation, transpose_one, Matrix.one_mul]
  simp [quarterX, Matrix.trace, Fin.sum_univ_three]

example (E : NormExprs) (left : Leftover 2) (w : ℝ) (u : CVec 2) := C69_value sampleOrientation E left w 1 uprightState u
  (gives_trace one_rotation (by simp; norm_num)) (gives_trace (rotation_transpose_mul one_rotation (sampleOrientation.frameRotation_mem _)) sample_trace)
example (E : NormExprs) (left : Leftover 2) (w : ℝ) (u : CVec 2) :=
  C69_gradients sampleOrientation E left sample_regular w 1 one_rotation uprightState upright_quat u (steady_trace sample_trace)
example (left : Leftover 2) (w : ℝ) (u : CVec 2) : ∃ E : NormExprs, HessNear (fun y => (sampleOrientation.cost E left w 1).value y u)
    ((sampleOrientation.cost E left w 1).stateHess uprightState u fun _ _ => 0) uprightState := by
  obtain ⟨E, hE⟩ := C64_expressions_exist Levi.cfgVars_sound
  exact ⟨E, (C69_hessians sampleOrientation Levi.cfgVars_sound hE left sample_regular w 1 one_rotation (gives_trace one_rotation (by simp; norm_num)).2.1 uprightState upright_quat u
    (steady_trace sample_trace)).1⟩
/-- Two costs on the same frame. -/
example (asQ : Matrix (Fin 3) (Fin 3) ℝ → Fin 4 → ℝ) (vars : ℕ → Fin 4 → ℝ) (R R' : Matrix (Fin 3) (Fin 3) ℝ) :
    (OrientationPool.after asQ vars [.make true, .make false, .make true, .hessian 0 R, .hessian 2 R']).seen 2 = some (asQ R) :=
  C69_finding_shared_reference asQ vars [.make true, .make false, .make true] 2 0 true rfl (by omega) rfl (by omega) R R'

end
end Verif.NLP.Kin
