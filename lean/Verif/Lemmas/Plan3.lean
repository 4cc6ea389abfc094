import Verif.Lemmas.Plan2
/- Along a trajectory that follows the dynamics: the rates of the fields. -/
set_option linter.unusedSectionVars false
set_option linter.unusedSimpArgs false
namespace Verif.Plan
open NLP NLP.Kin SolverM StateM Rigid Matrix Filter Topology
open SolverM.Spec (stateVector controlVector StateSize ControlSize)
open Verif.Quaternion.Spec
noncomputable section
variable {n nj : ℕ}

theorem mem_entries (d : ℕ) (b : SBlk n) (k : ℕ) (hk : k < NLP.Spec.stateSize d b) : (b, k) ∈ NLP.Spec.stateEntries n d := by
  unfold NLP.Spec.stateEntries
  rw [List.mem_flatMap]
  refine ⟨b, ?_, List.mem_map.2 ⟨k, List.mem_range.2 hk, rfl⟩⟩
  unfold NLP.Spec.stateLabels
  rcases b with ⟨s, i⟩ | ⟨s, i⟩ | _ | _ | _ | _ | _ <;> try cases s
  all_goals simp

variable {P : Dynamics.Params} {s : ℝ → State ℝ} {q : ℝ → V4 ℝ} {c : ℝ → Control ℝ} {t : ℝ}
  (hs : ∀ᶠ τ in 𝓝 t, StateSize nj n (s τ)) (hc : ControlSize nj n (c t)) (hP : P.joints = nj)
  (hf : Follows (n := n) nj P (rangesAt nj n) s q c t)
include hs hc hf

theorem sum_pts (g : PointState ℝ → ℝ) (h : SVec n → Side → Fin n → ℝ)
    (e : ∀ f (i : Fin n) p, (Spec.points (s t) f)[(i : ℕ)]? = some p → h (readState (rangesAt nj n) (stateVector (s t) (q t))) (side f) i = g p) :
    ∑ a : Dynamics.Pt n, h (readState (rangesAt nj n) (stateVector (s t) (q t))) a.1 a.2 = (((s t).left ++ (s t).right).map g).sum := by
  have hst := hs.self_of_nhds
  have key : ∀ f, ∑ i : Fin n, h (readState (rangesAt nj n) (stateVector (s t) (q t))) (side f) i = ((Spec.points (s t) f).map g).sum := by
    intro f
    have hl : (Spec.points (s t) f).length = n := by cases f; exacts [hst.left, hst.right]
    rw [Finset.sum_congr rfl fun i _ => e f i ((Spec.points (s t) f)[(i : ℕ)]'(by omega)) (List.getElem?_eq_getElem (by omega)), ← List.sum_ofFn]
    congr 1
    exact List.ext_getElem (by simp [hl]) fun i h1 h2 => by simp
  rw [Fintype.sum_prod_type, List.map_append, List.sum_append]
  have hu : (Finset.univ : Finset Side) = {.left, .right} := rfl
  rw [hu, Finset.sum_pair (by decide)]
  exact congrArg₂ (· + ·) (key .left) (key .right)

theorem rate_com (hM : P.mass ≠ 0) : HasDerivAt (fun τ => toVec (s τ).com) (P.mass⁻¹ • toVec (s t).linearMomentum) t := by
  rw [hasDerivAt_pi]
  intro k
  have h := hf 0 (.com, (k : ℕ)) (mem_entries _ _ _ k.2)
  rw [Dynamics.dyn_com, if_pos k.2, state_momentum (q t) hs.self_of_nhds _ (by omega)] at h
  have e : (fun τ => toVec (s τ).com k) =ᶠ[𝓝 t] fun τ => readState (n := n) (rangesAt nj n) (stateVector (s τ) (q τ)) (.com, (k : ℕ)) := by
    filter_upwards [hs] with τ hτ
    rw [state_com (q τ) hτ _ (by omega)]; fin_cases k <;> rfl
  refine (h.congr_of_eventuallyEq e).congr_deriv ?_
  rw [Pi.smul_apply, smul_eq_mul, div_eq_inv_mul]
  congr 1
  fin_cases k <;> rfl

theorem rate_linear : HasDerivAt (fun τ => toVec (s τ).linearMomentum) (![0, 0, -9.81 * P.mass] + Spec.contactForce (s t)) t := by
  rw [hasDerivAt_pi]
  intro k
  have h := hf 0 (.momentum, (k : ℕ)) (mem_entries _ _ _ (by show (k : ℕ) < 6; omega))
  rw [Dynamics.dyn_momentum, if_pos k.2] at h
  have e : (fun τ => toVec (s τ).linearMomentum k) =ᶠ[𝓝 t] fun τ => readState (n := n) (rangesAt nj n) (stateVector (s τ) (q τ)) (.momentum, (k : ℕ)) := by
    filter_upwards [hs] with τ hτ
    rw [state_momentum (q τ) hτ _ (by omega)]; fin_cases k <;> rfl
  refine (h.congr_of_eventuallyEq e).congr_deriv ?_
  rw [sum_pts hs hc hf (fun p => toVec p.force k) (fun x s i => x (.force s i, (k : ℕ)))
    (fun f i p hp => by rw [(state_point (q t) hs.self_of_nhds f i p hp k k.2).1]; fin_cases k <;> rfl), Pi.add_apply]
  refine congrArg₂ (· + ·) ?_ (sum_apply (fun p : PointState ℝ => toVec p.force) _ k)
  fin_cases k <;> simp [Dynamics.gravity]
  ring

theorem rate_angular : HasDerivAt (fun τ => toVec (s τ).angularMomentum) (Spec.contactMoment (s t) (toVec (s t).com)) t := by
  rw [hasDerivAt_pi]
  intro k
  have h := hf 0 (.momentum, 3 + (k : ℕ)) (mem_entries _ _ _ (by show 3 + (k : ℕ) < 6; omega))
  rw [Dynamics.dyn_momentum, if_neg (by omega), if_pos (by omega)] at h
  have e : (fun τ => toVec (s τ).angularMomentum k) =ᶠ[𝓝 t] fun τ => readState (n := n) (rangesAt nj n) (stateVector (s τ) (q τ)) (.momentum, 3 + (k : ℕ)) := by
    filter_upwards [hs] with τ hτ
    rw [state_momentum (q τ) hτ _ (by omega)]; fin_cases k <;> rfl
  refine (h.congr_of_eventuallyEq e).congr_deriv ?_
  have hst := hs.self_of_nhds
  rw [sum_pts hs hc hf (fun p => ((toVec p.position - toVec (s t).com) ⨯₃ toVec p.force) k)
    (fun x s i => Dynamics.comp (V3.cross (Dynamics.distance x s i) (vec3 x (.force s i))) (3 + (k : ℕ) - 3)) ?_]
  · have : Dynamics.gravity (3 + (k : ℕ)) = 0 := by fin_cases k <;> rfl
    rw [this, mul_zero, zero_add]
    exact sum_apply (fun p : PointState ℝ => (toVec p.position - toVec (s t).com) ⨯₃ toVec p.force) _ k
  · intro f i p hp
    obtain ⟨f0, f1, f2⟩ := read_force (q t) hst hc f i p hp
    have p0 := read_position (q t) hst hc f i p hp 0
    have p1 := read_position (q t) hst hc f i p hp 1
    have p2 := read_position (q t) hst hc f i p hp 2
    have c0 := state_com (q t) hst 0 (by omega)
    have c1 := state_com (q t) hst 1 (by omega)
    have c2 := state_com (q t) hst 2 (by omega)
    simp only [Fin.val_zero, Fin.val_one, Fin.val_two] at p0 p1 p2
    fin_cases k <;>
      simp [Dynamics.comp, Dynamics.distance, V3.cross, vec3, f0, f1, f2, p0, p1, p2, c0, c1, c2, toVec, cross_apply]

theorem rate_quat (k : Fin 4) : HasDerivAt (fun τ => Spec.quat (q τ) k) (Spec.quat (c t).baseQuaternionDerivative k) t := by
  have h := hf 0 (.baseQuat, (k : ℕ)) (mem_entries _ _ _ k.2)
  rw [Dynamics.dyn_quat, if_pos k.2] at h
  have e : (fun τ => Spec.quat (q τ) k) =ᶠ[𝓝 t] fun τ => readState (n := n) (rangesAt nj n) (stateVector (s τ) (q τ)) (.baseQuat, (k : ℕ)) := by
    filter_upwards [hs] with τ hτ
    exact (congrFun (read_quat (q τ) hτ) k).symm
  refine (h.congr_of_eventuallyEq e).congr_deriv ?_
  exact congrFun (read_quatVel hc) k

theorem rate_base : HasDerivAt (fun τ => toVec (s τ).base.pos) ((Spec.pose (s t) (q t)).R *ᵥ toVec (c t).baseLinearVelocity) t := by
  rw [hasDerivAt_pi]
  intro k
  have h := hf 0 (.basePos, (k : ℕ)) (mem_entries _ _ _ k.2)
  rw [Dynamics.dyn_basePos, dif_pos k.2] at h
  have e : (fun τ => toVec (s τ).base.pos k) =ᶠ[𝓝 t] fun τ => readState (n := n) (rangesAt nj n) (stateVector (s τ) (q τ)) (.basePos, (k : ℕ)) := by
    filter_upwards [hs] with τ hτ
    exact (congrFun (read_basePos (q τ) hτ) k).symm
  refine (h.congr_of_eventuallyEq e).congr_deriv ?_
  rw [read_vel hc]
  have : Dynamics.baseRotation (readState (n := n) (rangesAt nj n) (stateVector (s t) (q t))) = (Spec.pose (s t) (q t)).R := by
    rw [← read_pose (q t) hs.self_of_nhds]; rfl
  rw [this]

include hP in
theorem rate_joints (j : Fin nj) : HasDerivAt (fun τ => Spec.joints (nj := nj) (s τ) j) (Spec.jointVelocities (nj := nj) (c t) j) t := by
  have h := hf 0 (.joints, (j : ℕ)) (mem_entries _ _ _ j.2)
  rw [Dynamics.dyn_joints, if_pos (by rw [hP]; exact j.2)] at h
  have e : (fun τ => Spec.joints (nj := nj) (s τ) j) =ᶠ[𝓝 t] fun τ => readState (n := n) (rangesAt nj n) (stateVector (s τ) (q τ)) (.joints, (j : ℕ)) := by
    filter_upwards [hs] with τ hτ
    exact (congrFun (read_joints (q τ) hτ) j).symm
  refine (h.congr_of_eventuallyEq e).congr_deriv ?_
  exact congrFun (read_jointVel hc) j

theorem rate_position (f : Foot) (i : Fin n) (p : PointState ℝ) (hp : (Spec.points (s t) f)[(i : ℕ)]? = some p) (v : PointControl ℝ)
    (hv : (Spec.inputs (c t) f)[(i : ℕ)]? = some v) :
    HasDerivAt (fun τ (k : Fin 3) => readState (n := n) (rangesAt nj n) (stateVector (s τ) (q τ)) (.pos (side f) i, (k : ℕ)))
      ![P.δxy.eval p.position.z * v.velocityControl.x, P.δxy.eval p.position.z * v.velocityControl.y, v.velocityControl.z] t := by
  rw [hasDerivAt_pi]
  intro k
  have h := hf 0 (.pos (side f) i, (k : ℕ)) (mem_entries _ _ _ k.2)
  refine h.congr_deriv ?_
  obtain ⟨v0, v1, v2, -⟩ := read_inputs hs.self_of_nhds hc f i v hv
  have p2 : readState (n := n) (rangesAt nj n) (stateVector (s t) (q t)) (.pos (side f) i, 2) = p.position.z := read_position (q t) hs.self_of_nhds hc f i p hp 2
  rw [Dynamics.dyn_pos, p2]
  fin_cases k <;> simp [v0, v1, v2]

end
end Verif.Plan
