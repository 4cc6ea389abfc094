import Verif.Lemmas.PointConstraints5
import Verif.Props.StaticForces
import Verif.Model.StaticTorquesCost
/- Lemmas: the static torques as a sum of powers, the derivative of a force seen from a turning frame. -/
set_option linter.unusedSectionVars false
namespace Verif.Rigid
open Matrix
variable {L J : Type} [DecidableEq L] [DecidableEq J] {m : Model L J} (t : Traversal m)

theorem power_sub (a f g : Spatial) : power a (f - g) = power a f - power a g := by
  simp [power, dotProduct_sub]; ring
theorem power_neg (a f : Spatial) : power a (-f) = -power a f := by
  simp [power]; ring
theorem power_sum {ι : Type} (S : Finset ι) (a : Spatial) (f : ι → Spatial) : power a (∑ i ∈ S, f i) = ∑ i ∈ S, power a (f i) := by
  classical
  induction S using Finset.induction_on with
  | empty => simp [power]
  | insert i S h ih => rw [Finset.sum_insert h, Finset.sum_insert h, power_add, ih]

theorem power_actF (T : SE3) (a f : Spatial) : power a (T.actF f) = power (T⁻¹.act a) f := by
  rw [← SE3.power_act T (T⁻¹.act a) f, SE3.act_act_inv]

namespace Traversal

theorem staticTorque_power (H : SE3) (a : Spatial) (ext : L → Spatial) (q : J → ℝ) (j : J) :
    t.staticTorque H a ext q j = total m fun l => power (t.vel 0 q (Pi.single j 1) l) ((m.inertia l).mul (t.acc a q l) - ext l) := by
  rw [staticTorque, staticForce_total, power_total]
  refine total_congr fun l => ?_
  rw [t.vel_single H]
  split_ifs
  · have := SE3.power_act (t.rel H q l (t.child j)) (t.subspace (t.child j))
      ((t.rel H q (t.child j) l).actF ((m.inertia l).mul (t.acc a q l) - ext l))
    rw [← SE3.actF_mul, t.rel_mul, t.rel_self, SE3.actF_one] at this
    rw [← this]
  · simp [power]

theorem total_sub (f g : L → ℝ) : total m (fun d => f d - g d) = total m f - total m g := Finset.sum_sub_distrib ..

theorem hasDerivAt_total_real {f : L → ℝ → ℝ} {f' : L → ℝ} {x : ℝ} (h : ∀ l, HasDerivAt (f l) (f' l) x) :
    HasDerivAt (fun y => total m fun l => f l y) (total m f') x := by
  have := HasDerivAt.fun_sum (u := m.links.toFinset) fun l _ => h l
  exact this

theorem hasDerivAt_power_both {f g : ℝ → Spatial} {f' g' : Spatial} {x : ℝ} (hf : HasDerivAt f f' x) (hg : HasDerivAt g g' x) :
    HasDerivAt (fun y => power (f y) (g y)) (power f' (g x) + power (f x) g') x := by
  have f1 : HasDerivAt (fun y => (f y).1) f'.1 x := hf.fst
  have f2 : HasDerivAt (fun y => (f y).2) f'.2 x := hf.snd
  have g1 : HasDerivAt (fun y => (g y).1) g'.1 x := hg.fst
  have g2 : HasDerivAt (fun y => (g y).2) g'.2 x := hg.snd
  rw [hasDerivAt_pi] at f1 f2 g1 g2
  simp only [power, dotProduct]
  have h := (HasDerivAt.fun_sum (u := Finset.univ) fun i _ => (f1 i).mul (g1 i)).add (HasDerivAt.fun_sum (u := Finset.univ) fun i _ => (f2 i).mul (g2 i))
  refine h.congr_deriv ?_
  simp only [Finset.sum_add_distrib]; ring

/-- The torque when the wrenches on the links change with the joint. -/
theorem hasDerivAt_staticTorque_moving (hm : m.Regular) (H : SE3) (gravity : Vec) {ext : ℝ → L → Spatial} {ext' : L → Spatial} (q : J → ℝ) (j z : J)
    (he : ∀ l, HasDerivAt (fun x => ext x l) (ext' l) (q z)) :
    HasDerivAt (fun x => t.staticTorque H (baseAcc H gravity) (ext x) (Function.update q z x) j)
      (t.staticTorquesDerivative H (baseAcc H gravity) (ext (q z)) q j z - total m fun l => power (t.vel 0 q (Pi.single j 1) l) (ext' l)) (q z) := by
  have h1 := C59_torque_derivative t hm H gravity (ext (q z)) q j z
  have hv : ∀ l, HasDerivAt (fun x => t.vel 0 (Function.update q z x) (Pi.single j 1) l) _ (q z) := fun l => by
    have := t.hasDerivAt_vel hm 1 0 q (Pi.single j 1) (t.child_ne z) l
    rw [t.joint_child] at this
    exact this
  have h2 : HasDerivAt (fun x => total m fun l => power (t.vel 0 (Function.update q z x) (Pi.single j 1) l) (ext x l - ext (q z) l))
      (total m fun l => power (t.vel 0 q (Pi.single j 1) l) (ext' l)) (q z) := by
    refine hasDerivAt_total_real fun l => ?_
    have := hasDerivAt_power_both (hv l) ((he l).sub_const (ext (q z) l))
    refine this.congr_deriv ?_
    rw [Function.update_eq_self, sub_self]
    simp [power]
  refine (h1.sub h2).congr_of_eventuallyEq (Filter.Eventually.of_forall fun x => ?_)
  show t.staticTorque _ _ _ _ _ = t.staticTorque _ _ _ _ _ - _
  rw [staticTorque_power, staticTorque_power, ← total_sub]
  refine total_congr fun l => ?_
  rw [power_sub, power_sub, power_sub]; ring

/-- The torque when the acceleration of the base and the wrenches change. -/
theorem hasDerivAt_staticTorque_still {H : ℝ → SE3} {a : ℝ → Vec} {a' : Vec} {ext : ℝ → L → Spatial} {ext' : L → Spatial} (q : J → ℝ) (j : J) {x : ℝ}
    (ha : HasDerivAt a a' x) (he : ∀ l, HasDerivAt (fun x => ext x l) (ext' l) x) :
    HasDerivAt (fun x => t.staticTorque (H x) (a x, 0) (ext x) q j)
      (total m fun l => power (t.vel 0 q (Pi.single j 1) l) ((m.inertia l).mul (t.vel (a', 0) q 0 l) - ext' l)) x := by
  simp only [staticTorque_power]
  refine hasDerivAt_total_real fun l => ?_
  refine (hasDerivAt_power_both (hasDerivAt_const x (t.vel 0 q (Pi.single j 1) l)) ((hasDerivAt_inertia (m.inertia l) (f := fun x => t.acc (a x, 0) q l)
    (f' := t.vel (a', 0) q 0 l) ?_).sub (he l))).congr_deriv ?_
  · have e : ∀ v, t.vel v q 0 l = (t.rel 1 q l t.root).act v := fun v => t.vel_still v q l
    simp only [acc_eq, e]
    have ha0 : HasDerivAt (fun x => ((a x, (0 : Vec)) : Spatial)) (a', 0) x := ha.prodMk (hasDerivAt_const _ _)
    have := (hasTangent_const (t.rel 1 q l t.root) x).act ha0
    refine this.congr_deriv ?_
    simp
  · simp [power]

end Traversal

/-- A fixed vector seen from a turning frame. -/
theorem HasTangent.transpose_mulVec {T : ℝ → SE3} {s : Spatial} {x : ℝ} (h : HasTangent T s x) (f : Vec) :
    HasDerivAt (fun t => (T t).Rᵀ *ᵥ f) (-(s.2 ⨯₃ ((T x).Rᵀ *ᵥ f))) x := by
  have hR := (hasTangent_iff.1 h).1
  have := hasDerivAt_mulVec (R := fun t => (T t).Rᵀ) (R' := ((T x).R * hat s.2)ᵀ) (fun i k => hR k i) (hasDerivAt_const x f)
  refine this.congr_deriv ?_
  rw [mulVec_zero, add_zero, transpose_mul, ← mulVec_mulVec, ← hat_mulVec, ← neg_mulVec]
  congr 1
  ext i k; fin_cases i <;> fin_cases k <;> simp [hat]

end Verif.Rigid
