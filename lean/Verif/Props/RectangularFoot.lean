import Verif.Lemmas.RectangularFoot
import Mathlib.Algebra.Order.Ring.Rat
import Mathlib.Tactic.NormNum
/- Properties C07, C08, C09: the rectangular foot. -/
set_option linter.unusedSectionVars false
namespace Verif.Foot
open Spec
variable {K : Type} [Field K] [LinearOrder K] [IsStrictOrderedRing K]

/-- C07.  For a foot configured with positive lengths: the ratios sum to one, the ratio-weighted mean of the corner
points is the requested centre of pressure, and if it lies within the foot all ratios are in `[0,1]`. -/
theorem C07_ratios (f : Foot K) (xl yl : K) (tl : V3 K) (hx : 0 < xl) (hy : 0 < yl) (copX copY : K) :
    ∃ c, setFoot f xl yl tl = (some c, true) ∧
      (let r := ratios c copX copY
       r 0 + r 1 + r 2 + r 3 = 1
       ∧ V3.smul (r 0) (c.point 0) + V3.smul (r 1) (c.point 1) + V3.smul (r 2) (c.point 2) + V3.smul (r 3) (c.point 3)
          = ⟨copX, copY, 0⟩
       ∧ (|copX| ≤ xl / 2 → |copY| ≤ yl / 2 → ∀ i, 0 ≤ r i ∧ r i ≤ 1)) := by
  refine ⟨configOf xl yl tl, setFoot_ok f xl yl tl hx hy, ?_⟩
  have wf := wf_configOf xl yl tl hx hy
  refine ⟨ratios_sum _ _ _, ?_, ?_⟩
  · have h1 := ratios_cop_x _ wf.hL copX copY
    have h2 := ratios_cop_y _ wf.hD copX copY
    rw [wf.pt]
    ext
    · simp only [V3.add_x, V3.smul_x, corner]; linear_combination h1
    · simp only [V3.add_y, V3.smul_y, corner]; linear_combination h2
    · simp [corner]
  · intro h1 h2
    have hn := ratios_nonneg _ wf.hL wf.hD copX copY h1 h2
    have hs := ratios_sum (configOf xl yl tl) copX copY
    have h0 := hn 0; have h1 := hn 1; have h2 := hn 2; have h3 := hn 3
    intro i
    refine ⟨hn i, ?_⟩
    fin_cases i <;> simp only [] <;> simp <;> linarith

example : (0 : ℚ) < 1/5 ∧ (0 : ℚ) < 1/10 ∧ |(3/100 : ℚ)| ≤ (1/5)/2 ∧ |(-1/100 : ℚ)| ≤ (1/10)/2 := by norm_num

/-- C08 (three or four active corners).  The point forces reproduce the requested wrench exactly: their sum is the
requested force and their total moment about the foot frame origin is the requested moment. -/
theorem C08_wrench_exact (s4 : Solver K 4) (s8 : Solver K 8) (h8 : ExactSolver s8) (f : Foot K) (xl yl : K)
    (tl : V3 K) (hx : 0 < xl) (hy : 0 < yl) (w : Wrench K) (hfz : eps K ≤ w.force.z)
    (hact : 3 ≤ activeCorners (configOf xl yl tl) w) :
    ∃ F, getForces s4 s8 (setFoot f xl yl tl).1 w = some F
      ∧ netForce F = w.force
      ∧ netMoment (fun i => (configOf xl yl tl).center + (configOf xl yl tl).point i) F = w.moment := by
  rw [setFoot_ok f xl yl tl hx hy]
  have wf := wf_configOf xl yl tl hx hy
  generalize configOf xl yl tl = c at *
  obtain ⟨F, hF, hz, h2⟩ := getForces_many s4 s8 h8 c wf w hfz hact
  exact ⟨F, hF, wrench_of_center c wf w F (lt_of_lt_of_le eps_pos hfz) hz h2⟩

/-- C08 (negligible normal force).  Below the threshold all point forces are zero. -/
theorem C08_no_force (s4 : Solver K 4) (s8 : Solver K 8) (c : Config K) (w : Wrench K) (hfz : w.force.z < eps K) :
    getForces s4 s8 (some c) w = some fun _ => 0 := by
  simp [getForces, wrenchInCenter, hfz]

/-- C08 (two active corners).  The horizontal force and the moment about the vertical axis through the foot centre are
exact, inactive corners get no force, and the vertical force and tilting moments differ from the requested ones by at
most the contribution of the two neglected ratios (each at most the threshold). -/
theorem C08_two_corners (s4 : Solver K 4) (s8 : Solver K 8) (h4 : ExactSolver s4) (f : Foot K) (xl yl : K)
    (tl : V3 K) (hx : 0 < xl) (hy : 0 < yl) (w : Wrench K) (hfz : eps K ≤ w.force.z)
    (hact : activeCorners (configOf xl yl tl) w = 2) :
    ∃ F, getForces s4 s8 (setFoot f xl yl tl).1 w = some F
      ∧ (netForce F).x = w.force.x ∧ (netForce F).y = w.force.y
      ∧ |(netForce F).z - w.force.z| ≤ 2 * eps K * w.force.z
      ∧ (netMoment (configOf xl yl tl).point F).z = (wrenchInCenter (configOf xl yl tl) w).moment.z
      ∧ |(netMoment (configOf xl yl tl).point F).x - (wrenchInCenter (configOf xl yl tl) w).moment.x|
          ≤ 2 * eps K * w.force.z * (yl / 2)
      ∧ |(netMoment (configOf xl yl tl).point F).y - (wrenchInCenter (configOf xl yl tl) w).moment.y|
          ≤ 2 * eps K * w.force.z * (xl / 2)
      ∧ ∀ i, |ratios (configOf xl yl tl) (copOf (configOf xl yl tl) w).1 (copOf (configOf xl yl tl) w).2 i| ≤ eps K →
          F i = 0 := by
  rw [setFoot_ok f xl yl tl hx hy]
  have wf := wf_configOf xl yl tl hx hy
  have e1 : yl / 2 = (configOf xl yl tl).halfD := rfl
  have e2 : xl / 2 = (configOf xl yl tl).halfL := rfl
  rw [e1, e2]
  clear e1 e2
  generalize configOf xl yl tl = c at *
  exact getForces_two s4 s8 h4 c wf w hfz hact

/-- C08 (one active corner).  That corner carries the whole horizontal force, the others get no force and the vertical
force and tilting moments are within the contribution of the neglected ratios.  (The moment about the vertical axis cannot be reproduced and is not.) -/
theorem C08_one_corner (s4 : Solver K 4) (s8 : Solver K 8) (f : Foot K) (xl yl : K)
    (tl : V3 K) (hx : 0 < xl) (hy : 0 < yl) (w : Wrench K) (hfz : eps K ≤ w.force.z)
    (hact : activeCorners (configOf xl yl tl) w = 1) :
    ∃ F, getForces s4 s8 (setFoot f xl yl tl).1 w = some F
      ∧ (netForce F).x = w.force.x ∧ (netForce F).y = w.force.y
      ∧ |(netForce F).z - w.force.z| ≤ 3 * eps K * w.force.z
      ∧ |(netMoment (configOf xl yl tl).point F).x - (wrenchInCenter (configOf xl yl tl) w).moment.x|
          ≤ 3 * eps K * w.force.z * (yl / 2)
      ∧ |(netMoment (configOf xl yl tl).point F).y - (wrenchInCenter (configOf xl yl tl) w).moment.y|
          ≤ 3 * eps K * w.force.z * (xl / 2)
      ∧ ∀ i, |ratios (configOf xl yl tl) (copOf (configOf xl yl tl) w).1 (copOf (configOf xl yl tl) w).2 i| ≤ eps K →
          F i = 0 := by
  rw [setFoot_ok f xl yl tl hx hy]
  have wf := wf_configOf xl yl tl hx hy
  have e1 : yl / 2 = (configOf xl yl tl).halfD := rfl
  have e2 : xl / 2 = (configOf xl yl tl).halfL := rfl
  rw [e1, e2]
  clear e1 e2
  generalize configOf xl yl tl = c at *
  exact getForces_one s4 s8 c wf w hfz hact

/-- C08: at least one corner is always active, so the cases above are exhaustive. -/
theorem C08_some_active (c : Config K) (w : Wrench K) : 1 ≤ activeCorners c w :=
  active_pos c w

/-- C08: no corner pulls on the ground when the centre of pressure is inside the foot. -/
theorem C08_unilateral (s4 : Solver K 4) (s8 : Solver K 8) (f : Foot K) (xl yl : K) (tl : V3 K) (hx : 0 < xl)
    (hy : 0 < yl) (w : Wrench K) (hfz : eps K ≤ w.force.z)
    (h1 : |(copOf (configOf xl yl tl) w).1| ≤ xl / 2) (h2 : |(copOf (configOf xl yl tl) w).2| ≤ yl / 2)
    (F : Fin 4 → V3 K) (hF : getForces s4 s8 (setFoot f xl yl tl).1 w = some F) (i : Fin 4) : 0 ≤ (F i).z := by
  rw [setFoot_ok f xl yl tl hx hy] at hF
  have wf := wf_configOf xl yl tl hx hy
  have e1 : yl / 2 = (configOf xl yl tl).halfD := rfl
  have e2 : xl / 2 = (configOf xl yl tl).halfL := rfl
  rw [e2] at h1; rw [e1] at h2
  clear e1 e2
  generalize configOf xl yl tl = c at *
  exact getForces_nonneg s4 s8 c wf w hfz h1 h2 F hF i

/-- Exact solvers exist (non-vacuity of the solver contract). -/
example (n : Nat) : ∃ s : Solver ℚ n, ExactSolver s := by
  classical
  refine ⟨fun A b => if h : ∃ x : Fin n → ℚ, ∀ r, ∑ j, A r j * x j = b r then h.choose else 0, ?_⟩
  intro A b h
  simp only [h, dite_true]
  exact h.choose_spec

/-- Concrete wrenches with four, two and one active corners (non-vacuity of the three cases). -/
example : activeCorners (configOf (1/5 : ℚ) (1/10) ⟨1/10, 1/20, 0⟩) ⟨⟨1, 2, 10⟩, ⟨0, 0, 1⟩⟩ = 4
    ∧ activeCorners (configOf (1/5 : ℚ) (1/10) ⟨1/10, 1/20, 0⟩) ⟨⟨1, 2, 10⟩, ⟨0, -1, 1⟩⟩ = 2
    ∧ activeCorners (configOf (1/5 : ℚ) (1/10) ⟨1/10, 1/20, 0⟩) ⟨⟨1, 2, 10⟩, ⟨1/2, -1, 1⟩⟩ = 1 := by
  decide +kernel

/-- C09 (validation and atomicity).  Non-positive lengths are refused and leave the object unchanged. -/
theorem C09_refused (f : Foot K) (xl yl : K) (tl : V3 K) (h : xl ≤ 0 ∨ yl ≤ 0) :
    setFoot f xl yl tl = (f, false) := setFoot_refuse f xl yl tl h

/-- C09 (history).  After any history of calls, the foot answers according to the last call with positive lengths; if
there was none, points and forces are refused. -/
theorem C09_last_accepted (calls : List (K × K × V3 K)) :
    setFoots (init K) calls =
      ((calls.filter fun q => decide (0 < q.1 ∧ 0 < q.2.1)).getLast?).map fun q => configOf q.1 q.2.1 q.2.2 := by
  have key : ∀ (calls : List (K × K × V3 K)) (f : Foot K), setFoots f calls =
      (match (calls.filter fun q => decide (0 < q.1 ∧ 0 < q.2.1)).getLast? with
       | some q => some (configOf q.1 q.2.1 q.2.2)
       | none => f) := by
    intro calls
    induction calls with
    | nil => intro f; rfl
    | cons q calls ih =>
      intro f
      obtain ⟨a, b, p⟩ := q
      simp only [setFoots]
      rw [ih]
      by_cases h : 0 < a ∧ 0 < b
      · rw [List.filter_cons_of_pos (by simpa using h), setFoot_ok f a b p h.1 h.2]
        generalize (calls.filter fun q => decide (0 < q.1 ∧ 0 < q.2.1)) = L
        cases hl : L.getLast? with
        | none =>
          rw [List.getLast?_eq_none_iff] at hl
          simp [hl]
        | some q' => simp [List.getLast?_cons, hl]
      · rw [List.filter_cons_of_neg (by simpa using h), setFoot_refuse]
        by_contra hc
        push Not at hc
        exact h hc
  rw [key]
  cases (calls.filter fun q => decide (0 < q.1 ∧ 0 < q.2.1)).getLast? <;> rfl

/-- C09 (geometry).  After an accepted call, for any rigid pose, the four returned points are the corners of a
rectangle: point 0 is the image of the given top-left point; the x sides 0-2 and 1-3 have length `xLength`, the y sides
0-1 and 2-3 have length `yLength`; opposite sides are equal vectors and adjacent sides are orthogonal. -/
theorem C09_points (f : Foot K) (xl yl : K) (tl : V3 K) (hx : 0 < xl) (hy : 0 < yl) (t : Transform K)
    (hr : IsRotation t.rot) :
    ∃ p, getPoints (setFoot f xl yl tl).1 t = some p
      ∧ p 0 = t.apply tl
      ∧ V3.dot (p 0 - p 2) (p 0 - p 2) = xl ^ 2 ∧ V3.dot (p 0 - p 1) (p 0 - p 1) = yl ^ 2
      ∧ p 0 - p 2 = p 1 - p 3 ∧ p 0 - p 1 = p 2 - p 3
      ∧ V3.dot (p 0 - p 2) (p 0 - p 1) = 0 := by
  rw [setFoot_ok f xl yl tl hx hy]
  refine ⟨_, rfl, ?_, ?_, ?_, ?_, ?_, ?_⟩
  · simp only [configOf, corner]
    congr 1
    ext <;> simp
  · simp only [configOf, corner, Transform.apply, M3.mulVec, V3.dot, V3.sub_x, V3.sub_y, V3.sub_z, V3.add_x, V3.add_y,
      V3.add_z]
    linear_combination (xl ^ 2) * hr.c00
  · simp only [configOf, corner, Transform.apply, M3.mulVec, V3.dot, V3.sub_x, V3.sub_y, V3.sub_z, V3.add_x, V3.add_y,
      V3.add_z]
    linear_combination (yl ^ 2) * hr.c11
  · ext <;> simp [configOf, corner, Transform.apply, M3.mulVec, V3.dot] <;> ring
  · ext <;> simp [configOf, corner, Transform.apply, M3.mulVec, V3.dot] <;> ring
  · simp only [configOf, corner, Transform.apply, M3.mulVec, V3.dot, V3.sub_x, V3.sub_y, V3.sub_z, V3.add_x, V3.add_y,
      V3.add_z]
    linear_combination (xl * yl) * hr.c01

/-- C09: an unconfigured foot refuses both queries. -/
theorem C09_unset (t : Transform K) (s4 : Solver K 4) (s8 : Solver K 8) (w : Wrench K) :
    getPoints (init K) t = none ∧ getForces s4 s8 (init K) w = none := ⟨rfl, rfl⟩

/-- A quarter turn about z is a rotation (non-vacuity of `C09_points`). -/
example : IsRotation (⟨⟨0, -1, 0⟩, ⟨1, 0, 0⟩, ⟨0, 0, 1⟩⟩ : M3 ℚ) := by
  constructor <;> norm_num

end Verif.Foot
