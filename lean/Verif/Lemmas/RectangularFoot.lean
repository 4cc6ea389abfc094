import Verif.Spec.RectangularFoot
import Verif.Tac
set_option linter.unusedSectionVars false
namespace Verif.Foot
open Spec
variable {K : Type} [Field K] [LinearOrder K] [IsStrictOrderedRing K]

theorem eps_pos : (0 : K) < eps K := by unfold eps; positivity

/-- The configuration stored by an accepted call. -/
def configOf (xl yl : K) (tl : V3 K) : Config K :=
  { halfL := xl / 2, halfD := yl / 2, center := tl + ⟨-(xl / 2), -(yl / 2), 0⟩, point := corner (xl / 2) (yl / 2) }

theorem setFoot_ok (f : Foot K) (xl yl : K) (tl : V3 K) (hx : 0 < xl) (hy : 0 < yl) :
    setFoot f xl yl tl = (some (configOf xl yl tl), true) := by
  simp [setFoot, not_le.2 hx, not_le.2 hy, configOf]

theorem setFoot_refuse (f : Foot K) (xl yl : K) (tl : V3 K) (h : xl ≤ 0 ∨ yl ≤ 0) :
    setFoot f xl yl tl = (f, false) := by
  unfold setFoot
  split
  · rfl
  · rename_i h1
    rw [if_pos (h.resolve_left h1)]

/-- A well-formed configuration (what an accepted `setFoot` stores). -/
structure WF (c : Config K) : Prop where
  hL : 0 < c.halfL
  hD : 0 < c.halfD
  pt : c.point = corner c.halfL c.halfD

theorem wf_configOf (xl yl : K) (tl : V3 K) (hx : 0 < xl) (hy : 0 < yl) : WF (configOf xl yl tl) :=
  ⟨by simp only [configOf]; positivity, by simp only [configOf]; positivity, rfl⟩

theorem ratios_sum (c : Config K) (x y : K) :
    ratios c x y 0 + ratios c x y 1 + ratios c x y 2 + ratios c x y 3 = 1 := by
  simp only [ratios]; ring

theorem ratios_cop_x (c : Config K) (h : 0 < c.halfL) (x y : K) :
    (ratios c x y 0 + ratios c x y 1 - ratios c x y 2 - ratios c x y 3) * c.halfL = x := by
  simp only [ratios]
  generalize (max 0 _ + min _ _ : K) = r
  field_simp
  ring

theorem ratios_cop_y (c : Config K) (h : 0 < c.halfD) (x y : K) :
    (ratios c x y 0 - ratios c x y 1 + ratios c x y 2 - ratios c x y 3) * c.halfD = y := by
  simp only [ratios]
  generalize (max 0 _ + min _ _ : K) = r
  field_simp
  ring

theorem ratios_nonneg (c : Config K) (hL : 0 < c.halfL) (hD : 0 < c.halfD) (x y : K)
    (hx : |x| ≤ c.halfL) (hy : |y| ≤ c.halfD) (i : Fin 4) : 0 ≤ ratios c x y i := by
  have hu : |x / (2 * c.halfL)| ≤ 1 / 2 := by
    rw [abs_div, abs_of_pos (by positivity : (0 : K) < 2 * c.halfL), div_le_iff₀ (by positivity)]
    linarith
  have hv : |y / (2 * c.halfD)| ≤ 1 / 2 := by
    rw [abs_div, abs_of_pos (by positivity : (0 : K) < 2 * c.halfD), div_le_iff₀ (by positivity)]
    linarith
  simp only [ratios, neg_div]
  generalize x / (2 * c.halfL) = u at *
  generalize y / (2 * c.halfD) = v at *
  rw [abs_le] at hu hv
  obtain ⟨hu1, hu2⟩ := hu
  obtain ⟨hv1, hv2⟩ := hv
  rcases le_total 0 (-u - v) with h1 | h1 <;> rcases le_total (1 / 2 - v) (1 / 2 - u) with h2 | h2 <;>
    simp only [max_eq_left, max_eq_right, min_eq_left, min_eq_right, h1, h2] <;>
    fin_cases i <;> simp <;> linarith


theorem actives_length (active : Fin 4 → Bool) :
    (actives active).length = (Finset.univ.filter fun i : Fin 4 => active i = true).card := by
  revert active; decide

theorem activeCorners_eq (c : Config K) (w : Wrench K) :
    activeCorners c w = (actives fun i => decide (|ratios c (copOf c w).1 (copOf c w).2 i| > eps K)).length := by
  rw [actives_length]; simp [activeCorners]

theorem actives_one (active : Fin 4 → Bool) (h : (actives active).length = 1) :
    ∃ k, actives active = [k] ∧ active k = true ∧ ∀ i, i ≠ k → active i = false := by
  revert active; decide

theorem actives_two (active : Fin 4 → Bool) (h : (actives active).length = 2) :
    ∃ k m, actives active = [k, m] ∧ k < m ∧ active k = true ∧ active m = true ∧
      ∀ i, i ≠ k → i ≠ m → active i = false := by
  revert active; decide

theorem active_pos (c : Config K) (w : Wrench K) : 1 ≤ activeCorners c w := by
  by_contra hc
  have h0 : activeCorners c w = 0 := by omega
  unfold activeCorners at h0
  rw [Finset.card_eq_zero] at h0
  have hall : ∀ i : Fin 4, |ratios c (copOf c w).1 (copOf c w).2 i| ≤ eps K := by
    intro i
    by_contra hi
    push Not at hi
    have : i ∈ (Finset.univ.filter fun i : Fin 4 => |ratios c (copOf c w).1 (copOf c w).2 i| > eps K) := by simp [hi]
    rw [h0] at this
    simp at this
  have hs := ratios_sum c (copOf c w).1 (copOf c w).2
  have b0 := (abs_le.1 (hall 0)).2
  have b1 := (abs_le.1 (hall 1)).2
  have b2 := (abs_le.1 (hall 2)).2
  have b3 := (abs_le.1 (hall 3)).2
  have : eps K < 1 / 4 := by unfold eps; norm_num
  linarith

/-- If all normal components are `ratio * fz` and the horizontal forces solve the regression, the wrench is exact. -/
theorem wrench_of_center (c : Config K) (wf : WF c) (w : Wrench K) (F : Fin 4 → V3 K) (hfz : 0 < w.force.z)
    (hz : ∀ i, (F i).z = ratios c (copOf c w).1 (copOf c w).2 i * w.force.z)
    (h2 : (netForce F).x = w.force.x ∧ (netForce F).y = w.force.y
      ∧ (netMoment c.point F).z = (wrenchInCenter c w).moment.z) :
    netForce F = w.force ∧ netMoment (fun i => c.center + c.point i) F = w.moment := by
  obtain ⟨hx, hy, hm⟩ := h2
  have hs := ratios_sum c (copOf c w).1 (copOf c w).2
  have hcx := ratios_cop_x c wf.hL (copOf c w).1 (copOf c w).2
  have hcy := ratios_cop_y c wf.hD (copOf c w).1 (copOf c w).2
  have hne : w.force.z ≠ 0 := ne_of_gt hfz
  have hcx' : (copOf c w).1 * w.force.z = -(wrenchInCenter c w).moment.y := by
    simp only [copOf]; field_simp
  have hcy' : (copOf c w).2 * w.force.z = (wrenchInCenter c w).moment.x := by
    simp only [copOf]; field_simp
  have hz0 := hz 0; have hz1 := hz 1; have hz2 := hz 2; have hz3 := hz 3
  have hnz : (netForce F).z = w.force.z := by
    simp only [netForce, V3.add_z, hz0, hz1, hz2, hz3]
    linear_combination w.force.z * hs
  have hp := wf.pt
  refine ⟨V3.ext hx hy hnz, ?_⟩
  simp only [netForce, V3.add_x, V3.add_y, V3.add_z] at hx hy hnz
  simp only [netMoment, V3.add_z, V3.cross_z, hp, corner, wrenchInCenter, V3.neg_x, V3.neg_y] at hm
  simp only [wrenchInCenter, V3.add_x, V3.add_y, V3.cross_x, V3.cross_y, V3.neg_x, V3.neg_y, V3.neg_z] at hcx' hcy'
  ext
  · simp only [netMoment, V3.add_x, V3.add_y, V3.add_z, V3.cross_x, hp, corner]
    rw [hz0, hz1, hz2, hz3] at hnz ⊢
    linear_combination c.center.y * hnz - c.center.z * hy + w.force.z * hcy + hcy'
  · simp only [netMoment, V3.add_x, V3.add_y, V3.add_z, V3.cross_y, hp, corner]
    rw [hz0, hz1, hz2, hz3] at hnz ⊢
    linear_combination -c.center.x * hnz + c.center.z * hx - w.force.z * hcx - hcx'
  · simp only [netMoment, V3.add_x, V3.add_y, V3.add_z, V3.cross_z, hp, corner]
    linear_combination c.center.x * hy - c.center.y * hx + hm

/-- Solvability of the full regression. -/
theorem regression_solvable (c : Config K) (wf : WF c) (b : Fin 3 → K) :
    ∃ x : Fin 8 → K, ∀ r, ∑ j, regression c.point r j * x j = b r := by
  have hL := wf.hL
  -- forces at points 0 and 2 only along x and y such that the moment is right
  refine ⟨fun j => match j with
    | 0 => b 0 | 1 => (b 1 + b 2 / c.halfL + b 0 * c.halfD / c.halfL) / 2
    | 2 => 0 | 3 => 0 | 4 => 0 | 5 => (b 1 - b 2 / c.halfL - b 0 * c.halfD / c.halfL) / 2 | 6 => 0 | 7 => 0, ?_⟩
  intro r
  fin_cases r <;> simp [Fin.sum_univ_eight, regression, wf.pt, corner] <;> field_simp <;> ring

theorem getForces_many (s4 : Solver K 4) (s8 : Solver K 8) (h8 : ExactSolver s8) (c : Config K) (wf : WF c)
    (w : Wrench K) (hfz : eps K ≤ w.force.z) (hact : 3 ≤ activeCorners c w) :
    ∃ F, getForces s4 s8 (some c) w = some F
      ∧ (∀ i, (F i).z = ratios c (copOf c w).1 (copOf c w).2 i * w.force.z)
      ∧ ((netForce F).x = w.force.x ∧ (netForce F).y = w.force.y
        ∧ (netMoment c.point F).z = (wrenchInCenter c w).moment.z) := by
  rw [activeCorners_eq] at hact
  have hnz : ¬ (w.force.z < eps K) := not_lt.2 hfz
  set b : Fin 3 → K := fun r => match r with
        | 0 => w.force.x
        | 1 => w.force.y
        | 2 => (wrenchInCenter c w).moment.z with hb
  have hsol := h8 (regression c.point) b (regression_solvable c wf b)
  set s := s8 (regression c.point) b with hs
  refine ⟨fun i => ⟨s ⟨2 * i.val, by omega⟩, s ⟨2 * i.val + 1, by omega⟩,
    ratios c (copOf c w).1 (copOf c w).2 i * w.force.z⟩, ?_, fun i => rfl, ?_⟩
  · have e1 : (wrenchInCenter c w).force = w.force := rfl
    unfold getForces
    simp only [e1, hnz, if_false]
    change (match actives fun i => decide (|ratios c (copOf c w).1 (copOf c w).2 i| > eps K) with
      | [k] => _
      | [k, m] => _
      | _ => _) = _
    generalize (actives fun i => decide (|ratios c (copOf c w).1 (copOf c w).2 i| > eps K)) = L at hact
    match L, hact with
    | _ :: _ :: _ :: _, _ => rfl
  · have r0 := hsol 0
    have r1 := hsol 1
    have r2 := hsol 2
    simp [Fin.sum_univ_eight, regression, hb] at r0 r1 r2
    simp only [netForce, netMoment, V3.add_x, V3.add_y, V3.add_z, V3.cross_z]
    refine ⟨?_, ?_, ?_⟩
    · exact r0
    · exact r1
    · rw [← r2]
      simp
      ring

/-- Solvability of the regression on two distinct corners. -/
theorem reduced_solvable (p q : V3 K) (hpq : p.x ≠ q.x ∨ p.y ≠ q.y) (b : Fin 3 → K) :
    ∃ x : Fin 4 → K, ∀ r, ∑ j, reducedRegression p q r j * x j = b r := by
  rcases hpq with h | h
  · have h' : p.x - q.x ≠ 0 := sub_ne_zero.2 h
    -- f1 = (b0, u), f2 = (0, b1 - u):  -p.y b0 + p.x u + q.x (b1 - u) = b2
    refine ⟨fun j => match j with
      | 0 => b 0 | 1 => (b 2 + p.y * b 0 - q.x * b 1) / (p.x - q.x)
      | 2 => 0 | 3 => b 1 - (b 2 + p.y * b 0 - q.x * b 1) / (p.x - q.x), ?_⟩
    intro r
    fin_cases r <;> simp [Fin.sum_univ_four, reducedRegression] <;> field_simp <;> ring
  · have h' : p.y - q.y ≠ 0 := sub_ne_zero.2 h
    -- f1 = (u, b1), f2 = (b0 - u, 0):  -p.y u + p.x b1 - q.y (b0 - u) = b2
    refine ⟨fun j => match j with
      | 0 => (p.x * b 1 - q.y * b 0 - b 2) / (p.y - q.y) | 1 => b 1
      | 2 => b 0 - (p.x * b 1 - q.y * b 0 - b 2) / (p.y - q.y) | 3 => 0, ?_⟩
    intro r
    fin_cases r <;> simp [Fin.sum_univ_four, reducedRegression] <;> field_simp <;> ring

theorem corner_distinct (hL hD : K) (h1 : 0 < hL) (h2 : 0 < hD) (k m : Fin 4) (h : k < m) :
    (corner hL hD k).x ≠ (corner hL hD m).x ∨ (corner hL hD k).y ≠ (corner hL hD m).y := by
  fin_cases k <;> fin_cases m <;> simp [corner] at h ⊢ <;>
    first
    | (left; intro e; linarith)
    | (right; intro e; linarith)
    | (intro e; linarith)

theorem abs_signed_le (e0 e1 e2 e3 s0 s1 s2 s3 B : K) (h0 : |s0| = 1) (h1 : |s1| = 1) (h2 : |s2| = 1)
    (h3 : |s3| = 1) (he : |e0| + |e1| + |e2| + |e3| ≤ B) : |s0 * e0 + s1 * e1 + s2 * e2 + s3 * e3| ≤ B := by
  refine le_trans ?_ he
  refine le_trans (abs_add_le _ _) ?_
  refine le_trans (add_le_add (abs_add_le _ _) (le_refl _)) ?_
  refine le_trans (add_le_add (add_le_add (abs_add_le _ _) (le_refl _)) (le_refl _)) ?_
  simp only [abs_mul, h0, h1, h2, h3, one_mul]
  exact le_refl _

/-- Effect of neglecting part `e i` of each normal ratio. -/
theorem tilt_bounds (c : Config K) (wf : WF c) (w : Wrench K) (hpos : 0 < w.force.z) (F : Fin 4 → V3 K)
    (e : Fin 4 → K) (B : K)
    (hz : ∀ i, (F i).z = (ratios c (copOf c w).1 (copOf c w).2 i - e i) * w.force.z)
    (he : |e 0| + |e 1| + |e 2| + |e 3| ≤ B) :
    |(netForce F).z - w.force.z| ≤ B * w.force.z
    ∧ |(netMoment c.point F).x - (wrenchInCenter c w).moment.x| ≤ B * w.force.z * c.halfD
    ∧ |(netMoment c.point F).y - (wrenchInCenter c w).moment.y| ≤ B * w.force.z * c.halfL := by
  have hs := ratios_sum c (copOf c w).1 (copOf c w).2
  have hcx := ratios_cop_x c wf.hL (copOf c w).1 (copOf c w).2
  have hcy := ratios_cop_y c wf.hD (copOf c w).1 (copOf c w).2
  have hne : w.force.z ≠ 0 := ne_of_gt hpos
  have hcx' : (copOf c w).1 * w.force.z = -(wrenchInCenter c w).moment.y := by
    simp only [copOf]; field_simp
  have hcy' : (copOf c w).2 * w.force.z = (wrenchInCenter c w).moment.x := by
    simp only [copOf]; field_simp
  have hz0 := hz 0; have hz1 := hz 1; have hz2 := hz 2; have hz3 := hz 3
  have n1 : |(-1 : K)| = 1 := by rw [abs_neg, abs_one]
  have p1 : |(1 : K)| = 1 := abs_one
  refine ⟨?_, ?_, ?_⟩
  · have : (netForce F).z - w.force.z = (-1 * e 0 + -1 * e 1 + -1 * e 2 + -1 * e 3) * w.force.z := by
      simp only [netForce, V3.add_z, hz0, hz1, hz2, hz3]
      linear_combination w.force.z * hs
    rw [this, abs_mul, abs_of_pos hpos]
    exact mul_le_mul_of_nonneg_right (abs_signed_le _ _ _ _ _ _ _ _ _ n1 n1 n1 n1 he) (le_of_lt hpos)
  · have : (netMoment c.point F).x - (wrenchInCenter c w).moment.x
        = (-1 * e 0 + 1 * e 1 + -1 * e 2 + 1 * e 3) * w.force.z * c.halfD := by
      simp only [netMoment, V3.add_x, V3.cross_x, wf.pt, corner, hz0, hz1, hz2, hz3]
      linear_combination w.force.z * hcy + hcy'
    rw [this, abs_mul, abs_mul, abs_of_pos hpos, abs_of_pos wf.hD]
    exact mul_le_mul_of_nonneg_right (mul_le_mul_of_nonneg_right
      (abs_signed_le _ _ _ _ _ _ _ _ _ n1 p1 n1 p1 he) (le_of_lt hpos)) (le_of_lt wf.hD)
  · have : (netMoment c.point F).y - (wrenchInCenter c w).moment.y
        = (1 * e 0 + 1 * e 1 + -1 * e 2 + -1 * e 3) * w.force.z * c.halfL := by
      simp only [netMoment, V3.add_y, V3.cross_y, wf.pt, corner, hz0, hz1, hz2, hz3]
      linear_combination -w.force.z * hcx - hcx'
    rw [this, abs_mul, abs_mul, abs_of_pos hpos, abs_of_pos wf.hL]
    exact mul_le_mul_of_nonneg_right (mul_le_mul_of_nonneg_right
      (abs_signed_le _ _ _ _ _ _ _ _ _ p1 p1 n1 n1 he) (le_of_lt hpos)) (le_of_lt wf.hL)

/-- Shape of the result with two active corners. -/
theorem getForces_two_shape (s4 : Solver K 4) (s8 : Solver K 8) (c : Config K) (w : Wrench K)
    (hfz : eps K ≤ w.force.z) (k m : Fin 4)
    (hl : (actives fun i => decide (|ratios c (copOf c w).1 (copOf c w).2 i| > eps K)) = [k, m]) :
    getForces s4 s8 (some c) w = some (
      let s := s4 (reducedRegression (c.point k) (c.point m)) (fun r => match r with
        | 0 => w.force.x
        | 1 => w.force.y
        | 2 => (wrenchInCenter c w).moment.z)
      fun i => if i = k then ⟨s 0, s 1, ratios c (copOf c w).1 (copOf c w).2 i * w.force.z⟩
        else if i = m then ⟨s 2, s 3, ratios c (copOf c w).1 (copOf c w).2 i * w.force.z⟩ else 0) := by
  have hnz : ¬ (w.force.z < eps K) := not_lt.2 hfz
  have e1 : (wrenchInCenter c w).force = w.force := rfl
  unfold getForces
  simp only [e1, hnz, if_false]
  change (match actives fun i => decide (|ratios c (copOf c w).1 (copOf c w).2 i| > eps K) with
      | [k] => _
      | [k, m] => _
      | _ => _) = _
  rw [hl]
  rfl

theorem getForces_one_shape (s4 : Solver K 4) (s8 : Solver K 8) (c : Config K) (w : Wrench K)
    (hfz : eps K ≤ w.force.z) (k : Fin 4)
    (hl : (actives fun i => decide (|ratios c (copOf c w).1 (copOf c w).2 i| > eps K)) = [k]) :
    getForces s4 s8 (some c) w = some (
      fun i => if i = k then ⟨w.force.x, w.force.y, ratios c (copOf c w).1 (copOf c w).2 i * w.force.z⟩ else 0) := by
  have hnz : ¬ (w.force.z < eps K) := not_lt.2 hfz
  have e1 : (wrenchInCenter c w).force = w.force := rfl
  unfold getForces
  simp only [e1, hnz, if_false]
  change (match actives fun i => decide (|ratios c (copOf c w).1 (copOf c w).2 i| > eps K) with
      | [k] => _
      | [k, m] => _
      | _ => _) = _
  rw [hl]
  rfl

theorem getForces_two (s4 : Solver K 4) (s8 : Solver K 8) (h4 : ExactSolver s4) (c : Config K) (wf : WF c)
    (w : Wrench K) (hfz : eps K ≤ w.force.z) (hact : activeCorners c w = 2) :
    ∃ F, getForces s4 s8 (some c) w = some F
      ∧ (netForce F).x = w.force.x ∧ (netForce F).y = w.force.y
      ∧ |(netForce F).z - w.force.z| ≤ 2 * eps K * w.force.z
      ∧ (netMoment c.point F).z = (wrenchInCenter c w).moment.z
      ∧ |(netMoment c.point F).x - (wrenchInCenter c w).moment.x| ≤ 2 * eps K * w.force.z * c.halfD
      ∧ |(netMoment c.point F).y - (wrenchInCenter c w).moment.y| ≤ 2 * eps K * w.force.z * c.halfL
      ∧ ∀ i, |ratios c (copOf c w).1 (copOf c w).2 i| ≤ eps K → F i = 0 := by
  rw [activeCorners_eq] at hact
  obtain ⟨k, m, hl, hkm, hak, ham, hoth⟩ := actives_two _ hact
  have hpos : 0 < w.force.z := lt_of_lt_of_le eps_pos hfz
  have hep : 0 < eps K := eps_pos
  rw [getForces_two_shape s4 s8 c w hfz k m hl]
  refine ⟨_, rfl, ?_⟩
  clear hl hact
  generalize hbd : (fun r : Fin 3 => match r with
        | 0 => w.force.x
        | 1 => w.force.y
        | 2 => (wrenchInCenter c w).moment.z) = b
  have hsol := h4 (reducedRegression (c.point k) (c.point m)) b
    (reduced_solvable _ _ (by rw [wf.pt]; exact corner_distinct _ _ wf.hL wf.hD k m hkm) b)
  generalize s4 (reducedRegression (c.point k) (c.point m)) b = s at *
  have r0 := hsol 0
  have r1 := hsol 1
  have r2 := hsol 2
  rw [← hbd] at r0 r1 r2
  simp [Fin.sum_univ_four, reducedRegression] at r0 r1 r2
  simp only [decide_eq_true_eq, decide_eq_false_iff_not, not_lt, gt_iff_lt] at hak ham hoth
  have htb := tilt_bounds c wf w hpos
    (fun i => if i = k then ⟨s 0, s 1, ratios c (copOf c w).1 (copOf c w).2 i * w.force.z⟩
        else if i = m then ⟨s 2, s 3, ratios c (copOf c w).1 (copOf c w).2 i * w.force.z⟩ else 0)
    (fun i => if i = k then 0 else if i = m then 0 else ratios c (copOf c w).1 (copOf c w).2 i) (2 * eps K)
    (by
      intro i
      by_cases h1 : i = k
      · simp [h1]
      · by_cases h2 : i = m
        · simp only [if_neg h1, if_pos h2, sub_zero]
        · simp [h1, h2])
    (by
      have h0 := hoth 0; have h1 := hoth 1; have h2 := hoth 2; have h3 := hoth 3
      fin_cases k <;> fin_cases m <;> simp at hkm h0 h1 h2 h3 ⊢ <;> linarith)
  obtain ⟨b1, b2, b3⟩ := htb
  refine ⟨?_, ?_, b1, ?_, b2, b3, ?_⟩
  · clear r1 r2 b1 b2 b3
    fin_cases k <;> fin_cases m <;> simp [netForce] at hkm ⊢ <;> linear_combination r0
  · clear r0 r2 b1 b2 b3
    fin_cases k <;> fin_cases m <;> simp [netForce] at hkm ⊢ <;> linear_combination r1
  · clear r0 r1 b1 b2 b3
    fin_cases k <;> fin_cases m <;> simp [netMoment] at hkm r2 ⊢ <;> linear_combination r2
  · intro i hi
    have h1 : i ≠ k := by rintro rfl; exact absurd hi (not_le.2 hak)
    have h2 : i ≠ m := by rintro rfl; exact absurd hi (not_le.2 ham)
    simp [h1, h2]

theorem getForces_one (s4 : Solver K 4) (s8 : Solver K 8) (c : Config K) (wf : WF c)
    (w : Wrench K) (hfz : eps K ≤ w.force.z) (hact : activeCorners c w = 1) :
    ∃ F, getForces s4 s8 (some c) w = some F
      ∧ (netForce F).x = w.force.x ∧ (netForce F).y = w.force.y
      ∧ |(netForce F).z - w.force.z| ≤ 3 * eps K * w.force.z
      ∧ |(netMoment c.point F).x - (wrenchInCenter c w).moment.x| ≤ 3 * eps K * w.force.z * c.halfD
      ∧ |(netMoment c.point F).y - (wrenchInCenter c w).moment.y| ≤ 3 * eps K * w.force.z * c.halfL
      ∧ ∀ i, |ratios c (copOf c w).1 (copOf c w).2 i| ≤ eps K → F i = 0 := by
  rw [activeCorners_eq] at hact
  obtain ⟨k, hl, hak, hoth⟩ := actives_one _ hact
  have hpos : 0 < w.force.z := lt_of_lt_of_le eps_pos hfz
  have hep : 0 < eps K := eps_pos
  rw [getForces_one_shape s4 s8 c w hfz k hl]
  refine ⟨_, rfl, ?_⟩
  simp only [decide_eq_true_eq, decide_eq_false_iff_not, not_lt, gt_iff_lt] at hak hoth
  have htb := tilt_bounds c wf w hpos
    (fun i => if i = k then ⟨w.force.x, w.force.y, ratios c (copOf c w).1 (copOf c w).2 i * w.force.z⟩ else 0)
    (fun i => if i = k then 0 else ratios c (copOf c w).1 (copOf c w).2 i) (3 * eps K)
    (by
      intro i
      by_cases h1 : i = k
      · simp [h1]
      · simp [h1])
    (by
      have h0 := hoth 0; have h1 := hoth 1; have h2 := hoth 2; have h3 := hoth 3
      fin_cases k <;> simp at h0 h1 h2 h3 ⊢ <;> linarith)
  obtain ⟨b1, b2, b3⟩ := htb
  refine ⟨?_, ?_, b1, b2, b3, ?_⟩
  · fin_cases k <;> simp [netForce]
  · fin_cases k <;> simp [netForce]
  · intro i hi
    have h1 : i ≠ k := by rintro rfl; exact absurd hi (not_le.2 hak)
    simp [h1]

theorem getForces_nonneg (s4 : Solver K 4) (s8 : Solver K 8) (c : Config K) (wf : WF c) (w : Wrench K)
    (hfz : eps K ≤ w.force.z) (h1 : |(copOf c w).1| ≤ c.halfL) (h2 : |(copOf c w).2| ≤ c.halfD)
    (F : Fin 4 → V3 K) (hF : getForces s4 s8 (some c) w = some F) (i : Fin 4) : 0 ≤ (F i).z := by
  have hnz : ¬ (w.force.z < eps K) := not_lt.2 hfz
  have hpos : 0 < w.force.z := lt_of_lt_of_le eps_pos hfz
  have e1 : (wrenchInCenter c w).force = w.force := rfl
  have hr := mul_nonneg (ratios_nonneg c wf.hL wf.hD _ _ h1 h2 i) (le_of_lt hpos)
  simp only [copOf] at hr
  simp only [getForces, e1, hnz, if_false] at hF
  split at hF
  · simp only [Option.some.injEq] at hF
    subst hF
    simp only
    split
    · exact hr
    · exact le_refl _
  · simp only [Option.some.injEq] at hF
    subst hF
    simp only
    split
    · exact hr
    · split
      · exact hr
      · exact le_refl _
  · simp only [Option.some.injEq] at hF
    subst hF
    exact hr

end Verif.Foot
