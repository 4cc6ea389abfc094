import Verif.Lemmas.Utilities
import Verif.Props.RectangularFoot
import Verif.Props.State
/- Properties C34, C35 and C36: utilities for initial states and guesses. -/
set_option linter.unusedSectionVars false
namespace Verif.Util
open Verif.StateM Spec
variable {K : Type} [Field K] [LinearOrder K]

/-- C34.  After any sequence of queries, the guess for a time has its centre of mass at the reference, is otherwise the
initial state translated rigidly and at rest, carries the requested time and is declared valid.  In particular the answer
does not depend on the earlier queries. -/
theorem C34_translated (s0 : State K) (ref : K → V3 K × Bool) (ts : List K) (t : K) :
    ∃ g g' s, (Guess.new s0).gets ref ts = some g ∧ g.get ref t = some (g', s, true) ∧
      s.com = (ref t).1 ∧ s.time = t ∧ Translated s0 s := by
  obtain ⟨s, h1, h2⟩ := gets_ok ref ts (Guess.new s0) ⟨rfl, rfl⟩
  obtain ⟨s', h3, h4, h5, h6, _⟩ := get_ok _ h2 ref t
  exact ⟨_, _, s', h1, h3, h4, h5, h6⟩

/-- C34 (validity).  The guess is declared valid even when the centre of mass reference declares itself invalid. -/
theorem C34_validity_ignored (s0 : State K) (v : V3 K) (t : K) :
    ∃ g' s, (Guess.new s0).get (fun _ => (v, false)) t = some (g', s, true) := by
  obtain ⟨s, h, _⟩ := get_ok (Guess.new s0) ⟨rfl, rfl⟩ (fun _ => (v, false)) t
  exact ⟨_, s, h⟩

/-- Non-vacuity: moving the sample state one metre forward. -/
example : ∃ g s, (Guess.new sampleState).get (fun t => (⟨1 + t, 0, 1⟩, true)) 1 = some (g, s, true) ∧
    s.left.map PointState.position = [⟨2, 1, 0⟩, ⟨4, 1, 0⟩] := by
  refine ⟨_, _, rfl, ?_⟩
  decide +kernel

variable [IsStrictOrderedRing K]

/-- C36.  With at least one contact point and matching sizes the correction terminates, from any height, above or below
the ground: joints, orientation, horizontal position, momentum, time and forces are kept; the lowest stored contact point
height is in [0, 1e-8]; the base is 2e-8 lower than the pose the stored points were computed for, so the lowest point of
the final pose is in [-2e-8, -1e-8]; the stored centre of mass is the one of the pose of the stored points. -/
theorem C36_terminates [Archimedean K] (rel : Relative K) (pts : Points K) (s : State K) (hr : Ready rel pts s)
    (hne : pts.left ≠ []) :
    ∃ N s', (∀ m, N ≤ m → lower rel pts m s = some (.finished s' true)) ∧ Lowered rel pts s s' := by
  have hhe : heights rel pts s ≠ [] := by
    intro hc
    rw [heights, List.append_eq_nil_iff, List.map_eq_nil_iff] at hc
    exact hne hc.1
  obtain ⟨h, hl⟩ : ∃ h, IsLowest (heights rel pts s) h := by
    revert hhe
    generalize heights rel pts s = l
    intro hhe
    induction l with
    | nil => exact absurd rfl hhe
    | cons a l ih =>
      by_cases hl : l = []
      · subst hl; exact ⟨a, by simp, by simp⟩
      · obtain ⟨h, h1, h2⟩ := ih hl
        rcases le_total a h with hah | hah
        · refine ⟨a, by simp, ?_⟩
          intro x hx
          rcases List.mem_cons.1 hx with rfl | hx
          · exact le_refl _
          · exact hah.trans (h2 x hx)
        · refine ⟨h, by simp [h1], ?_⟩
          intro x hx
          rcases List.mem_cons.1 hx with rfl | hx
          · exact hah
          · exact h2 x hx
  by_cases h0 : 0 ≤ h
  · obtain ⟨j, hj⟩ := exists_nat_ge ((h - 1) * (100 / 99))
    exact ⟨_, done_pos rel pts j s h hr hl h0 (by linarith)⟩
  · have h0 := not_le.1 h0
    have hpos := e8_pos (K := K)
    obtain ⟨j, hj⟩ := pow_unbounded_of_one_lt (-h / (100 * e8 K)) (show (1 : K) < 100 by norm_num)
    rw [div_lt_iff₀ (by positivity)] at hj
    exact ⟨_, done_neg rel pts j s h hr hl h0 (by linarith)⟩

/-- C36 (no contact points).  Without contact points the recursion never ends, at any depth. -/
theorem C36_diverges_without_points (rel : Relative K) (hok : ∀ s', rel.stateOk s' = true) (valid : Bool) (s : State K)
    (n : Nat) : lower rel ⟨valid, [], []⟩ n s = none := by
  induction n generalizing s with
  | zero => rfl
  | succ n ih =>
    have h1 : ¬ ((1 : K) < 0) := by norm_num
    have h2 : (1 : K) > e8 K := by unfold e8; norm_num
    simp only [lower, lowerOnce, hok, Bool.not_true, Bool.false_eq_true, if_false, lowest, h1, h2, or_true, if_true]
    exact ih _

/-- A concrete robot: feet at one metre below the base. -/
def sampleRelative : Relative Rat :=
  { left := fun _ => ⟨(identityTransform Rat).rot, ⟨0, 1, -1⟩⟩
    right := fun _ => ⟨(identityTransform Rat).rot, ⟨0, -1, -1⟩⟩
    com := fun _ => 0, stateOk := fun _ => true }

/-- Non-vacuity: a state with two points per foot, 0.3 above the ground. -/
example : Ready sampleRelative ⟨true, [⟨1, 0, 0⟩, ⟨-1, 0, 0⟩], [⟨1, 0, 0⟩, ⟨-1, 0, 0⟩]⟩
    (moveBase sampleState (13 / 10)) := ⟨rfl, rfl, rfl, fun _ => rfl⟩

/-! ### Default initial state -/

theorem leftNormal_some (N dl dr l : K) (h : leftNormal N dl dr = some l) :
    l * (|dl| + |dr|) = N * |dr| ∧ 0 < |dl| + |dr| := by
  unfold leftNormal at h
  have a := abs_nonneg dl
  have b := abs_nonneg dr
  split at h
  · rename_i h0
    split at h
    · cases h
    · rename_i h1
      cases h
      rw [h0]
      simp only [zero_mul, mul_zero, add_zero, true_and]
      exact lt_of_le_of_ne a (Ne.symm h1)
  · rename_i h0
    cases h
    have hb : 0 < |dr| := lt_of_le_of_ne b (Ne.symm h0)
    refine ⟨?_, by linarith⟩
    have : (0 : K) < 1 + |dl| / |dr| := by have := div_nonneg a b; linarith
    have h2 : |dr| + |dl| ≠ 0 := by linarith
    field_simp
    ring

/-- The weight the code uses is the total mass times 9.81. -/
theorem weight_eq (kin : Kin K) : weight kin = robotWeight kin := by
  simp only [weight, robotWeight, g981]

/-- C35 (wrenches).  The two foot wrenches carry the weight of the robot (vertical, each upwards), and if the centre of
mass lies laterally between the feet their total moment about the centre of mass is zero: the initial state is in static
equilibrium. -/
theorem C35_equilibrium (kin : Kin K) (hm : 0 ≤ robotWeight kin) (l : K)
    (h : leftNormal (robotWeight kin) (kin.com.y - kin.leftT.pos.y) (kin.com.y - kin.rightT.pos.y) = some l) :
    let w := wrenches kin l
    (w.1.force + w.2.force = ⟨0, 0, robotWeight kin⟩) ∧ 0 ≤ w.1.force.z ∧ 0 ≤ w.2.force.z ∧
    ((kin.com.y ≤ kin.leftT.pos.y ∧ kin.rightT.pos.y ≤ kin.com.y) ∨
      (kin.com.y ≤ kin.rightT.pos.y ∧ kin.leftT.pos.y ≤ kin.com.y) →
      momentAbout kin.com kin.leftT.pos w.1 + momentAbout kin.com kin.rightT.pos w.2 = 0) := by
  rw [← weight_eq] at *
  obtain ⟨h1, h2⟩ := leftNormal_some _ _ _ _ h
  have a := abs_nonneg (kin.com.y - kin.leftT.pos.y)
  have b := abs_nonneg (kin.com.y - kin.rightT.pos.y)
  have hl : 0 ≤ l := by
    by_contra hc
    have := not_le.1 hc
    have h3 := mul_nonneg hm b
    nlinarith
  have hr : l ≤ weight kin := by
    by_contra hc
    have := not_le.1 hc
    nlinarith [mul_nonneg hm a]
  refine ⟨?_, hl, ?_, ?_⟩
  · ext <;> simp [wrenches]
  · simpa [wrenches] using hr
  · rintro hbetween
    have key : l * (kin.leftT.pos.y - kin.com.y) + (weight kin - l) * (kin.rightT.pos.y - kin.com.y) = 0 := by
      rcases hbetween with ⟨p, q⟩ | ⟨p, q⟩
      · rw [abs_of_nonpos (by linarith), abs_of_nonneg (by linarith)] at h1
        linarith
      · rw [abs_of_nonneg (by linarith), abs_of_nonpos (by linarith)] at h1
        linarith
    ext
    · simp only [momentAbout, wrenches, V3.add_x, V3.cross_x, V3.sub_y, V3.sub_z, V3.zero_x]; linear_combination key
    · simp only [momentAbout, wrenches, V3.add_y, V3.cross_y, V3.sub_x, V3.sub_z, V3.zero_y]; ring
    · simp only [momentAbout, wrenches, V3.add_z, V3.cross_z, V3.sub_x, V3.sub_y, V3.zero_z]; ring

theorem putForces_four (F : Fin 4 → V3 K) (ps r : List (PointState K)) (hl : ps.length = 4)
    (h : putForces F 0 ps = some r) : (r.map fun p => p.force.z).sum = (Foot.Spec.netForce F).z ∧
      r.map PointState.position = ps.map PointState.position := by
  match ps, hl with
  | [a, b, c, d], _ =>
    simp [putForces] at h
    subst h
    refine ⟨?_, rfl⟩
    simp [Foot.Spec.netForce]
    ring

theorem vertical_close (s4 : Foot.Solver K 4) (s8 : Foot.Solver K 8) (h4 : Foot.Spec.ExactSolver s4)
    (h8 : Foot.Spec.ExactSolver s8) (f : Foot.Foot K) (xl yl : K) (tl : V3 K) (hx : 0 < xl) (hy : 0 < yl)
    (w : Foot.Wrench K) (hw : 0 ≤ w.force.z) (F : Fin 4 → V3 K)
    (hF : Foot.getForces s4 s8 (Foot.setFoot f xl yl tl).1 w = some F) :
    |(Foot.Spec.netForce F).z - w.force.z| ≤ 3 * Foot.eps K * w.force.z + Foot.eps K := by
  have he : (0 : K) < Foot.eps K := Foot.eps_pos
  by_cases hz : Foot.eps K ≤ w.force.z
  · have hp : 0 ≤ Foot.eps K * w.force.z := mul_nonneg he.le hw
    have hact := Foot.C08_some_active (Foot.configOf xl yl tl) w
    have hcases : 3 ≤ Foot.activeCorners (Foot.configOf xl yl tl) w ∨ Foot.activeCorners (Foot.configOf xl yl tl) w = 2
        ∨ Foot.activeCorners (Foot.configOf xl yl tl) w = 1 := by omega
    rcases hcases with hc | hc | hc
    · obtain ⟨F', e, h1, _⟩ := Foot.C08_wrench_exact s4 s8 h8 f xl yl tl hx hy w hz hc
      rw [hF] at e; cases e
      rw [h1, sub_self, abs_zero]
      nlinarith
    · obtain ⟨F', e, _, _, h1, _⟩ := Foot.C08_two_corners s4 s8 h4 f xl yl tl hx hy w hz hc
      rw [hF] at e; cases e
      nlinarith
    · obtain ⟨F', e, _, _, h1, _⟩ := Foot.C08_one_corner s4 s8 f xl yl tl hx hy w hz hc
      rw [hF] at e; cases e
      nlinarith
  · have hz := not_le.1 hz
    rw [Foot.setFoot_ok f xl yl tl hx hy] at hF
    rw [Foot.C08_no_force s4 s8 _ w hz] at hF
    cases hF
    have : (Foot.Spec.netForce (fun _ : Fin 4 => (0 : V3 K))).z = 0 := by simp [Foot.Spec.netForce]
    rw [this, zero_sub, abs_neg, abs_of_nonneg hw]
    nlinarith [mul_nonneg he.le hw]

/-- What a successful call computed. -/
theorem fill_true (s4 : Foot.Solver K 4) (s8 : Foot.Solver K 8) (pts : Points K) (kin : Kin K) (q : List K)
    (lf rf : Foot.Foot K) (s s' : State K) (junk : Junk K)
    (h : fillDefaultInitialState s4 s8 pts kin q lf rf s junk = some (s', true)) :
    ∃ l fl fr pl pr,
      leftNormal (weight kin) (kin.com.y - kin.leftT.pos.y) (kin.com.y - kin.rightT.pos.y) = some l ∧
      Foot.getForces s4 s8 lf (wrenches kin l).1 = some fl ∧ Foot.getForces s4 s8 rf (wrenches kin l).2 = some fr ∧
      place kin.leftT kin.rightT pts.left pts.right (resizeList s.left pts.left.length junk.point)
        (resizeList s.right pts.left.length junk.point) = some (pl, pr) ∧
      putForces fl 0 pl = some s'.left ∧ putForces fr 0 pr = some s'.right ∧
      s'.com = kin.com ∧ s'.joints = q ∧ s'.base = kin.base ∧ s'.time = 0 ∧
      s'.linearMomentum = kin.linearMomentum ∧ s'.angularMomentum = kin.angularMomentum ∧ pts.valid = true := by
  unfold fillDefaultInitialState at h
  split at h
  · cases h
  · rename_i hv
    split at h
    · cases h
    · dsimp only at h
      split at h
      · cases h
      · split at h
        · cases h
        · split at h
          · cases h
          · rename_i pl pr hp
            split at h
            · cases h
            · rename_i l hl
              split at h
              · cases h
              · rename_i fl hfl
                split at h
                · cases h
                · rename_i fr hfr
                  split at h
                  · rename_i l' r' hl' hr'
                    cases h
                    exact ⟨l, fl, fr, pl, pr, hl, hfl, hfr, hp, hl', hr', rfl, rfl, rfl, rfl, rfl, rfl,
                      by simpa using hv⟩
                  · cases h

theorem place_spec (lt rt : Transform K) (as bs : List (V3 K)) (ls rs pl pr : List (PointState K))
    (hl : ls.length = as.length) (hr : rs.length = as.length) (hab : as.length = bs.length)
    (h : place lt rt as bs ls rs = some (pl, pr)) :
    pl.map PointState.position = as.map lt.apply ∧ pr.map PointState.position = bs.map rt.apply := by
  induction as generalizing bs ls rs pl pr with
  | nil =>
    have hb : bs = [] := by rw [← List.length_eq_zero_iff, ← hab]; rfl
    have hl' : ls = [] := by rw [← List.length_eq_zero_iff, hl]; rfl
    have hr' : rs = [] := by rw [← List.length_eq_zero_iff, hr]; rfl
    subst hb hl' hr'
    simp only [place, Option.some.injEq, Prod.mk.injEq] at h
    rw [← h.1, ← h.2]
    exact ⟨rfl, rfl⟩
  | cons a as ih =>
    cases bs with
    | nil => simp at hab
    | cons b bs => cases ls with
      | nil => simp at hl
      | cons l ls => cases rs with
        | nil => simp at hr
        | cons r rs =>
          simp only [place] at h
          split at h
          · cases h
          · rename_i ls' rs' he
            simp only [Option.some.injEq, Prod.mk.injEq] at h
            obtain ⟨i1, i2⟩ := ih bs ls rs ls' rs' (by simpa using hl) (by simpa using hr) (by simpa using hab) he
            rw [← h.1, ← h.2]
            simp [i1, i2]

/-- C35.  A successful call, with four points per foot and feet configured with positive lengths, yields a state whose
vertical contact forces sum to the weight up to the distribution threshold of the feet (a relative 3e-7 plus an absolute
2e-7), whose contact points are the foot corners placed by the foot poses, and whose other members come from the
kinematics. -/
theorem C35_carries_weight (s4 : Foot.Solver K 4) (s8 : Foot.Solver K 8) (h4 : Foot.Spec.ExactSolver s4)
    (h8 : Foot.Spec.ExactSolver s8) (pts : Points K) (kin : Kin K) (q : List K) (fl0 fr0 : Foot.Foot K)
    (xl yl xr yr : K) (tl tr : V3 K) (hxl : 0 < xl) (hyl : 0 < yl) (hxr : 0 < xr) (hyr : 0 < yr)
    (hpl : pts.left.length = 4) (hpr : pts.right.length = 4) (hm : 0 ≤ robotWeight kin) (s s' : State K) (junk : Junk K)
    (h : fillDefaultInitialState s4 s8 pts kin q (Foot.setFoot fl0 xl yl tl).1 (Foot.setFoot fr0 xr yr tr).1 s junk
      = some (s', true)) :
    |totalVertical s' - robotWeight kin| ≤ 3 * Foot.eps K * robotWeight kin + 2 * Foot.eps K ∧
    s'.left.map PointState.position = pts.left.map kin.leftT.apply ∧
    s'.right.map PointState.position = pts.right.map kin.rightT.apply ∧
    s'.com = kin.com ∧ s'.joints = q ∧ s'.base = kin.base ∧ s'.time = 0 := by
  rw [← weight_eq] at *
  obtain ⟨l, fl, fr, pl, pr, e1, e2, e3, e4, e5, e6, e7, e8, e9, e10, _⟩ :=
    fill_true s4 s8 pts kin q _ _ s s' junk h
  obtain ⟨_, p1, p2, _⟩ := C35_equilibrium kin hm l e1
  have v1 := vertical_close s4 s8 h4 h8 fl0 xl yl tl hxl hyl _ p1 fl e2
  have v2 := vertical_close s4 s8 h4 h8 fr0 xr yr tr hxr hyr _ p2 fr e3
  have hpos := place_spec kin.leftT kin.rightT pts.left pts.right _ _ pl pr (resizeList_length _ _ _)
    (by rw [resizeList_length]) (by rw [hpl, hpr]) e4
  have l1 : pl.length = 4 := by have := congrArg List.length hpos.1; simpa [hpl] using this
  have l2 : pr.length = 4 := by have := congrArg List.length hpos.2; simpa [hpr] using this
  obtain ⟨z1, q1⟩ := putForces_four fl pl s'.left l1 e5
  obtain ⟨z2, q2⟩ := putForces_four fr pr s'.right l2 e6
  refine ⟨?_, q1.trans hpos.1, q2.trans hpos.2, e7, e8, e9, e10⟩
  have ez : (wrenches kin l).1.force.z + (wrenches kin l).2.force.z = weight kin := by simp [wrenches]
  have : totalVertical s' - weight kin = ((Foot.Spec.netForce fl).z - (wrenches kin l).1.force.z)
      + ((Foot.Spec.netForce fr).z - (wrenches kin l).2.force.z) := by
    unfold totalVertical; rw [z1, z2, ← ez]; ring
  rw [this]
  refine (abs_add_le _ _).trans ?_
  rw [← ez]
  linarith

/-- C35 (exact case).  If moreover each foot carries a non-negligible force and uses at least three corners, the sum is
exactly the weight. -/
theorem C35_carries_weight_exactly (s4 : Foot.Solver K 4) (s8 : Foot.Solver K 8)
    (h8 : Foot.Spec.ExactSolver s8) (pts : Points K) (kin : Kin K) (q : List K) (fl0 fr0 : Foot.Foot K)
    (xl yl xr yr : K) (tl tr : V3 K) (hxl : 0 < xl) (hyl : 0 < yl) (hxr : 0 < xr) (hyr : 0 < yr)
    (hpl : pts.left.length = 4) (hpr : pts.right.length = 4) (s s' : State K) (junk : Junk K)
    (h : fillDefaultInitialState s4 s8 pts kin q (Foot.setFoot fl0 xl yl tl).1 (Foot.setFoot fr0 xr yr tr).1 s junk
      = some (s', true))
    (hbig : ∀ l, leftNormal (robotWeight kin) (kin.com.y - kin.leftT.pos.y) (kin.com.y - kin.rightT.pos.y) = some l →
      Foot.eps K ≤ l ∧ Foot.eps K ≤ robotWeight kin - l ∧
      3 ≤ Foot.activeCorners (Foot.configOf xl yl tl) (wrenches kin l).1 ∧
      3 ≤ Foot.activeCorners (Foot.configOf xr yr tr) (wrenches kin l).2) :
    totalVertical s' = robotWeight kin := by
  rw [← weight_eq] at *
  obtain ⟨l, fl, fr, pl, pr, e1, e2, e3, e4, e5, e6, _⟩ := fill_true s4 s8 pts kin q _ _ s s' junk h
  obtain ⟨b1, b2, b3, b4⟩ := hbig l e1
  obtain ⟨F1, f1, n1, _⟩ := Foot.C08_wrench_exact s4 s8 h8 fl0 xl yl tl hxl hyl (wrenches kin l).1 b1 b3
  obtain ⟨F2, f2, n2, _⟩ := Foot.C08_wrench_exact s4 s8 h8 fr0 xr yr tr hxr hyr (wrenches kin l).2 b2 b4
  rw [e2] at f1; cases f1
  rw [e3] at f2; cases f2
  have hpos := place_spec kin.leftT kin.rightT pts.left pts.right _ _ pl pr (resizeList_length _ _ _)
    (by rw [resizeList_length]) (by rw [hpl, hpr]) e4
  have l1 : pl.length = 4 := by have := congrArg List.length hpos.1; simpa [hpl] using this
  have l2 : pr.length = 4 := by have := congrArg List.length hpos.2; simpa [hpr] using this
  obtain ⟨z1, _⟩ := putForces_four fl pl s'.left l1 e5
  obtain ⟨z2, _⟩ := putForces_four fr pr s'.right l2 e6
  unfold totalVertical
  rw [z1, z2, n1, n2]
  simp [wrenches]

/-- Invalid settings, a model that cannot be loaded, or unconfigured feet make the call fail. -/
theorem C35_refusals (s4 : Foot.Solver K 4) (s8 : Foot.Solver K 8) (pts : Points K) (kin : Kin K) (q : List K)
    (lf rf : Foot.Foot K) (s s' : State K) (junk : Junk K) (ok : Bool)
    (h : fillDefaultInitialState s4 s8 pts kin q lf rf s junk = some (s', ok))
    (hbad : pts.valid = false ∨ kin.loadOk = false ∨ lf = none ∨ rf = none) : ok = false := by
  cases ok with
  | false => rfl
  | true =>
    exfalso
    obtain ⟨l, fl, fr, pl, pr, e1, e2, e3, e4, e5, e6, e7, e8, e9, e10, e11, e12, e13⟩ :=
      fill_true s4 s8 pts kin q _ _ s s' junk h
    rcases hbad with hb | hb | hb | hb
    · rw [e13] at hb; cases hb
    · unfold fillDefaultInitialState at h; simp [hb] at h
    · subst hb; cases e2
    · subst hb; cases e3

/-- Non-vacuity: a robot of 100 kg standing on two feet, the centre of mass between them. -/
def sampleKin : Kin Rat :=
  { loadOk := true, baseOk := true, stateOk := true, com := ⟨0, -1 / 10, 1 / 2⟩, linearMomentum := 0,
    angularMomentum := 0, base := identityTransform Rat, leftT := identityTransform Rat,
    rightT := ⟨(identityTransform Rat).rot, ⟨0, -3 / 10, 0⟩⟩, linkMasses := [60, 40] }

example : weight sampleKin = 981 ∧ leftNormal (weight sampleKin) (sampleKin.com.y - sampleKin.leftT.pos.y)
    (sampleKin.com.y - sampleKin.rightT.pos.y) = some 654 := by decide +kernel

/-- The whole call succeeds for that robot, for any linear solver. -/
example (s4 : Foot.Solver Rat 4) (s8 : Foot.Solver Rat 8) (s : State Rat) (junk : Junk Rat) :
    ∃ s', fillDefaultInitialState s4 s8 ⟨true, List.replicate 4 0, List.replicate 4 0⟩ sampleKin [0, 0]
      (Foot.setFoot (Foot.init Rat) 2 1 ⟨1, 1 / 2, 0⟩).1 (Foot.setFoot (Foot.init Rat) 2 1 ⟨1, 1 / 2, 0⟩).1 s junk
      = some (s', true) := by
  have hk : ∀ w, ∃ F, Foot.getForces s4 s8 (Foot.setFoot (Foot.init Rat) 2 1 ⟨1, 1 / 2, 0⟩).1 w = some F := by
    intro w
    rw [Foot.setFoot_ok (Foot.init Rat) 2 1 ⟨1, 1 / 2, 0⟩ (by norm_num) (by norm_num)]
    unfold Foot.getForces
    simp only
    split
    · exact ⟨_, rfl⟩
    · split <;> exact ⟨_, rfl⟩
  obtain ⟨fl, hfl⟩ := hk (wrenches sampleKin 654).1
  obtain ⟨fr, hfr⟩ := hk (wrenches sampleKin 654).2
  have hn : leftNormal (weight sampleKin) (sampleKin.com.y - sampleKin.leftT.pos.y)
    (sampleKin.com.y - sampleKin.rightT.pos.y) = some 654 := by decide +kernel
  have hlen : ∀ (l : List (PointState Rat)) j, ∃ a b c d, resizeList l 4 j = [a, b, c, d] := by
    intro l j
    have := resizeList_length l 4 j
    match resizeList l 4 j, this with
    | [a, b, c, d], _ => exact ⟨a, b, c, d, rfl⟩
  obtain ⟨a, b, c, d, hl⟩ := hlen s.left junk.point
  obtain ⟨a', b', c', d', hr⟩ := hlen s.right junk.point
  simp only [fillDefaultInitialState, State.resize, List.length_replicate, hl, hr, hn, hfl, hfr]
  simp [sampleKin, place, List.replicate, putForces]

end Verif.Util
