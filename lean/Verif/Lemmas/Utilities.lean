import Verif.Spec.Utilities
import Verif.Lemmas.State
import Verif.Lemmas.RectangularFoot
import Mathlib.Algebra.Order.Archimedean.Basic
/- Lemmas about the utilities. -/
set_option linter.unusedSectionVars false
namespace Verif.Util
open Verif.StateM Spec
variable {K : Type} [Field K] [LinearOrder K]

/-! ### Guess -/

theorem movePoints_ok (d : V3 K) (ps qs : List (PointState K)) (h : ps.map PointState.force = qs.map PointState.force) :
    movePoints d ps qs = some (qs.map fun q => { q with position := q.position + d }) := by
  induction ps generalizing qs with
  | nil => cases qs with
    | nil => rfl
    | cons => simp at h
  | cons p ps ih => cases qs with
    | nil => simp at h
    | cons q qs =>
      simp only [List.map_cons, List.cons.injEq] at h
      simp only [movePoints, ih qs h.2, List.map_cons, h.1]

/-- The members the object relies on: the working copy has the forces of the initial state. -/
def GuessOk (g : Guess K) : Prop :=
  g.state.left.map PointState.force = g.initialState.left.map PointState.force ∧
  g.state.right.map PointState.force = g.initialState.right.map PointState.force

theorem get_ok (g : Guess K) (hg : GuessOk g) (ref : K → V3 K × Bool) (t : K) :
    ∃ s, g.get ref t = some ({ g with state := s }, s, true) ∧ s.com = (ref t).1 ∧ s.time = t ∧
      Translated g.initialState s ∧ GuessOk { g with state := s } := by
  refine ⟨_, by simp only [Guess.get, movePoints_ok _ _ _ hg.1, movePoints_ok _ _ _ hg.2]; rfl, rfl, rfl, ?_, ?_⟩
  · refine ⟨rfl, ?_, ?_, ?_, ?_, ?_, rfl, rfl, rfl⟩
    · ext <;> simp <;> ring
    · simp only [List.map_map]; congr 1; funext p; ext <;> simp <;> ring
    · simp only [List.map_map]; congr 1; funext p; ext <;> simp <;> ring
    · simp only [List.map_map]; rfl
    · simp only [List.map_map]; rfl
  · constructor
    · simp only [List.map_map]; rfl
    · simp only [List.map_map]; rfl

theorem gets_ok (ref : K → V3 K × Bool) (ts : List K) (g : Guess K) (hg : GuessOk g) :
    ∃ s, g.gets ref ts = some { g with state := s } ∧ GuessOk { g with state := s } := by
  induction ts generalizing g with
  | nil => exact ⟨g.state, rfl, hg⟩
  | cons t ts ih =>
    obtain ⟨s, h1, _, _, _, h2⟩ := get_ok g hg ref t
    obtain ⟨s', h3, h4⟩ := ih { g with state := s } h2
    exact ⟨s', by simp only [Guess.gets, h1, h3], h4⟩

/-! ### Lowering -/

variable [IsStrictOrderedRing K]

theorem lowest_spec (base lrel rrel : Transform K) (as bs : List (V3 K)) (ls rs : List (PointState K)) (m : K)
    (h1 : as.length = bs.length) (h2 : ls.length = as.length) (h3 : rs.length = as.length) :
    ∃ mm ls' rs', lowest base lrel rrel m as bs ls rs = some (mm, ls', rs') ∧
      mm ≤ m ∧ (∀ a ∈ as, mm ≤ (worldPoint base lrel a).z) ∧ (∀ b ∈ bs, mm ≤ (worldPoint base rrel b).z) ∧
      (mm = m ∨ mm ∈ as.map (fun a => (worldPoint base lrel a).z) ∨ mm ∈ bs.map (fun b => (worldPoint base rrel b).z)) ∧
      ls'.map PointState.position = as.map (worldPoint base lrel) ∧
      rs'.map PointState.position = bs.map (worldPoint base rrel) ∧
      ls'.map PointState.force = ls.map PointState.force ∧ rs'.map PointState.force = rs.map PointState.force := by
  induction as generalizing bs ls rs m with
  | nil =>
    have hb : bs = [] := by rw [← List.length_eq_zero_iff, ← h1]; rfl
    have hl : ls = [] := by rw [← List.length_eq_zero_iff, h2]; rfl
    have hr : rs = [] := by rw [← List.length_eq_zero_iff, h3]; rfl
    subst hb hl hr
    exact ⟨m, [], [], rfl, le_refl _, by simp, by simp, Or.inl rfl, rfl, rfl, rfl, rfl⟩
  | cons a as ih =>
    cases bs with
    | nil => simp at h1
    | cons b bs => cases ls with
      | nil => simp at h2
      | cons l ls => cases rs with
        | nil => simp at h3
        | cons r rs =>
          simp only [lowest]
          generalize hm1 : (if (worldPoint base lrel a).z < m then (worldPoint base lrel a).z else m) = m1
          generalize hm2 : (if (worldPoint base rrel b).z < m1 then (worldPoint base rrel b).z else m1) = m2
          obtain ⟨mm, ls', rs', e, i1, i2, i3, i4, i5, i6, i7, i8⟩ :=
            ih bs ls rs m2 (by simpa using h1) (by simpa using h2) (by simpa using h3)
          have k1 : m1 ≤ m ∧ m1 ≤ (worldPoint base lrel a).z ∧ (m1 = m ∨ m1 = (worldPoint base lrel a).z) := by
            rw [← hm1]; split
            · rename_i h; exact ⟨h.le, le_refl _, Or.inr rfl⟩
            · rename_i h; exact ⟨le_refl _, not_lt.1 h, Or.inl rfl⟩
          have k2 : m2 ≤ m1 ∧ m2 ≤ (worldPoint base rrel b).z ∧ (m2 = m1 ∨ m2 = (worldPoint base rrel b).z) := by
            rw [← hm2]; split
            · rename_i h; exact ⟨h.le, le_refl _, Or.inr rfl⟩
            · rename_i h; exact ⟨le_refl _, not_lt.1 h, Or.inl rfl⟩
          refine ⟨mm, _, _, by rw [e], i1.trans (k2.1.trans k1.1), ?_, ?_, ?_, ?_, ?_, ?_, ?_⟩
          · intro x hx
            rcases List.mem_cons.1 hx with rfl | hx
            · exact i1.trans (k2.1.trans k1.2.1)
            · exact i2 x hx
          · intro x hx
            rcases List.mem_cons.1 hx with rfl | hx
            · exact i1.trans k2.2.1
            · exact i3 x hx
          · rcases i4 with h | h | h
            · rcases k2.2.2 with h' | h'
              · rcases k1.2.2 with h'' | h''
                · exact Or.inl (h.trans (h'.trans h''))
                · exact Or.inr (Or.inl (by simp [h, h', h'']))
              · exact Or.inr (Or.inr (by simp [h, h']))
            · exact Or.inr (Or.inl (by simp only [List.map_cons, List.mem_cons]; exact Or.inr h))
            · exact Or.inr (Or.inr (by simp only [List.map_cons, List.mem_cons]; exact Or.inr h))
          · simp [i5]
          · simp [i6]
          · simp [i7]
          · simp [i8]

theorem worldPoint_move (s : State K) (dz : K) (rel : Transform K) (p : V3 K) :
    (worldPoint (moveBase s dz).base rel p).z = (worldPoint s.base rel p).z + dz := by
  simp [worldPoint, moveBase, Transform.apply, add_assoc]

theorem heights_move (rel : Relative K) (pts : Points K) (s : State K) (dz : K) :
    heights rel pts (moveBase s dz) = (heights rel pts s).map (· + dz) := by
  have h1 : (moveBase s dz).joints = s.joints := rfl
  simp only [heights, h1, worldPoint_move, List.map_append, List.map_map]
  rfl

theorem isLowest_map (l : List K) (h d : K) (hl : IsLowest l h) : IsLowest (l.map (· + d)) (h + d) := by
  refine ⟨List.mem_map.2 ⟨h, hl.1, rfl⟩, ?_⟩
  intro x hx
  obtain ⟨y, hy, rfl⟩ := List.mem_map.1 hx
  have := hl.2 y hy
  linarith

theorem Spec.SameRobot.trans {a b c : State K} (h1 : SameRobot a b) (h2 : SameRobot b c) : SameRobot a c :=
  ⟨h2.joints.trans h1.joints, h2.rot.trans h1.rot, h2.bx.trans h1.bx, h2.bY.trans h1.bY, h2.lin.trans h1.lin,
   h2.ang.trans h1.ang, h2.time.trans h1.time, h2.lf.trans h1.lf, h2.rf.trans h1.rf⟩

/-- One activation on a state whose lowest point has height `h`. -/
theorem lowerOnce_spec (rel : Relative K) (pts : Points K) (s : State K) (hr : Ready rel pts s) (h : K)
    (hl : IsLowest (heights rel pts s) h) :
    ∃ s' : State K, SameRobot s s' ∧ Ready rel pts s' ∧ heights rel pts s' = heights rel pts s ∧
      storedHeights s' = heights rel pts s' ∧
      s'.base = s.base ∧ s'.com = s.base.apply (rel.com s.joints) ∧
      lowerOnce rel pts s = (if min 1 h < 0 ∨ min 1 h > e8 K then
        .again (moveBase s' (-(99 / 100 * min 1 h) + (if min 1 h < 0 then e8 K else 0)))
        else .finished (moveBase s' (-(2 * e8 K))) true) := by
  obtain ⟨mm, ls', rs', e, i1, i2, i3, i4, i5, i6, i7, i8⟩ :=
    lowest_spec s.base (rel.left s.joints) (rel.right s.joints) pts.left pts.right s.left s.right 1 hr.same hr.left hr.right
  have hmm : mm = min 1 h := by
    apply le_antisymm
    · refine le_min i1 ?_
      rcases List.mem_append.1 hl.1 with hx | hx
      · obtain ⟨a, ha, rfl⟩ := List.mem_map.1 hx; exact i2 a ha
      · obtain ⟨a, ha, rfl⟩ := List.mem_map.1 hx; exact i3 a ha
    · rcases i4 with hx | hx | hx
      · rw [hx]; exact min_le_left _ _
      · exact (min_le_right _ _).trans (hl.2 mm (List.mem_append.2 (Or.inl hx)))
      · exact (min_le_right _ _).trans (hl.2 mm (List.mem_append.2 (Or.inr hx)))
  refine ⟨{ s with com := s.base.apply (rel.com s.joints), left := ls', right := rs' }, ?_, ?_, rfl, ?_, rfl, rfl, ?_⟩
  · exact ⟨rfl, rfl, rfl, rfl, rfl, rfl, rfl, i7, i8⟩
  · refine ⟨hr.same, ?_, ?_, hr.ok⟩
    · have := congrArg List.length i7; simpa using this.trans (by simpa using hr.left)
    · have := congrArg List.length i8; simpa using this.trans (by simpa using hr.right)
  · have e1 := congrArg (List.map V3.z) i5
    have e2 := congrArg (List.map V3.z) i6
    simp only [List.map_map] at e1 e2
    simp only [storedHeights, heights]
    exact congrArg₂ (· ++ ·) e1 e2
  · simp only [lowerOnce, hr.ok, Bool.not_true, Bool.false_eq_true, if_false, e, hmm]

theorem sameRobot_move (s : State K) (dz : K) : SameRobot s (moveBase s dz) := ⟨rfl, rfl, rfl, rfl, rfl, rfl, rfl, rfl, rfl⟩

theorem ready_move {rel : Relative K} {pts : Points K} {s : State K} (hr : Ready rel pts s) (dz : K) :
    Ready rel pts (moveBase s dz) := ⟨hr.same, hr.left, hr.right, hr.ok⟩

theorem e8_pos : (0 : K) < e8 K := by unfold e8; positivity

theorem e8_le_one : (e8 K) ≤ 1 := by unfold e8; norm_num

theorem done_now (rel : Relative K) (pts : Points K) (s : State K) (hr : Ready rel pts s) (h : K)
    (hl : IsLowest (heights rel pts s) h) (h0 : 0 ≤ h) (h1 : h ≤ e8 K) : DoneIn rel pts 1 s := by
  obtain ⟨s', a1, a2, a3, a4, a5, a6, a7⟩ := lowerOnce_spec rel pts s hr h hl
  have hmin : min 1 h = h := min_eq_right (h1.trans e8_le_one)
  rw [hmin, if_neg (by rintro (hc | hc); exacts [absurd hc (not_lt.2 h0), absurd hc (not_lt.2 h1)])] at a7
  refine ⟨moveBase s' (-(2 * e8 K)), ?_, a1.trans (sameRobot_move _ _), h, ?_, h0, h1, ?_, ?_⟩
  · intro m hm
    cases m with
    | zero => omega
    | succ m => simp only [lower, a7]
  · have : storedHeights (moveBase s' (-(2 * e8 K))) = heights rel pts s := by
      rw [← a3, ← a4]; rfl
    rw [this]; exact hl
  · rw [heights_move, a3, sub_eq_add_neg]; exact isLowest_map _ _ _ hl
  · have e1 : (moveBase s' (-(2 * e8 K))).com = s'.com := rfl
    have e2 : (moveBase s' (-(2 * e8 K))).joints = s.joints := a1.joints
    rw [e1, e2, a6, ← a5]
    congr 1
    simp [moveBase]

theorem done_again (rel : Relative K) (pts : Points K) (s : State K) (hr : Ready rel pts s) (h : K)
    (hl : IsLowest (heights rel pts s) h) (hc : h < 0 ∨ h > e8 K) (n : Nat)
    (hn : ∀ s2, Ready rel pts s2 →
      IsLowest (heights rel pts s2) (h + (-(99 / 100 * min 1 h) + (if min 1 h < 0 then e8 K else 0))) →
      DoneIn rel pts n s2) : DoneIn rel pts (n + 1) s := by
  obtain ⟨s', a1, a2, a3, a4, a5, a6, a7⟩ := lowerOnce_spec rel pts s hr h hl
  have hc' : min 1 h < 0 ∨ min 1 h > e8 K := by
    rcases hc with hc | hc
    · left; exact (min_le_right _ _).trans_lt hc
    · right
      rcases le_total 1 h with h1 | h1
      · rw [min_eq_left h1]; unfold e8; norm_num
      · rw [min_eq_right h1]; exact hc
  rw [if_pos hc'] at a7
  obtain ⟨s3, b1, b2⟩ := hn _ (ready_move a2 _) (by rw [heights_move, a3]; exact isLowest_map _ _ _ hl)
  refine ⟨s3, ?_, ?_, b2.2⟩
  · intro m hm
    cases m with
    | zero => omega
    | succ m => simp only [lower, a7]; exact b1 m (by omega)
  · exact (a1.trans (sameRobot_move _ _)).trans b2.1

theorem done_mono {rel : Relative K} {pts : Points K} {n m : Nat} {s : State K} (h : DoneIn rel pts n s) (hm : n ≤ m) :
    DoneIn rel pts m s := by
  obtain ⟨s', h1, h2⟩ := h
  exact ⟨s', fun k hk => h1 k (hm.trans hk), h2⟩

/-- From above the ground, up to height one. -/
theorem done_small (rel : Relative K) (pts : Points K) (j : Nat) : ∀ (s : State K) (h : K), Ready rel pts s →
    IsLowest (heights rel pts s) h → 0 ≤ h → h ≤ 1 → h ≤ e8 K * 100 ^ j → DoneIn rel pts (j + 1) s := by
  induction j with
  | zero => intro s h hr hl h0 h1 h2; exact done_now rel pts s hr h hl h0 (by simpa using h2)
  | succ j ih =>
    intro s h hr hl h0 h1 h2
    by_cases hc : h ≤ e8 K
    · exact done_mono (done_now rel pts s hr h hl h0 hc) (by omega)
    · apply done_again rel pts s hr h hl (Or.inr (not_le.1 hc))
      intro s2 hr2 hl2
      rw [min_eq_right h1, if_neg (not_lt.2 h0)] at hl2
      refine ih s2 _ hr2 hl2 (by linarith) (by linarith) ?_
      rw [pow_succ] at h2
      linarith

theorem done_pos (rel : Relative K) (pts : Points K) (j : Nat) : ∀ (s : State K) (h : K), Ready rel pts s →
    IsLowest (heights rel pts s) h → 0 ≤ h → h ≤ 1 + 99 / 100 * j → DoneIn rel pts (j + 5) s := by
  induction j with
  | zero =>
    intro s h hr hl h0 h1
    refine done_small rel pts 4 s h hr hl h0 (by simpa using h1) ?_
    have : (e8 K) * 100 ^ 4 = 1 := by unfold e8; norm_num
    rw [this]; simpa using h1
  | succ j ih =>
    intro s h hr hl h0 h1
    by_cases hc : h ≤ 1
    · refine done_mono (ih s h hr hl h0 (hc.trans ?_)) (by omega)
      have : (0 : K) ≤ j := Nat.cast_nonneg j
      linarith
    · have hc := not_le.1 hc
      have h1lt : (e8 K) < h := e8_le_one.trans_lt hc
      have := done_again rel pts s hr h hl (Or.inr h1lt) (j + 5) ?_
      · exact done_mono this (by omega)
      · intro s2 hr2 hl2
        rw [min_eq_left hc.le, if_neg (by norm_num)] at hl2
        refine ih s2 _ hr2 hl2 (by linarith) ?_
        push_cast at h1
        linarith

theorem done_neg (rel : Relative K) (pts : Points K) (j : Nat) : ∀ (s : State K) (h : K), Ready rel pts s →
    IsLowest (heights rel pts s) h → h < 0 → -(100 * e8 K * 100 ^ j) ≤ h → DoneIn rel pts (j + 2) s := by
  have hpos := e8_pos (K := K)
  induction j with
  | zero =>
    intro s h hr hl h0 h1
    apply done_again rel pts s hr h hl (Or.inl h0)
    intro s2 hr2 hl2
    rw [min_eq_right (by linarith), if_pos h0] at hl2
    simp only [pow_zero, mul_one] at h1
    exact done_now rel pts s2 hr2 _ hl2 (by linarith) (by linarith)
  | succ j ih =>
    intro s h hr hl h0 h1
    apply done_again rel pts s hr h hl (Or.inl h0)
    intro s2 hr2 hl2
    rw [min_eq_right (by linarith), if_pos h0] at hl2
    by_cases hc : h + (-(99 / 100 * h) + e8 K) < 0
    · refine ih s2 _ hr2 hl2 hc ?_
      rw [pow_succ] at h1
      linarith
    · exact done_mono (done_now rel pts s2 hr2 _ hl2 (not_lt.1 hc) (by linarith)) (by omega)

end Verif.Util
