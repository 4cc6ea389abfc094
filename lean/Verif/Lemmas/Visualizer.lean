import Verif.Spec.Visualizer
import Verif.Lemmas.Packing
import Verif.Tac
/- Lemmas for the visualizer. -/
namespace Verif.Visualizer
open Verif.StateM Spec

/-! ### The arrows -/

theorem foldl_putArrow (l : List (PointState ℝ)) (done old : List (V3 ℝ × V3 ℝ)) :
    l.foldl putArrow (done ++ old, done.length) = (done ++ (l.map fun p => (p.position, p.force)) ++ old.drop l.length, done.length + l.length) := by
  induction l generalizing done old with
  | nil => simp
  | cons p l ih =>
    rw [List.foldl_cons]
    have e : putArrow (done ++ old, done.length) p = ((done ++ [(p.position, p.force)]) ++ old.drop 1, (done ++ [(p.position, p.force)]).length) := by
      cases old with
      | nil => simp [putArrow]
      | cons a old => simp [putArrow, List.set_append_right]
    rw [e, ih]
    simp [Nat.add_assoc, Nat.add_comm]
    omega

theorem update_arrows (v : Viz) (s : State ℝ) : (v.update s).scene.arrows = arrowsOf s ++ v.scene.arrows.drop (arrowsOf s).length := by
  have e : (v.setPositions s.base s.joints).scene.arrows = v.scene.arrows := by unfold Viz.setPositions; split_ifs <;> rfl
  have h := foldl_putArrow (s.left ++ s.right) [] v.scene.arrows
  rw [List.foldl_append] at h
  simp only [List.nil_append, List.length_nil] at h
  show (s.right.foldl putArrow (s.left.foldl putArrow ((v.setPositions s.base s.joints).scene.arrows, 0))).1 = _
  rw [e, h]
  simp [arrowsOf]

theorem update_scene (v : Viz) (s : State ℝ) (h : v.model = some s.joints.length) :
    (v.update s).scene = { picture s v.scene.cameraPosition v.scene.cameraTarget with arrows := arrowsOf s ++ v.scene.arrows.drop (arrowsOf s).length } := by
  have h1 := update_arrows v s
  unfold Viz.update Viz.setPositions at h1 ⊢
  rw [if_pos h] at h1 ⊢
  simp only at h1 ⊢
  rw [h1]
  rfl

theorem update_rest (v : Viz) (s : State ℝ) : (v.update s).model = v.model ∧ (v.update s).log = v.log ∧ (v.update s).defaultPosition = v.defaultPosition ∧
    (v.update s).defaultTarget = v.defaultTarget := by
  unfold Viz.update Viz.setPositions
  split_ifs <;> exact ⟨rfl, rfl, rfl, rfl⟩

theorem update_ready {v : Viz} {s : State ℝ} {states : List (State ℝ)} {points : ℕ} (h : Ready v (s :: states) points) :
    (v.update s).scene = picture s v.scene.cameraPosition v.scene.cameraTarget ∧ Ready (v.update s) states points := by
  have h1 := update_scene v s (h.joints s List.mem_cons_self)
  rw [h.points s List.mem_cons_self, List.drop_eq_nil_of_le h.arrows, List.append_nil] at h1
  have h2 := update_rest v s
  refine ⟨h1, ?_, ?_, ?_, ?_⟩
  · intro t ht; rw [h2.1]; exact h.joints t (List.mem_cons_of_mem _ ht)
  · rw [h2.1]; exact h.loaded
  · intro t ht; exact h.points t (List.mem_cons_of_mem _ ht)
  · rw [h1]; exact (h.points s List.mem_cons_self).le

/-! ### The waits -/

/-- The wait after a frame. -/
noncomputable def waits (elapsed : ℝ) (s : State ℝ) (rest : List (State ℝ)) : List Event :=
  match rest with
  | [] => []
  | next :: _ => if ⌊elapsed⌋ < stdRound ((next.time - s.time) * 1000) then [.wait (stdRound ((next.time - s.time) * 1000) - ⌊elapsed⌋)] else []

theorem pace_eq (v : Viz) (elapsed : ℝ) (s : State ℝ) (rest : List (State ℝ)) : v.pace elapsed s rest = { v with log := v.log ++ waits elapsed s rest } := by
  cases rest with
  | nil => simp [Viz.pace, waits]
  | cons next rest =>
    simp only [Viz.pace, waits]
    split_ifs <;> simp [Viz.emit]

theorem drawings_append (a b : List Event) : drawings (a ++ b) = drawings a ++ drawings b := List.filterMap_append
theorem images_append (a b : List Event) : images (a ++ b) = images a ++ images b := List.filterMap_append
theorem commands_append (a b : List Event) : commands (a ++ b) = commands a ++ commands b := List.filterMap_append

theorem waits_nothing (elapsed : ℝ) (s : State ℝ) (rest : List (State ℝ)) : drawings (waits elapsed s rest) = [] ∧ images (waits elapsed s rest) = [] ∧
    commands (waits elapsed s rest) = [] := by
  cases rest with
  | nil => exact ⟨rfl, rfl, rfl⟩
  | cons next rest =>
    simp only [waits]
    split_ifs <;> exact ⟨rfl, rfl, rfl⟩

/-! ### Showing a state -/

theorem visualizeState_ready {v : Viz} {s : State ℝ} {states : List (State ℝ)} {points : ℕ} (h : Ready v (s :: states) points) :
    (v.visualizeState s).1 = true ∧ (v.visualizeState s).2 = (v.update s).emit (.draw (picture s v.scene.cameraPosition v.scene.cameraTarget)) := by
  have h0 : v.model.isNone = false := by have := h.loaded; cases hm : v.model <;> simp [hm] at this ⊢
  unfold Viz.visualizeState
  rw [h0]
  simp only [Bool.false_eq_true, if_false]
  exact ⟨trivial, by rw [(update_ready h).1]⟩

theorem Spec.Ready.log {v : Viz} {states : List (State ℝ)} {points : ℕ} (h : Ready v states points) (l : List Event) : Ready { v with log := l } states points :=
  ⟨h.joints, h.loaded, h.points, h.arrows⟩

theorem Spec.Ready.aim {v : Viz} {states : List (State ℝ)} {points : ℕ} (h : Ready v states points) (p t : V3 ℝ) : Ready (v.aim p t) states points :=
  ⟨h.joints, h.loaded, h.points, h.arrows⟩

/-! ### The names of the images -/

theorem length_toString (i : ℕ) : (toString i).length = (Nat.toDigits 10 i).length := by
  rw [← String.length_toList]
  show i.repr.toList.length = _
  rw [Nat.toList_repr]

theorem digitsFor_eq {n : ℕ} : digitsFor n = Nat.log 10 n + 1 := by
  have h : (0 : ℝ) ≤ Real.logb 10 n := by
    rcases Nat.eq_zero_or_pos n with rfl | hn
    · simp
    · exact Real.logb_nonneg (by norm_num) (by exact_mod_cast hn)
  rw [digitsFor, Nat.floor_add_one h]
  congr 1
  exact_mod_cast Real.natFloor_logb_natCast 10 n

theorem digits_le {i n : ℕ} (h : i < 10 ^ digitsFor n) : (toString i).length ≤ digitsFor n := by
  rw [length_toString]
  exact (Nat.length_toDigits_le_iff (by norm_num) (by rw [digitsFor_eq]; omega)).2 h

theorem digits_lt {i n : ℕ} (h : i ≤ n) : (toString i).length ≤ digitsFor n := by
  refine digits_le (lt_of_le_of_lt h ?_)
  rw [digitsFor_eq]
  exact Nat.lt_pow_succ_log_self (by norm_num) n

/-- The number in the name of an image. -/
def padded (digits i : ℕ) : String := String.ofList (List.replicate (digits - (toString i).length) '0') ++ toString i

theorem imageName_some {folder file : String} {digits i : ℕ} (h : (toString i).length ≤ digits) :
    imageName folder file digits i = some (folder ++ "/" ++ file ++ "_img_" ++ padded digits i ++ ".png") := by
  rw [imageName, if_pos h]; rfl

theorem padded_length {digits i : ℕ} (h : (toString i).length ≤ digits) : (padded digits i).length = digits := by
  rw [padded, String.length_append, ← String.length_toList, String.toList_ofList, List.length_replicate]
  omega

/-- The number that the digits of a list of characters write. -/
def readNumber (l : List Char) : ℕ := l.foldl (fun n c => n * 10 + (c.toNat - 48)) 0

theorem readNumber_zeros (k : ℕ) (l : List Char) : readNumber (List.replicate k '0' ++ l) = readNumber l := by
  induction k with
  | zero => simp
  | succ k ih => simpa [readNumber, List.replicate_succ] using ih

theorem readNumber_digits (i : ℕ) : readNumber (Nat.toDigits 10 i) = i := by
  induction i using Nat.strong_induction_on with
  | _ i ih =>
    rw [Nat.toDigits_eq_if (by norm_num)]
    split_ifs with h
    · simp [readNumber, Nat.toNat_digitChar_sub_48_of_lt_ten h]
    · have h1 := ih (i / 10) (Nat.div_lt_self (by omega) (by norm_num))
      rw [readNumber, List.foldl_append]
      rw [readNumber] at h1
      rw [h1]
      simp only [List.foldl_cons, List.foldl_nil]
      rw [Nat.toNat_digitChar_sub_48_of_lt_ten (Nat.mod_lt _ (by norm_num))]
      omega

theorem readNumber_padded (digits i : ℕ) : readNumber (padded digits i).toList = i := by
  rw [padded, String.toList_append, String.toList_ofList, readNumber_zeros]
  show readNumber i.repr.toList = i
  rw [Nat.toList_repr, readNumber_digits]

end Verif.Visualizer
