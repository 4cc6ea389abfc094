import Verif.Lemmas.Visualizer2
import Verif.Props.Visualizer
/- C78: the animation of the predictions. -/
namespace Verif.Visualizer
open Verif.StateM Spec

theorem length_predictionFrames (stateAt : ℕ → State ℝ) (increment k : ℕ) {p : List (State ℝ)} (h : p ≠ []) :
    (predictionFrames stateAt increment k p).length = p.length + increment := by
  obtain ⟨b, hb⟩ : ∃ b, p.getLast? = some b := by
    cases e : p.getLast? with
    | none => exact absurd (List.getLast?_eq_none_iff.1 e) h
    | some b => exact ⟨b, rfl⟩
  rw [predictionFrames, hb]
  simp [← List.map_eq_flatMap]

theorem length_allFrames (stateAt : ℕ → State ℝ) (increment : ℕ) (predictions : List (List (State ℝ))) (h : ∀ p ∈ predictions, p ≠ []) :
    (allFrames stateAt increment predictions).length = frameCount increment predictions := by
  have key : ∀ (l : List (List (State ℝ))) (k : ℕ), (∀ p ∈ l, p ≠ []) →
      ((l.zipIdx k).flatMap fun x => predictionFrames stateAt increment x.2 x.1).length = frameCount increment l := by
    intro l
    induction l with
    | nil => intro k _; rfl
    | cons p l ih =>
      intro k hl
      rw [List.zipIdx_cons, List.flatMap_cons, List.length_append, ih _ fun q hq => hl q (List.mem_cons_of_mem _ hq),
        length_predictionFrames _ _ _ (hl p List.mem_cons_self)]
      simp [frameCount]
  exact key predictions 0 h

/-- When all the predictions have the same length. -/
theorem frameCount_same {increment m : ℕ} {predictions : List (List (State ℝ))} (h : ∀ p ∈ predictions, p.length = m) :
    frameCount increment predictions = predictions.length * (m + increment) := by
  rw [frameCount, List.sum_eq_card_nsmul _ (m + increment)]
  · simp
  · intro x hx
    obtain ⟨p, hp, rfl⟩ := List.mem_map.1 hx
    rw [h p hp]

theorem increment_eq {N F : ℕ} (hN : N ≤ 2 ^ 32) (h1 : 1 ≤ N) : statesIncrement N F = (N - 1) / F := by
  rw [statesIncrement, Nat.mod_eq_of_lt]
  exact lt_of_le_of_lt (Nat.div_le_self _ _) (by omega)

theorem numberOfFrames_eq {F m increment : ℕ} (hi : 1 ≤ increment) (h32 : increment < 2 ^ 32) (h : F * (m + increment - 1) < 2 ^ 32) :
    numberOfFrames F m increment = F * (m + increment - 1) := by
  rw [numberOfFrames, show increment + (2 ^ 32 - 1) = (increment - 1) + 2 ^ 32 by omega, Nat.add_mod_right, Nat.mod_eq_of_lt (by omega : increment - 1 < 2 ^ 32),
    show m + (increment - 1) = m + increment - 1 by omega, Nat.mod_eq_of_lt h]

section
variable (v : Viz) (first : State ℝ) (others : List (State ℝ)) (predictions : List (List (State ℝ))) (m increment n : ℕ) (sc fc : State ℝ → V3 ℝ)
  (folder file extension : String) (speedUp endTime : ℝ)

theorem Spec.Animation.saveMPC_eq {v : Viz} {first : State ℝ} {others : List (State ℝ)} {predictions : List (List (State ℝ))} {m increment n : ℕ}
    (a : Animation v first others predictions m increment n) (he : 0 ≤ endTime) :
    v.saveMPC (first :: others) sc predictions fc folder file extension speedUp endTime =
      (runFrames sc fc folder file (digitsFor (predictions.length * (m + increment - 1))) 0
        (allFrames (fun i => (first :: others).getD i first) increment predictions) v).map fun x =>
          (true, (x.2.aim x.2.defaultPosition x.2.defaultTarget).emit (.command (ffmpeg
            (stdRound ((predictions.length * increment + 1 : ℕ) / ((first :: others).getD (predictions.length * increment) first).time * speedUp))
            folder file extension (digitsFor (predictions.length * (m + increment - 1)))))) := by
  have h0 : v.model.isNone = false := by have := a.ready.loaded; cases hm : v.model <;> simp [hm] at this ⊢
  obtain ⟨front, fulls, rfl⟩ : ∃ front fulls, predictions = front :: fulls := by
    cases hp : predictions with
    | nil => exact absurd hp a.some_prediction
    | cons p l => exact ⟨p, l, rfl⟩
  have hF : 0 < (front :: fulls).length := by simp
  have hle : (front :: fulls).length * increment ≤ others.length := by rw [a.executed]; exact Nat.mul_div_le _ _
  have hFle : (front :: fulls).length ≤ others.length := le_trans (Nat.le_mul_of_pos_right _ a.at_least_one) hle
  have hi : statesIncrement (first :: others).length (front :: fulls).length = increment := by
    have h1 := a.small_states
    rw [increment_eq (by rw [List.length_cons]; omega) (by simp), a.executed]
    simp
  have hi32 : increment < 2 ^ 32 := by
    have := a.small_states
    have : increment ≤ others.length := by rw [a.executed]; exact Nat.div_le_self _ _
    omega
  have hm : front.length = m := a.first_length front rfl
  have hm0 : 0 < m := hm ▸ List.length_pos_iff.2 (a.not_empty front List.mem_cons_self)
  have hpos : 0 < (front :: fulls).length * (m + increment - 1) := Nat.mul_pos hF (by have := a.at_least_one; omega)
  have hfr : numberOfFrames (front :: fulls).length front.length increment = (front :: fulls).length * (m + increment - 1) := by
    rw [hm]
    refine numberOfFrames_eq a.at_least_one hi32 (lt_of_le_of_lt ?_ a.small_frames)
    exact Nat.mul_le_mul le_rfl (by omega)
  have hget : ∀ i < (first :: others).length, (first :: others)[i]? = some ((first :: others).getD i first) := by
    intro i h
    rw [List.getD_eq_getElem?_getD, List.getElem?_eq_getElem h, Option.getD_some]
  have hloop := mpcLoop_eq sc fc folder file (digitsFor ((front :: fulls).length * (m + increment - 1))) (fun i => (first :: others).getD i first) (first :: others)
    increment endTime he hget (by rw [List.length_cons]; omega) (front :: fulls) 0 0 v a.not_empty (by
      rw [Nat.zero_add, List.length_cons (a := first)]; omega)
  simp only [Nat.zero_mul, Nat.zero_add] at hloop
  rw [show (first :: others).getD 0 first = first from rfl] at hloop
  rw [Viz.saveMPC, h0]
  simp only [Bool.false_eq_true, if_false]
  rw [if_neg (by rw [List.length_cons (a := first)]; omega), hi, hfr, if_neg (by omega), hloop]
  unfold allFrames
  cases runFrames sc fc folder file (digitsFor ((front :: fulls).length * (m + increment - 1))) 0
    (List.flatMap (fun x => predictionFrames (fun i => (first :: others).getD i first) increment x.2 x.1) ((front :: fulls).zipIdx 0)) v with
  | none => rfl
  | some x =>
    simp only [Option.bind_eq_bind, Option.map_some, Option.bind_some, Nat.add_sub_cancel]
    rw [hget _ (by rw [List.length_cons (a := first)]; omega)]
    simp only [Option.bind_some]

end

variable {v : Viz} {first : State ℝ} {others : List (State ℝ)} {predictions : List (List (State ℝ))} {m increment n : ℕ}

/-- C78: the animation has, for each prediction, an image for each state predicted and one for each state executed after it; afterwards the camera is where the user had put
it.  It needs an end time that is not negative, and that the number of digits that the program computes is enough for the images. -/
theorem C78_animation_partial (a : Animation v first others predictions m increment n) (sc fc : State ℝ → V3 ℝ) (folder file extension : String) (speedUp endTime : ℝ)
    (he : 0 ≤ endTime) (hd : frameCount increment predictions ≤ 10 ^ digitsFor (predictions.length * (m + increment - 1))) :
    ∃ v', v.saveMPC (first :: others) sc predictions fc folder file extension speedUp endTime = some (true, v') ∧
      halves v'.log = halves v.log ++
        (allFrames (fun i => (first :: others).getD i first) increment predictions).flatMap (Frame.drawn sc fc v.scene.cameraTarget) ∧
      images v'.log = images v.log ++ (List.range (frameCount increment predictions)).map (fun i =>
        folder ++ "/" ++ file ++ "_img_" ++ padded (digitsFor (predictions.length * (m + increment - 1))) i ++ ".png") ∧
      commands v'.log = commands v.log ++ [ffmpeg
        (stdRound ((predictions.length * increment + 1 : ℕ) / ((first :: others).getD (predictions.length * increment) first).time * speedUp))
        folder file extension (digitsFor (predictions.length * (m + increment - 1)))] ∧
      v'.scene.cameraPosition = v.defaultPosition ∧ v'.scene.cameraTarget = v.defaultTarget := by
  have hlen := length_allFrames (fun i => (first :: others).getD i first) increment predictions a.not_empty
  have hmem : ∀ f ∈ allFrames (fun i => (first :: others).getD i first) increment predictions,
      f.left ∈ first :: others ++ predictions.flatten ∧ f.right ∈ first :: others ++ predictions.flatten := by
    have hst : ∀ i, (first :: others).getD i first ∈ first :: others ++ predictions.flatten := by
      intro i
      refine List.mem_append_left _ ?_
      rcases lt_or_ge i (first :: others).length with h | h
      · rw [List.getD_eq_getElem?_getD, List.getElem?_eq_getElem h, Option.getD_some]; exact List.getElem_mem h
      · rw [List.getD_eq_getElem?_getD, List.getElem?_eq_none h]; exact List.mem_cons_self
    intro f hf
    obtain ⟨⟨p, k⟩, hp, hf⟩ := List.mem_flatMap.1 hf
    have hp' : p ∈ predictions := List.fst_mem_of_mem_zipIdx hp
    have hin : ∀ r ∈ p, r ∈ first :: others ++ predictions.flatten := fun r hr =>
      List.mem_append_right _ (List.mem_flatten.2 ⟨p, hp', hr⟩)
    rcases List.mem_append.1 hf with hf | hf
    · obtain ⟨r, hr, rfl⟩ := List.mem_map.1 hf
      exact ⟨hst _, hin r hr⟩
    · obtain ⟨j, -, hf⟩ := List.mem_flatMap.1 hf
      obtain ⟨r, hr, rfl⟩ := List.mem_map.1 hf
      exact ⟨hst _, hin r (List.mem_of_mem_getLast? (by simpa using hr))⟩
  obtain ⟨v', g1, g2, g3, g4, g5, g6⟩ := runFrames_some sc fc folder file (digitsFor (predictions.length * (m + increment - 1))) _ 0 v a.ready hmem (by
    intro j hj
    rw [hlen, Nat.zero_add] at hj
    exact digits_le (lt_of_lt_of_le hj hd))
  refine ⟨_, by rw [a.saveMPC_eq sc fc folder file extension speedUp endTime he, g1]; rfl, ?_, ?_, ?_, g5, g6⟩
  · simp only [Viz.emit, Viz.aim, halves_append, g2]; simp [halves]
  · simp only [Viz.emit, Viz.aim, images_append, g3, hlen, List.range_eq_range']; simp [images]
  · simp only [Viz.emit, Viz.aim, commands_append, g4]; simp [commands]

/-- C78: with one prediction the digits are always enough. -/
theorem C78_one_prediction (increment : ℕ) (p : List (State ℝ)) :
    frameCount increment [p] ≤ 10 ^ digitsFor ([p].length * (p.length + increment - 1)) := by
  have := Nat.lt_pow_succ_log_self (b := 10) (by norm_num) (p.length + increment - 1)
  rw [digitsFor_eq]
  simp only [frameCount, List.map_cons, List.map_nil, List.sum_cons, List.sum_nil, List.length_cons, List.length_nil, Nat.zero_add, Nat.one_mul, Nat.add_zero]
  omega

/-- C78 (finding): otherwise the animation stops with an exception: the number of images is computed as if each prediction had one image less. -/
theorem C78_finding_throws (a : Animation v first others predictions m increment n) (sc fc : State ℝ → V3 ℝ) (folder file extension : String) (speedUp endTime : ℝ)
    (he : 0 ≤ endTime) (hd : 10 ^ digitsFor (predictions.length * (m + increment - 1)) < frameCount increment predictions) :
    v.saveMPC (first :: others) sc predictions fc folder file extension speedUp endTime = none := by
  have hlen := length_allFrames (fun i => (first :: others).getD i first) increment predictions a.not_empty
  rw [a.saveMPC_eq sc fc folder file extension speedUp endTime he, runFrames_none]
  · rfl
  · refine ⟨10 ^ digitsFor (predictions.length * (m + increment - 1)), Nat.zero_le _, by rw [hlen]; omega, ?_⟩
    rw [length_toString, Nat.length_toDigits_le_iff (by norm_num) (by rw [digitsFor_eq]; omega)]
    omega

/-- C78 (finding): when the states executed are not shared equally among the predictions, those in excess are never shown. -/
theorem C78_finding_excess (stateAt : ℕ → State ℝ) (increment : ℕ) (predictions : List (List (State ℝ))) :
    ∀ f ∈ allFrames stateAt increment predictions, ∃ i ≤ predictions.length * increment, f.left = stateAt i := by
  intro f hf
  obtain ⟨⟨p, k⟩, hp, hf⟩ := List.mem_flatMap.1 hf
  have hk : k < predictions.length := by
    have := List.snd_lt_of_mem_zipIdx hp
    simpa using this
  have hle : (k + 1) * increment ≤ predictions.length * increment := Nat.mul_le_mul hk le_rfl
  rw [Nat.add_mul, Nat.one_mul] at hle
  rcases List.mem_append.1 hf with hf | hf
  · obtain ⟨r, hr, rfl⟩ := List.mem_map.1 hf
    exact ⟨_, by dsimp only; omega, rfl⟩
  · obtain ⟨j, hj, hf⟩ := List.mem_flatMap.1 hf
    obtain ⟨r, hr, rfl⟩ := List.mem_map.1 hf
    have := List.mem_range.1 hj
    exact ⟨_, by dsimp only; omega, rfl⟩

/-- C78 (finding): with the default end time no image is saved, the command of the video is run all the same, and success is reported. -/
theorem C78_finding_default_saves_nothing (first second : State ℝ) (others : List (State ℝ)) (front : List (State ℝ)) (sc fc : State ℝ → V3 ℝ)
    (folder file extension : String) (speedUp : ℝ) (h : v.model.isSome) (ht : 0 ≤ second.time) (hf : front ≠ []) (h32 : front.length + others.length < 2 ^ 32) :
    ∃ v' command, v.saveMPC (first :: second :: others) sc [front] fc folder file extension speedUp (-1) = some (true, v') ∧ v'.log = v.log ++ [.command command] := by
  have h0 : v.model.isNone = false := by cases hm : v.model <;> simp [hm] at h ⊢
  have hm : 1 ≤ front.length := List.length_pos_iff.2 hf
  have : ¬ (¬ (-1 : ℝ) < 0 ∨ second.time ≤ -1) := by
    rintro (h | h)
    · exact h (by norm_num)
    · linarith
  have hi : statesIncrement (first :: second :: others).length [front].length = others.length + 1 := by
    simp only [List.length_cons, List.length_nil]
    rw [increment_eq (by omega) (by simp)]
    simp
  have hn : numberOfFrames [front].length front.length (others.length + 1) ≠ 0 := by
    simp only [List.length_cons, List.length_nil]
    rw [numberOfFrames_eq (by omega) (by omega) (by omega)]
    omega
  rw [Viz.saveMPC, h0]
  simp only [Bool.false_eq_true, if_false]
  rw [if_neg (by simp), hi, if_neg hn]
  simp only [mpcLoop, List.getElem?_cons_succ, List.getElem?_cons_zero]
  rw [if_neg this]
  exact ⟨_, _, rfl, rfl⟩

/-! ### The hypotheses are met -/

theorem sample_digits : digitsFor (3 * (3 + 1 - 1)) = 1 ∧ digitsFor (2 * (3 + 1 - 1)) = 1 := by
  constructor <;> rw [digitsFor_eq, Nat.log_of_lt (by norm_num)]

theorem sample_animation (k : ℕ) (hk : k = 2 ∨ k = 3) : Animation sampleViz (sampleState 0) (List.replicate k (sampleState 1))
    (List.replicate k [sampleState 1, sampleState 2, sampleState 3]) 3 1 2 := by
  have hmem : ∀ s ∈ sampleState 0 :: List.replicate k (sampleState 1) ++ (List.replicate k [sampleState 1, sampleState 2, sampleState 3]).flatten,
      ∃ t, s = sampleState t := by
    intro s hs
    simp only [List.cons_append, List.mem_cons, List.mem_append, List.mem_replicate, List.mem_flatten] at hs
    rcases hs with rfl | ⟨-, rfl⟩ | ⟨l, ⟨-, rfl⟩, hs⟩
    · exact ⟨_, rfl⟩
    · exact ⟨_, rfl⟩
    · simp only [List.mem_cons, List.not_mem_nil, or_false] at hs
      rcases hs with rfl | rfl | rfl <;> exact ⟨_, rfl⟩
  refine ⟨?_, ?_, ?_, ?_, le_rfl, ⟨?_, rfl, ?_, by simp [sampleViz]⟩, ?_, ?_⟩
  · rcases hk with rfl | rfl <;> simp
  · intro p hp; rw [List.eq_of_mem_replicate (List.mem_of_mem_head? hp)]; rfl
  · intro p hp; rw [List.eq_of_mem_replicate hp]; simp
  · rcases hk with rfl | rfl <;> simp
  · intro s hs; obtain ⟨t, rfl⟩ := hmem s hs; rfl
  · intro s hs; obtain ⟨t, rfl⟩ := hmem s hs; rfl
  · rcases hk with rfl | rfl <;> simp
  · rcases hk with rfl | rfl <;> simp

/-- Two predictions of three states: eight images of one digit. -/
example := C78_animation_partial (sample_animation 2 (Or.inl rfl)) (fun _ => 0) (fun _ => 0) "folder" "video" "mp4" 1 1 (by norm_num) (by
  rw [frameCount_same (m := 3) (fun p hp => by rw [List.eq_of_mem_replicate hp]; rfl), List.length_replicate, sample_digits.2]; norm_num)
/-- Three predictions of three states: twelve images, but one digit. -/
example := C78_finding_throws (sample_animation 3 (Or.inr rfl)) (fun _ => 0) (fun _ => 0) "folder" "video" "mp4" 1 1 (by norm_num) (by
  rw [frameCount_same (m := 3) (fun p hp => by rw [List.eq_of_mem_replicate hp]; rfl), List.length_replicate, sample_digits.1]; norm_num)
example := C78_finding_default_saves_nothing (v := sampleViz) (sampleState 0) (sampleState 1) [] [sampleState 1] (fun _ => 0) (fun _ => 0) "folder" "video" "mp4" 1 rfl
  (by norm_num [sampleState]) (by simp) (by norm_num)

end Verif.Visualizer
