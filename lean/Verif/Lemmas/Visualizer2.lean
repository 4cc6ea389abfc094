import Verif.Lemmas.Visualizer
/- Lemmas for the animation of the predictions. -/
namespace Verif.Visualizer
open Verif.StateM Spec

/-- Save the images of a list of frames. -/
def runFrames (stateCamera fullCamera : State ℝ → V3 ℝ) (folder file : String) (digits : ℕ) : ℕ → List Frame → Viz → Option (ℕ × Viz)
  | i, [], v => some (i, v)
  | i, f :: rest, v =>
    (imageName folder file digits i).bind fun name =>
      runFrames stateCamera fullCamera folder file digits (i + 1) rest (v.frame f.left f.right (stateCamera f.seen) (fullCamera f.seen) name)

section
variable (sc fc : State ℝ → V3 ℝ) (folder file : String) (digits : ℕ)

theorem runFrames_append (a b : List Frame) (i : ℕ) (v : Viz) : runFrames sc fc folder file digits i (a ++ b) v =
    (runFrames sc fc folder file digits i a v).bind fun x => runFrames sc fc folder file digits x.1 b x.2 := by
  induction a generalizing i v with
  | nil => rfl
  | cons f a ih =>
    rw [List.cons_append, runFrames, runFrames]
    cases imageName folder file digits i with
    | none => rfl
    | some name => exact ih _ _

theorem mpcFull_eq (s : State ℝ) (l : List (State ℝ)) (i : ℕ) (v : Viz) : mpcFull sc fc folder file digits s i l v =
    runFrames sc fc folder file digits i (l.map fun r => ⟨s, r, s⟩) v := by
  induction l generalizing i v with
  | nil => rfl
  | cons r l ih =>
    rw [mpcFull, List.map_cons, runFrames]
    cases imageName folder file digits i with
    | none => rfl
    | some name => exact ih _ _

theorem mpcStates_eq (stateAt : ℕ → State ℝ) (states full : List (State ℝ)) (back : State ℝ) (hb : full.getLast? = some back)
    (hs : ∀ i < states.length, states[i]? = some (stateAt i)) (n k i : ℕ) (v : Viz) (h : k + 1 + n ≤ states.length) :
    mpcStates sc fc folder file digits states full n (k + 1) i (stateAt k) v =
      (runFrames sc fc folder file digits i ((List.range n).map fun j => ⟨stateAt (k + j + 1), back, stateAt (k + j)⟩) v).map
        fun x => (k + 1 + n, x.1, stateAt (k + n), x.2) := by
  induction n generalizing k i v with
  | zero => rfl
  | succ n ih =>
    rw [mpcStates, List.range_succ_eq_map, List.map_cons, runFrames, hs _ (by omega), hb]
    simp only [Option.bind_eq_bind, Option.bind_some]
    cases imageName folder file digits i with
    | none => rfl
    | some name =>
      simp only [Option.bind_some]
      rw [ih (k + 1) (i + 1) _ (by omega)]
      simp only [List.map_map, Function.comp_def, Nat.add_zero]
      have e : (fun j => (⟨stateAt (k + 1 + j + 1), back, stateAt (k + 1 + j)⟩ : Frame)) = fun x => ⟨stateAt (k + x.succ + 1), back, stateAt (k + x.succ)⟩ := by
        funext j; rw [show k + 1 + j = k + j.succ by omega]
      rw [e, show k + 1 + 1 + n = k + 1 + (n + 1) by omega, show k + 1 + n = k + (n + 1) by omega]

theorem mpcLoop_eq (stateAt : ℕ → State ℝ) (states : List (State ℝ)) (increment : ℕ) (endTime : ℝ) (he : 0 ≤ endTime)
    (hs : ∀ i < states.length, states[i]? = some (stateAt i)) (h2 : 1 < states.length) (predictions : List (List (State ℝ))) :
    ∀ (k i : ℕ) (v : Viz), (∀ p ∈ predictions, p ≠ []) → (k + predictions.length) * increment + 1 ≤ states.length →
      mpcLoop sc fc folder file digits increment states endTime predictions (k * increment + 1) i (stateAt (k * increment)) v =
        (runFrames sc fc folder file digits i ((predictions.zipIdx k).flatMap fun x => predictionFrames stateAt increment x.2 x.1) v).map
          fun x => ((k + predictions.length) * increment + 1, x.2) := by
  induction predictions with
  | nil => intro k i v _ _; rfl
  | cons p rest ih =>
    intro k i v hp hl
    obtain ⟨back, hb⟩ : ∃ back, p.getLast? = some back := by
      cases h : p.getLast? with
      | none => exact absurd (List.getLast?_eq_none_iff.1 h) (hp p List.mem_cons_self)
      | some b => exact ⟨b, rfl⟩
    have hk : k * increment + increment + 1 ≤ states.length := by
      refine le_trans ?_ hl
      simp only [List.length_cons]
      nlinarith [Nat.zero_le (rest.length * increment)]
    have hlt : k * increment + 1 < states.length := by
      rcases Nat.eq_zero_or_pos increment with rfl | h
      · simpa using h2
      · omega
    rw [mpcLoop, hs _ hlt]
    simp only []
    rw [if_pos (Or.inl (not_lt.2 he)), mpcFull_eq, List.zipIdx_cons, List.flatMap_cons, predictionFrames, runFrames_append, runFrames_append]
    simp only [Option.bind_eq_bind, hb, Option.toList_some, List.map_cons, List.map_nil, ← List.map_eq_flatMap]
    cases runFrames sc fc folder file digits i (p.map fun r => ⟨stateAt (k * increment), r, stateAt (k * increment)⟩) v with
    | none => rfl
    | some x =>
      simp only [Option.bind_some]
      rw [mpcStates_eq sc fc folder file digits stateAt states p back hb hs _ _ _ _ (by omega)]
      cases runFrames sc fc folder file digits x.1 ((List.range increment).map fun j =>
        ⟨stateAt (k * increment + j + 1), back, stateAt (k * increment + j)⟩) x.2 with
      | none => rfl
      | some y =>
        simp only [Option.bind_some, Option.map_some]
        have := ih (k + 1) y.1 y.2 (fun q hq => hp q (List.mem_cons_of_mem _ hq)) (by
          rw [show k + 1 + rest.length = k + (p :: rest).length by simp; omega]; exact hl)
        rw [show (k + 1) * increment + 1 = k * increment + 1 + increment by ring, show (k + 1) * increment = k * increment + increment by ring] at this
        rw [this, show k + 1 + rest.length = k + (p :: rest).length by simp; omega]

theorem halves_append (a b : List Event) : halves (a ++ b) = halves a ++ halves b := List.filterMap_append

theorem Spec.Ready.swap {v : Viz} {a b : List (State ℝ)} {n : ℕ} (h : Ready v a n) (hs : ∀ s ∈ b, s ∈ a) : Ready v b n :=
  ⟨fun s m => h.joints s (hs s m), h.loaded, fun s m => h.points s (hs s m), h.arrows⟩

theorem frame_ready {v : Viz} {l : List (State ℝ)} {n : ℕ} (h : Ready v l n) (left right : State ℝ) (hl : left ∈ l) (hr : right ∈ l) (p q : V3 ℝ) (name : String) :
    Ready (v.frame left right p q name) l n ∧
    (v.frame left right p q name).log = v.log ++ [.half false (picture left p v.scene.cameraTarget), .half true (picture right q v.scene.cameraTarget), .image name] ∧
    (v.frame left right p q name).scene.cameraTarget = v.scene.cameraTarget ∧ (v.frame left right p q name).defaultPosition = v.defaultPosition ∧
    (v.frame left right p q name).defaultTarget = v.defaultTarget := by
  have h1 : Ready (v.aim p v.scene.cameraTarget) (left :: right :: l) n := (h.aim _ _).swap (by
    intro s hs; simp only [List.mem_cons] at hs; rcases hs with rfl | rfl | hs <;> assumption)
  obtain ⟨a1, a2⟩ := update_ready h1
  obtain ⟨b1, b2⟩ := update_ready ((a2.log (((v.aim p v.scene.cameraTarget).update left).log ++ [.half false (picture left p v.scene.cameraTarget)])).aim q v.scene.cameraTarget)
  obtain ⟨r1, r2, r3, r4⟩ := update_rest (v.aim p v.scene.cameraTarget) left
  have e : v.frame left right p q name = (((({ (v.aim p v.scene.cameraTarget).update left with
      log := ((v.aim p v.scene.cameraTarget).update left).log ++ [.half false (picture left p v.scene.cameraTarget)] } : Viz).aim q v.scene.cameraTarget).update right).emit
        (.half true (picture right q v.scene.cameraTarget))).emit (.image name) := by
    unfold Viz.frame
    simp only [Viz.emit, a1, picture] at b1 ⊢
    simp only [Viz.aim] at b1 ⊢
    rw [b1]
  obtain ⟨s1, s2, s3, s4⟩ := update_rest (({ (v.aim p v.scene.cameraTarget).update left with
      log := ((v.aim p v.scene.cameraTarget).update left).log ++ [.half false (picture left p v.scene.cameraTarget)] } : Viz).aim q v.scene.cameraTarget) right
  rw [e]
  refine ⟨(b2.log _).log _, ?_, ?_, ?_, ?_⟩
  · simp only [Viz.emit, s2]
    simp only [Viz.aim] at r2 ⊢
    rw [r2]
    simp
  · simp only [Viz.emit, b1]; rfl
  · exact s3.trans r3
  · exact s4.trans r4

/-- The images are saved when their numbers have the digits. -/
theorem runFrames_some {l : List (State ℝ)} {n : ℕ} (frames : List Frame) : ∀ (i : ℕ) (v : Viz), Ready v l n → (∀ f ∈ frames, f.left ∈ l ∧ f.right ∈ l) →
    (∀ j < i + frames.length, (toString j).length ≤ digits) →
    ∃ v', runFrames sc fc folder file digits i frames v = some (i + frames.length, v') ∧
      halves v'.log = halves v.log ++ frames.flatMap (Frame.drawn sc fc v.scene.cameraTarget) ∧
      images v'.log = images v.log ++ (List.range' i frames.length).map (fun j => folder ++ "/" ++ file ++ "_img_" ++ padded digits j ++ ".png") ∧
      commands v'.log = commands v.log ∧ v'.defaultPosition = v.defaultPosition ∧ v'.defaultTarget = v.defaultTarget := by
  induction frames with
  | nil => intro i v _ _ _; exact ⟨v, rfl, by simp, by simp, rfl, rfl, rfl⟩
  | cons f frames ih =>
    intro i v hv hf hd
    obtain ⟨m1, m2⟩ := hf f List.mem_cons_self
    rw [runFrames, imageName_some (hd i (by simp)), Option.bind_some]
    obtain ⟨a1, a2, a3, a4, a5⟩ := frame_ready hv f.left f.right m1 m2 (sc f.seen) (fc f.seen) (folder ++ "/" ++ file ++ "_img_" ++ padded digits i ++ ".png")
    obtain ⟨v', g1, g2, g3, g4, g5, g6⟩ := ih (i + 1) _ a1 (fun g hg => hf g (List.mem_cons_of_mem _ hg)) (fun j hj => hd j (by simp; omega))
    refine ⟨v', ?_, ?_, ?_, ?_, g5.trans a4, g6.trans a5⟩
    · rw [g1, List.length_cons, show i + 1 + frames.length = i + (frames.length + 1) by omega]
    · rw [g2, a2, a3, halves_append, List.flatMap_cons, List.append_assoc]; rfl
    · rw [g3, a2, images_append]; simp [images, List.range'_succ]
    · rw [g4, a2, commands_append]; simp [commands]

/-- Otherwise an exception is thrown. -/
theorem runFrames_none (frames : List Frame) : ∀ (i : ℕ) (v : Viz), (∃ j, i ≤ j ∧ j < i + frames.length ∧ ¬ (toString j).length ≤ digits) →
    runFrames sc fc folder file digits i frames v = none := by
  induction frames with
  | nil => rintro i v ⟨j, h1, h2, -⟩; simp at h2; omega
  | cons f frames ih =>
    rintro i v ⟨j, h1, h2, h3⟩
    rw [runFrames]
    by_cases hi : (toString i).length ≤ digits
    · rw [imageName_some hi, Option.bind_some]
      refine ih _ _ ⟨j, ?_, by simp at h2; omega, h3⟩
      rcases Nat.eq_or_lt_of_le h1 with rfl | h
      · exact absurd hi h3
      · omega
    · rw [imageName, if_neg hi]; rfl

end
end Verif.Visualizer
