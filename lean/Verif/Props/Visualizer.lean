import Verif.Lemmas.Visualizer
import Mathlib.Tactic.IntervalCases
/- C75, C76, C77: the visualizer. -/
namespace Verif.Visualizer
open Verif.StateM Spec

/-! ### C75: showing a state -/

/-- C75: without a model nothing is shown; a model can be loaded only once. -/
theorem C75_model_first (v : Viz) (s : State ℝ) (h : v.model = none) : v.visualizeState s = (false, v) := by
  simp [Viz.visualizeState, h]

theorem C75_one_model (v : Viz) (joints : ℕ) (loaded : Bool) (h : v.model ≠ none) : v.setModel joints loaded = (false, v) := by
  have : v.model.isSome = true := by cases hm : v.model <;> simp_all
  simp [Viz.setModel, this]

/-- C75: what is drawn.  The arrows in excess of those of the state stay where they were. -/
theorem C75_shown_partial (v : Viz) (s : State ℝ) (h : v.model = some s.joints.length) :
    ∃ v', v.visualizeState s = (true, v') ∧ v'.log = v.log ++ [.draw v'.scene] ∧ v'.model = v.model ∧
      v'.scene = ⟨s.base, s.joints, arrowsOf s ++ v.scene.arrows.drop (arrowsOf s).length, v.scene.cameraPosition, v.scene.cameraTarget⟩ := by
  refine ⟨(v.update s).emit (.draw (v.update s).scene), ?_, ?_, ?_, ?_⟩
  · simp [Viz.visualizeState, h]
  · show (v.update s).log ++ _ = _
    rw [(update_rest v s).2.1]
    rfl
  · exact (update_rest v s).1
  · exact update_scene v s h

/-- C75: it is the state and nothing else, if the window has no more arrows than the state. -/
theorem C75_exact (v : Viz) (s : State ℝ) (h : v.model = some s.joints.length) (ha : v.scene.arrows.length ≤ (arrowsOf s).length) :
    drawings (v.visualizeState s).2.log = drawings v.log ++ [picture s v.scene.cameraPosition v.scene.cameraTarget] := by
  obtain ⟨v', h1, h2, -, h3⟩ := C75_shown_partial v s h
  rw [h1]
  dsimp only
  rw [h2, h3, List.drop_eq_nil_of_le ha, List.append_nil, drawings_append]
  rfl

/-- C75: so it is, whatever was shown before, if all the states shown since the window was empty have the same number of contact points. -/
theorem C75_history (v : Viz) (before : List (State ℝ)) (s : State ℝ) (hv : v.model = some s.joints.length) (he : v.scene.arrows = [])
    (hb : ∀ t ∈ before, t.joints.length = s.joints.length ∧ (arrowsOf t).length = (arrowsOf s).length) :
    let w := before.foldl (fun v t => (v.visualizeState t).2) v
    drawings (w.visualizeState s).2.log = drawings w.log ++ [picture s v.scene.cameraPosition v.scene.cameraTarget] := by
  have key : ∀ (l : List (State ℝ)) (v : Viz), v.model = some s.joints.length → v.scene.arrows.length ≤ (arrowsOf s).length →
      (∀ t ∈ l, t.joints.length = s.joints.length ∧ (arrowsOf t).length = (arrowsOf s).length) →
      let w := l.foldl (fun v t => (v.visualizeState t).2) v
      w.model = some s.joints.length ∧ w.scene.arrows.length ≤ (arrowsOf s).length ∧ w.scene.cameraPosition = v.scene.cameraPosition ∧
        w.scene.cameraTarget = v.scene.cameraTarget := by
    intro l
    induction l with
    | nil => intro v h1 h2 _; exact ⟨h1, h2, rfl, rfl⟩
    | cons t l ih =>
      intro v h1 h2 h3
      obtain ⟨e1, e2⟩ := h3 t List.mem_cons_self
      obtain ⟨v', k1, -, k2, k3⟩ := C75_shown_partial v t (by rw [h1, e1])
      have := ih v' (by rw [k2, h1]) (by
        rw [k3]
        simp only [List.length_append, List.length_drop, e2]
        omega) fun u hu => h3 u (List.mem_cons_of_mem _ hu)
      simp only [List.foldl_cons, k1]
      rw [k3] at this
      exact this
  obtain ⟨h1, h2, h3, h4⟩ := key before v hv (by simp [he]) hb
  intro w
  rw [← h3, ← h4]
  exact C75_exact w s h1 h2

/-- C75 (finding): a state with fewer contact points is drawn with the arrows of the state before. -/
theorem C75_finding_stale_arrows (v : Viz) (s t : State ℝ) (hv : v.model = some s.joints.length) (ht : t.joints.length = s.joints.length) (p : PointState ℝ)
    (hs : s.left = [p]) (hs' : s.right = []) (hl : t.left = []) (hr : t.right = []) (he : v.scene.arrows = []) :
    ∃ scene, drawings (((v.visualizeState s).2.visualizeState t).2.log) = drawings (v.visualizeState s).2.log ++ [scene] ∧ scene.base = t.base ∧
      arrowsOf t = [] ∧ scene.arrows = [(p.position, p.force)] := by
  obtain ⟨v1, h1, -, h3, h4⟩ := C75_shown_partial v s hv
  obtain ⟨v2, k1, k2, -, k4⟩ := C75_shown_partial v1 t (by rw [h3, hv, ht])
  refine ⟨v2.scene, ?_, by rw [k4], by simp [arrowsOf, hl, hr], ?_⟩
  · rw [h1]; dsimp only; rw [k1]; dsimp only; rw [k2, drawings_append]; rfl
  · rw [k4, h4]; simp [arrowsOf, hl, hr, hs, hs', he]

/-! ### C76: showing a sequence of states -/

/-- C76: the states up to the first one after the end time are drawn, in order, once each. -/
theorem C76_states (v : Viz) (elapsed : ℕ → ℝ) (states : List (State ℝ)) (endTime : ℝ) {n : ℕ} (h : Ready v states n) :
    (v.visualizeStates elapsed states endTime).1 = true ∧
    ∃ shown, shown <+: states ∧ (∀ s ∈ shown, Before endTime s) ∧ (∀ s ∈ (states.drop shown.length).head?, ¬ Before endTime s) ∧
      drawings (v.visualizeStates elapsed states endTime).2.log =
        drawings v.log ++ shown.map fun s => picture s v.scene.cameraPosition v.scene.cameraTarget := by
  have h0 : v.model.isNone = false := by have := h.loaded; cases hm : v.model <;> simp [hm] at this ⊢
  have key : ∀ (states : List (State ℝ)) (i : ℕ) (v : Viz), Ready v states n →
      ∃ shown, shown <+: states ∧ (∀ s ∈ shown, Before endTime s) ∧ (∀ s ∈ (states.drop shown.length).head?, ¬ Before endTime s) ∧
        drawings (statesLoop elapsed endTime i states v).log = drawings v.log ++ shown.map fun s => picture s v.scene.cameraPosition v.scene.cameraTarget := by
    intro states
    induction states with
    | nil => intro i v _; exact ⟨[], List.nil_prefix, by simp, by simp, by simp [statesLoop]⟩
    | cons s rest ih =>
      intro i v hv
      rw [statesLoop]
      split_ifs with hc
      · refine ⟨[], List.nil_prefix, by simp, ?_, by simp⟩
        intro t ht
        obtain rfl : s = t := by simpa using ht
        rintro (h | h)
        · exact absurd hc.1 (not_lt.2 h)
        · exact absurd hc.2 (not_lt.2 h)
      · obtain ⟨h1, h2⟩ := update_ready hv
        rw [(visualizeState_ready hv).2, pace_eq]
        obtain ⟨shown, g1, g2, g3, g4⟩ := ih (i + 1) { (v.update s).emit (.draw (picture s v.scene.cameraPosition v.scene.cameraTarget)) with
          log := ((v.update s).emit (.draw (picture s v.scene.cameraPosition v.scene.cameraTarget))).log ++ waits (elapsed i) s rest } (h2.log _)
        refine ⟨s :: shown, (List.cons_prefix_cons).2 ⟨rfl, g1⟩, ?_, ?_, ?_⟩
        · intro t ht
          rcases List.mem_cons.1 ht with rfl | ht
          · rw [not_and_or] at hc
            exact hc.imp not_lt.1 not_lt.1
          · exact g2 t ht
        · simpa using g3
        · rw [g4]
          show drawings (((v.update s).log ++ [_]) ++ waits (elapsed i) s rest) ++ _ = _
          rw [(update_rest v s).2.1, drawings_append, drawings_append, (waits_nothing _ _ _).1, List.append_nil, List.map_cons, List.append_assoc]
          congr 1
          show _ = [_] ++ _
          congr 1
          simp only [Viz.emit, h1, picture]
  unfold Viz.visualizeStates
  rw [h0]
  simp only [Bool.false_eq_true, if_false]
  exact ⟨trivial, key states 0 v h⟩

/-- C76: the same with a camera for each state; afterwards the camera is where the user had put it. -/
theorem C76_states_with_camera (v : Viz) (elapsed : ℕ → ℝ) (states : List (State ℝ)) (positions targets : List (V3 ℝ)) (endTime : ℝ) {n : ℕ} (h : Ready v states n)
    (hp : positions.length = states.length) (ht : targets.length = states.length) :
    (v.visualizeStatesWithCamera elapsed states positions targets endTime).1 = true ∧
    (v.visualizeStatesWithCamera elapsed states positions targets endTime).2.scene.cameraPosition = v.defaultPosition ∧
    (v.visualizeStatesWithCamera elapsed states positions targets endTime).2.scene.cameraTarget = v.defaultTarget ∧
    ∃ k ≤ states.length, (∀ s ∈ states.take k, Before endTime s) ∧ (∀ s ∈ (states.drop k).head?, ¬ Before endTime s) ∧
      drawings (v.visualizeStatesWithCamera elapsed states positions targets endTime).2.log =
        drawings v.log ++ ((states.zip (positions.zip targets)).take k).map fun x => picture x.1 x.2.1 x.2.2 := by
  have h0 : v.model.isNone = false := by have := h.loaded; cases hm : v.model <;> simp [hm] at this ⊢
  have key : ∀ (l : List (State ℝ × V3 ℝ × V3 ℝ)) (i : ℕ) (v : Viz), Ready v (l.map (·.1)) n →
      (cameraLoop elapsed endTime i l v).defaultPosition = v.defaultPosition ∧ (cameraLoop elapsed endTime i l v).defaultTarget = v.defaultTarget ∧
      ∃ k ≤ l.length, (∀ s ∈ (l.map (·.1)).take k, Before endTime s) ∧ (∀ s ∈ ((l.map (·.1)).drop k).head?, ¬ Before endTime s) ∧
        drawings (cameraLoop elapsed endTime i l v).log = drawings v.log ++ (l.take k).map fun x => picture x.1 x.2.1 x.2.2 := by
    intro l
    induction l with
    | nil => intro i v _; exact ⟨rfl, rfl, 0, le_rfl, by simp, by simp, by simp [cameraLoop]⟩
    | cons x rest ih =>
      intro i v hv
      obtain ⟨s, p, t⟩ := x
      rw [cameraLoop]
      split_ifs with hc
      · refine ⟨rfl, rfl, 0, Nat.zero_le _, by simp, ?_, by simp⟩
        intro t ht
        obtain rfl : s = t := by simpa using ht
        rintro (h | h)
        · exact absurd hc.1 (not_lt.2 h)
        · exact absurd hc.2 (not_lt.2 h)
      · have hv' := hv.aim p t
        obtain ⟨h1, h2⟩ := update_ready hv'
        rw [(visualizeState_ready hv').2, pace_eq]
        obtain ⟨g5, g6, k, g1, g2, g3, g4⟩ := ih (i + 1) { ((v.aim p t).update s).emit (.draw (picture s p t)) with
          log := (((v.aim p t).update s).emit (.draw (picture s p t))).log ++ waits (elapsed i) s (rest.map (·.1)) } (h2.log _)
        refine ⟨g5.trans (update_rest _ _).2.2.1, g6.trans (update_rest _ _).2.2.2, k + 1, by simpa using g1, ?_, by simpa using g3, ?_⟩
        · intro u hu
          simp only [List.map_cons, List.take_succ_cons, List.mem_cons] at hu
          rcases hu with rfl | hu
          · rw [not_and_or] at hc
            exact hc.imp not_lt.1 not_lt.1
          · exact g2 u hu
        · rw [List.take_succ_cons, List.map_cons]
          refine Eq.trans g4 ?_
          show drawings ((((v.aim p t).update s).log ++ [_]) ++ waits (elapsed i) s (rest.map (·.1))) ++ _ = _
          rw [(update_rest _ s).2.1, drawings_append, drawings_append, (waits_nothing _ _ _).1, List.append_nil, List.append_assoc]
          rfl
  have e : (states.zip (positions.zip targets)).map (·.1) = states := by
    rw [List.map_fst_zip]
    rw [List.length_zip, hp, ht]; simp
  obtain ⟨h5, h6, k, g1, g2, g3, g4⟩ := key (states.zip (positions.zip targets)) 0 v (by rw [e]; exact h)
  rw [e] at g2 g3
  unfold Viz.visualizeStatesWithCamera
  rw [h0]
  simp only [Bool.false_eq_true, if_false, hp, ht, ne_eq, not_true_eq_false]
  refine ⟨trivial, h5, h6, k, ?_, g2, g3, g4⟩
  simpa [hp, ht] using g1

/-- C76: the camera set by the user is the one of the pictures, and after a trajectory with moving cameras it is there again. -/
theorem C76_camera (v : Viz) (position target : V3 ℝ) (elapsed : ℕ → ℝ) (states others : List (State ℝ)) (positions targets : List (V3 ℝ)) (endTime : ℝ) {n : ℕ}
    (h : Ready v states n) (ho : Ready v others n) (hp : positions.length = states.length) (ht : targets.length = states.length) (w : Viz)
    (hw : w = ((v.setCameraPosition position).setCameraTarget target) ∨ w = ((v.setCameraTarget target).setCameraPosition position)) :
    (∀ s ∈ others, drawings (w.visualizeState s).2.log = drawings v.log ++ [picture s position target]) ∧
    (w.visualizeStatesWithCamera elapsed states positions targets endTime).2.scene.cameraPosition = position ∧
    (w.visualizeStatesWithCamera elapsed states positions targets endTime).2.scene.cameraTarget = target := by
  have e : w.defaultPosition = position ∧ w.defaultTarget = target ∧ w.scene.cameraPosition = position ∧ w.scene.cameraTarget = target ∧
      w.model = v.model ∧ w.scene.arrows = v.scene.arrows ∧ w.log = v.log := by
    rcases hw with rfl | rfl <;> exact ⟨rfl, rfl, rfl, rfl, rfl, rfl, rfl⟩
  obtain ⟨e1, e2, e3, e4, e5, e6, e7⟩ := e
  have r : ∀ l : List (State ℝ), Ready v l n → Ready w l n := fun l h =>
    ⟨by rw [e5]; exact h.joints, by rw [e5]; exact h.loaded, h.points, by rw [e6]; exact h.arrows⟩
  obtain ⟨-, h1, h2, -⟩ := C76_states_with_camera w elapsed states positions targets endTime (r _ h) hp ht
  refine ⟨fun s hs => ?_, h1.trans e1, h2.trans e2⟩
  have hr : Ready w [s] n := ⟨fun x hx => by
    rw [List.mem_singleton.1 hx]; exact (r _ ho).joints s hs, (r _ ho).loaded, fun x hx => by
    rw [List.mem_singleton.1 hx]; exact (r _ ho).points s hs, (r _ ho).arrows⟩
  rw [(visualizeState_ready hr).2, e3, e4]
  show drawings ((w.update s).log ++ [_]) = _
  rw [(update_rest w s).2.1, drawings_append, e7]
  rfl

/-- C76: each frame that has a next state is kept for at least the time to the next state (rounded to milliseconds), and no more than a millisecond longer if
the drawing took less. -/
theorem C76_pace (v : Viz) (elapsed : ℝ) (s next : State ℝ) (rest : List (State ℝ)) :
    ∃ w : ℤ, 0 ≤ w ∧ (v.pace elapsed s (next :: rest)).log = v.log ++ (if w = 0 then [] else [.wait w]) ∧
      (stdRound ((next.time - s.time) * 1000) : ℝ) ≤ elapsed + w ∧ (elapsed ≤ stdRound ((next.time - s.time) * 1000) → elapsed + w < stdRound ((next.time - s.time) * 1000) + 1) := by
  rw [pace_eq]
  simp only [waits]
  set d := stdRound ((next.time - s.time) * 1000)
  have h1 := Int.floor_le elapsed
  have h2 := Int.lt_floor_add_one elapsed
  split_ifs with h
  · refine ⟨d - ⌊elapsed⌋, by omega, by rw [if_neg (by omega)], ?_, fun _ => ?_⟩ <;> push_cast <;> linarith
  · refine ⟨0, le_rfl, by simp, ?_, fun h3 => ?_⟩
    · have : (d : ℝ) ≤ ⌊elapsed⌋ := by exact_mod_cast not_lt.1 h
      simp; linarith
    · simp; linarith

/-! ### C77: saving an animation -/

/-- C77: the names of the images.  They never fail, they have the number of digits that the command of the video expects, and the number is the one of the state. -/
theorem C77_names (folder file : String) (n i : ℕ) (h : i < n) :
    ∃ number : String, imageName folder file (digitsFor n) i = some (folder ++ "/" ++ file ++ "_img_" ++ number ++ ".png") ∧
      number.length = digitsFor n ∧ readNumber number.toList = i :=
  ⟨padded (digitsFor n) i, imageName_some (digits_lt h.le), padded_length (digits_lt h.le), readNumber_padded _ _⟩

/-- C77: different states have different images. -/
theorem C77_names_differ (folder file : String) (digits i j : ℕ) (name : String) (hi : imageName folder file digits i = some name)
    (hj : imageName folder file digits j = some name) : i = j := by
  have key : ∀ k, imageName folder file digits k = some name → (folder ++ "/" ++ file ++ "_img_" ++ padded digits k ++ ".png") = name := by
    intro k hk
    rw [imageName] at hk
    split_ifs at hk
    exact Option.some.inj hk
  have h := congrArg String.toList ((key i hi).trans (key j hj).symm)
  simp only [String.toList_append, List.append_assoc] at h
  have h2 := List.append_cancel_right (List.append_cancel_left (List.append_cancel_left (List.append_cancel_left (List.append_cancel_left h))))
  rw [← readNumber_padded digits i, ← readNumber_padded digits j, h2]

/-- The loop, when the end time is not negative. -/
theorem animationLoop_all (elapsed : ℕ → ℝ) (folder file : String) (digits : ℕ) (endTime : ℝ) (he : 0 ≤ endTime) (n : ℕ) :
    ∀ (states : List (State ℝ)) (i : ℕ) (v : Viz), Ready v states n → (∀ j < i + states.length, (toString j).length ≤ digits) →
      ∃ v', animationLoop elapsed folder file digits endTime i states v = some (i + states.length, v') ∧
        drawings v'.log = drawings v.log ++ (states.map fun s => picture s v.scene.cameraPosition v.scene.cameraTarget) ∧
        images v'.log = images v.log ++ (List.range' i states.length).map (fun j => folder ++ "/" ++ file ++ "_img_" ++ padded digits j ++ ".png") ∧
        commands v'.log = commands v.log := by
  intro states
  induction states with
  | nil => intro i v _ _; exact ⟨v, by simp [animationLoop], by simp, by simp, rfl⟩
  | cons s rest ih =>
    intro i v hv hd
    rw [animationLoop, if_pos (Or.inl (not_lt.2 he))]
    obtain ⟨h1, h2⟩ := update_ready hv
    rw [(visualizeState_ready hv).2, imageName_some (hd i (by simp))]
    simp only [Option.bind_eq_bind, Option.bind_some]
    rw [pace_eq]
    obtain ⟨v', g1, g2, g3, g4⟩ := ih (i + 1) _ (h2.log (((((v.update s).emit (.draw (picture s v.scene.cameraPosition v.scene.cameraTarget))).emit
      (.image (folder ++ "/" ++ file ++ "_img_" ++ padded digits i ++ ".png"))).log ++ waits (elapsed i) s rest))) (fun j hj => hd j (by simp; omega))
    have e : (((v.update s).emit (.draw (picture s v.scene.cameraPosition v.scene.cameraTarget))).emit
      (.image (folder ++ "/" ++ file ++ "_img_" ++ padded digits i ++ ".png"))).log =
      v.log ++ [.draw (picture s v.scene.cameraPosition v.scene.cameraTarget)] ++ [.image (folder ++ "/" ++ file ++ "_img_" ++ padded digits i ++ ".png")] := by
      simp only [Viz.emit, (update_rest v s).2.1]
    refine ⟨v', ?_, ?_, ?_, ?_⟩
    · rw [show i + (s :: rest).length = i + 1 + rest.length by simp; omega]
      exact g1
    · rw [g2]
      simp only [e, drawings_append, (waits_nothing _ _ _).1, h1]
      simp [drawings, picture]
    · rw [g3]
      simp only [e, images_append, (waits_nothing _ _ _).2.1]
      simp [images, List.range'_succ]
    · rw [g4]
      simp only [e, commands_append, (waits_nothing _ _ _).2.2]
      simp [commands]

/-- C77: with an end time that is not negative, there is an image of every state, in order, and the video is made from all of them. -/
theorem C77_animation_partial (v : Viz) (elapsed : ℕ → ℝ) (states : List (State ℝ)) (folder file extension : String) (endTime : ℝ) (he : 0 ≤ endTime) {n : ℕ}
    (h : Ready v states n) (hs : states ≠ []) :
    ∃ v', v.saveAnimation elapsed states folder file extension endTime = some (true, v') ∧
      drawings v'.log = drawings v.log ++ (states.map fun s => picture s v.scene.cameraPosition v.scene.cameraTarget) ∧
      images v'.log = images v.log ++ (List.range states.length).map (fun i => folder ++ "/" ++ file ++ "_img_" ++ padded (digitsFor states.length) i ++ ".png") ∧
      commands v'.log = commands v.log ++ [ffmpeg (stdRound (states.length / (states.getLast hs).time)) folder file extension (digitsFor states.length)] := by
  have h0 : v.model.isNone = false := by have := h.loaded; cases hm : v.model <;> simp [hm] at this ⊢
  obtain ⟨v', g1, g2, g3, g4⟩ := animationLoop_all elapsed folder file (digitsFor states.length) endTime he n states 0 v h
    fun j hj => digits_lt (by omega)
  have hl : 0 < states.length := List.length_pos_iff.2 hs
  have hlast : states[states.length - 1]? = some states[states.length - 1] := List.getElem?_eq_getElem (by omega)
  refine ⟨v'.emit (.command (ffmpeg (stdRound (states.length / states[states.length - 1].time)) folder file extension (digitsFor states.length))), ?_, ?_, ?_, ?_⟩
  · rw [Viz.saveAnimation, h0]
    simp only [Bool.false_eq_true, if_false]
    rw [g1]
    simp only [Nat.zero_add, Option.bind_eq_bind, Option.bind_some]
    rw [if_neg (by omega), hlast]
    rfl
  · simp only [Viz.emit, drawings_append, g2]; simp [drawings]
  · simp only [Viz.emit, images_append, g3, List.range_eq_range']; simp [images]
  · simp only [Viz.emit, commands_append, g4, List.getLast_eq_getElem]; simp [commands]

/-- C77 (finding): so the end time never cuts the animation; the states after it are saved too. -/
theorem C77_finding_end_time_ignored (v : Viz) (elapsed : ℕ → ℝ) (states : List (State ℝ)) (folder file extension : String) (endTime : ℝ) (he : 0 ≤ endTime) {n : ℕ}
    (h : Ready v states n) (s : State ℝ) (hs : s ∈ states) (_late : ¬ Before endTime s) :
    ∃ v', v.saveAnimation elapsed states folder file extension endTime = some (true, v') ∧
      picture s v.scene.cameraPosition v.scene.cameraTarget ∈ drawings v'.log ∧ (images v'.log).length = (images v.log).length + states.length := by
  obtain ⟨v', h1, h2, h3, -⟩ := C77_animation_partial v elapsed states folder file extension endTime he h (List.ne_nil_of_mem hs)
  refine ⟨v', h1, ?_, by simp [h3]⟩
  rw [h2]
  exact List.mem_append_right _ (List.mem_map.2 ⟨s, hs, rfl⟩)

/-- C77 (finding): with the default end time nothing is saved, and success is reported. -/
theorem C77_finding_default_saves_nothing (v : Viz) (elapsed : ℕ → ℝ) (s : State ℝ) (rest : List (State ℝ)) (folder file extension : String)
    (h : v.model.isSome) (ht : 0 ≤ s.time) : v.saveAnimation elapsed (s :: rest) folder file extension (-1) = some (true, v) := by
  have h0 : v.model.isNone = false := by cases hm : v.model <;> simp [hm] at h ⊢
  rw [Viz.saveAnimation, h0]
  simp only [Bool.false_eq_true, if_false]
  have : ¬ (¬ (-1 : ℝ) < 0 ∨ s.time ≤ -1) := by
    rintro (h | h)
    · exact h (by norm_num)
    · linarith
  rw [animationLoop, if_neg this]
  rfl

/-! ### The hypotheses are met -/

noncomputable def sampleState (time : ℝ) : State ℝ :=
  { left := [⟨⟨0, 0, 50⟩, ⟨1, 1, 0⟩⟩]
    right := [⟨⟨0, 0, 10⟩, ⟨0, -1, 0⟩⟩]
    linearMomentum := 0
    angularMomentum := 0
    com := ⟨1, 0, 1⟩
    base := identityTransform ℝ
    joints := [0, 1]
    time := time }

noncomputable def sampleViz : Viz := ⟨some 2, ⟨identityTransform ℝ, [0, 0], [], 0, 0⟩, 0, 0, []⟩

theorem sample_ready : Ready sampleViz [sampleState 0, sampleState 1, sampleState 2] 2 := by
  refine ⟨?_, rfl, ?_, by simp [sampleViz]⟩ <;> intro s hs <;> simp only [List.mem_cons, List.not_mem_nil, or_false] at hs <;>
    rcases hs with rfl | rfl | rfl <;> rfl

/-- Two of the three states are shown. -/
example : drawings (sampleViz.visualizeStates (fun _ => 3) [sampleState 0, sampleState 1, sampleState 2] 1).2.log =
    [picture (sampleState 0) 0 0, picture (sampleState 1) 0 0] := by
  obtain ⟨-, shown, h1, h2, h3, h4⟩ := C76_states sampleViz (fun _ => 3) _ 1 sample_ready
  rw [h4]
  obtain ⟨k, hk, rfl⟩ : ∃ k ≤ 3, shown = [sampleState 0, sampleState 1, sampleState 2].take k := ⟨shown.length, h1.length_le, (List.prefix_iff_eq_take.1 h1)⟩
  have b0 : Before 1 (sampleState 0) := Or.inr (by norm_num [sampleState])
  have b1 : Before 1 (sampleState 1) := Or.inr (by norm_num [sampleState])
  have b2 : ¬ Before 1 (sampleState 2) := by
    rintro (h | h)
    · norm_num at h
    · norm_num [sampleState] at h
  interval_cases k
  · exact absurd b0 (h3 _ rfl)
  · exact absurd b1 (h3 _ rfl)
  · rfl
  · exact absurd (h2 (sampleState 2) (by simp)) b2

example := C77_finding_end_time_ignored sampleViz (fun _ => 3) _ "folder" "video" "mp4" 1 (by norm_num) sample_ready (sampleState 2) (by simp)
  (by rintro (h | h); · norm_num at h
      · norm_num [sampleState] at h)
example := C77_finding_default_saves_nothing sampleViz (fun _ => 3) (sampleState 0) [sampleState 1] "folder" "video" "mp4" rfl le_rfl
example := C75_history sampleViz [sampleState 0, sampleState 1] (sampleState 2) rfl rfl (by
  intro t ht; simp only [List.mem_cons, List.not_mem_nil, or_false] at ht; rcases ht with rfl | rfl <;> exact ⟨rfl, rfl⟩)

end Verif.Visualizer
