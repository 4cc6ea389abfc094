import Verif.Lemmas.Packing
import Verif.Model.Problem
/- The labels added are found, with their ranges, and listed in order. -/
set_option linter.unusedSectionVars false
set_option linter.unusedSimpArgs false
namespace Verif.SolverM
open Labeller (Labeller Range)
variable {K : Type} [Zero K]

theorem find_append (m m' : List (String × Range)) (name : String) :
    Labeller.find (m ++ m') name = (Labeller.find m name).or (Labeller.find m' name) := by
  induction m with
  | nil => simp [Labeller.find]
  | cons p m ih =>
    obtain ⟨k, r⟩ := p
    by_cases h : k = name
    · simp [Labeller.find, h]
    · simp [Labeller.find, h, ih]

/-- What is found in `m` is found in `m'`. -/
def Mono (s s' : Labeller K) : Prop := ∀ k r, Labeller.getIndexRange s k = some r → Labeller.getIndexRange s' k = some r

theorem Mono.refl (s : Labeller K) : Mono s s := fun _ _ h => h
theorem Mono.trans {a b c : Labeller K} (h : Mono a b) (h' : Mono b c) : Mono a c := fun k r x => h' k r (h k r x)

theorem addLabel_find {s s' : Labeller K} {name : String} {dim : Nat} {r : Range} (h : addLabel s name dim = some (s', r)) :
    Labeller.getIndexRange s' name = some r ∧ Mono s s' ∧ s'.labels = s.labels ++ [name] := by
  unfold addLabel Labeller.add at h
  cases hf : Labeller.find s.map name with
  | some x => simp [hf] at h
  | none =>
    simp only [hf, Option.some.injEq, Prod.mk.injEq] at h
    obtain ⟨rfl, rfl⟩ := h
    refine ⟨?_, ?_, rfl⟩
    · unfold Labeller.getIndexRange
      rw [find_append, hf]
      simp [Labeller.find]
    · intro k r hk
      unfold Labeller.getIndexRange at hk ⊢
      rw [find_append, hk]
      rfl

/-- The state labels of a foot, in order. -/
def footStateLabels (foot : String) (n : Nat) : List String :=
  (List.range n).flatMap fun i => [foot ++ "ForcePoint" ++ toString i, foot ++ "PositionPoint" ++ toString i]
/-- The control labels of a foot, in order. -/
def footControlLabels (foot : String) (n : Nat) : List String :=
  (List.range n).flatMap fun i => [foot ++ "VelocityControlPoint" ++ toString i, foot ++ "ForceControlPoint" ++ toString i]

/-- The ranges of the points of a foot are the ones found under its labels. -/
structure FootFound (foot : String) (s c : Labeller K) (r : FootRanges) (n : Nat) : Prop where
  force : ∀ i, i < n → ∃ x, r.forcePoints[i]? = some x ∧ Labeller.getIndexRange s (foot ++ "ForcePoint" ++ toString i) = some x
  position : ∀ i, i < n → ∃ x, r.positionPoints[i]? = some x ∧ Labeller.getIndexRange s (foot ++ "PositionPoint" ++ toString i) = some x
  velocityControl : ∀ i, i < n → ∃ x, r.velocityControlPoints[i]? = some x ∧
    Labeller.getIndexRange c (foot ++ "VelocityControlPoint" ++ toString i) = some x
  forceControl : ∀ i, i < n → ∃ x, r.forceControlPoints[i]? = some x ∧
    Labeller.getIndexRange c (foot ++ "ForceControlPoint" ++ toString i) = some x

theorem FootFound.mono {foot : String} {s c s' c' : Labeller K} {r : FootRanges} {n : Nat} (h : FootFound foot s c r n) (hs : Mono s s') (hc : Mono c c') :
    FootFound foot s' c' r n :=
  ⟨fun i hi => (h.force i hi).imp fun _ x => ⟨x.1, hs _ _ x.2⟩, fun i hi => (h.position i hi).imp fun _ x => ⟨x.1, hs _ _ x.2⟩,
    fun i hi => (h.velocityControl i hi).imp fun _ x => ⟨x.1, hc _ _ x.2⟩, fun i hi => (h.forceControl i hi).imp fun _ x => ⟨x.1, hc _ _ x.2⟩⟩

theorem snoc_found {l : List Range} {n : Nat} (hl : l.length = n) (x : Range) (P : Nat → Range → Prop) (h : ∀ i, i < n → ∃ y, l[i]? = some y ∧ P i y)
    (hx : P n x) : ∀ i, i < n + 1 → ∃ y, (l ++ [x])[i]? = some y ∧ P i y := by
  intro i hi
  by_cases hin : i < n
  · obtain ⟨y, h1, h2⟩ := h i hin
    exact ⟨y, by rw [List.getElem?_append_left (by omega), h1], h2⟩
  · obtain rfl : i = n := by omega
    exact ⟨x, by rw [List.getElem?_append_right (by omega)]; simp [hl], hx⟩

theorem setFootVariables_find (foot : String) (s c : Labeller K) (n : Nat) {s' c' : Labeller K} {r : FootRanges}
    (h : setFootVariables foot s c n = some (s', c', r)) :
    FootFound foot s' c' r n ∧ Mono s s' ∧ Mono c c' ∧ s'.labels = s.labels ++ footStateLabels foot n ∧
      c'.labels = c.labels ++ footControlLabels foot n ∧
      (r.positionPoints.length = n ∧ r.forcePoints.length = n ∧ r.velocityControlPoints.length = n ∧ r.forceControlPoints.length = n) := by
  induction n generalizing s' c' r with
  | zero =>
    simp only [setFootVariables, Option.some.injEq, Prod.mk.injEq] at h
    obtain ⟨rfl, rfl, rfl⟩ := h
    exact ⟨⟨by simp, by simp, by simp, by simp⟩, .refl _, .refl _, by simp [footStateLabels], by simp [footControlLabels], rfl, rfl, rfl, rfl⟩
  | succ n ih =>
    unfold setFootVariables at h
    cases e0 : setFootVariables foot s c n with
    | none => simp [e0] at h
    | some q =>
      obtain ⟨s1, c1, r1⟩ := q
      obtain ⟨hF, hs, hc, ls, lc, l1, l2, l3, l4⟩ := ih e0
      simp only [e0] at h
      cases e1 : addLabel s1 (foot ++ "ForcePoint" ++ toString n) 3 with
      | none => rw [e1] at h; simp at h
      | some q =>
        obtain ⟨s2, x1⟩ := q
        simp only [e1] at h
        obtain ⟨f1, m1, k1⟩ := addLabel_find e1
        cases e2 : addLabel s2 (foot ++ "PositionPoint" ++ toString n) 3 with
        | none => rw [e2] at h; simp at h
        | some q =>
          obtain ⟨s3, x2⟩ := q
          simp only [e2] at h
          obtain ⟨f2, m2, k2⟩ := addLabel_find e2
          cases e3 : addLabel c1 (foot ++ "VelocityControlPoint" ++ toString n) 3 with
          | none => rw [e3] at h; simp at h
          | some q =>
            obtain ⟨c2, x3⟩ := q
            simp only [e3] at h
            obtain ⟨f3, m3, k3⟩ := addLabel_find e3
            cases e4 : addLabel c2 (foot ++ "ForceControlPoint" ++ toString n) 3 with
            | none => rw [e4] at h; simp at h
            | some q =>
              obtain ⟨c3, x4⟩ := q
              simp only [e4, Option.some.injEq, Prod.mk.injEq] at h
              obtain ⟨f4, m4, k4⟩ := addLabel_find e4
              obtain ⟨rfl, rfl, rfl⟩ := h
              have hF' := hF.mono (m1.trans m2) (m3.trans m4)
              refine ⟨⟨?_, ?_, ?_, ?_⟩, hs.trans (m1.trans m2), hc.trans (m3.trans m4), ?_, ?_, ?_, ?_, ?_, ?_⟩
              · exact snoc_found l2 x1 _ hF'.force (m2 _ _ f1)
              · exact snoc_found l1 x2 _ hF'.position f2
              · exact snoc_found l3 x3 _ hF'.velocityControl (m4 _ _ f3)
              · exact snoc_found l4 x4 _ hF'.forceControl f4
              · rw [k2, k1, ls]; simp [footStateLabels, List.range_succ, List.flatMap_append]
              · rw [k4, k3, lc]; simp [footControlLabels, List.range_succ, List.flatMap_append]
              · simp [l1]
              · simp [l2]
              · simp [l3]
              · simp [l4]

/-- Everything is found under its name. -/
structure Found (s c : Labeller K) (r : Ranges) (n : Nat) : Prop where
  left : FootFound "Left" s c r.left n
  right : FootFound "Right" s c r.right n
  momentum : Labeller.getIndexRange s "Momentum" = some r.momentum
  comPosition : Labeller.getIndexRange s "CoMPosition" = some r.comPosition
  basePosition : Labeller.getIndexRange s "BasePosition" = some r.basePosition
  baseQuaternion : Labeller.getIndexRange s "BaseQuaternion" = some r.baseQuaternion
  jointsPosition : Labeller.getIndexRange s "JointsPosition" = some r.jointsPosition
  baseLinearVelocity : Labeller.getIndexRange c "BaseLinearVelocity" = some r.baseLinearVelocity
  baseQuaternionDerivative : Labeller.getIndexRange c "BaseQuaternionDerivative" = some r.baseQuaternionDerivative
  jointsVelocity : Labeller.getIndexRange c "JointsVelocity" = some r.jointsVelocity

theorem structure_found {s0 c0 s c : Labeller K} {d n : Nat} {r : Ranges} (h : setVariablesStructure s0 c0 d n = some (s, c, r)) :
    Found s c r n ∧
    s.labels = footStateLabels "Left" n ++ footStateLabels "Right" n ++ ["Momentum", "CoMPosition", "BasePosition", "BaseQuaternion", "JointsPosition"] ∧
    c.labels = footControlLabels "Left" n ++ footControlLabels "Right" n ++ ["BaseLinearVelocity", "BaseQuaternionDerivative", "JointsVelocity"] := by
  unfold setVariablesStructure at h
  simp only [Option.bind_eq_bind, Option.bind_eq_some_iff, Prod.exists, Option.some.injEq, Prod.mk.injEq] at h
  obtain ⟨s1, c1, left, e1, s2, c2, right, e2, s3, x3, e3, s4, x4, e4, s5, x5, e5, s6, x6, e6, s7, x7, e7, c3, y3, g3, c4, y4, g4, c5, y5, g5, rfl, rfl, rfl⟩ := h
  obtain ⟨F1, -, -, L1, C1, -⟩ := setFootVariables_find _ _ _ _ e1
  obtain ⟨F2, M2, N2, L2, C2, -⟩ := setFootVariables_find _ _ _ _ e2
  obtain ⟨f3, m3, l3⟩ := addLabel_find e3
  obtain ⟨f4, m4, l4⟩ := addLabel_find e4
  obtain ⟨f5, m5, l5⟩ := addLabel_find e5
  obtain ⟨f6, m6, l6⟩ := addLabel_find e6
  obtain ⟨f7, m7, l7⟩ := addLabel_find e7
  obtain ⟨k3, q3, j3⟩ := addLabel_find g3
  obtain ⟨k4, q4, j4⟩ := addLabel_find g4
  obtain ⟨k5, q5, j5⟩ := addLabel_find g5
  have ms : Mono s2 s7 := m3.trans (m4.trans (m5.trans (m6.trans m7)))
  have mc : Mono c2 c5 := q3.trans (q4.trans q5)
  refine ⟨⟨F1.mono (M2.trans ms) (N2.trans mc), F2.mono ms mc, m7 _ _ (m6 _ _ (m5 _ _ (m4 _ _ f3))), m7 _ _ (m6 _ _ (m5 _ _ f4)),
    m7 _ _ (m6 _ _ f5), m7 _ _ f6, f7, q5 _ _ (q4 _ _ k3), q5 _ _ k4, k5⟩, ?_, ?_⟩
  · rw [l7, l6, l5, l4, l3, L2, L1]; simp [Labeller.clear]
  · rw [j5, j4, j3, C2, C1]; simp [Labeller.clear]

end Verif.SolverM
