import Verif.Model.Packing
/- The ranges of the labels are consecutive. -/
set_option linter.unusedSectionVars false
set_option linter.unusedSimpArgs false
namespace Verif.SolverM
open StateM
open Labeller (Labeller Range slice overwrite)
variable {K : Type} [Zero K]

theorem digits_inj {i j : Nat} (h : toString i = toString j) : i = j := by
  have h2 : i.repr.toList = j.repr.toList := congrArg String.toList h
  rw [Nat.toList_repr, Nat.toList_repr] at h2
  have := congrArg (fun l => Nat.ofDigitChars 10 l 0) h2
  simpa only [Nat.ofDigitChars_ten_toDigits] using this

theorem name_inj (a : String) {i j : Nat} (h : a ++ toString i = a ++ toString j) : i = j := by
  have h2 := congrArg String.toList h
  rw [String.toList_append, String.toList_append] at h2
  exact digits_inj (String.toList_inj.1 (List.append_cancel_left h2))

theorem name_ne (foot a b : String) (i j : Nat) (x y : Char) (ha : a.toList.head? = some x) (hb : b.toList.head? = some y) (hxy : x ≠ y) :
    foot ++ a ++ toString i ≠ foot ++ b ++ toString j := by
  intro h
  have h2 := congrArg String.toList h
  simp only [String.toList_append, List.append_assoc] at h2
  have h3 := List.append_cancel_left h2
  cases hA : a.toList with
  | nil => rw [hA] at ha; simp at ha
  | cons p ps =>
    cases hB : b.toList with
    | nil => rw [hB] at hb; simp at hb
    | cons q qs =>
      rw [hA, hB, List.cons_append, List.cons_append] at h3
      rw [hA] at ha
      rw [hB] at hb
      simp at ha hb h3
      exact hxy (by rw [← ha, ← hb, h3.1])

theorem first_ne (a b : String) (x y : Char) (ha : a.toList.head? = some x) (hb : b.toList.head? = some y) (hxy : x ≠ y) : a ≠ b := by
  rintro rfl
  rw [ha] at hb
  exact hxy (Option.some.inj hb)

theorem find_none (m : List (String × Range)) (name : String) (h : ∀ x ∈ m, x.1 ≠ name) : Labeller.find m name = none := by
  induction m with
  | nil => rfl
  | cons p m ih =>
    obtain ⟨k, r⟩ := p
    have : k ≠ name := h (k, r) (by simp)
    rw [Labeller.find, if_neg this]
    exact ih fun x hx => h x (by simp [hx])

/-- All the labels satisfy `P`, the vector has `n` elements. -/
def Labels (s : Labeller K) (P : String → Prop) (n : Nat) : Prop := (∀ x ∈ s.map, P x.1) ∧ s.full.length = n

theorem addLabel_new {s : Labeller K} {P : String → Prop} {n : Nat} (h : Labels s P n) (name : String) (dim : Nat) (hn : ¬ P name) :
    ∃ s', addLabel s name dim = some (s', ⟨n, dim⟩) ∧ Labels s' (fun x => P x ∨ x = name) (n + dim) := by
  have hf : Labeller.find s.map name = none := find_none _ _ (by rintro x hx rfl; exact hn (h.1 x hx))
  refine ⟨{ full := s.full ++ List.replicate dim 0, map := s.map ++ [(name, ⟨s.full.length, dim⟩)], labels := s.labels ++ [name] }, ?_, ?_, ?_⟩
  · unfold addLabel Labeller.add
    simp only [hf, h.2]
  · intro x hx
    rcases List.mem_append.1 hx with hx | hx
    · exact Or.inl (h.1 x hx)
    · rw [List.mem_singleton] at hx; subst hx; exact Or.inr rfl
  · simp [h.2]

theorem Labels.weaken {s : Labeller K} {P Q : String → Prop} {n : Nat} (h : Labels s P n) (hPQ : ∀ x, P x → Q x) : Labels s Q n :=
  ⟨fun x hx => hPQ _ (h.1 x hx), h.2⟩

/-- The ranges of one foot when the labels before take `off` positions. -/
def footAt (off n : Nat) : FootRanges :=
  ⟨(List.range n).map fun i => ⟨off + 6 * i + 3, 3⟩, (List.range n).map fun i => ⟨off + 6 * i, 3⟩,
    (List.range n).map fun i => ⟨off + 6 * i, 3⟩, (List.range n).map fun i => ⟨off + 6 * i + 3, 3⟩⟩

/-- State labels of a foot. -/
def FootS (foot : String) (n : Nat) (x : String) : Prop :=
  ∃ j < n, x = foot ++ "ForcePoint" ++ toString j ∨ x = foot ++ "PositionPoint" ++ toString j
/-- Control labels of a foot. -/
def FootC (foot : String) (n : Nat) (x : String) : Prop :=
  ∃ j < n, x = foot ++ "VelocityControlPoint" ++ toString j ∨ x = foot ++ "ForceControlPoint" ++ toString j

theorem setFootVariables_ok (foot : String) {s c : Labeller K} {P Q : String → Prop} {a b : Nat} (hs : Labels s P a) (hc : Labels c Q b)
    (hP : ∀ x, P x → ∀ k t, x ≠ foot ++ k ++ t) (hQ : ∀ x, Q x → ∀ k t, x ≠ foot ++ k ++ t) (hab : a = b) (n : Nat) :
    ∃ s' c', setFootVariables foot s c n = some (s', c', footAt a n) ∧ Labels s' (fun x => P x ∨ FootS foot n x) (a + 6 * n) ∧
      Labels c' (fun x => Q x ∨ FootC foot n x) (b + 6 * n) := by
  subst hab
  induction n with
  | zero => exact ⟨s, c, rfl, hs.weaken fun x h => Or.inl h, hc.weaken fun x h => Or.inl h⟩
  | succ n ih =>
    obtain ⟨s1, c1, e1, hs1, hc1⟩ := ih
    obtain ⟨s2, e2, hs2⟩ := addLabel_new hs1 (foot ++ "ForcePoint" ++ toString n) 3 (by
      rintro (h | ⟨j, hj, h | h⟩)
      · exact hP _ h _ _ rfl
      · exact absurd (name_inj _ h) (by omega)
      · exact name_ne foot _ _ _ _ 'F' 'P' rfl rfl (by decide) h)
    obtain ⟨s3, e3, hs3⟩ := addLabel_new hs2 (foot ++ "PositionPoint" ++ toString n) 3 (by
      rintro ((h | ⟨j, hj, h | h⟩) | h)
      · exact hP _ h _ _ rfl
      · exact name_ne foot _ _ _ _ 'P' 'F' rfl rfl (by decide) h
      · exact absurd (name_inj _ h) (by omega)
      · exact name_ne foot _ _ _ _ 'P' 'F' rfl rfl (by decide) h)
    obtain ⟨c2, e4, hc2⟩ := addLabel_new hc1 (foot ++ "VelocityControlPoint" ++ toString n) 3 (by
      rintro (h | ⟨j, hj, h | h⟩)
      · exact hQ _ h _ _ rfl
      · exact absurd (name_inj _ h) (by omega)
      · exact name_ne foot _ _ _ _ 'V' 'F' rfl rfl (by decide) h)
    obtain ⟨c3, e5, hc3⟩ := addLabel_new hc2 (foot ++ "ForceControlPoint" ++ toString n) 3 (by
      rintro ((h | ⟨j, hj, h | h⟩) | h)
      · exact hQ _ h _ _ rfl
      · exact name_ne foot _ _ _ _ 'F' 'V' rfl rfl (by decide) h
      · exact absurd (name_inj _ h) (by omega)
      · exact name_ne foot _ _ _ _ 'F' 'V' rfl rfl (by decide) h)
    refine ⟨s3, c3, ?_, ?_, ?_⟩
    · unfold setFootVariables
      simp only [e1, e2, e3, e4, e5]
      simp [footAt, List.range_succ]
    · have := hs3.weaken (Q := fun x => P x ∨ FootS foot (n + 1) x) (by
        rintro x ((( h | ⟨j, hj, h⟩) | h) | h)
        · exact Or.inl h
        · exact Or.inr ⟨j, by omega, h⟩
        · exact Or.inr ⟨n, by omega, Or.inl h⟩
        · exact Or.inr ⟨n, by omega, Or.inr h⟩)
      rwa [show a + 6 * n + 3 + 3 = a + 6 * (n + 1) by omega] at this
    · have := hc3.weaken (Q := fun x => Q x ∨ FootC foot (n + 1) x) (by
        rintro x ((( h | ⟨j, hj, h⟩) | h) | h)
        · exact Or.inl h
        · exact Or.inr ⟨j, by omega, h⟩
        · exact Or.inr ⟨n, by omega, Or.inl h⟩
        · exact Or.inr ⟨n, by omega, Or.inr h⟩)
      rwa [show a + 6 * n + 3 + 3 = a + 6 * (n + 1) by omega] at this

/-- The ranges for `n` points and `d` joints. -/
def rangesAt (d n : Nat) : Ranges :=
  { left := footAt 0 n, right := footAt (6 * n) n
    momentum := ⟨12 * n, 6⟩, comPosition := ⟨12 * n + 6, 3⟩, basePosition := ⟨12 * n + 9, 3⟩, baseQuaternion := ⟨12 * n + 12, 4⟩
    jointsPosition := ⟨12 * n + 16, d⟩
    baseLinearVelocity := ⟨12 * n, 3⟩, baseQuaternionDerivative := ⟨12 * n + 3, 4⟩, jointsVelocity := ⟨12 * n + 7, d⟩
    stateDimension := 12 * n + 16 + d, controlDimension := 12 * n + 7 + d }

theorem head_append (a b : String) (x : Char) (h : a.toList.head? = some x) : (a ++ b).toList.head? = some x := by
  rw [String.toList_append]
  cases ha : a.toList with
  | nil => rw [ha] at h; simp at h
  | cons p ps => rw [ha] at h; simpa using h

theorem FootS.head {foot : String} {n : Nat} {x : String} (h : FootS foot n x) {c : Char} (hc : foot.toList.head? = some c) : x.toList.head? = some c := by
  obtain ⟨j, -, rfl | rfl⟩ := h <;> exact head_append _ _ _ (head_append _ _ _ hc)

theorem FootC.head {foot : String} {n : Nat} {x : String} (h : FootC foot n x) {c : Char} (hc : foot.toList.head? = some c) : x.toList.head? = some c := by
  obtain ⟨j, -, rfl | rfl⟩ := h <;> exact head_append _ _ _ (head_append _ _ _ hc)

theorem ne_of_head {x y : String} {a b : Char} (h : x.toList.head? = some a) (h' : y.toList.head? = some b) (hab : a ≠ b) : x ≠ y :=
  first_ne x y a b h h' hab

/-- Each label is new, and gets the next positions. -/
theorem structure_ok (s c : Labeller K) (d n : Nat) : ∃ s' c', setVariablesStructure s c d n = some (s', c', rangesAt d n) ∧
    Labeller.size s' = 12 * n + 16 + d ∧ Labeller.size c' = 12 * n + 7 + d := by
  have h0 : Labels (Labeller.clear s) (fun _ => False) 0 := ⟨by simp [Labeller.clear], rfl⟩
  have k0 : Labels (Labeller.clear c) (fun _ => False) 0 := ⟨by simp [Labeller.clear], rfl⟩
  obtain ⟨s1, c1, e1, h1, k1⟩ := setFootVariables_ok "Left" h0 k0 (fun x h => h.elim) (fun x h => h.elim) rfl n
  obtain ⟨s2, c2, e2, h2, k2⟩ := setFootVariables_ok "Right" h1 k1
    (fun x h k t => ne_of_head ((h.resolve_left id).head (c := 'L') rfl) (head_append _ _ 'R' (head_append _ _ 'R' rfl)) (by decide))
    (fun x h k t => ne_of_head ((h.resolve_left id).head (c := 'L') rfl) (head_append _ _ 'R' (head_append _ _ 'R' rfl)) (by decide)) rfl n
  have h2' := h2.weaken (Q := fun x => x.toList.head? = some 'L' ∨ x.toList.head? = some 'R')
    (fun x h => h.elim (fun h => Or.inl ((h.resolve_left id).head rfl)) fun h => Or.inr (h.head rfl))
  have k2' := k2.weaken (Q := fun x => x.toList.head? = some 'L' ∨ x.toList.head? = some 'R')
    (fun x h => h.elim (fun h => Or.inl ((h.resolve_left id).head rfl)) fun h => Or.inr (h.head rfl))
  obtain ⟨s3, e3, h3⟩ := addLabel_new h2' "Momentum" 6 (by simp)
  obtain ⟨s4, e4, h4⟩ := addLabel_new h3 "CoMPosition" 3 (by simp)
  obtain ⟨s5, e5, h5⟩ := addLabel_new h4 "BasePosition" 3 (by simp)
  obtain ⟨s6, e6, h6⟩ := addLabel_new h5 "BaseQuaternion" 4 (by simp)
  obtain ⟨s7, e7, h7⟩ := addLabel_new h6 "JointsPosition" d (by simp)
  obtain ⟨c3, e8, k3⟩ := addLabel_new k2' "BaseLinearVelocity" 3 (by simp)
  obtain ⟨c4, e9, k4⟩ := addLabel_new k3 "BaseQuaternionDerivative" 4 (by simp)
  obtain ⟨c5, e10, k5⟩ := addLabel_new k4 "JointsVelocity" d (by simp)
  have z1 : Labeller.size s7 = 12 * n + 16 + d := by have := h7.2; unfold Labeller.size; omega
  have z2 : Labeller.size c5 = 12 * n + 7 + d := by have := k5.2; unfold Labeller.size; omega
  refine ⟨s7, c5, ?_, z1, z2⟩
  have x : 0 + 6 * n + 6 * n = 12 * n := by omega
  unfold setVariablesStructure
  simp only [e1, e2, e3, e4, e5, e6, e7, e8, e9, e10, Option.bind_eq_bind, Option.bind_some, z1, z2]
  unfold rangesAt
  simp only [x]
  simp only [Nat.zero_add, Nat.add_assoc, Nat.reduceAdd]

end Verif.SolverM
