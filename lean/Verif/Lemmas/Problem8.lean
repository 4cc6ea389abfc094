import Verif.Lemmas.Problem7
/- The names of the terms and of the constraints are different. -/
set_option linter.unusedSectionVars false
set_option linter.unusedSimpArgs false
namespace Verif.SolverM
open StateM Spec
variable {K T : Type} [Field K] [LinearOrder K] {st : ProblemSettings K T}

/-- The name of the kind of constraint and of its foot. -/
def Con.stem : Con K → String
  | .centroidalMomentum .. => "CentroidalMomentum"
  | .comPosition .. => "CoMPosition"
  | .feetLateralDistance .. => "FeetLateralConstraint"
  | .quaternionNorm .. => "QuaternionNorm"
  | .feetRelativeHeight .. => "MaxRelativeHeight"
  | .planarVelocityControl .left _ _ _ _ => "PlanarVelocityControlBoundsLeft"
  | .planarVelocityControl .right _ _ _ _ => "PlanarVelocityControlBoundsRight"
  | .classicalPlanarComplementarity .left _ _ => "ClassicalPlanarComplementarityLeft"
  | .classicalPlanarComplementarity .right _ _ => "ClassicalPlanarComplementarityRight"
  | .dynamicalComplementarity .left _ _ _ => "DynamicalComplementarityLeft"
  | .dynamicalComplementarity .right _ _ _ => "DynamicalComplementarityRight"
  | .forceControl .left _ _ _ _ => "ForceControlBoundsLeft"
  | .forceControl .right _ _ _ _ => "ForceControlBoundsRight"
  | .classicalComplementarity .left _ _ => "ClassicalComplementarityLeft"
  | .classicalComplementarity .right _ _ => "ClassicalComplementarityRight"
  | .friction .left _ _ => "ContactFrictionLeft"
  | .friction .right _ _ => "ContactFrictionRight"
  | .contactPosition .left _ _ _ _ _ => "ContactPositionConsistencyLeft"
  | .contactPosition .right _ _ _ _ _ => "ContactPositionConsistencyRight"

/-- The index of the point. -/
def Con.index : Con K → Option Nat
  | .planarVelocityControl _ i _ _ _ | .classicalPlanarComplementarity _ i _ | .dynamicalComplementarity _ i _ _ | .forceControl _ i _ _ _
  | .classicalComplementarity _ i _ | .friction _ i _ | .contactPosition _ i _ _ _ _ => some i
  | _ => none

theorem Con.name_eq : (k : Con K) → k.name = k.stem ++ (k.index.map toString).getD ""
  | .centroidalMomentum .. => (String.append_empty ..).symm
  | .comPosition .. => (String.append_empty ..).symm
  | .feetLateralDistance .. => (String.append_empty ..).symm
  | .quaternionNorm .. => (String.append_empty ..).symm
  | .feetRelativeHeight .. => (String.append_empty ..).symm
  | .planarVelocityControl .left i _ _ _ => cat2 (show "PlanarVelocityControlBounds" ++ "Left" = "PlanarVelocityControlBoundsLeft" by decide +kernel) i
  | .planarVelocityControl .right i _ _ _ => cat2 (show "PlanarVelocityControlBounds" ++ "Right" = "PlanarVelocityControlBoundsRight" by decide +kernel) i
  | .classicalPlanarComplementarity .left i _ => cat2 (show "ClassicalPlanarComplementarity" ++ "Left" = "ClassicalPlanarComplementarityLeft" by decide +kernel) i
  | .classicalPlanarComplementarity .right i _ => cat2 (show "ClassicalPlanarComplementarity" ++ "Right" = "ClassicalPlanarComplementarityRight" by decide +kernel) i
  | .dynamicalComplementarity .left i _ _ => cat2 (show "DynamicalComplementarity" ++ "Left" = "DynamicalComplementarityLeft" by decide +kernel) i
  | .dynamicalComplementarity .right i _ _ => cat2 (show "DynamicalComplementarity" ++ "Right" = "DynamicalComplementarityRight" by decide +kernel) i
  | .forceControl .left i _ _ _ => cat2 (show "ForceControlBounds" ++ "Left" = "ForceControlBoundsLeft" by decide +kernel) i
  | .forceControl .right i _ _ _ => cat2 (show "ForceControlBounds" ++ "Right" = "ForceControlBoundsRight" by decide +kernel) i
  | .classicalComplementarity .left i _ => cat2 (show "ClassicalComplementarity" ++ "Left" = "ClassicalComplementarityLeft" by decide +kernel) i
  | .classicalComplementarity .right i _ => cat2 (show "ClassicalComplementarity" ++ "Right" = "ClassicalComplementarityRight" by decide +kernel) i
  | .friction .left i _ => cat2 (show "ContactFriction" ++ "Left" = "ContactFrictionLeft" by decide +kernel) i
  | .friction .right i _ => cat2 (show "ContactFriction" ++ "Right" = "ContactFrictionRight" by decide +kernel) i
  | .contactPosition .left i _ _ _ _ => cat2 (show "ContactPositionConsistency" ++ "Left" = "ContactPositionConsistencyLeft" by decide +kernel) i
  | .contactPosition .right i _ _ _ _ => cat2 (show "ContactPositionConsistency" ++ "Right" = "ContactPositionConsistencyRight" by decide +kernel) i

theorem Con.stem_plain (k : Con K) : k.stem.toList.all (fun c => !c.isDigit) = true := by
  unfold Con.stem
  split <;> decide +kernel

theorem Con.stem_name (k : Con K) : stemOf k.name = k.stem.toList := by
  rw [k.name_eq]
  cases h : k.index with
  | none => simpa using stemOf_plain _ k.stem_plain
  | some i => simpa using stemOf_index _ i k.stem_plain

theorem Con.name_key {k k' : Con K} (h : k.name = k'.name) : k.stem = k'.stem ∧ k.index = k'.index := by
  have hs : k.stem = k'.stem := by
    have := congrArg stemOf h
    rw [k.stem_name, k'.stem_name] at this
    exact String.toList_inj.1 this
  rw [k.name_eq, k'.name_eq, hs] at h
  have h2 := congrArg String.toList h
  rw [String.toList_append, String.toList_append] at h2
  exact ⟨hs, suffix_inj (String.toList_inj.1 (List.append_cancel_left h2))⟩

theorem acceptAll_names {α : Type} (name : α → String) (v : α → Bool) (p l : List α) :
    AcceptAll (fun before t => !(before.map name).contains (name t) && v t) p l ↔
      (∀ t ∈ l, v t = true) ∧ (l.map name).Nodup ∧ ∀ t ∈ l, ∀ b ∈ p, name b ≠ name t := by
  induction l generalizing p with
  | nil => simp [AcceptAll]
  | cons t l ih =>
    rw [AcceptAll, ih]
    simp only [Bool.and_eq_true, Bool.not_eq_true', List.contains_eq_mem, decide_eq_false_iff_not, List.mem_map, not_exists, not_and,
      List.map_cons, List.nodup_cons, List.mem_cons, forall_eq_or_imp, List.mem_append, List.mem_singleton, or_imp, forall_and, forall_eq]
    constructor
    · rintro ⟨⟨h1, h2⟩, h3, h4, h5, h6⟩
      exact ⟨⟨h2, h3⟩, ⟨fun x hx e => h6.1 x hx e.symm, h4⟩, fun b hb => h1 b hb, h5⟩
    · rintro ⟨⟨h2, h3⟩, ⟨h6, h4⟩, h1, h5⟩
      exact ⟨⟨h1, h2⟩, h3, h4, h5, fun x hx e => h6 x hx e.symm, by simp⟩

theorem nodup_of_key {α β : Type} {l : List α} (f : α → β) (h : (l.map f).Nodup) : l.Nodup := List.Nodup.of_map f h

/-- The kind and the index. -/
def Con.key (k : Con K) : String × Option Nat := (k.stem, k.index)

theorem names_of_keys {l : List (Con K)} (h : (l.map Con.key).Nodup) : (l.map Con.name).Nodup := by
  induction l with
  | nil => simp
  | cons t l ih =>
    simp only [List.map_cons, List.nodup_cons, List.mem_map, not_exists, not_and] at h ⊢
    exact ⟨fun x hx e => h.1 x hx (Prod.ext (Con.name_key e).1 (Con.name_key e).2), ih h.2⟩

theorem pointCons_keys (st : ProblemSettings K T) (f : Foot) (i : Nat) : ((pointCons st f i).map Con.key).Nodup := by
  unfold pointCons
  cases st.planarComplementarity <;> cases st.complementarity <;> cases f <;> simp [Con.key, Con.stem, Con.index]

theorem pointCons_index (st : ProblemSettings K T) (f : Foot) (i : Nat) : ∀ c ∈ pointCons st f i, c.index = some i := by
  unfold pointCons
  cases st.planarComplementarity <;> cases st.complementarity <;> simp [Con.index]

/-- The foot, from the last letter. -/
def Con.isLeft (k : Con K) : Bool := k.stem.toList.getLast? == some 't' && k.stem.toList.reverse.take 4 == ['t', 'f', 'e', 'L']

theorem pointCons_foot (st : ProblemSettings K T) (f : Foot) (i : Nat) : ∀ c ∈ pointCons st f i, c.isLeft = decide (f = .left) := by
  unfold pointCons
  cases st.planarComplementarity <;> cases st.complementarity <;> cases f <;> simp [Con.isLeft, Con.stem] 

theorem foot_keys (st : ProblemSettings K T) (f : Foot) (n : Nat) : (((List.range n).flatMap (pointCons st f)).map Con.key).Nodup := by
  rw [List.map_flatMap, List.nodup_flatMap]
  refine ⟨fun i _ => pointCons_keys st f i, ?_⟩
  refine List.Pairwise.imp ?_ (List.nodup_range (n := n))
  intro i j hij x hx hy
  simp only [List.mem_map] at hx hy
  obtain ⟨a, ha, rfl⟩ := hx
  obtain ⟨b, hb, e⟩ := hy
  have h1 := pointCons_index st f i a ha
  have h2 := pointCons_index st f j b hb
  have h3 := congrArg Prod.snd e
  simp only [Con.key, h1, h2, Option.some.injEq] at h3
  exact hij h3.symm

theorem allCons_keys (st : ProblemSettings K T) : ((allCons st).map Con.key).Nodup := by
  rw [allCons, List.map_append, List.map_append, List.nodup_append, List.nodup_append]
  refine ⟨?_, ⟨foot_keys st _ _, foot_keys st _ _, ?_⟩, ?_⟩
  · simp [globalCons, Con.key, Con.stem, Con.index]
  · intro a ha b hb e
    simp only [List.mem_map, List.mem_flatMap] at ha hb
    obtain ⟨x, ⟨i, -, hx⟩, rfl⟩ := ha
    obtain ⟨y, ⟨j, -, hy⟩, rfl⟩ := hb
    have h1 := pointCons_foot st _ i x hx
    have h2 := pointCons_foot st _ j y hy
    have h3 : x.stem = y.stem := congrArg Prod.fst e
    simp only [Con.isLeft, h3] at h1 h2
    rw [h1] at h2
    exact absurd h2 (by decide)
  · intro a ha b hb e
    rw [← List.map_append] at hb
    simp only [List.mem_map, List.mem_flatMap, List.mem_append] at ha hb
    obtain ⟨x, hx, rfl⟩ := ha
    obtain ⟨y, hy, rfl⟩ := hb
    have h1 : x.index = none := by
      simp only [globalCons, List.mem_cons, List.not_mem_nil, or_false] at hx
      rcases hx with rfl | rfl | rfl | rfl | rfl <;> rfl
    have h2 : ∃ i, y.index = some i := by
      rcases hy with ⟨i, -, hy⟩ | ⟨i, -, hy⟩ <;> exact ⟨i, pointCons_index st _ i y hy⟩
    obtain ⟨i, h2⟩ := h2
    have h3 : x.index = y.index := congrArg Prod.snd e
    rw [h1, h2] at h3
    exact absurd h3 (by simp)

theorem allCons_accepted (st : ProblemSettings K T) : AcceptAll ocpConstraints [] (allCons st) := by
  have := (acceptAll_names Con.name (fun _ => true) [] (allCons st)).2 ⟨by simp, names_of_keys (allCons_keys st), by simp⟩
  have e : (ocpConstraints : List (Con K) → Con K → Bool) = fun before t => !(before.map Con.name).contains t.name && true := by
    funext b t
    rw [ocpConstraints, Bool.and_true]
  rw [e]
  exact this

theorem allCons_iff (st : ProblemSettings K T) (hm : 0 ≤ st.minimumFeetDistance) (c : Con K) : c ∈ allCons st ↔ Wanted st c := by
  have hp : ∀ f i, i < (footPoints st f).length → ∀ x, (footPoints st f)[i]? = some x ↔ x = (footPoints st f)[i]?.getD ⟨0, 0, 0⟩ := by
    intro f i hi x
    simp [hi, eq_comm]
  have hq : c ∈ allCons st ↔ c ∈ globalCons st ∨ ∃ f i, i < (footPoints st f).length ∧ c ∈ pointCons st f i := by
    simp only [allCons, List.mem_append, List.mem_flatMap, List.mem_range]
    constructor
    · rintro (h | ⟨i, h⟩ | ⟨i, h⟩)
      · exact Or.inl h
      · exact Or.inr ⟨.left, i, h⟩
      · exact Or.inr ⟨.right, i, h⟩
    · rintro (h | ⟨f, i, h⟩)
      · exact Or.inl h
      · cases f
        · exact Or.inr (Or.inl ⟨i, h⟩)
        · exact Or.inr (Or.inr ⟨i, h⟩)
  have hl : lateralLowerBound st.minimumFeetDistance = st.minimumFeetDistance := if_neg (not_lt.2 hm)
  have hx : ∀ f i x, (footPoints st f)[i]? = some x ↔ i < (footPoints st f).length ∧ x = (footPoints st f)[i]?.getD ⟨0, 0, 0⟩ := by
    intro f i x
    by_cases hi : i < (footPoints st f).length
    · simp [hi, eq_comm]
    · simp [hi]
  rw [hq]
  unfold globalCons pointCons
  rw [hl]
  clear hq hp hl hm
  cases hA : st.planarComplementarity <;> cases hB : st.complementarity <;> cases c <;> simp [Wanted, IsPoint, hx, hA, hB] <;> grind

end Verif.SolverM
