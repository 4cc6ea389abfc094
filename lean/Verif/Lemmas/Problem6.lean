import Verif.Lemmas.Problem5
/- The names of the costs and of the constraints are different. -/
set_option linter.unusedSectionVars false
set_option linter.unusedSimpArgs false
namespace Verif.SolverM
variable {K : Type}

/-- A name without its index. -/
def stemOf (name : String) : List Char := name.toList.takeWhile fun c => !c.isDigit

theorem takeWhile_digits (i : Nat) : (toString i).toList.takeWhile (fun c => !c.isDigit) = [] := by
  have h : ∀ c ∈ (toString i).toList, c.isDigit = true := by
    intro c hc
    have : (toString i).toList = Nat.toDigits 10 i := Nat.toList_repr ..
    rw [this] at hc
    exact Nat.isDigit_of_mem_toDigits (by decide) (by decide) hc
  cases hl : (toString i).toList with
  | nil => rfl
  | cons c l => rw [List.takeWhile_cons_of_neg (by rw [h c (by rw [hl]; exact List.mem_cons_self ..)]; decide)]

theorem stemOf_index (a : String) (i : Nat) (h : a.toList.all (fun c => !c.isDigit) = true) : stemOf (a ++ toString i) = a.toList := by
  rw [stemOf, String.toList_append, List.takeWhile_append_of_pos (by simpa using h), takeWhile_digits, List.append_nil]

theorem stemOf_plain (a : String) (h : a.toList.all (fun c => !c.isDigit) = true) : stemOf a = a.toList := by
  rw [stemOf]
  have := List.takeWhile_append_of_pos (l₁ := a.toList) (l₂ := []) (p := fun c => !c.isDigit) (by simpa using h)
  simpa using this

/-- The name of the kind of cost and of its foot. -/
def Cost.stem : Cost → String
  | .comPosition => "CoMCost"
  | .comVelocity => "CoMVelocity"
  | .frameOrientation => "FrameOrientation"
  | .forceMean .left _ => "ForceMeanLeft"
  | .forceMean .right _ => "ForceMeanRight"
  | .forceRatio .left _ => "ForceRatioLeft"
  | .forceRatio .right _ => "ForceRatioRight"
  | .jointsRegularization => "JointsRegularizations"
  | .jointsVelocity => "JointsVelocity"
  | .staticTorques => "StaticTorques"
  | .forceDerivative .left _ => "ForceDerivativeLeft"
  | .forceDerivative .right _ => "ForceDerivativeRight"
  | .pointAcceleration .left _ => "AccelerationLeft"
  | .pointAcceleration .right _ => "AccelerationRight"
  | .swing .left _ => "SwingLeft"
  | .swing .right _ => "SwingRight"
  | .phantomForces .left _ => "PhantomForcesLeft"
  | .phantomForces .right _ => "PhantomForcesRight"
  | .meanPointPosition => "MeanPointPosition"
  | .footYaw .left => "LeftFootYawCost"
  | .footYaw .right => "RightFootYawCost"
  | .feetDistance => "FeetDistance"
  | .jointsVelocityForPostural => "JointsVelocityForPostural"
  | .complementarity .left _ => "ComplementarityLeft"
  | .complementarity .right _ => "ComplementarityRight"
  | .basePosition => "RootCost"
  | .baseQuaternion => "BaseOrientationCost"
  | .frameAngularVelocity => "FrameAngularVelocity"
  | .baseLinearVelocity => "BaseLinearVelocityCost"
  | .baseQuaternionVelocity => "BaseQuaternionVelocityCost"
  | .angularMomentum => "AngularMomentumCost"

/-- The index of the point. -/
def Cost.index : Cost → Option Nat
  | .forceMean _ i | .forceRatio _ i | .forceDerivative _ i | .pointAcceleration _ i | .swing _ i | .phantomForces _ i | .complementarity _ i => some i
  | _ => none

theorem cat2 {a b c : String} (h : a ++ b = c) (i : Nat) : a ++ b ++ toString i = c ++ toString i := by rw [h]

theorem Cost.name_eq : (k : Cost) → k.name = k.stem ++ (k.index.map toString).getD ""
  | .comPosition => (String.append_empty ..).symm
  | .comVelocity => (String.append_empty ..).symm
  | .frameOrientation => (String.append_empty ..).symm
  | .forceMean .left i => cat2 (show "ForceMean" ++ "Left" = "ForceMeanLeft" by decide +kernel) i
  | .forceMean .right i => cat2 (show "ForceMean" ++ "Right" = "ForceMeanRight" by decide +kernel) i
  | .forceRatio .left i => cat2 (show "ForceRatio" ++ "Left" = "ForceRatioLeft" by decide +kernel) i
  | .forceRatio .right i => cat2 (show "ForceRatio" ++ "Right" = "ForceRatioRight" by decide +kernel) i
  | .jointsRegularization => (String.append_empty ..).symm
  | .jointsVelocity => (String.append_empty ..).symm
  | .staticTorques => (String.append_empty ..).symm
  | .forceDerivative .left _ => rfl
  | .forceDerivative .right _ => rfl
  | .pointAcceleration .left _ => rfl
  | .pointAcceleration .right _ => rfl
  | .swing .left i => cat2 (show "Swing" ++ "Left" = "SwingLeft" by decide +kernel) i
  | .swing .right i => cat2 (show "Swing" ++ "Right" = "SwingRight" by decide +kernel) i
  | .phantomForces .left i => cat2 (show "PhantomForces" ++ "Left" = "PhantomForcesLeft" by decide +kernel) i
  | .phantomForces .right i => cat2 (show "PhantomForces" ++ "Right" = "PhantomForcesRight" by decide +kernel) i
  | .meanPointPosition => (String.append_empty ..).symm
  | .footYaw .left => (String.append_empty ..).symm
  | .footYaw .right => (String.append_empty ..).symm
  | .feetDistance => (String.append_empty ..).symm
  | .jointsVelocityForPostural => (String.append_empty ..).symm
  | .complementarity .left i => cat2 (show "Complementarity" ++ "Left" = "ComplementarityLeft" by decide +kernel) i
  | .complementarity .right i => cat2 (show "Complementarity" ++ "Right" = "ComplementarityRight" by decide +kernel) i
  | .basePosition => (String.append_empty ..).symm
  | .baseQuaternion => (String.append_empty ..).symm
  | .frameAngularVelocity => (String.append_empty ..).symm
  | .baseLinearVelocity => (String.append_empty ..).symm
  | .baseQuaternionVelocity => (String.append_empty ..).symm
  | .angularMomentum => (String.append_empty ..).symm

theorem Cost.stem_plain (k : Cost) : k.stem.toList.all (fun c => !c.isDigit) = true := by
  cases k <;> (try rename_i f i; cases f) <;> (try rename_i f; cases f) <;> simp only [Cost.stem] <;> decide +kernel

theorem Cost.stem_name (k : Cost) : stemOf k.name = k.stem.toList := by
  rw [k.name_eq]
  cases h : k.index with
  | none => simpa using stemOf_plain _ k.stem_plain
  | some i => simpa using stemOf_index _ i k.stem_plain

/-- All the stems. -/
def Cost.stems : List String := ["CoMCost", "CoMVelocity", "FrameOrientation", "ForceMeanLeft", "ForceMeanRight", "ForceRatioLeft", "ForceRatioRight", "JointsRegularizations", "JointsVelocity", "StaticTorques", "ForceDerivativeLeft", "ForceDerivativeRight", "AccelerationLeft", "AccelerationRight", "SwingLeft", "SwingRight", "PhantomForcesLeft", "PhantomForcesRight", "MeanPointPosition", "LeftFootYawCost", "RightFootYawCost", "FeetDistance", "JointsVelocityForPostural", "ComplementarityLeft", "ComplementarityRight", "RootCost", "BaseOrientationCost", "FrameAngularVelocity", "BaseLinearVelocityCost", "BaseQuaternionVelocityCost", "AngularMomentumCost"]

/-- The cost with the given stem number and index. -/
def Cost.ofParts (i : Nat) : Nat → Cost
  | 0 => .comPosition
  | 1 => .comVelocity
  | 2 => .frameOrientation
  | 3 => .forceMean .left i
  | 4 => .forceMean .right i
  | 5 => .forceRatio .left i
  | 6 => .forceRatio .right i
  | 7 => .jointsRegularization
  | 8 => .jointsVelocity
  | 9 => .staticTorques
  | 10 => .forceDerivative .left i
  | 11 => .forceDerivative .right i
  | 12 => .pointAcceleration .left i
  | 13 => .pointAcceleration .right i
  | 14 => .swing .left i
  | 15 => .swing .right i
  | 16 => .phantomForces .left i
  | 17 => .phantomForces .right i
  | 18 => .meanPointPosition
  | 19 => .footYaw .left
  | 20 => .footYaw .right
  | 21 => .feetDistance
  | 22 => .jointsVelocityForPostural
  | 23 => .complementarity .left i
  | 24 => .complementarity .right i
  | 25 => .basePosition
  | 26 => .baseQuaternion
  | 27 => .frameAngularVelocity
  | 28 => .baseLinearVelocity
  | 29 => .baseQuaternionVelocity
  | _ => .angularMomentum

theorem Cost.ofParts_eq (k : Cost) : Cost.ofParts (k.index.getD 0) (Cost.stems.idxOf k.stem) = k := by
  cases k <;> (try rename_i f i; cases f) <;> (try rename_i f; cases f) <;> rfl

theorem digits_ne (i : Nat) : toString i ≠ "" := by
  intro h
  have h1 : (toString i).toList = Nat.toDigits 10 i := Nat.toList_repr ..
  rw [h] at h1
  exact absurd h1.symm (by simpa using Nat.toDigits_ne_nil)

theorem suffix_inj {a b : Option Nat} (h : (a.map toString).getD "" = (b.map toString).getD "") : a = b := by
  cases a <;> cases b <;> simp at h ⊢
  exact digits_inj h

/-- Two different costs have different names. -/
theorem Cost.name_injective {k k' : Cost} (h : k.name = k'.name) : k = k' := by
  have hs : k.stem = k'.stem := by
    have := congrArg stemOf h
    rw [k.stem_name, k'.stem_name] at this
    exact String.toList_inj.1 this
  rw [k.name_eq, k'.name_eq, hs] at h
  have h2 := congrArg String.toList h
  rw [String.toList_append, String.toList_append] at h2
  have hi := suffix_inj (String.toList_inj.1 (List.append_cancel_left h2))
  rw [← k.ofParts_eq, ← k'.ofParts_eq, hs, hi]

end Verif.SolverM
