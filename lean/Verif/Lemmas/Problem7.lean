import Verif.Lemmas.Problem6
/- The constraints of the problem. -/
set_option linter.unusedSectionVars false
set_option linter.unusedSimpArgs false
namespace Verif.SolverM
open StateM Spec
variable {K T : Type} [Field K] [LinearOrder K] {accepts : List (Con K) → Con K → Bool} {st : ProblemSettings K T}

/-- The constraints that are not of a point. -/
def globalCons (st : ProblemSettings K T) : List (Con K) := [
  .centroidalMomentum (-st.centroidalMomentumConstraintTolerance / 2) (st.centroidalMomentumConstraintTolerance / 2),
  .comPosition (-st.comPositionConstraintTolerance / 2) (st.comPositionConstraintTolerance / 2),
  .feetLateralDistance st.indexOfLateralDirection st.referenceFrameNameForFeetDistance st.otherFrameNameForFeetDistance (lateralLowerBound st.minimumFeetDistance),
  .quaternionNorm (-st.quaternionModulusConstraintTolerance / 2) (st.quaternionModulusConstraintTolerance / 2),
  .feetRelativeHeight st.feetMaximumRelativeHeight]

theorem tolerance_some (t : K) (h : 0 ≤ t) : equalityTolerance t = some (-t / 2, t / 2) := if_pos h
theorem tolerance_none (t : K) (h : ¬ 0 ≤ t) : equalityTolerance t = none := if_neg h

theorem Blk.tolerance {f : K × K → List (Con K) → Option (List (Con K))} {C : Prop} {l : List (Con K)} (t : K)
    (h : Blk accepts (f (-t / 2, t / 2)) C l) : Blk accepts (fun p => do let x ← equalityTolerance t; f x p) (0 ≤ t ∧ C) l := by
  intro p p'
  by_cases ht : 0 ≤ t
  · simpa [tolerance_some t ht, ht] using h p p'
  · simp [tolerance_none t ht, ht]

theorem blk_global : Blk accepts (addGlobalConstraints accepts st)
    (0 ≤ st.centroidalMomentumConstraintTolerance ∧ 0 ≤ st.comPositionConstraintTolerance ∧ st.indexOfLateralDirection < 3 ∧
      0 ≤ st.quaternionModulusConstraintTolerance ∧ 0 < st.leftPointsPosition.length ∧ 0 < st.rightPointsPosition.length) (globalCons st) := by
  have h := Blk.tolerance (accepts := accepts) (f := fun x p => do
      let p ← push accepts (.centroidalMomentum x.1 x.2) p
      let y ← equalityTolerance st.comPositionConstraintTolerance
      let p ← push accepts (.comPosition y.1 y.2) p
      require (decide (st.indexOfLateralDirection < 3))
      let p ← push accepts (.feetLateralDistance st.indexOfLateralDirection st.referenceFrameNameForFeetDistance
        st.otherFrameNameForFeetDistance (lateralLowerBound st.minimumFeetDistance)) p
      let z ← equalityTolerance st.quaternionModulusConstraintTolerance
      let p ← push accepts (.quaternionNorm z.1 z.2) p
      require (decide (0 < st.leftPointsPosition.length) && decide (0 < st.rightPointsPosition.length))
      push accepts (.feetRelativeHeight st.feetMaximumRelativeHeight) p) st.centroidalMomentumConstraintTolerance
    ((Blk.push _).seq (Blk.tolerance (f := fun y p => do
      let p ← push accepts (.comPosition y.1 y.2) p
      require (decide (st.indexOfLateralDirection < 3))
      let p ← push accepts (.feetLateralDistance st.indexOfLateralDirection st.referenceFrameNameForFeetDistance
        st.otherFrameNameForFeetDistance (lateralLowerBound st.minimumFeetDistance)) p
      let z ← equalityTolerance st.quaternionModulusConstraintTolerance
      let p ← push accepts (.quaternionNorm z.1 z.2) p
      require (decide (0 < st.leftPointsPosition.length) && decide (0 < st.rightPointsPosition.length))
      push accepts (.feetRelativeHeight st.feetMaximumRelativeHeight) p) st.comPositionConstraintTolerance
      ((Blk.push _).seq (Blk.require _ ((Blk.push _).seq (Blk.tolerance (f := fun z p => do
        let p ← push accepts (.quaternionNorm z.1 z.2) p
        require (decide (0 < st.leftPointsPosition.length) && decide (0 < st.rightPointsPosition.length))
        push accepts (.feetRelativeHeight st.feetMaximumRelativeHeight) p) st.quaternionModulusConstraintTolerance
          ((Blk.push _).seq (Blk.require _ (Blk.push _)))))))))
  exact h.cond (by simp) rfl

/-- The constraints of a point. -/
def pointCons (st : ProblemSettings K T) (f : Foot) (i : Nat) : List (Con K) :=
  ((if st.planarComplementarity = .hyperbolicTangentInequality then
      [.planarVelocityControl f i st.planarVelocityHyperbolicTangentScaling st.velocityMaximumDerivative.x st.velocityMaximumDerivative.y] else []) ++
    (if st.planarComplementarity = .classical then [.classicalPlanarComplementarity f i st.classicalPlanarComplementarityTolerance] else [])) ++
  (((if st.complementarity = .dynamical then [.dynamicalComplementarity f i st.complementarityDissipation st.dynamicComplementarityUpperBound] else []) ++
    ((if st.complementarity = .hyperbolicSecantInequality then
      [.forceControl f i st.normalForceHyperbolicSecantScaling st.forceMaximumDerivative.z st.normalForceDissipationRatio] else []) ++
    (if st.complementarity = .classical then [.classicalComplementarity f i st.classicalComplementarityTolerance] else []))) ++
  [.friction f i st.frictionCoefficient,
   .contactPosition f i (footFrame st f) ((footPoints st f)[i]?.getD ⟨0, 0, 0⟩) (-st.pointPositionConstraintTolerance / 2) (st.pointPositionConstraintTolerance / 2)])

theorem blk_left (i : Nat) (hi : i < st.leftPointsPosition.length) : Blk accepts (addLeftPoint accepts st i)
    (0 < st.frictionCoefficient ∧ 0 ≤ st.pointPositionConstraintTolerance) (pointCons st .left i) := by
  have hx : st.leftPointsPosition[i]? = some ((footPoints st .left)[i]?.getD ⟨0, 0, 0⟩) := by
    simp [footPoints, hi]
  have h1 : Blk accepts (addLeftPlanar accepts st i) _ _ := (Blk.iteP (st.planarComplementarity = .hyperbolicTangentInequality) (Blk.push
    (Con.planarVelocityControl .left i st.planarVelocityHyperbolicTangentScaling st.velocityMaximumDerivative.x st.velocityMaximumDerivative.y))).seq
    (Blk.iteP (st.planarComplementarity = .classical) (Blk.push (Con.classicalPlanarComplementarity .left i st.classicalPlanarComplementarityTolerance)))
  have h2 : Blk accepts (addLeftNormal accepts st i) _ _ :=
    (Blk.iteP (st.complementarity = .dynamical) (Blk.push (Con.dynamicalComplementarity .left i st.complementarityDissipation st.dynamicComplementarityUpperBound))).seq
    ((Blk.iteP (st.complementarity = .hyperbolicSecantInequality) (Blk.push (Con.forceControl .left i st.normalForceHyperbolicSecantScaling st.forceMaximumDerivative.z st.normalForceDissipationRatio))).seq
    (Blk.iteP (st.complementarity = .classical) (Blk.push (Con.classicalComplementarity .left i st.classicalComplementarityTolerance))))
  have h3 : Blk accepts (addLeftContact accepts st i) _ _ := Blk.require _ ((Blk.push _).seq (Blk.lookup hx (Blk.tolerance
    (f := fun y p => push accepts (.contactPosition .left i st.leftFrameName ((footPoints st .left)[i]?.getD ⟨0, 0, 0⟩) y.1 y.2) p) _ (Blk.push _))))
  exact (h1.seq (h2.seq h3)).cond (by simp) (by simp [pointCons, footFrame])

theorem normal_swap {α : Type} (c : Settings.ComplementarityType) (a b d : List α) :
    (if c = .dynamical then a else []) ++ ((if c = .classical then b else []) ++ (if c = .hyperbolicSecantInequality then d else [])) =
    (if c = .dynamical then a else []) ++ ((if c = .hyperbolicSecantInequality then d else []) ++ (if c = .classical then b else [])) := by
  cases c <;> simp

theorem blk_right (i : Nat) (hi : i < st.rightPointsPosition.length) : Blk accepts (addRightPoint accepts st i)
    (0 < st.frictionCoefficient ∧ 0 ≤ st.pointPositionConstraintTolerance) (pointCons st .right i) := by
  have hx : st.rightPointsPosition[i]? = some ((footPoints st .right)[i]?.getD ⟨0, 0, 0⟩) := by
    simp [footPoints, hi]
  have h1 : Blk accepts (addRightPlanar accepts st i) _ _ := (Blk.iteP (st.planarComplementarity = .hyperbolicTangentInequality) (Blk.push
    (Con.planarVelocityControl .right i st.planarVelocityHyperbolicTangentScaling st.velocityMaximumDerivative.x st.velocityMaximumDerivative.y))).seq
    (Blk.iteP (st.planarComplementarity = .classical) (Blk.push (Con.classicalPlanarComplementarity .right i st.classicalPlanarComplementarityTolerance)))
  have h2 : Blk accepts (addRightNormal accepts st i) _ _ :=
    (Blk.iteP (st.complementarity = .dynamical) (Blk.push (Con.dynamicalComplementarity .right i st.complementarityDissipation st.dynamicComplementarityUpperBound))).seq
    ((Blk.iteP (st.complementarity = .classical) (Blk.push (Con.classicalComplementarity .right i st.classicalComplementarityTolerance))).seq
    (Blk.iteP (st.complementarity = .hyperbolicSecantInequality) (Blk.push (Con.forceControl .right i st.normalForceHyperbolicSecantScaling st.forceMaximumDerivative.z st.normalForceDissipationRatio))))
  have h3 : Blk accepts (addRightContact accepts st i) _ _ := Blk.require _ ((Blk.push _).seq (Blk.lookup hx (Blk.tolerance
    (f := fun y p => push accepts (.contactPosition .right i st.rightFrameName ((footPoints st .right)[i]?.getD ⟨0, 0, 0⟩) y.1 y.2) p) _ (Blk.push _))))
  exact (h1.seq (h2.seq h3)).cond (by simp) (by rw [normal_swap]; simp [pointCons, footFrame])

/-- All the constraints. -/
def allCons (st : ProblemSettings K T) : List (Con K) :=
  globalCons st ++ ((List.range st.leftPointsPosition.length).flatMap (pointCons st .left) ++ (List.range st.rightPointsPosition.length).flatMap (pointCons st .right))

theorem setConstraints_iff (l : List (Con K)) :
    setConstraints accepts st = some l ↔ ConstraintsReady st ∧ AcceptAll accepts [] (allCons st) ∧ l = allCons st := by
  have B := (blk_global (accepts := accepts) (st := st)).seq
    ((Blk.loop st.leftPointsPosition.length fun i hi => blk_left (accepts := accepts) (st := st) i hi).seq
     (Blk.loop st.rightPointsPosition.length fun i hi => blk_right (accepts := accepts) (st := st) i hi))
  refine (B [] l).trans (and_congr ?_ ?_)
  · constructor
    · rintro ⟨⟨a, b, c, d, e, f⟩, h, h'⟩
      exact ⟨a, b, c, d, e, f, (h 0 e).1, (h 0 e).2⟩
    · rintro h
      exact ⟨⟨h.momentum, h.com, h.lateral, h.quaternion, h.leftPoints, h.rightPoints⟩, fun _ _ => ⟨h.friction, h.points⟩, fun _ _ => ⟨h.friction, h.points⟩⟩
  · simp [allCons]

end Verif.SolverM
