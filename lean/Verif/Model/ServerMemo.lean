/-
Model of the memory of `src/private/ExpressionsServer.cpp`: the expressions already made are kept in maps and looked up by a string.
An expression is identified here with the call it was made for.  Frames, joints and links are identified by their names (unique in a model); links
also by their indices, as `std::to_string` writes them.
-/
namespace Verif.Server

/-- A variable of the expressions: different variables can have the same name. -/
structure Variable where
  name : String
  id : Nat
deriving DecidableEq, Repr

/-- The calls that return a remembered expression. -/
inductive Request where
  /-- `adjointTransform`, lines 266-284. -/
  | adjoint (base target : String)
  /-- `adjointTransformJointsDerivative`, lines 286-306. -/
  | adjointDerivative (base target : String) (column : Nat)
  /-- `adjointTransformWrench`, lines 308-326. -/
  | adjointWrench (base target : String)
  /-- `adjointTransformWrenchJointsDerivative`, lines 328-348. -/
  | adjointWrenchDerivative (base target : String) (column : Nat)
  /-- `relativePosition`, lines 350-368. -/
  | relativePosition (base target : String)
  /-- `relativeQuaternion`, lines 370-388. -/
  | relativeQuaternion (base target : String)
  /-- `relativeRotation`, lines 390-408. -/
  | relativeRotation (base target : String)
  /-- `relativeTransform`, lines 410-424. -/
  | relativeTransform (base target : String)
  /-- `relativeLeftJacobian`, lines 426-444. -/
  | relativeJacobian (base target : String)
  /-- `relativeVelocity`, lines 446-464. -/
  | relativeVelocity (base target : String)
  /-- `absoluteVelocity`, lines 466-485. -/
  | absoluteVelocity (target : String) (twist : Variable)
  /-- `absoluteVelocityJointsDerivative`, lines 492-512. -/
  | absoluteVelocityDerivative (target : String) (twist : Variable)
  /-- `quaternionError`, lines 514-528. -/
  | quaternionError (frame : String) (desired : Variable)
  /-- `motionSubSpaceVector`, lines 530-550. -/
  | subspace (joint : String) (parent child : Nat)
  /-- `motionSubSpaceAsCrossProduct`, lines 552-573. -/
  | subspaceCross (joint : String) (parent child : Nat)
  /-- `motionSubSpaceAsCrossProductWrench`, lines 575-596. -/
  | subspaceCrossWrench (joint : String) (parent child : Nat)
  /-- `linkInertia`, lines 598-614. -/
  | linkInertia (link : String)
  /-- `linkInertiaInBase`, lines 616-632. -/
  | linkInertiaInBase (link : String)
  /-- `momentumInBaseJointsDoubleDerivative`, lines 639-655. -/
  | momentumDerivative (twist : Variable) (column : Nat)
  /-- `comInBaseHessian`, lines 248-264. -/
  | comHessian (column : Nat)
deriving DecidableEq, Repr

/-- Which map is used and with which key: see the lines of each call above. -/
def Request.slot : Request → Nat × String
  | .adjoint b t => (0, b ++ t)
  | .adjointDerivative b t c => (1, b ++ t ++ "__" ++ toString c)
  | .adjointWrench b t => (2, b ++ t)
  | .adjointWrenchDerivative b t c => (3, b ++ t ++ "__" ++ toString c)
  | .relativePosition b t => (4, b ++ t)
  | .relativeQuaternion b t => (5, b ++ t)
  | .relativeRotation b t => (6, b ++ t)
  | .relativeTransform b t => (7, b ++ t)
  | .relativeJacobian b t => (8, b ++ t)
  | .relativeVelocity b t => (9, b ++ t)
  | .absoluteVelocity t v => (10, t ++ v.name)
  | .absoluteVelocityDerivative t v => (11, t ++ v.name)
  | .quaternionError f _ => (12, f)
  | .subspace j p c => (13, j ++ toString p ++ toString c)
  | .subspaceCross j p c => (14, j ++ toString p ++ toString c)
  | .subspaceCrossWrench j p c => (15, j ++ toString p ++ toString c)
  | .linkInertia l => (16, l)
  | .linkInertiaInBase l => (17, l)
  | .momentumDerivative _ c => (18, toString c)
  | .comHessian c => (19, toString c)

/-- The maps: the expression of a key is the call it was made for. -/
abbrev Maps := List ((Nat × String) × Request)

/-- A call: `find`, then the remembered expression or a new one that is inserted.  The calls that the constructor of a new expression makes are calls
like the others (of a history). -/
def Maps.call (m : Maps) (a : Request) : Maps × Request :=
  match m.lookup a.slot with
  | some e => (m, e)
  | none => ((a.slot, a) :: m, a)

/-- The maps after some calls, starting from the constructor (with the maps empty). -/
def Maps.after (calls : List Request) : Maps := calls.foldl (fun m a => (m.call a).1) []

/-- What a call returns after some others. -/
def answer (calls : List Request) (a : Request) : Request := ((Maps.after calls).call a).2

end Verif.Server
