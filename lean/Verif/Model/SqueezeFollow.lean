import Verif.Model.CodeGen
import Verif.Spec.CodeGen
/- Squeezed and compiled expressions as evaluables of levi: what they depend on, what they remember, and their derivatives (extern/levi/include/levi/SqueezeEvaluable.h, AutogeneratedEvaluable.h). -/
namespace Verif.Levi.Squeeze
open Ex
variable {K : Type} [Field K] [LinearOrder K]

/-- `isDependentFrom(v)`, Registrar.h:213-222: the dependencies are those of the generic expressions, SqueezeEvaluable.h:40-42, AutogeneratedEvaluable.h:70 with AutogeneratedHelper.h:717-724. -/
def dependsOn (v : Var) (t : Tree K) : Bool := t.generics.any fun g => (t.comp g).e.dep v

/-- `getColumnDerivative`, Evaluable.h:278-305 and 264-267: neither class has its own `getNewColumnDerivative`, so a new derivative is an empty expression, and its sizes cannot be read in the assertion
that follows.  `none`: no derivative, and no column (line 292). -/
def columnDerivative (rows cols : Nat) (t : Tree K) (c : Nat) (v : Var) : Option (Ex K) :=
  if c < cols then if dependsOn v t then none else some (null rows v.dim) else none

/-- A squeezed expression in a program: the values of the variables, the vector, the value given by the last evaluation and the variables assigned since then.  (The counters of Registrar.h are in
Model/EvalCache.lean; here only what they tell: something that the expression depends on was assigned.) -/
structure Followed (K : Type) [Zero K] where
  env : Env K
  tree : Tree K
  last : Option (SM K)
  assigned : List Var

/-- What a program does. -/
inductive Use (K : Type)
  | assign (v : Var) (x : Nat → K)
  | evaluate

/-- SqueezeEvaluable.h:35-43: constructor. -/
def follow (cfg : Cfg K) (u : Nat → Nat → K) (ρ : Env K) (e : Ex K) : Followed K := ⟨ρ, squeeze cfg u e, none, []⟩

/-- Variable.h `operator=`; `evaluateID`, Evaluable.h:226-247 with `isNew`, Registrar.h:190-205. -/
def Followed.use (pw : K → K → K) (s : Followed K) : Use K → List (SM K) × Followed K
  | .assign v x => ([], ⟨Function.update s.env v x, s.tree, s.last, v :: s.assigned⟩)
  | .evaluate =>
    match s.last with
    | some b =>
      if s.assigned.any fun v => dependsOn v s.tree then
        let r := Squeeze.evaluate pw s.env s.tree
        ([r.1], ⟨s.env, r.2, some r.1, []⟩)
      else ([b], s)
    | none =>
      let r := Squeeze.evaluate pw s.env s.tree
      ([r.1], ⟨s.env, r.2, some r.1, []⟩)

/-- The values given to the program. -/
def Followed.values (pw : K → K → K) (s : Followed K) : List (Use K) → List (SM K)
  | [] => []
  | x :: l => (s.use pw x).1 ++ (s.use pw x).2.values pw l

/-- A compiled expression in a program, AutogeneratedEvaluable.h:41-79 with the same `evaluateID`: from the values `ρ` of the variables, what the last evaluation gave and the variables assigned since then,
the values given to the program.  `Code.Spec.Computes` tells what the compiled function computes. -/
inductive Runs (cfg : Cfg K) (u : Nat → Nat → K) (shown : K → K) (width : Code.Tok K → Nat) (pw : K → K → K) (e : Ex K) :
    Env K → Option (SM K) → List Var → List (Use K) → List (SM K) → Prop
  | done {ρ last vs} : Runs cfg u shown width pw e ρ last vs [] []
  | assign {ρ last vs v x l out} : Runs cfg u shown width pw e (Function.update ρ v x) last (v :: vs) l out → Runs cfg u shown width pw e ρ last vs (.assign v x :: l) out
  | remembered {ρ b vs l out} : (vs.any fun v => dependsOn v (Code.expandExpressions cfg u [e]).1) = false → Runs cfg u shown width pw e ρ (some b) vs l out →
      Runs cfg u shown width pw e ρ (some b) vs (.evaluate :: l) (b :: out)
  | computed {ρ last vs A l out} : (last = none ∨ (vs.any fun v => dependsOn v (Code.expandExpressions cfg u [e]).1) = true) →
      Code.Spec.Computes pw (Code.genericValues cfg u [e] pw ρ) (Code.generate cfg u shown width [e]) [A] → Runs cfg u shown width pw e ρ (some A) [] l out →
      Runs cfg u shown width pw e ρ last vs (.evaluate :: l) (A :: out)

end Verif.Levi.Squeeze
