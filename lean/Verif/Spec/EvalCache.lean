import Verif.Model.EvalCache
/- Evaluation without any cache: an expression is a function of the values of the variables. -/
namespace Verif.EvalCache.Spec
variable {V : Type}

/-- Which expressions exist (`meaning i` as a function of the variables), which of them are plain variables, the values of the
variables, the expressions in the hands of the user, and the value each of them returned the last time it was evaluated. -/
structure State (V : Type) where
  meaning : Nat → (Nat → V) → V
  isVar : Nat → Bool
  values : Nat → V
  size : Nat
  handles : List (Option Nat)
  last : Nat → Option V

def State.handle (s : State V) (p : Nat) : Option Nat := (s.handles[p]?).join

/-- One action. -/
def step (s : State V) : Op V → State V × Option V
  | .newVar _ v => ({ s with
      meaning := Function.update s.meaning s.size fun env => env s.size
      isVar := Function.update s.isVar s.size true
      values := Function.update s.values s.size v
      size := s.size + 1
      handles := s.handles ++ [some s.size] }, none)
  | .build f ps _ _ =>
    match ps.mapM s.handle with
    | some ks => ({ s with
        meaning := Function.update s.meaning s.size fun env => f (ks.map fun k => s.meaning k env)
        isVar := Function.update s.isVar s.size false
        size := s.size + 1
        handles := s.handles ++ [some s.size] }, none)
    | none => (s, none)
  | .copy p => (match s.handle p with | some k => { s with handles := s.handles ++ [some k] } | none => s, none)
  | .drop p => ({ s with handles := s.handles.set p none }, none)
  | .assign p v =>
    match s.handle p with
    | some k => (if s.isVar k then { s with values := Function.update s.values k v } else s, none)
    | none => (s, none)
  | .eval p =>
    match s.handle p with
    | some k => ({ s with last := Function.update s.last p (some (s.meaning k s.values)) }, some (s.meaning k s.values))
    | none => (s, none)
  | .askNew _ => (s, none)
  | .become p q => ({ s with handles := s.handles.set p (s.handle q), last := Function.update s.last p none }, none)

def State.empty [Inhabited V] : State V :=
  { meaning := fun i env => env i, isVar := fun _ => true, values := fun _ => default, size := 0, handles := [], last := fun _ => none }

/-- The state after a history. -/
def after (s : State V) (os : List (Op V)) : State V := os.foldl (fun s o => (step s o).1) s

/-- The value of the expression at position `p`, if there is one. -/
def State.value (s : State V) (p : Nat) : Option V := (s.handle p).map fun k => s.meaning k s.values

/-- Actions that do not change the value of any expression nor destroy or replace the expression at position `p`. -/
def Quiet (p : Nat) : Op V → Prop
  | .assign _ _ => False
  | .drop q | .become q _ => q ≠ p
  | _ => True

/-- The values an evaluation without cache returns along a history. -/
def run (s : State V) : List (Op V) → List (Option V)
  | [] => []
  | o :: os => (step s o).2 :: run (step s o).1 os

end Verif.EvalCache.Spec
