import Verif.Model.LibraryClass
/- Specification of the handles of objects of shared libraries. -/
namespace Verif.LibClass.Spec

/-- The handle has the object. -/
def Holds (w : World) (h o : Nat) : Prop := ∃ x : Handle, w.handles[h]? = some (some x) ∧ x.content = some o

/-- The object exists, made by this factory and destroyed so many times. -/
def IsObject (w : World) (o maker destroyed : Nat) : Prop := w.objects[o]? = some ⟨maker, destroyed⟩

/-- The factory was not deleted. -/
def Alive (w : World) (f : Nat) : Prop := ∃ F : Factory, w.factories[f]? = some F ∧ F.alive = true

/-- The histories in which who makes a factory gives up its reference at most once and does not use the factory afterwards, and no handle is copied.  `n` factories were made before, the ones in `given` were given up. -/
def Fair : Nat → List Nat → List Op → Prop
  | _, _, [] => True
  | n, given, .newFactory _ :: l => Fair (n + 1) given l
  | n, given, .reopen f _ :: l => f ∉ given ∧ Fair n given l
  | n, given, .release f :: l => f < n ∧ f ∉ given ∧ Fair n (f :: given) l
  | n, given, .openHandle _ f _ :: l => f ∉ given ∧ Fair n given l
  | _, _, .copyHandle _ :: _ => False
  | n, given, .newHandle :: l => Fair n given l
  | n, given, .closeHandle _ :: l => Fair n given l
  | n, given, .deleteHandle _ :: l => Fair n given l

/-- The libraries are always valid and always make the object. -/
def Working (l : List Op) : Prop :=
  ∀ op ∈ l, match op with
    | .newFactory valid => valid = true
    | .reopen _ valid => valid = true
    | .openHandle _ _ made => made = true
    | _ => True

end Verif.LibClass.Spec
