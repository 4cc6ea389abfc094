import Mathlib.Data.List.Basic
/-
`shlibpp::SharedLibraryClass` (extern/levi/deps/sharedlibpp/src/shlibpp/SharedLibraryClass-inl.h, SharedLibraryClass.h): handles of objects made by the factory of a shared library, with the reference counter of the factory
(SharedLibraryFactory.cpp:78, 336-346).

Objects, factories and handles are numbered in the order they are made.  A factory is valid or not (`isValid`, the subject of C89); the code of the library answers to `create` with an object or with a null pointer.
A result `none` is an access to a factory that was deleted (or to a null pointer): what happens then is undefined.  Calls on handles or factories that were never made cannot be written: they do nothing here.
-/
namespace Verif.LibClass

/-- `SharedLibraryClassFactory<T>`: the reference counter `rct`, `isValid()`, not yet deleted. -/
structure Factory where
  refs : Int
  valid : Bool
  alive : Bool

/-- An object made by the library: the factory that made it, how many times it was destroyed. -/
structure Object where
  maker : Nat
  destroyed : Nat

/-- `SharedLibraryClass<T>`: the members `content` and `pfactory`. -/
structure Handle where
  content : Option Nat
  factory : Option Nat

/-- The heap; `none` is a handle that was deleted. -/
structure World where
  factories : List Factory
  objects : List Object
  handles : List (Option Handle)

/-- SharedLibraryClass-inl.h:12-17. -/
def emptyHandle : Handle := ⟨none, none⟩

/-- `removeRef() == 0`, then `delete`: SharedLibraryFactory.cpp:342-346, SharedLibraryClass-inl.h:49-51. -/
def removeRef (F : Factory) : Factory := ⟨F.refs - 1, F.valid, F.refs - 1 != 0⟩

/-- `destroy(obj)`, SharedLibraryClassFactory-inl.h:46-53: nothing if the factory is not valid. -/
def destroy (F : Factory) (objects : List Object) (o : Nat) : List Object :=
  if F.valid then objects.modify o (fun b => ⟨b.maker, b.destroyed + 1⟩) else objects

/-- `close()`, SharedLibraryClass-inl.h:45-59. -/
def close (w : World) (h : Nat) (x : Handle) : Option World :=
  match x.content with
  | none => some ⟨w.factories, w.objects, w.handles.set h (some emptyHandle)⟩
  | some o =>
    match x.factory with
    | none => none
    | some f =>
      match w.factories[f]? with
      | none => none
      | some F =>
        if F.alive then some ⟨w.factories.set f (removeRef F), destroy F w.objects o, w.handles.set h (some emptyHandle)⟩
        else none

/-- The second half of `open`, SharedLibraryClass-inl.h:37-41, with `create` of SharedLibraryClassFactory-inl.h:37-44 and `addRef` of SharedLibraryFactory.cpp:336-340; `made`: the library makes an object. -/
def fill (w : World) (h f : Nat) (made : Bool) : Option World :=
  match w.factories[f]? with
  | none => none
  | some F =>
    if F.alive then
      let factories := w.factories.set f ⟨F.refs + 1, F.valid, F.alive⟩
      if F.valid && made then some ⟨factories, w.objects ++ [⟨f, 0⟩], w.handles.set h (some ⟨some w.objects.length, some f⟩)⟩
      else some ⟨factories, w.objects, w.handles.set h (some ⟨none, some f⟩)⟩
    else none

/-- What a program can do. -/
inductive Op
  /-- `new SharedLibraryClassFactory(...)`, with its validity -/
  | newFactory (valid : Bool)
  /-- `factory.open(...)`: another library, with the validity it leaves -/
  | reopen (f : Nat) (valid : Bool)
  /-- `if (factory->removeRef() == 0) delete factory;` by who made the factory -/
  | release (f : Nat)
  /-- `SharedLibraryClass()` -/
  | newHandle
  /-- `handle.open(factory)`; `made`: the library makes an object -/
  | openHandle (h f : Nat) (made : Bool)
  /-- `handle.close()` -/
  | closeHandle (h : Nat)
  /-- `~SharedLibraryClass()` -/
  | deleteHandle (h : Nat)
  /-- the implicit copy constructor -/
  | copyHandle (h : Nat)

/-- One operation. -/
def step (w : World) : Op → Option World
  | .newFactory valid => some ⟨w.factories ++ [⟨1, valid, true⟩], w.objects, w.handles⟩
  | .reopen f valid =>
    match w.factories[f]? with
    | none => some w
    | some F => if F.alive then some ⟨w.factories.set f ⟨F.refs, valid, F.alive⟩, w.objects, w.handles⟩ else none
  | .release f =>
    match w.factories[f]? with
    | none => some w
    | some F => if F.alive then some ⟨w.factories.set f (removeRef F), w.objects, w.handles⟩ else none
  | .newHandle => some ⟨w.factories, w.objects, w.handles ++ [some emptyHandle]⟩
  | .openHandle h f made =>
    match w.handles[h]?, w.factories[f]? with
    | some (some x), some _ => (close w h x).bind fun w => fill w h f made
    | _, _ => some w
  | .closeHandle h =>
    match w.handles[h]? with
    | some (some x) => close w h x
    | _ => some w
  | .deleteHandle h =>
    match w.handles[h]? with
    | some (some x) => (close w h x).bind fun w => some ⟨w.factories, w.objects, w.handles.set h none⟩
    | _ => some w
  | .copyHandle h =>
    match w.handles[h]? with
    | some (some x) => some ⟨w.factories, w.objects, w.handles ++ [some x]⟩
    | _ => some w

/-- A history. -/
def run : World → List Op → Option World
  | w, [] => some w
  | w, op :: l => (step w op).bind fun w => run w l

/-- Before anything is made. -/
def start : World := ⟨[], [], []⟩

/-- `isValid()` of a handle, SharedLibraryClass-inl.h:73-77. -/
def isValid (x : Handle) : Bool := x.content.isSome

end Verif.LibClass
