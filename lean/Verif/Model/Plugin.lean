import Verif.Model.CodeText
import Mathlib.Logic.Function.Basic
/-
Loading of the compiled expressions: extern/levi/deps/sharedlibpp/src (SharedLibrary.cpp, SharedLibraryFactory.cpp, shlibpp/SharedLibraryClassFactory-inl.h,
shlibpp/SharedLibraryClassApi.h) and extern/levi/include/levi/AutogeneratedHelper.h:84-109 (`CompiledEvaluableFactory`), 586-709 (`compile`), on Linux.

Simplifications: strings are lists of characters; integers have no width; the messages, the names of the classes and the versions are not modelled.
`none` stands for undefined behaviour: `back()` of an empty string, a call of a function of a library that is not loaded any more, a second `delete`, an
object deleted by a library that did not make it; in `compile` it also stands for a failed assertion.

External, and modelled here: the process (disk, environment, loaded libraries).  As POSIX says, `dlopen` of a library that is loaded gives that library again,
whatever the disk holds, and `dlclose` removes it when it was closed as many times as it was opened.
-/
namespace Verif.Plugin
open Levi.CodeText (cleanName)
abbrev Str := List Char
variable {C : Type}

/-- The function made by the macro at SharedLibraryClassApi.h:100-157 with these arguments; `size` is the size of the structure where the library was compiled,
`code` what its objects compute, `creates` tells if the object has the class that is asked (lines 101-109). -/
structure Hook (C : Type) where
  startCheck : Int
  endCheck : Int
  systemVersion : Int
  size : Int
  code : C
  creates : Bool

/-- A library: its symbols. -/
abbrev Library (C : Type) := Str → Option (Hook C)

inductive File (C : Type)
  | library (l : Library C)
  | other

/-- A library in memory; `serial` tells apart two times the same file is loaded. -/
structure Loaded (C : Type) where
  lib : Library C
  serial : Nat
  count : Nat

/-- The functions `create` and `destroy` of a loaded library. -/
structure Maker (C : Type) where
  path : Str
  serial : Nat
  hook : Hook C

/-- The process: `disk` are the files by path, `system` what `dlopen` finds for a name without slashes. -/
structure Process (C : Type) where
  disk : Str → Option (File C)
  system : Str → Option (Library C)
  environment : Str → Option Str
  loaded : Str → Option (Loaded C)
  objects : Nat → Option (Maker C)
  serial : Nat
  next : Nat

/-- What `dlopen` finds for a path that is not loaded. -/
def Process.resolve (p : Process C) (path : Str) : Option (Library C) :=
  if '/' ∈ path then
    match p.disk path with
    | some (.library l) => some l
    | _ => none
  else p.system path

/-- `dlopen` (external). -/
def Process.dlopen (p : Process C) (path : Str) : Process C × Option (Loaded C) :=
  match p.loaded path with
  | some l =>
    let l' := { l with count := l.count + 1 }
    ({ p with loaded := Function.update p.loaded path (some l') }, some l')
  | none =>
    match p.resolve path with
    | some lib =>
      let l : Loaded C := ⟨lib, p.serial, 1⟩
      ({ p with loaded := Function.update p.loaded path (some l), serial := p.serial + 1 }, some l)
    | none => (p, none)

/-- `dlclose` (external). -/
def Process.dlclose (p : Process C) (path : Str) : Process C :=
  match p.loaded path with
  | some l =>
    if l.count ≤ 1 then { p with loaded := Function.update p.loaded path none }
    else { p with loaded := Function.update p.loaded path (some { l with count := l.count - 1 }) }
  | none => p

/-- The library of the functions is still in memory. -/
def Process.isLoaded (p : Process C) (m : Maker C) : Bool :=
  match p.loaded m.path with
  | some l => l.serial == m.serial
  | none => false

/-- `SharedLibraryClassApi`, SharedLibraryClassApi.h:30-58: the members that are checked and the functions. -/
structure Api (C : Type) where
  startCheck : Int
  structureSize : Int
  systemVersion : Int
  endCheck : Int
  functions : Option (Maker C)

/-- SharedLibraryFactory.h:34-42. -/
inductive Status
  | none
  | ok
  | libraryNotFound
  | libraryNotLoaded
  | factoryNotFound
  | factoryNotFunctional
  deriving DecidableEq

/-- `SharedLibraryFactory::Private`, SharedLibraryFactory.cpp:34-66; `lib` is the path of the library open in `SharedLibrary`. -/
structure Factory (C : Type) where
  lib : Option Str
  status : Status
  api : Api C
  returnValue : Int
  rct : Int
  name : Str
  startCheck : Int
  endCheck : Int
  systemVersion : Int
  factoryName : Option Str
  extendedPath : List Str
  pluginPathEnvVar : Str

/-- SharedLibraryClassApi.h:62-72. -/
def defaultStartCheck : Int := 83 + 72 * 2 ^ 8 + 80 * 2 ^ 16 + 80 * 2 ^ 24
def defaultEndCheck : Int := 80 + 76 * 2 ^ 8 + 85 * 2 ^ 16 + 71 * 2 ^ 24
def defaultSystemVersion : Int := 5
/-- SharedLibraryClassApi.h:73. -/
def defaultFactoryName : Str := "shlibpp_default_factory".toList

/-- `sizeof(SharedLibraryClassApi)`: SharedLibraryClassApi.h:30-58 with 64-bit pointers (three integers and a padding, six functions, padding for growth,
an integer). Only that it is not zero matters. -/
def apiSize : Int := 96

/-- The constructors SharedLibraryFactory.cpp:70-85, 247-253. -/
def Factory.new (C : Type) (startCheck endCheck systemVersion : Int) (factoryName : Option Str) : Factory C where
  lib := none
  status := .none
  api := ⟨0, 0, 0, 0, none⟩
  returnValue := 0
  rct := 1
  name := []
  startCheck := startCheck
  endCheck := endCheck
  systemVersion := systemVersion
  factoryName := factoryName
  extendedPath := []
  pluginPathEnvVar := "SHLIBPP_PLUGIN_PATH".toList

/-- `extendSearchPath`, SharedLibraryFactory.cpp:207-222. -/
def extendSearchPath (path : Str) (stored : List Str) : Option (List Str) :=
  match path.getLast? with
  | none => none
  | some c =>
    let pathToAdd := if c = '/' ∨ c = '\\' then path.dropLast else path
    if pathToAdd ∈ stored then some stored else some (stored ++ [pathToAdd])

/-- `while (getline(envStream, path, delim))`, SharedLibraryFactory.cpp:242: the values of `path`; `current` is the part of the line already read. -/
def getlines (delim : Char) : Str → Str → List Str
  | [], [] => []
  | [], current => [current]
  | c :: rest, current => if c = delim then current :: getlines delim rest [] else getlines delim rest (current ++ [c])

/-- `readExtendedPathFromEnvironment`, SharedLibraryFactory.cpp:224-245. -/
def readExtendedPathFromEnvironment (p : Process C) (f : Factory C) : Option (List Str) :=
  match p.environment f.pluginPathEnvVar with
  | none => some f.extendedPath
  | some content => (getlines ':' content []).foldlM (fun stored path => extendSearchPath path stored) f.extendedPath

/-- `platformSpecificLibName`, SharedLibraryFactory.cpp:97 (on Linux there is one). -/
def platformSpecificLibName (library : Str) : Str := "lib".toList ++ library ++ ".so".toList

/-- `findLibraryInExtendedPath`, SharedLibraryFactory.cpp:105-123; `std::ifstream` is true for the files of the disk. -/
def findLibraryInExtendedPath (p : Process C) (extendedPath : List Str) (libraryName : Str) : Str :=
  if '\\' ∈ libraryName ∨ '/' ∈ libraryName then []
  else
    match extendedPath.find? (fun path => (p.disk (path ++ ['/'] ++ platformSpecificLibName libraryName)).isSome) with
    | some path => path ++ ['/'] ++ platformSpecificLibName libraryName
    | none => []

/-- `isValid`, SharedLibraryFactory.cpp:176-194. -/
def Factory.isValid (f : Factory C) : Bool :=
  if f.returnValue ≠ f.startCheck then false
  else if f.api.startCheck ≠ f.startCheck then false
  else if f.api.structureSize ≠ apiSize then false
  else if f.api.systemVersion ≠ f.systemVersion then false
  else if f.api.endCheck ≠ f.endCheck then false
  else true

/-- The call of the function of the library: SharedLibraryClassApi.h:140-157. -/
def Hook.call (h : Hook C) (path : Str) (serial : Nat) (len : Int) (api : Api C) : Api C × Int :=
  if len < h.size then (api, -1)
  else (⟨h.startCheck, h.size, h.systemVersion, h.endCheck, some ⟨path, serial, h⟩⟩, h.startCheck)

/-- `SharedLibrary::close`, SharedLibrary.cpp:79-107. -/
def closeLib (p : Process C) : Option Str → Process C
  | some path => p.dlclose path
  | none => p

/-- `SharedLibraryFactory::Private::open`, SharedLibraryFactory.cpp:125-174 (`SharedLibrary::open` is SharedLibrary.cpp:52-77). -/
def Factory.openLibrary (f : Factory C) (p : Process C) (dll : Str) : Option (Factory C × Process C × Bool) := do
  let f := { f with returnValue := 0, name := [], status := Status.none, api := { f.api with startCheck := 0 } }
  let extendedPath ← readExtendedPathFromEnvironment p f
  let f := { f with extendedPath := extendedPath }
  let found := findLibraryInExtendedPath p extendedPath dll
  let pathToLib := if found = [] then dll else found
  let p := closeLib p f.lib
  match p.dlopen pathToLib with
  | (p, none) =>
    let status := if (p.disk pathToLib).isNone then Status.libraryNotFound else Status.libraryNotLoaded
    some ({ f with lib := none, status := status }, p, false)
  | (p, some l) =>
    match l.lib (f.factoryName.getD defaultFactoryName) with
    | none => some ({ f with lib := none, status := .factoryNotFound }, p.dlclose pathToLib, false)
    | some hook =>
      -- useFactoryFunction, lines 196-205
      let (api, value) := hook.call pathToLib l.serial apiSize { f.api with startCheck := 0 }
      let f := { f with lib := some pathToLib, api := api, returnValue := value }
      if !f.isValid then some ({ f with status := .factoryNotFunctional }, p, false)
      else some ({ f with status := .ok, name := dll }, p, true)

/-- `open` with the checks, SharedLibraryFactory.cpp:283-294. -/
def Factory.openWith (f : Factory C) (p : Process C) (dll : Str) (startCheck endCheck systemVersion : Int) (factoryName : Option Str) :
    Option (Factory C × Process C × Bool) :=
  { f with startCheck := startCheck, endCheck := endCheck, systemVersion := systemVersion, factoryName := factoryName }.openLibrary p dll

/-- `open`, SharedLibraryFactory.cpp:296-303. -/
def Factory.open (f : Factory C) (p : Process C) (dll : Str) (factoryName : Option Str) : Option (Factory C × Process C × Bool) :=
  f.openWith p dll defaultStartCheck defaultEndCheck defaultSystemVersion factoryName

/-- `create`, SharedLibraryClassFactory-inl.h:39-46, SharedLibraryClassApi.h:101-109: the object made, if any. -/
def Factory.create (f : Factory C) (p : Process C) : Option (Process C × Option Nat) :=
  if !f.isValid then some (p, none)
  else
    match f.api.functions with
    | none => none
    | some m =>
      if !p.isLoaded m then none
      else if m.hook.creates then some ({ p with objects := Function.update p.objects p.next (some m), next := p.next + 1 }, some p.next)
      else some (p, none)

/-- `destroy`, SharedLibraryClassFactory-inl.h:48-55, SharedLibraryClassApi.h:111-117. -/
def Factory.destroy (f : Factory C) (p : Process C) (object : Nat) : Option (Process C) :=
  if !f.isValid then some p
  else
    match f.api.functions, p.objects object with
    | some m, some o => if p.isLoaded m ∧ m.path = o.path ∧ m.serial = o.serial then some { p with objects := Function.update p.objects object none } else none
    | _, _ => none

/-- What an object computes (the virtual method `evaluate`, CompiledEvaluable.h:21). -/
def Process.evaluate (p : Process C) (object : Nat) : Option C :=
  match p.objects object with
  | some m => if p.isLoaded m then some m.hook.code else none
  | none => none

/-- `CompiledEvaluableFactory`, AutogeneratedHelper.h:84-109. -/
structure Compiled (C : Type) where
  factory : Factory C
  object : Option Nat

/-- AutogeneratedHelper.h:594-596, 633: the directory of the build. -/
def buildDirectory (cwd clean : Str) : Str := cwd ++ ['/'] ++ clean ++ "/build".toList

/-- The library made by the generated project: extern/levi/cmake/CMakeLists.auto (with `lib` as CMAKE_INSTALL_LIBDIR). -/
def builtLibrary (cwd clean : Str) : Str := buildDirectory cwd clean ++ "/lib/lib".toList ++ clean ++ "Lib.so".toList

/-- AutogeneratedHelper.h:604-675: the files are written and compiled (external): afterwards the disk has the library, whose only plugin is the one of the macro at
line 630. -/
def Process.build (p : Process C) (cwd clean : Str) (code : C) : Process C :=
  { p with disk := Function.update p.disk (builtLibrary cwd clean) (some (.library fun symbol =>
      if symbol = clean ++ "Factory".toList then
        some ⟨defaultStartCheck, defaultEndCheck, defaultSystemVersion, apiSize, code, true⟩
      else none)) }

/-- `compile`, AutogeneratedHelper.h:586-709, on a new `CompiledEvaluableFactory` (AutogeneratedEvaluable.h:38, 67). -/
def compile (p : Process C) (cwd name : Str) (code : C) : Option (Compiled C × Process C) := do
  let clean := cleanName name
  let p := p.build cwd clean code
  let f := Factory.new C defaultStartCheck defaultEndCheck defaultSystemVersion none
  let paths ← extendSearchPath (buildDirectory cwd clean ++ "\\lib\\Release".toList) f.extendedPath
  let paths ← extendSearchPath (buildDirectory cwd clean ++ "/lib".toList) paths
  let (f, p, isLibOpen) ← { f with extendedPath := paths }.open p (clean ++ "Lib".toList) (some (clean ++ "Factory".toList))
  if isLibOpen ∧ f.isValid then
    let (p, object) ← f.create p
    match object with
    | some o => some (⟨f, some o⟩, p)
    | none => none
  else none

/-- The destructors: AutogeneratedHelper.h:99-104, then the one of the factory (SharedLibraryFactory.cpp:278-281, SharedLibrary.cpp:46-50). -/
def Compiled.delete (c : Compiled C) (p : Process C) : Option (Process C) := do
  let p ← (match c.object with
    | some o => c.factory.destroy p o
    | none => some p)
  some (closeLib p c.factory.lib)

end Verif.Plugin
