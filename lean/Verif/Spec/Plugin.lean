import Verif.Model.Plugin
/- Histories of compiled expressions, and what is asked of them. -/
namespace Verif.Plugin
open Levi.CodeText (cleanName)
variable {C : Type}

/-- A compiled expression is made, or the `k`-th of the ones alive is deleted. -/
inductive Act (C : Type)
  | make (name : Str) (code : C)
  | drop (k : Nat)

structure Entry (C : Type) where
  name : Str
  code : C
  compiled : Compiled C

structure World (C : Type) where
  process : Process C
  alive : List (Entry C)

/-- One of the two things happens (AutogeneratedEvaluable.h:35-71, 84-85). -/
def World.step (cwd : Str) (w : World C) : Act C → Option (World C)
  | .make name code => do
    let (c, p) ← compile w.process cwd name code
    some ⟨p, w.alive ++ [⟨name, code, c⟩]⟩
  | .drop k =>
    match w.alive[k]? with
    | some e => do
      let p ← e.compiled.delete w.process
      some ⟨p, w.alive.eraseIdx k⟩
    | none => some w

def World.run (cwd : Str) (w : World C) : List (Act C) → Option (World C)
  | [] => some w
  | a :: l => do
    let w ← w.step cwd a
    w.run cwd l

/-- Calls on one factory: `open` with the default checks or with others, a directory for the search. -/
inductive Call
  | open (dll : Str) (factoryName : Option Str)
  | openWith (dll : Str) (startCheck endCheck systemVersion : Int) (factoryName : Option Str)
  | extend (path : Str)

/-- What they do, and the answer of the last `open`. -/
def Factory.calls (f : Factory C) (p : Process C) (last : Bool) : List Call → Option (Factory C × Process C × Bool)
  | [] => some (f, p, last)
  | .open dll n :: l => do
    let (f, p, b) ← f.open p dll n
    f.calls p b l
  | .openWith dll a b c n :: l => do
    let (f, p, x) ← f.openWith p dll a b c n
    f.calls p x l
  | .extend path :: l => do
    let paths ← extendSearchPath path f.extendedPath
    { f with extendedPath := paths }.calls p last l

namespace Spec

/-- The names and the codes of the expressions alive, in the order they were made. -/
def alive : List (Str × C) → List (Act C) → List (Str × C)
  | l, [] => l
  | l, .make name code :: acts => alive (l ++ [(name, code)]) acts
  | l, .drop k :: acts => alive (l.eraseIdx k) acts

/-- Two expressions alive at the same time never have the same name for the compiler. -/
def Distinct : List (Str × C) → List (Act C) → Prop
  | _, [] => True
  | l, .make name code :: acts => (∀ e ∈ l, cleanName e.1 ≠ cleanName name) ∧ Distinct (l ++ [(name, code)]) acts
  | l, .drop k :: acts => Distinct (l.eraseIdx k) acts

/-- No element of a list of directories separated by colons is empty, but for a last one. -/
def NoEmptyElement (content : Str) : Prop := ¬ [':'] <+: content ∧ ¬ [':', ':'] <:+: content

/-- The directories written in the environment variable can be read. -/
def GoodEnvironment (p : Process C) (name : Str) : Prop := ∀ content, p.environment name = some content → NoEmptyElement content

/-- Nothing of the working directory is in use: no library of its builds is loaded; the directory with the name that Windows would use has no library. -/
structure Fresh (p : Process C) (cwd : Str) : Prop where
  environment : GoodEnvironment p "SHLIBPP_PLUGIN_PATH".toList
  loaded : ∀ name, p.loaded (builtLibrary cwd (cleanName name)) = none
  release : ∀ name, p.disk (buildDirectory cwd (cleanName name) ++ "\\lib\\Release/lib".toList ++ cleanName name ++ "Lib.so".toList) = none
  objects : ∀ o, p.next ≤ o → p.objects o = none

/-- The first directory of a list that has the library. -/
def firstWith (p : Process C) (library : Str) : List Str → Option Str
  | [] => none
  | d :: l => if (p.disk (d ++ "/lib".toList ++ library ++ ".so".toList)).isSome then some (d ++ "/lib".toList ++ library ++ ".so".toList) else firstWith p library l

/-- The elements of a list of directories separated by colons. -/
def elements (content : Str) : List Str := (content.splitOn ':').filter (fun e => decide (e ≠ []))

/-- A directory without the last slash or backslash. -/
def withoutSlash (path : Str) : Str := if path.getLast? = some '/' ∨ path.getLast? = some '\\' then path.dropLast else path

/-- The directories where a factory looks for libraries: the ones it was given, and the ones of the environment variable. -/
def directories (p : Process C) (f : Factory C) : List Str :=
  f.extendedPath ++ (match p.environment f.pluginPathEnvVar with
    | some content => (elements content).map withoutSlash
    | none => [])

/-- The library that a name stands for: a path is taken as it is; any other name is looked for in the directories, and otherwise left to the system. -/
def libraryPath (p : Process C) (f : Factory C) (dll : Str) : Str :=
  if '/' ∈ dll ∨ '\\' ∈ dll then dll else (firstWith p dll (directories p f)).getD dll

/-- The library that the system gives for a path: the one in memory, or otherwise the one of the disk. -/
def available (p : Process C) (path : Str) : Option (Library C) :=
  match p.loaded path with
  | some l => some l.lib
  | none => p.resolve path

/-- How many times a library was opened and not closed. -/
def opened (p : Process C) (path : Str) : Nat :=
  match p.loaded path with
  | some l => l.count
  | none => 0

/-- The libraries in memory were opened at least once. -/
def Counted (p : Process C) : Prop := ∀ path l, p.loaded path = some l → 1 ≤ l.count

/-- The checks of the library are the ones that the factory asks. -/
def Agrees (f : Factory C) (h : Hook C) : Prop :=
  h.startCheck = f.startCheck ∧ h.endCheck = f.endCheck ∧ h.systemVersion = f.systemVersion ∧ h.size = apiSize

/-- The answer to `open`. -/
inductive Answer (C : Type)
  | notFound
  | notLoaded
  | noFactory
  | notFunctional
  | ready (h : Hook C)

open Classical in
/-- What `open` should say of a library. -/
noncomputable def answer (p : Process C) (f : Factory C) (path : Str) : Answer C :=
  match available p path with
  | none => if (p.disk path).isNone then .notFound else .notLoaded
  | some lib =>
    match lib (f.factoryName.getD defaultFactoryName) with
    | none => .noFactory
    | some h => if Agrees f h then .ready h else .notFunctional

def Answer.status : Answer C → Status
  | .notFound => .libraryNotFound
  | .notLoaded => .libraryNotLoaded
  | .noFactory => .factoryNotFound
  | .notFunctional => .factoryNotFunctional
  | .ready _ => .ok

/-- The start checks of a history of calls are not zero. -/
def NonzeroChecks (calls : List Call) : Prop := ∀ dll a b c n, Call.openWith dll a b c n ∈ calls → a ≠ 0

/-- The directories given in a history of calls are not empty. -/
def NonemptyPaths (calls : List Call) : Prop := ∀ path, Call.extend path ∈ calls → path ≠ []

end Spec
end Verif.Plugin
