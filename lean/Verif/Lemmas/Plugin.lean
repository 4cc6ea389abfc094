import Verif.Spec.Plugin
import Mathlib.Data.List.Count
/- Lemmas about the loading of the compiled expressions. -/
namespace Verif.Plugin
open Levi.CodeText (cleanName cleanLetter isAlphanumeric)
variable {C : Type}

theorem extend_some {path : Str} (h : path ≠ []) (stored : List Str) :
    ∃ t, extendSearchPath path stored = some (stored ++ t) := by
  obtain ⟨c, hc⟩ := Option.isSome_iff_exists.1 (List.getLast?_isSome.2 h)
  unfold extendSearchPath
  rw [hc]
  dsimp only
  split_ifs
  · exact ⟨[], by simp⟩
  · exact ⟨_, rfl⟩
  · exact ⟨[], by simp⟩
  · exact ⟨_, rfl⟩

theorem extend_none (stored : List Str) : extendSearchPath [] stored = none := rfl

theorem extendAll_some (l : List Str) (h : [] ∉ l) (stored : List Str) :
    ∃ t, l.foldlM (fun stored path => extendSearchPath path stored) stored = some (stored ++ t) := by
  induction l generalizing stored with
  | nil => exact ⟨[], by simp⟩
  | cons x l ih =>
    obtain ⟨t, ht⟩ := extend_some (path := x) (fun e => h (by rw [e]; exact List.mem_cons_self)) stored
    obtain ⟨t', ht'⟩ := ih (fun e => h (List.mem_cons_of_mem _ e)) (stored ++ t)
    refine ⟨t ++ t', ?_⟩
    rw [List.foldlM_cons, ht]
    simp only [Option.bind_eq_bind, Option.bind_some, ht', List.append_assoc]

theorem extendAll_none (l : List Str) (h : [] ∈ l) (stored : List Str) :
    l.foldlM (fun stored path => extendSearchPath path stored) stored = none := by
  induction l generalizing stored with
  | nil => simp at h
  | cons x l ih =>
    rw [List.foldlM_cons]
    rcases List.mem_cons.1 h with e | e
    · rw [← e]; rfl
    · cases extendSearchPath x stored with
      | none => rfl
      | some s => exact ih e s

/-- The empty lines. -/
theorem getlines_empty (s : Str) : ∀ current : Str, ([] ∈ getlines ':' s current ↔ (current = [] ∧ [':'] <+: s) ∨ [':', ':'] <:+: s) := by
  induction s with
  | nil =>
    intro current
    cases current <;> simp [getlines]
  | cons c s ih =>
    intro current
    unfold getlines
    by_cases hc : c = ':'
    · subst hc
      rw [if_pos rfl, List.mem_cons, ih []]
      have e : ([':', ':'] <:+: ':' :: s) ↔ [':'] <+: s ∨ [':', ':'] <:+: s := by
        rw [List.infix_cons_iff, List.cons_prefix_cons]
        simp
      rw [e]
      have e2 : ([':'] <+: ':' :: s) := by simp
      constructor
      · rintro (h | ⟨-, h⟩ | h)
        · exact Or.inl ⟨h.symm, e2⟩
        · exact Or.inr (Or.inl h)
        · exact Or.inr (Or.inr h)
      · rintro (⟨h, -⟩ | h | h)
        · exact Or.inl h.symm
        · exact Or.inr (Or.inl ⟨rfl, h⟩)
        · exact Or.inr (Or.inr h)
    · rw [if_neg hc, ih]
      have e : ([':', ':'] <:+: c :: s) ↔ [':', ':'] <:+: s := by
        rw [List.infix_cons_iff, List.cons_prefix_cons]
        simp [Ne.symm hc]
      rw [e]
      have e2 : ¬ ([':'] <+: c :: s) := by rw [List.cons_prefix_cons]; simp [Ne.symm hc]
      simp [e2]

theorem getlines_good {content : Str} (h : Spec.NoEmptyElement content) : [] ∉ getlines ':' content [] := by
  rw [getlines_empty]
  rintro (⟨-, h'⟩ | h')
  · exact h.1 h'
  · exact h.2 h'

theorem read_some {p : Process C} {f : Factory C} (h : Spec.GoodEnvironment p f.pluginPathEnvVar) :
    ∃ t, readExtendedPathFromEnvironment p f = some (f.extendedPath ++ t) := by
  unfold readExtendedPathFromEnvironment
  cases e : p.environment f.pluginPathEnvVar with
  | none => exact ⟨[], by simp⟩
  | some content => exact extendAll_some _ (getlines_good (h _ e)) _

theorem clean_letter (c : Char) : cleanLetter c ≠ '/' ∧ cleanLetter c ≠ '\\' := by
  unfold cleanLetter
  split_ifs with h1 h2
  · decide
  · constructor <;> rintro rfl <;> revert h2 <;> decide
  · decide

theorem clean_not (name : Str) : '/' ∉ cleanName name ∧ '\\' ∉ cleanName name := by
  constructor <;> (intro h; obtain ⟨c, -, e⟩ := List.mem_map.1 h)
  · exact (clean_letter c).1 e
  · exact (clean_letter c).2 e

theorem before_slash {x y a b : Str} (hx : '/' ∉ x) (hy : '/' ∉ y) (h : x ++ '/' :: a = y ++ '/' :: b) : x = y := by
  induction x generalizing y with
  | nil =>
    cases y with
    | nil => rfl
    | cons d y => simp only [List.nil_append, List.cons_append, List.cons.injEq] at h; exact absurd (by rw [h.1]; exact List.mem_cons_self) hy
  | cons c x ih =>
    cases y with
    | nil => simp only [List.nil_append, List.cons_append, List.cons.injEq] at h; exact absurd (by rw [← h.1]; exact List.mem_cons_self) hx
    | cons d y =>
      simp only [List.cons_append, List.cons.injEq] at h
      rw [h.1, ih (fun e => hx (List.mem_cons_of_mem _ e)) (fun e => hy (List.mem_cons_of_mem _ e)) h.2]

theorem built_inj {cwd a b : Str} (h : builtLibrary cwd (cleanName a) = builtLibrary cwd (cleanName b)) : cleanName a = cleanName b := by
  unfold builtLibrary buildDirectory at h
  simp only [List.append_assoc, List.append_cancel_left_eq] at h
  exact before_slash (clean_not a).1 (clean_not b).1 h

/-- The library that the first directory would have. -/
def releaseLibrary (cwd clean : Str) : Str := buildDirectory cwd clean ++ "\\lib\\Release/lib".toList ++ clean ++ "Lib.so".toList

theorem release_ne (cwd a b : Str) : releaseLibrary cwd (cleanName a) ≠ builtLibrary cwd (cleanName b) := by
  intro h
  have := congrArg (List.count '\\') h
  simp only [releaseLibrary, builtLibrary, buildDirectory, List.count_append, List.count_eq_zero.2 (clean_not a).2, List.count_eq_zero.2 (clean_not b).2] at this
  revert this
  simp

/-- The hook has the default checks and makes objects. -/
def Good (h : Hook C) : Prop :=
  h.startCheck = defaultStartCheck ∧ h.endCheck = defaultEndCheck ∧ h.systemVersion = defaultSystemVersion ∧ h.size = apiSize ∧ h.creates = true

/-- The factory holds the functions of a loaded library. -/
structure Holds (f : Factory C) (m : Maker C) : Prop where
  valid : f.isValid = true
  lib : f.lib = some m.path
  functions : f.api.functions = some m

theorem find_built {p : Process C} {cwd : Str} (name : Str) (hR : p.disk (releaseLibrary cwd (cleanName name)) = none)
    (hB : (p.disk (builtLibrary cwd (cleanName name))).isSome) (t : List Str) :
    findLibraryInExtendedPath p ([buildDirectory cwd (cleanName name) ++ "\\lib\\Release".toList, buildDirectory cwd (cleanName name) ++ "/lib".toList] ++ t)
      (cleanName name ++ "Lib".toList) = builtLibrary cwd (cleanName name) := by
  have e1 : ¬ ('\\' ∈ cleanName name ++ "Lib".toList ∨ '/' ∈ cleanName name ++ "Lib".toList) := by
    simp only [List.mem_append, (clean_not name).1, (clean_not name).2, false_or]
    decide
  have e2 : buildDirectory cwd (cleanName name) ++ "\\lib\\Release".toList ++ ['/'] ++ platformSpecificLibName (cleanName name ++ "Lib".toList) =
      releaseLibrary cwd (cleanName name) := by
    simp [releaseLibrary, platformSpecificLibName, buildDirectory]
  have e3 : buildDirectory cwd (cleanName name) ++ "/lib".toList ++ ['/'] ++ platformSpecificLibName (cleanName name ++ "Lib".toList) =
      builtLibrary cwd (cleanName name) := by
    simp [builtLibrary, platformSpecificLibName, buildDirectory]
  unfold findLibraryInExtendedPath
  rw [if_neg e1]
  simp only [List.cons_append, List.nil_append, List.find?_cons, e2, e3, hR, hB, Option.isSome_none]

theorem built_ne_nil (cwd clean : Str) : builtLibrary cwd clean ≠ [] := by
  simp [builtLibrary, buildDirectory]

theorem built_slash (cwd clean : Str) : '/' ∈ builtLibrary cwd clean := by
  simp [builtLibrary, buildDirectory]

theorem release_ne_lib (cwd clean : Str) : buildDirectory cwd clean ++ "\\lib\\Release".toList ≠ buildDirectory cwd clean ++ "/lib".toList := by
  intro h
  have := List.append_cancel_left h
  revert this
  decide

theorem extend_dirs (cwd clean : Str) : (extendSearchPath (buildDirectory cwd clean ++ "\\lib\\Release".toList) [] >>= fun s =>
    extendSearchPath (buildDirectory cwd clean ++ "/lib".toList) s) =
      some [buildDirectory cwd clean ++ "\\lib\\Release".toList, buildDirectory cwd clean ++ "/lib".toList] := by
  have l1 : (buildDirectory cwd clean ++ "\\lib\\Release".toList).getLast? = some 'e' := by
    rw [List.getLast?_append]; rfl
  have l2 : (buildDirectory cwd clean ++ "/lib".toList).getLast? = some 'b' := by
    rw [List.getLast?_append]; rfl
  have e1 : extendSearchPath (buildDirectory cwd clean ++ "\\lib\\Release".toList) [] = some [buildDirectory cwd clean ++ "\\lib\\Release".toList] := by
    unfold extendSearchPath
    rw [l1]
    rfl
  rw [e1]
  show extendSearchPath _ [_] = _
  unfold extendSearchPath
  rw [l2]
  dsimp only
  rw [if_neg (show ¬ ('b' = '/' ∨ 'b' = '\\') by decide), if_neg (by
    rw [List.mem_singleton]; exact (release_ne_lib cwd clean).symm)]
  rfl

abbrev Matches (f : Factory C) (h : Hook C) : Prop := Spec.Agrees f h

theorem open_eq {f : Factory C} {p p2 : Process C} {dll path : Str} {paths : List Str} {l : Loaded C} {hook : Hook C}
    (hr : readExtendedPathFromEnvironment p f = some paths) (hf : findLibraryInExtendedPath p paths dll = path) (hn : path ≠ []) (hlib : f.lib = none)
    (ho : p.dlopen path = (p2, some l)) (hh : l.lib (f.factoryName.getD defaultFactoryName) = some hook) (hg : Matches f hook) :
    ∃ f', Holds f' ⟨path, l.serial, hook⟩ ∧ f.openLibrary p dll = some (f', p2, true) := by
  obtain ⟨g1, g2, g3, g4⟩ := hg
  have hcall : ∀ a : Api C, hook.call path l.serial apiSize a =
      (⟨f.startCheck, apiSize, f.systemVersion, f.endCheck, some ⟨path, l.serial, hook⟩⟩, f.startCheck) := by
    intro a
    unfold Hook.call
    rw [if_neg (by rw [g4]; exact Int.lt_irrefl _), g1, g2, g3, g4]
  unfold Factory.openLibrary
  have hr' : readExtendedPathFromEnvironment p { f with returnValue := 0, name := [], status := Status.none, api := { f.api with startCheck := 0 } } = some paths := hr
  dsimp only
  rw [hr']
  simp only [Option.bind_eq_bind, Option.bind_some, hf, if_neg hn, hlib, closeLib, ho, hh, hcall]
  refine ⟨{ f with
    returnValue := f.startCheck
    name := dll
    status := .ok
    extendedPath := paths
    lib := some path
    api := ⟨f.startCheck, apiSize, f.systemVersion, f.endCheck, some ⟨path, l.serial, hook⟩⟩ }, ⟨?_, rfl, rfl⟩, ?_⟩
  · simp [Factory.isValid]
  · simp only [Factory.isValid, ne_eq, not_true, if_false, Bool.not_true, Bool.false_eq_true]

theorem create_eq {f : Factory C} {p : Process C} {m : Maker C} {l : Loaded C} (hf : Holds f m) (hl : p.loaded m.path = some l) (hs : l.serial = m.serial)
    (hc : m.hook.creates = true) : f.create p = some ({ p with objects := Function.update p.objects p.next (some m), next := p.next + 1 }, some p.next) := by
  unfold Factory.create
  simp only [hf.valid, Bool.not_true, Bool.false_eq_true, if_false, hf.functions, Process.isLoaded, hl, hs, beq_self_eq_true, hc, if_true]

/-- What `compile` does, when the library that is loaded has a good hook. -/
theorem compile_eq {p : Process C} {cwd name : Str} {code : C} (hE : Spec.GoodEnvironment p "SHLIBPP_PLUGIN_PATH".toList)
    (hR : p.disk (releaseLibrary cwd (cleanName name)) = none) {p2 : Process C} {l : Loaded C} {hook : Hook C}
    (ho : (p.build cwd (cleanName name) code).dlopen (builtLibrary cwd (cleanName name)) = (p2, some l))
    (hl : p2.loaded (builtLibrary cwd (cleanName name)) = some l)
    (hh : l.lib (cleanName name ++ "Factory".toList) = some hook) (hg : Good hook) :
    ∃ f, Holds f ⟨builtLibrary cwd (cleanName name), l.serial, hook⟩ ∧
      compile p cwd name code = some (⟨f, some p2.next⟩,
        { p2 with objects := Function.update p2.objects p2.next (some ⟨builtLibrary cwd (cleanName name), l.serial, hook⟩), next := p2.next + 1 }) := by
  have hb : (p.build cwd (cleanName name) code).disk (releaseLibrary cwd (cleanName name)) = none := by
    show Function.update p.disk _ _ _ = none
    rw [Function.update_of_ne (release_ne cwd name name)]
    exact hR
  have hd : ((p.build cwd (cleanName name) code).disk (builtLibrary cwd (cleanName name))).isSome := by
    show (Function.update p.disk _ _ _).isSome
    rw [Function.update_self]
    rfl
  obtain ⟨g1, g2, g3, g4, g5⟩ := hg
  have ed := extend_dirs cwd (cleanName name)
  let f0 : Factory C := { Factory.new C defaultStartCheck defaultEndCheck defaultSystemVersion none with
    extendedPath := [buildDirectory cwd (cleanName name) ++ "\\lib\\Release".toList, buildDirectory cwd (cleanName name) ++ "/lib".toList]
    factoryName := some (cleanName name ++ "Factory".toList) }
  obtain ⟨t, ht⟩ := read_some (p := p.build cwd (cleanName name) code) (f := f0) hE
  obtain ⟨f, hf, e⟩ := open_eq (f := f0) ht (find_built name hb hd t) (built_ne_nil _ _) rfl ho hh ⟨g1, g2, g3, g4⟩
  refine ⟨f, hf, ?_⟩
  have ec := create_eq (p := p2) hf hl rfl g5
  unfold compile
  cases e1 : extendSearchPath (buildDirectory cwd (cleanName name) ++ "\\lib\\Release".toList) [] with
  | none => rw [e1] at ed; simp at ed
  | some s1 =>
    rw [e1] at ed
    have ed : extendSearchPath (buildDirectory cwd (cleanName name) ++ "/lib".toList) s1 = _ := ed
    have n : (Factory.new C defaultStartCheck defaultEndCheck defaultSystemVersion none).extendedPath = [] := rfl
    have eo : ({ Factory.new C defaultStartCheck defaultEndCheck defaultSystemVersion none with
      extendedPath := [buildDirectory cwd (cleanName name) ++ "\\lib\\Release".toList, buildDirectory cwd (cleanName name) ++ "/lib".toList] } : Factory C).open
        (p.build cwd (cleanName name) code) (cleanName name ++ "Lib".toList) (some (cleanName name ++ "Factory".toList)) = some (f, p2, true) := e
    dsimp only
    rw [n, e1]
    simp only [Option.bind_eq_bind, Option.bind_some]
    rw [ed]
    simp only [Option.bind_some, eo, hf.valid, and_self, if_true, ec]

/-- `delete` of an expression whose library was opened once. -/
theorem delete_eq {c : Compiled C} {p : Process C} {m : Maker C} {l : Loaded C} {o : Nat} (hf : Holds c.factory m) (ho : c.object = some o) (hm : p.objects o = some m)
    (hl : p.loaded m.path = some l) (hs : l.serial = m.serial) :
    c.delete p = some (({ p with objects := Function.update p.objects o none } : Process C).dlclose m.path) := by
  unfold Compiled.delete
  rw [ho]
  simp only [Factory.destroy, hf.valid, Bool.not_true, Bool.false_eq_true, if_false, hf.functions, hm, Process.isLoaded, hl, hs, beq_self_eq_true, and_self, if_true,
    Option.bind_eq_bind, Option.bind_some, hf.lib, closeLib]

end Verif.Plugin
