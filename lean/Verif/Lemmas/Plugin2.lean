import Verif.Lemmas.Plugin
/- Lemmas about `open`. -/
namespace Verif.Plugin
variable {C : Type}

theorem getlines_filter (s : Str) : ∀ current : Str, (getlines ':' s current).filter (fun e => decide (e ≠ [])) =
    ((s.splitOn ':').modifyHead (current ++ ·)).filter (fun e => decide (e ≠ [])) := by
  induction s with
  | nil =>
    intro current
    cases current <;> simp [getlines]
  | cons c s ih =>
    intro current
    unfold getlines
    rw [List.splitOn_cons_eq_if_modifyHead]
    by_cases hc : c = ':'
    · subst hc
      rw [if_pos rfl, List.filter_cons, ih []]
      simp only [beq_self_eq_true, if_true, List.modifyHead_cons, List.append_nil, List.filter_cons]
      have : ((fun x => [] ++ x) : Str → Str) = id := by funext x; rfl
      rw [this]
      simp
    · rw [if_neg hc, ih]
      have : (c == ':') = false := by simpa using hc
      simp only [this, Bool.false_eq_true, if_false, List.modifyHead_modifyHead]
      congr 2
      funext x
      simp

theorem getlines_elements {content : Str} (h : Spec.NoEmptyElement content) : getlines ':' content [] = Spec.elements content := by
  have e := getlines_filter content []
  have : ((fun x => [] ++ x) : Str → Str) = id := by funext x; rfl
  rw [this] at e
  rw [List.filter_eq_self.2] at e
  · rw [e]
    simp [Spec.elements]
  · intro x hx
    have := getlines_good h
    simp only [decide_eq_true_eq]
    rintro rfl
    exact this hx

theorem elements_ne {content : Str} : [] ∉ Spec.elements content := by
  unfold Spec.elements
  simp

theorem extend_find {path : Str} (h : path ≠ []) (stored : List Str) :
    ∃ s, extendSearchPath path stored = some s ∧ ∀ q : Str → Bool, s.find? q = (stored ++ [Spec.withoutSlash path]).find? q := by
  obtain ⟨c, hc⟩ := Option.isSome_iff_exists.1 (List.getLast?_isSome.2 h)
  have hw : Spec.withoutSlash path = if c = '/' ∨ c = '\\' then path.dropLast else path := by
    unfold Spec.withoutSlash
    rw [hc]
    simp only [Option.some.injEq]
  unfold extendSearchPath
  rw [hc]
  dsimp only
  rw [← hw]
  by_cases hm : Spec.withoutSlash path ∈ stored
  · rw [if_pos hm]
    refine ⟨_, rfl, fun q => ?_⟩
    rw [List.find?_append]
    cases e : stored.find? q with
    | some x => rfl
    | none =>
      have := List.find?_eq_none.1 e _ hm
      simp [this]
  · rw [if_neg hm]
    exact ⟨_, rfl, fun q => rfl⟩

theorem extendAll_find (l : List Str) (h : [] ∉ l) (stored : List Str) :
    ∃ s, l.foldlM (fun stored path => extendSearchPath path stored) stored = some s ∧
      ∀ q : Str → Bool, s.find? q = (stored ++ l.map Spec.withoutSlash).find? q := by
  induction l generalizing stored with
  | nil => exact ⟨stored, rfl, fun q => by simp⟩
  | cons x l ih =>
    obtain ⟨s, hs, e⟩ := extend_find (path := x) (fun e => h (by rw [e]; exact List.mem_cons_self)) stored
    obtain ⟨s', hs', e'⟩ := ih (fun e => h (List.mem_cons_of_mem _ e)) s
    refine ⟨s', ?_, fun q => ?_⟩
    · rw [List.foldlM_cons, hs]
      exact hs'
    · rw [e', List.find?_append, e, ← List.find?_append]
      simp

theorem read_find {p : Process C} {f : Factory C} (h : Spec.GoodEnvironment p f.pluginPathEnvVar) :
    ∃ s, readExtendedPathFromEnvironment p f = some s ∧ ∀ q : Str → Bool, s.find? q = (Spec.directories p f).find? q := by
  unfold readExtendedPathFromEnvironment Spec.directories
  cases e : p.environment f.pluginPathEnvVar with
  | none => exact ⟨_, rfl, fun q => by simp⟩
  | some content =>
    dsimp only
    rw [getlines_elements (h _ e)]
    exact extendAll_find _ elements_ne _

theorem read_none {p : Process C} {f : Factory C} (h : ¬ Spec.GoodEnvironment p f.pluginPathEnvVar) : readExtendedPathFromEnvironment p f = none := by
  unfold Spec.GoodEnvironment Spec.NoEmptyElement at h
  push Not at h
  obtain ⟨content, e, h⟩ := h
  unfold readExtendedPathFromEnvironment
  rw [e]
  apply extendAll_none
  rw [getlines_empty]
  by_cases h' : [':'] <+: content
  · exact Or.inl ⟨rfl, h'⟩
  · exact Or.inr (h h')

theorem firstWith_eq (p : Process C) (library : Str) (l : List Str) :
    Spec.firstWith p library l = (l.find? (fun path => (p.disk (path ++ ['/'] ++ platformSpecificLibName library)).isSome)).map
      (fun path => path ++ ['/'] ++ platformSpecificLibName library) := by
  induction l with
  | nil => rfl
  | cons d l ih =>
    have e : d ++ "/lib".toList ++ library ++ ".so".toList = d ++ ['/'] ++ platformSpecificLibName library := by
      simp [platformSpecificLibName]
    unfold Spec.firstWith
    rw [e, ih, List.find?_cons]
    cases h : (p.disk (d ++ ['/'] ++ platformSpecificLibName library)).isSome <;> simp

theorem find_eq {p : Process C} {f : Factory C} {s : List Str} (h : ∀ q : Str → Bool, s.find? q = (Spec.directories p f).find? q) (dll : Str) :
    (if findLibraryInExtendedPath p s dll = [] then dll else findLibraryInExtendedPath p s dll) = Spec.libraryPath p f dll := by
  unfold findLibraryInExtendedPath Spec.libraryPath
  by_cases hd : '/' ∈ dll ∨ '\\' ∈ dll
  · rw [if_pos hd.symm, if_pos hd, if_pos rfl]
  · have hd' : ¬ ('\\' ∈ dll ∨ '/' ∈ dll) := fun e => hd e.symm
    rw [if_neg hd', if_neg hd, firstWith_eq, h]
    cases List.find? (fun path => (p.disk (path ++ ['/'] ++ platformSpecificLibName dll)).isSome) (Spec.directories p f) with
    | none => simp
    | some x => simp

theorem opened_close (p : Process C) (lib : Option Str) (path : Str) :
    Spec.opened (closeLib p lib) path = Spec.opened p path - (if lib = some path then 1 else 0) := by
  cases lib with
  | none => simp [closeLib]
  | some x =>
    simp only [closeLib, Process.dlclose, Option.some.injEq]
    cases e : p.loaded x with
    | none =>
      by_cases hx : x = path
      · subst hx
        simp [Spec.opened, e]
      · rw [if_neg hx]; rfl
    | some l =>
      dsimp only
      by_cases hx : x = path
      · subst hx
        rw [if_pos rfl]
        by_cases hc : l.count ≤ 1
        · rw [if_pos hc]
          simp only [Spec.opened, Function.update_self, e]
          omega
        · rw [if_neg hc]
          simp only [Spec.opened, Function.update_self, e]
      · rw [if_neg hx, Nat.sub_zero]
        split_ifs <;> simp only [Spec.opened, Function.update_of_ne (Ne.symm hx)]

theorem dlopen_none {p : Process C} {path : Str} (h : Spec.available p path = none) : p.dlopen path = (p, none) := by
  unfold Spec.available at h
  unfold Process.dlopen
  cases e : p.loaded path with
  | some l => rw [e] at h; simp at h
  | none =>
    rw [e] at h
    have h : p.resolve path = none := h
    rw [h]

theorem dlopen_some {p : Process C} {path : Str} {lib : Library C} (h : Spec.available p path = some lib) :
    ∃ p' l, p.dlopen path = (p', some l) ∧ l.lib = lib ∧ p'.loaded path = some l ∧ p'.environment = p.environment ∧ p'.disk = p.disk ∧ p'.objects = p.objects ∧
      (∀ x, Spec.opened p' x = Spec.opened p x + if path = x then 1 else 0) := by
  unfold Spec.available at h
  unfold Process.dlopen
  cases e : p.loaded path with
  | some l =>
    rw [e] at h
    refine ⟨_, _, rfl, Option.some.inj h, Function.update_self .., rfl, rfl, rfl, fun x => ?_⟩
    by_cases hx : path = x
    · subst hx; simp [Spec.opened, e]
    · simp [Spec.opened, hx, Function.update_of_ne (Ne.symm hx)]
  | none =>
    rw [e] at h
    have h : p.resolve path = some lib := h
    rw [h]
    refine ⟨_, _, rfl, rfl, Function.update_self .., rfl, rfl, rfl, fun x => ?_⟩
    by_cases hx : path = x
    · subst hx; simp [Spec.opened, e]
    · simp [Spec.opened, hx, Function.update_of_ne (Ne.symm hx)]

theorem close_env (p : Process C) (lib : Option Str) : (closeLib p lib).environment = p.environment ∧ (closeLib p lib).disk = p.disk ∧
    (closeLib p lib).objects = p.objects := by
  cases lib with
  | none => exact ⟨rfl, rfl, rfl⟩
  | some x =>
    simp only [closeLib, Process.dlclose]
    split
    · split_ifs <;> exact ⟨rfl, rfl, rfl⟩
    · exact ⟨rfl, rfl, rfl⟩

theorem valid_zero {f : Factory C} (h : f.startCheck ≠ 0) (h0 : f.api.startCheck = 0) : f.isValid = false := by
  unfold Factory.isValid
  by_cases h1 : f.returnValue ≠ f.startCheck
  · rw [if_pos h1]
  · rw [if_neg h1, if_pos]
    rw [h0]
    exact Ne.symm h

end Verif.Plugin
