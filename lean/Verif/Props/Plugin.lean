import Verif.Lemmas.Plugin2
import Mathlib.Data.List.Nodup
import Mathlib.Data.List.InsertIdx
/- C88, C89: the libraries of the compiled expressions. -/
namespace Verif.Plugin
open Levi.CodeText (cleanName)
variable {C : Type}

/-- What holds along a history that starts from `p0`. -/
structure Inv (cwd : Str) (p0 : Process C) (w : World C) : Prop where
  environment : w.process.environment = p0.environment
  release : ∀ name, w.process.disk (releaseLibrary cwd (cleanName name)) = none
  names : (w.alive.map fun e => cleanName e.name).Nodup
  objects : (w.alive.map fun e => e.compiled.object).Nodup
  entry : ∀ e ∈ w.alive, ∃ m l o, Holds e.compiled.factory m ∧ m.path = builtLibrary cwd (cleanName e.name) ∧ m.hook.code = e.code ∧ e.compiled.object = some o ∧
    w.process.objects o = some m ∧ w.process.loaded m.path = some l ∧ l.serial = m.serial ∧ l.count = 1 ∧ p0.next ≤ o ∧ o < w.process.next ∧
    l.lib (cleanName e.name ++ "Factory".toList) = some m.hook ∧ Good m.hook
  rest : ∀ path, (∀ e ∈ w.alive, path ≠ builtLibrary cwd (cleanName e.name)) → w.process.loaded path = p0.loaded path
  others : ∀ o, (∀ e ∈ w.alive, e.compiled.object ≠ some o) → w.process.objects o = p0.objects o
  next : p0.next ≤ w.process.next

theorem inv_start {cwd : Str} {p : Process C} (h : Spec.Fresh p cwd) : Inv cwd p ⟨p, []⟩ :=
  ⟨rfl, h.release, by simp, by simp, by simp, fun _ _ => rfl, fun _ _ => rfl, Nat.le_refl _⟩

theorem inv_make {cwd : Str} {p0 : Process C} (h : Spec.Fresh p0 cwd) {w : World C} (I : Inv cwd p0 w) (name : Str) (code : C)
    (hn : ∀ e ∈ w.alive, cleanName e.name ≠ cleanName name) : ∃ w', w.step cwd (.make name code) = some w' ∧ Inv cwd p0 w' ∧
      w'.alive.map (fun e => (e.name, e.code)) = w.alive.map (fun e => (e.name, e.code)) ++ [(name, code)] := by
  obtain ⟨p, alive⟩ := w
  dsimp only at hn
  have hpath : ∀ e ∈ alive, builtLibrary cwd (cleanName name) ≠ builtLibrary cwd (cleanName e.name) := fun e he h => hn e he (built_inj h).symm
  have hload : p.loaded (builtLibrary cwd (cleanName name)) = none := by rw [I.rest _ hpath]; exact h.loaded name
  let lib : Library C := fun symbol => if symbol = cleanName name ++ "Factory".toList then
        some ⟨defaultStartCheck, defaultEndCheck, defaultSystemVersion, apiSize, code, true⟩
      else none
  let l : Loaded C := ⟨lib, p.serial, 1⟩
  let p2 : Process C := { p.build cwd (cleanName name) code with
    loaded := Function.update p.loaded (builtLibrary cwd (cleanName name)) (some l)
    serial := p.serial + 1 }
  have ho : (p.build cwd (cleanName name) code).dlopen (builtLibrary cwd (cleanName name)) = (p2, some l) := by
    unfold Process.dlopen
    have : (p.build cwd (cleanName name) code).loaded (builtLibrary cwd (cleanName name)) = none := hload
    rw [this]
    have : (p.build cwd (cleanName name) code).resolve (builtLibrary cwd (cleanName name)) = some lib := by
      unfold Process.resolve
      rw [if_pos (built_slash _ _)]
      have : (p.build cwd (cleanName name) code).disk (builtLibrary cwd (cleanName name)) = some (.library lib) := by
        show Function.update _ _ _ _ = _
        rw [Function.update_self]
      rw [this]
    rw [this]
    rfl
  have hE : Spec.GoodEnvironment p "SHLIBPP_PLUGIN_PATH".toList := by
    unfold Spec.GoodEnvironment
    rw [I.environment]
    exact h.environment
  obtain ⟨f, hf, e⟩ := compile_eq (code := code) hE (I.release name) ho (show Function.update _ _ _ _ = _ from Function.update_self ..) (if_pos rfl)
    (hook := ⟨defaultStartCheck, defaultEndCheck, defaultSystemVersion, apiSize, code, true⟩) ⟨rfl, rfl, rfl, rfl, rfl⟩
  have hdiff : ∀ e ∈ alive, e.compiled.object ≠ some p.next := by
    intro e he h
    obtain ⟨m, l, o, -, -, -, h2, -, -, -, -, -, h3, -⟩ := I.entry e he
    rw [h2] at h
    have := Option.some.inj h
    have h3 : o < p.next := h3
    omega
  refine ⟨⟨{ p2 with
      objects := Function.update p2.objects p2.next (some ⟨builtLibrary cwd (cleanName name), l.serial, ⟨defaultStartCheck, defaultEndCheck, defaultSystemVersion, apiSize, code, true⟩⟩)
      next := p2.next + 1 }, alive ++ [⟨name, code, f, some p2.next⟩]⟩, ?_, ?_, ?_⟩
  · unfold World.step
    dsimp only
    rw [e]
    rfl
  · refine ⟨I.environment, fun x => ?_, ?_, ?_, ?_, ?_, ?_, Nat.le_succ_of_le I.next⟩
    · show Function.update p.disk _ _ _ = none
      rw [Function.update_of_ne (release_ne cwd x name)]
      exact I.release x
    · rw [List.map_append, List.nodup_append]
      refine ⟨I.names, by simp, ?_⟩
      intro a ha b hb
      obtain ⟨e, he, rfl⟩ := List.mem_map.1 ha
      simp only [List.map_cons, List.map_nil, List.mem_singleton] at hb
      rw [hb]
      exact hn e he
    · rw [List.map_append, List.nodup_append]
      refine ⟨I.objects, by simp, ?_⟩
      intro a ha b hb
      obtain ⟨e, he, rfl⟩ := List.mem_map.1 ha
      simp only [List.map_cons, List.map_nil, List.mem_singleton] at hb
      rw [hb]
      exact hdiff e he
    · intro e he
      rcases List.mem_append.1 he with he | he
      · obtain ⟨m, l', o, h1, h2, h3, h4, h5, h6, h7, h8, h9, h10, h11, h12⟩ := I.entry e he
        refine ⟨m, l', o, h1, h2, h3, h4, ?_, ?_, h7, h8, h9, Nat.lt_succ_of_lt h10, h11, h12⟩
        · show Function.update p.objects p.next _ o = _
          rw [Function.update_of_ne (Nat.ne_of_lt h10)]
          exact h5
        · show Function.update p.loaded _ _ m.path = _
          rw [Function.update_of_ne (by rw [h2]; exact (hpath e he).symm)]
          exact h6
      · obtain rfl := List.mem_singleton.1 he
        refine ⟨_, l, p.next, hf, rfl, rfl, rfl, ?_, ?_, rfl, rfl, I.next, Nat.lt_succ_self _, if_pos rfl, rfl, rfl, rfl, rfl, rfl⟩
        · exact Function.update_self ..
        · exact Function.update_self ..
    · intro path hp
      show Function.update p.loaded _ _ path = _
      rw [Function.update_of_ne (hp ⟨name, code, f, some p2.next⟩ (List.mem_append.2 (Or.inr (List.mem_singleton_self _))))]
      exact I.rest path fun e he => hp e (List.mem_append.2 (Or.inl he))
    · intro o hp
      show Function.update p.objects p.next _ o = _
      have ho' : o ≠ p.next := fun e => hp ⟨name, code, f, some p2.next⟩ (List.mem_append.2 (Or.inr (List.mem_singleton_self _))) (congrArg some e.symm)
      rw [Function.update_of_ne ho']
      exact I.others o fun e he => hp e (List.mem_append.2 (Or.inl he))
  · simp

theorem nodup_at {α β : Type} {g : α → β} {l : List α} (h : (l.map g).Nodup) {i j : Nat} {x y : α} (hi : l[i]? = some x) (hj : l[j]? = some y) (hne : i ≠ j) : g x ≠ g y := by
  intro e
  obtain ⟨hi', rfl⟩ := List.getElem?_eq_some_iff.1 hi
  obtain ⟨hj', rfl⟩ := List.getElem?_eq_some_iff.1 hj
  exact hne ((List.Nodup.getElem_inj_iff h (hi := by simpa using hi') (hj := by simpa using hj')).1 (by simpa using e))

theorem inv_drop {cwd : Str} {p0 : Process C} (h : Spec.Fresh p0 cwd) {w : World C} (I : Inv cwd p0 w) (k : Nat) :
    ∃ w', w.step cwd (.drop k) = some w' ∧ Inv cwd p0 w' ∧
      w'.alive.map (fun e => (e.name, e.code)) = (w.alive.map (fun e => (e.name, e.code))).eraseIdx k := by
  obtain ⟨p, alive⟩ := w
  unfold World.step
  dsimp only
  cases hk : alive[k]? with
  | none =>
    refine ⟨⟨p, alive⟩, rfl, I, ?_⟩
    rw [List.eraseIdx_of_length_le]
    rw [List.length_map]
    exact List.getElem?_eq_none_iff.1 hk
  | some e =>
    have he : e ∈ alive := List.mem_of_getElem? hk
    obtain ⟨m, l, o, h1, h2, h3, h4, h5, h6, h7, h8, h9, h10, h11, h12⟩ := I.entry e he
    dsimp only
    have hd : ∀ x ∈ alive.eraseIdx k, x ∈ alive ∧ cleanName x.name ≠ cleanName e.name ∧ x.compiled.object ≠ e.compiled.object := by
      intro x hx
      obtain ⟨i, hi, hx'⟩ := List.mem_eraseIdx_iff_getElem?.1 hx
      exact ⟨List.mem_of_getElem? hx', nodup_at (g := fun e : Entry C => cleanName e.name) I.names hx' hk hi,
        nodup_at (g := fun e : Entry C => e.compiled.object) I.objects hx' hk hi⟩
    have hrest : ∀ x ∈ alive, x = e ∨ x ∈ alive.eraseIdx k := by
      intro x hx
      obtain ⟨i, hi⟩ := List.mem_iff_getElem?.1 hx
      by_cases hik : i = k
      · rw [hik, hk] at hi
        exact Or.inl (Option.some.inj hi).symm
      · exact Or.inr (List.mem_eraseIdx_iff_getElem?.2 ⟨i, hik, hi⟩)
    have hdel : ({ p with objects := Function.update p.objects o none } : Process C).dlclose m.path =
        { p with objects := Function.update p.objects o none, loaded := Function.update p.loaded m.path none } := by
      unfold Process.dlclose
      have : ({ p with objects := Function.update p.objects o none } : Process C).loaded m.path = some l := h6
      rw [this]
      dsimp only
      rw [if_pos (Nat.le_of_eq h8)]
    rw [delete_eq h1 h4 h5 h6 h7, hdel]
    refine ⟨_, rfl, ⟨I.environment, I.release, ?_, ?_, ?_, ?_, ?_, I.next⟩, ?_⟩
    · exact I.names.sublist ((List.eraseIdx_sublist alive k).map _)
    · exact I.objects.sublist ((List.eraseIdx_sublist alive k).map _)
    · intro x hx
      obtain ⟨hx, hx1, hx2⟩ := hd x hx
      obtain ⟨m', l', o', g1, g2, g3, g4, g5, g6, g7, g8, g9, g10, g11⟩ := I.entry x hx
      refine ⟨m', l', o', g1, g2, g3, g4, ?_, ?_, g7, g8, g9, g10, g11⟩
      · show Function.update p.objects o none o' = _
        rw [Function.update_of_ne (fun e' => hx2 (by rw [g4, h4, e']))]
        exact g5
      · show Function.update p.loaded m.path none m'.path = _
        rw [Function.update_of_ne (fun e' => hx1 (built_inj (by rw [← g2, ← h2, e'])))]
        exact g6
    · intro path hp
      show Function.update p.loaded m.path none path = _
      by_cases hm : path = m.path
      · rw [hm, Function.update_self, h2]
        exact (h.loaded e.name).symm
      · rw [Function.update_of_ne hm]
        exact I.rest path fun x hx => (hrest x hx).elim (fun e' => by rw [e', ← h2]; exact hm) (hp x)
    · intro o' hp
      show Function.update p.objects o none o' = _
      by_cases hm : o' = o
      · rw [hm, Function.update_self]
        exact (h.objects o h9).symm
      · rw [Function.update_of_ne hm]
        exact I.others o' fun x hx => (hrest x hx).elim (fun e' => by rw [e', h4]; exact fun e'' => hm (Option.some.inj e'').symm) (hp x)
    · rw [List.eraseIdx_map]

theorem run_inv {cwd : Str} {p0 : Process C} (h : Spec.Fresh p0 cwd) (acts : List (Act C)) {w : World C} (I : Inv cwd p0 w) {l : List (Str × C)}
    (hl : w.alive.map (fun e => (e.name, e.code)) = l) (hd : Spec.Distinct l acts) :
    ∃ w', w.run cwd acts = some w' ∧ Inv cwd p0 w' ∧ w'.alive.map (fun e => (e.name, e.code)) = Spec.alive l acts := by
  induction acts generalizing w l with
  | nil => exact ⟨w, rfl, I, hl⟩
  | cons a acts ih =>
    cases a with
    | make name code =>
      obtain ⟨w1, e1, I1, hl1⟩ := inv_make h I name code (fun e he => hd.1 (e.name, e.code) (by rw [← hl]; exact List.mem_map_of_mem he))
      obtain ⟨w2, e2, r⟩ := ih I1 (by rw [hl1, hl]) hd.2
      exact ⟨w2, by rw [World.run, e1]; exact e2, r⟩
    | drop k =>
      obtain ⟨w1, e1, I1, hl1⟩ := inv_drop h I k
      obtain ⟨w2, e2, r⟩ := ih I1 (by rw [hl1, hl]) hd
      exact ⟨w2, by rw [World.run, e1]; exact e2, r⟩

/-- **C88.** Whatever is made and deleted, in any order, as long as two expressions with the same name for the compiler are not alive together: nothing undefined
happens, every expression that is alive computes its own code, and nothing else is left in memory: the libraries and the objects are those of the expressions that are
alive, besides what was there before. -/
theorem C88_own_code_partial {cwd : Str} {p : Process C} (h : Spec.Fresh p cwd) (acts : List (Act C)) (hd : Spec.Distinct [] acts) :
    ∃ w, (⟨p, []⟩ : World C).run cwd acts = some w ∧ w.alive.map (fun e => (e.name, e.code)) = Spec.alive [] acts ∧
      (∀ e ∈ w.alive, ∃ o, e.compiled.object = some o ∧ w.process.evaluate o = some e.code) ∧
      (w.alive.map fun e => e.compiled.object).Nodup ∧
      (∀ path, (∀ e ∈ w.alive, path ≠ builtLibrary cwd (cleanName e.name)) → w.process.loaded path = p.loaded path) ∧
      (∀ o, (∀ e ∈ w.alive, e.compiled.object ≠ some o) → w.process.objects o = p.objects o) := by
  obtain ⟨w, e, I, hl⟩ := run_inv h acts (inv_start h) rfl hd
  refine ⟨w, e, hl, fun x hx => ?_, I.objects, I.rest, I.others⟩
  obtain ⟨m, l, o, h1, h2, h3, h4, h5, h6, h7, -⟩ := I.entry x hx
  refine ⟨o, h4, ?_⟩
  unfold Process.evaluate
  rw [h5]
  simp [Process.isLoaded, h6, h7, h3]

/-- **C88, finding.** When an expression is made while another one with the same name for the compiler is alive, `dlopen` answers with the library that is loaded: the
new expression computes the code of the other one. -/
theorem C88_finding_same_name {cwd : Str} {p : Process C} (h : Spec.Fresh p cwd) {a b : Str} (hab : cleanName a = cleanName b) (x y : C) :
    ∃ w e, (⟨p, []⟩ : World C).run cwd [.make a x, .make b y] = some w ∧ w.alive[1]? = some e ∧ e.name = b ∧ e.code = y ∧
      ∃ o, e.compiled.object = some o ∧ w.process.evaluate o = some x := by
  obtain ⟨w, e1, I, hl⟩ := inv_make h (inv_start h) a x (by simp)
  obtain ⟨p1, alive⟩ := w
  obtain ⟨e, rfl⟩ : ∃ e, alive = [e] := by
    have : alive.length = 1 := by simpa using congrArg List.length hl
    exact List.length_eq_one_iff.1 this
  have hname : e.name = a ∧ e.code = x := by simpa using hl
  obtain ⟨m, l, o, h1, h2, h3, h4, h5, h6, h7, h8, h9, h10, h11, h12⟩ := I.entry e (List.mem_singleton_self _)
  obtain ⟨rfl, rfl⟩ := hname
  let p2 : Process C := { p1.build cwd (cleanName b) y with
    loaded := Function.update p1.loaded (builtLibrary cwd (cleanName b)) (some { l with count := l.count + 1 }) }
  have h6' : p1.loaded (builtLibrary cwd (cleanName b)) = some l := by rw [← hab, ← h2]; exact h6
  have ho : (p1.build cwd (cleanName b) y).dlopen (builtLibrary cwd (cleanName b)) = (p2, some { l with count := l.count + 1 }) := by
    unfold Process.dlopen
    have : (p1.build cwd (cleanName b) y).loaded (builtLibrary cwd (cleanName b)) = some l := h6'
    rw [this]
    rfl
  have hE : Spec.GoodEnvironment p1 "SHLIBPP_PLUGIN_PATH".toList := by
    unfold Spec.GoodEnvironment
    rw [show p1.environment = p.environment from I.environment]
    exact h.environment
  obtain ⟨f, hf, ec⟩ := compile_eq (code := y) hE (I.release b) ho (show Function.update _ _ _ _ = _ from Function.update_self ..)
    (hook := m.hook) (by rw [← hab]; exact h11) h12
  let p3 : Process C := { p2 with
    objects := Function.update p2.objects p2.next (some ⟨builtLibrary cwd (cleanName b), l.serial, m.hook⟩)
    next := p2.next + 1 }
  have ec : compile p1 cwd b y = some (⟨f, some p2.next⟩, p3) := ec
  refine ⟨⟨p3, [e] ++ [⟨b, y, f, some p2.next⟩]⟩, ⟨b, y, f, some p2.next⟩, ?_, rfl, rfl, rfl, p2.next, rfl, ?_⟩
  · rw [World.run, e1]
    show (do let w ← World.step cwd ⟨p1, [e]⟩ (.make b y); w.run cwd []) = _
    unfold World.step
    dsimp only
    rw [ec]
    rfl
  · unfold Process.evaluate
    dsimp only
    rw [show p3.objects p2.next = some ⟨builtLibrary cwd (cleanName b), l.serial, m.hook⟩ from Function.update_self ..]
    dsimp only
    rw [if_pos]
    · exact congrArg some h3
    · unfold Process.isLoaded
      dsimp only
      rw [show p3.loaded (builtLibrary cwd (cleanName b)) = some { l with count := l.count + 1 } from Function.update_self ..]
      simp

/-- `open` has a defined result exactly when no element of the environment variable is empty. -/
theorem C89_defined (f : Factory C) (p : Process C) (dll : Str) : f.openLibrary p dll ≠ none ↔ Spec.GoodEnvironment p f.pluginPathEnvVar := by
  constructor
  · intro h
    by_contra hE
    apply h
    unfold Factory.openLibrary
    dsimp only
    rw [show readExtendedPathFromEnvironment p { f with returnValue := 0, name := [], status := Status.none, api := { f.api with startCheck := 0 } } = none from
      read_none (f := f) hE]
    rfl
  · intro hE h
    obtain ⟨s, hs, -⟩ := read_find (f := f) hE
    unfold Factory.openLibrary at h
    dsimp only at h
    rw [show readExtendedPathFromEnvironment p { f with returnValue := 0, name := [], status := Status.none, api := { f.api with startCheck := 0 } } = some s from hs] at h
    simp only [Option.bind_eq_bind, Option.bind_some] at h
    split at h
    · simp at h
    · split at h
      · simp at h
      · split_ifs at h

/-- **C89.** `open`: the library is the first one of the directories, in order, that has the name; the answer, the status and the validity tell what happened; after a
success the factory has the functions of the library, which is in memory; a library is left open exactly when the factory keeps it. -/
theorem C89_open (f : Factory C) (p : Process C) (dll : Str) (hE : Spec.GoodEnvironment p f.pluginPathEnvVar) (h0 : f.startCheck ≠ 0) :
    ∃ f' p', f.openLibrary p dll = some (f', p', decide ((Spec.answer (closeLib p f.lib) f (Spec.libraryPath p f dll)).status = .ok)) ∧
      f'.status = (Spec.answer (closeLib p f.lib) f (Spec.libraryPath p f dll)).status ∧
      (f'.isValid = true ↔ f'.status = .ok) ∧
      (∀ h, Spec.answer (closeLib p f.lib) f (Spec.libraryPath p f dll) = .ready h → f'.name = dll ∧ ∃ m, f'.api.functions = some m ∧ m.hook = h ∧
        m.path = Spec.libraryPath p f dll ∧ f'.lib = some m.path ∧ p'.isLoaded m = true) ∧
      (∀ x, Spec.opened p' x = Spec.opened (closeLib p f.lib) x + if f'.lib = some x then 1 else 0) ∧
      f'.pluginPathEnvVar = f.pluginPathEnvVar ∧ p'.environment = p.environment ∧ p'.disk = p.disk ∧ p'.objects = p.objects := by
  obtain ⟨s, hs, hq⟩ := read_find (f := f) hE
  have hfind := find_eq hq dll
  unfold Factory.openLibrary
  dsimp only
  rw [show readExtendedPathFromEnvironment p { f with returnValue := 0, name := [], status := Status.none, api := { f.api with startCheck := 0 } } = some s from hs]
  simp only [Option.bind_eq_bind, Option.bind_some]
  rw [hfind]
  obtain ⟨c1, c2, c3⟩ := close_env p f.lib
  generalize closeLib p f.lib = p1 at c1 c2 c3 ⊢
  generalize Spec.libraryPath p f dll = path
  rw [← c1, ← c2, ← c3]
  cases ha : Spec.available p1 path with
  | none =>
    rw [dlopen_none ha]
    dsimp only
    by_cases hd : (p1.disk path).isNone = true
    · have hA : Spec.answer p1 f path = .notFound := by simp only [Spec.answer, ha]; rw [if_pos hd]
      rw [hA, if_pos hd]
      refine ⟨_, _, rfl, rfl, ?_, by simp, fun x => by simp, rfl, rfl, rfl, rfl⟩
      rw [valid_zero (by exact h0) rfl]
      simp
    · have hA : Spec.answer p1 f path = .notLoaded := by simp only [Spec.answer, ha]; rw [if_neg hd]
      rw [hA, if_neg hd]
      refine ⟨_, _, rfl, rfl, ?_, by simp, fun x => by simp, rfl, rfl, rfl, rfl⟩
      rw [valid_zero (by exact h0) rfl]
      simp
  | some lib =>
    obtain ⟨p2, l, e, hl, hload, e1, e2, e3, hop⟩ := dlopen_some ha
    rw [e]
    dsimp only
    rw [hl]
    cases hh : lib (f.factoryName.getD defaultFactoryName) with
    | none =>
      have hA : Spec.answer p1 f path = .noFactory := by simp only [Spec.answer, ha, hh]
      rw [hA]
      dsimp only
      have d := close_env p2 (some path)
      simp only [closeLib, e1, e2, e3] at d
      refine ⟨_, _, rfl, rfl, ?_, by simp, fun x => ?_, rfl, d.1, d.2.1, d.2.2⟩
      · rw [valid_zero (by exact h0) rfl]
        simp [Spec.Answer.status]
      · have := opened_close p2 (some path) x
        simp only [closeLib] at this
        rw [this, hop]
        simp
    | some hook =>
      dsimp only
      by_cases hg : Spec.Agrees f hook
      · have hA : Spec.answer p1 f path = .ready hook := by simp only [Spec.answer, ha, hh]; rw [if_pos hg]
        rw [hA]
        obtain ⟨g1, g2, g3, g4⟩ := hg
        have hcall : ∀ a : Api C, hook.call path l.serial apiSize a =
            (⟨f.startCheck, apiSize, f.systemVersion, f.endCheck, some ⟨path, l.serial, hook⟩⟩, f.startCheck) := by
          intro a
          unfold Hook.call
          rw [if_neg (by rw [g4]; exact Int.lt_irrefl _), g1, g2, g3, g4]
        rw [hcall]
        simp only [Factory.isValid, ne_eq, not_true, if_false, Bool.not_true, Bool.false_eq_true]
        refine ⟨_, _, rfl, rfl, by simp, ?_, fun x => ?_, rfl, e1, e2, e3⟩
        · intro h hr
          obtain rfl : hook = h := by simpa using hr
          refine ⟨rfl, ⟨path, l.serial, hook⟩, rfl, rfl, rfl, rfl, ?_⟩
          simp [Process.isLoaded, hload]
        · rw [hop]
          simp
      · have hA : Spec.answer p1 f path = .notFunctional := by simp only [Spec.answer, ha, hh]; rw [if_neg hg]
        rw [hA]
        have hv : ∀ g : Factory C, g.startCheck = f.startCheck → g.endCheck = f.endCheck → g.systemVersion = f.systemVersion →
            g.api = (hook.call path l.serial apiSize { f.api with startCheck := 0 }).1 → g.returnValue = (hook.call path l.serial apiSize { f.api with startCheck := 0 }).2 →
            g.isValid = false := by
          intro g a1 a2 a3 a4 a5
          unfold Hook.call at a4 a5
          by_cases hsz : apiSize < hook.size
          · rw [if_pos hsz] at a4
            exact valid_zero (by rw [a1]; exact h0) (by rw [a4])
          · rw [if_neg hsz] at a4 a5
            unfold Factory.isValid
            rw [a1, a2, a3, a4, a5]
            dsimp only
            split_ifs with b1 b2 b3 b4 <;> first | rfl | (exfalso; exact hg ⟨not_not.1 b1, not_not.1 b4, not_not.1 b3, not_not.1 b2⟩)
        generalize hc : hook.call path l.serial apiSize { f.api with startCheck := 0 } = r at hv ⊢
        obtain ⟨api, value⟩ := r
        dsimp only at hv ⊢
        have hv' := fun st : Status => hv { f with
          returnValue := value
          name := []
          status := st
          api := api
          extendedPath := s
          lib := some path } rfl rfl rfl rfl rfl
        simp only [hv', Bool.not_false, if_true]
        refine ⟨_, _, rfl, rfl, ?_, by simp, fun x => ?_, rfl, e1, e2, e3⟩
        · rw [hv']
          simp [Spec.Answer.status]
        · rw [hop]
          simp

/-- What holds of a factory along a history of calls. -/
structure Calls (p0 : Process C) (name : Str) (f : Factory C) (p : Process C) (last : Bool) : Prop where
  environment : p.environment = p0.environment
  variable_ : f.pluginPathEnvVar = name
  valid : f.isValid = last
  ready : last = true → f.status = .ok ∧ ∃ m, f.api.functions = some m ∧ f.lib = some m.path ∧ p.isLoaded m = true
  opened : ∀ x, Spec.opened p x = Spec.opened p0 x + if f.lib = some x then 1 else 0

theorem calls_open {p0 : Process C} {name : Str} {f : Factory C} {p : Process C} {last : Bool} (hE : Spec.GoodEnvironment p0 name) (K : Calls p0 name f p last)
    (dll : Str) (a b c : Int) (n : Option Str) (ha : a ≠ 0) : ∃ f' p' b', f.openWith p dll a b c n = some (f', p', b') ∧ Calls p0 name f' p' b' := by
  have hE' : Spec.GoodEnvironment p ({ f with startCheck := a, endCheck := b, systemVersion := c, factoryName := n } : Factory C).pluginPathEnvVar := by
    show Spec.GoodEnvironment p f.pluginPathEnvVar
    rw [K.variable_]
    unfold Spec.GoodEnvironment
    rw [K.environment]
    exact hE
  obtain ⟨f', p', e, h1, h2, h3, h4, h5, h6, -⟩ :=
    C89_open ({ f with startCheck := a, endCheck := b, systemVersion := c, factoryName := n } : Factory C) p dll hE' ha
  refine ⟨f', p', _, e, by rw [h6]; exact K.environment, by rw [h5]; exact K.variable_, ?_, ?_, fun x => ?_⟩
  · rw [← h1]
    by_cases hs : f'.status = .ok
    · rw [h2.2 hs]; simp [hs]
    · have : f'.isValid = false := by
        cases hv : f'.isValid with
        | false => rfl
        | true => exact absurd (h2.1 hv) hs
      rw [this]; simp [hs]
  · intro hb
    have hb := of_decide_eq_true hb
    refine ⟨by rw [h1]; exact hb, ?_⟩
    cases hA : Spec.answer (closeLib p f.lib) { f with startCheck := a, endCheck := b, systemVersion := c, factoryName := n }
        (Spec.libraryPath p { f with startCheck := a, endCheck := b, systemVersion := c, factoryName := n } dll) with
    | ready h =>
      obtain ⟨-, m, g1, -, -, g2, g3⟩ := h3 h hA
      exact ⟨m, g1, g2, g3⟩
    | _ => rw [hA] at hb; cases hb
  · rw [h4]
    show Spec.opened (closeLib p f.lib) x + _ = _
    rw [opened_close, K.opened]
    omega

theorem calls_run {p0 : Process C} {name : Str} (hE : Spec.GoodEnvironment p0 name) (calls : List Call) (h1 : Spec.NonzeroChecks calls) (h2 : Spec.NonemptyPaths calls)
    {f : Factory C} {p : Process C} {last : Bool} (K : Calls p0 name f p last) : ∃ f' p' b, f.calls p last calls = some (f', p', b) ∧ Calls p0 name f' p' b := by
  induction calls generalizing f p last with
  | nil => exact ⟨f, p, last, rfl, K⟩
  | cons a calls ih =>
    have ih := @ih (fun dll a b c n h => h1 dll a b c n (List.mem_cons_of_mem _ h)) (fun path h => h2 path (List.mem_cons_of_mem _ h))
    cases a with
    | «open» dll n =>
      have hne : defaultStartCheck ≠ 0 := by decide
      obtain ⟨f1, p1, b1, e1, K1⟩ := calls_open hE K dll defaultStartCheck defaultEndCheck defaultSystemVersion n hne
      obtain ⟨f2, p2, b2, e2, K2⟩ := ih K1
      refine ⟨f2, p2, b2, ?_, K2⟩
      unfold Factory.calls Factory.open
      rw [e1]
      exact e2
    | openWith dll a b c n =>
      obtain ⟨f1, p1, b1, e1, K1⟩ := calls_open hE K dll a b c n (h1 dll a b c n List.mem_cons_self)
      obtain ⟨f2, p2, b2, e2, K2⟩ := ih K1
      refine ⟨f2, p2, b2, ?_, K2⟩
      unfold Factory.calls
      rw [e1]
      exact e2
    | extend path =>
      obtain ⟨s, hs, -⟩ := extend_find (h2 path List.mem_cons_self) f.extendedPath
      obtain ⟨f2, p2, b2, e2, K2⟩ := ih (f := { f with extendedPath := s }) (p := p) (last := last) ⟨K.environment, K.variable_, K.valid, K.ready, K.opened⟩
      refine ⟨f2, p2, b2, ?_, K2⟩
      unfold Factory.calls
      rw [hs]
      exact e2

/-- **C89.** After any calls, in any order, a factory is valid exactly when its last `open` succeeded; then its functions are those of a library in memory, so `create`
is defined. When the factory is deleted, every library is open as many times as before the factory was made. -/
theorem C89_valid_partial (p : Process C) (hE : Spec.GoodEnvironment p "SHLIBPP_PLUGIN_PATH".toList) (a b c : Int) (n : Option Str) (calls : List Call)
    (h1 : Spec.NonzeroChecks calls) (h2 : Spec.NonemptyPaths calls) :
    ∃ f p' last, (Factory.new C a b c n).calls p false calls = some (f, p', last) ∧ (f.isValid = true ↔ last = true) ∧
      (last = true → f.status = .ok ∧ ∃ m, f.api.functions = some m ∧ f.lib = some m.path ∧ p'.isLoaded m = true) ∧
      f.create p' ≠ none ∧ (∀ x, Spec.opened (closeLib p' f.lib) x = Spec.opened p x) := by
  have K0 : Calls p "SHLIBPP_PLUGIN_PATH".toList (Factory.new C a b c n) p false := by
    refine ⟨rfl, rfl, ?_, fun h => by simp at h, fun x => by simp [Factory.new]⟩
    unfold Factory.isValid
    by_cases k1 : (Factory.new C a b c n).returnValue ≠ (Factory.new C a b c n).startCheck
    · rw [if_pos k1]
    · rw [if_neg k1]
      by_cases k2 : (Factory.new C a b c n).api.startCheck ≠ (Factory.new C a b c n).startCheck
      · rw [if_pos k2]
      · rw [if_neg k2]
        exact if_pos (show (0 : Int) ≠ apiSize by decide)
  obtain ⟨f, p', last, e, K⟩ := calls_run hE calls h1 h2 K0
  refine ⟨f, p', last, e, by rw [K.valid], K.ready, ?_, fun x => ?_⟩
  · unfold Factory.create
    cases last with
    | false => rw [K.valid]; simp
    | true =>
      obtain ⟨-, m, g1, -, g2⟩ := K.ready rfl
      rw [K.valid, g1]
      simp only [Bool.not_true, Bool.false_eq_true, if_false, g2]
      split_ifs <;> simp
  · rw [opened_close, K.opened]
    omega

/-- A process with the files `/a` and `/b/libc.so`, two libraries; nothing is loaded. -/
def sample (environment : Option Str) : Process Nat where
  disk := fun path =>
    if path = "/a".toList then some (.library fun _ => some ⟨0, 0, 0, apiSize, 7, true⟩)
    else if path = "/b/libc.so".toList then some (.library fun s => if s = "c".toList then some ⟨defaultStartCheck, defaultEndCheck, defaultSystemVersion, apiSize, 8, true⟩ else none)
    else none
  system := fun _ => none
  environment := fun _ => environment
  loaded := fun _ => none
  objects := fun _ => none
  serial := 0
  next := 0

/-- **C89, finding.** With zero as start check a factory can be valid after an `open` that failed: its functions are those of the library of before, which is not in
memory any more, so `create` calls a function that does not exist. -/
theorem C89_finding_zero :
    ((Factory.new Nat 0 0 0 none).calls (sample none) false [.openWith "/a".toList 0 0 0 none, .openWith "/d".toList 0 0 0 none]).map
      (fun r => (r.2.2, r.1.isValid, (r.1.create r.2.1).isNone)) = some (false, true, true) := by
  decide +kernel

/-- **C89, finding.** A colon at the beginning, or two in a row, in the environment variable: `open` reads the last letter of an empty string. -/
theorem C89_finding_empty (f : Factory C) (p : Process C) (dll : Str) (content : Str) (hc : p.environment f.pluginPathEnvVar = some content)
    (h : [':'] <+: content ∨ [':', ':'] <:+: content) : f.openLibrary p dll = none := by
  by_contra hn
  have := (C89_defined f p dll).1 hn content hc
  exact h.elim this.1 this.2

/-- The library of the second directory of the environment is opened, and makes an object; the functions of the other file are not those that are asked. -/
example : ((Factory.new Nat 0 0 0 none).calls (sample (some "/x/:/b/".toList)) false [.open "c".toList (some "d".toList), .open "c".toList (some "c".toList)]).map
      (fun r => (r.2.2, r.1.isValid, decide (r.1.lib = some "/b/libc.so".toList), (r.1.create r.2.1).bind fun q => q.2.bind q.1.evaluate)) =
    some (true, true, true, some 8) := by
  decide +kernel

example : Spec.GoodEnvironment (sample (some "/x/:/b/".toList)) "SHLIBPP_PLUGIN_PATH".toList := by
  rintro content hc
  obtain rfl := Option.some.inj hc
  constructor <;> decide +kernel

/-- A process and a working directory from which expressions can be compiled. -/
theorem sample_fresh : Spec.Fresh (sample none) "/w".toList := by
  refine ⟨fun content h => (Option.some_ne_none content (show some content = none from h.symm)).elim, fun _ => rfl, fun name => ?_, fun _ _ => rfl⟩
  have e1 : buildDirectory "/w".toList (cleanName name) ++ "\\lib\\Release/lib".toList ++ cleanName name ++ "Lib.so".toList ≠ "/a".toList := by
    simp [buildDirectory]
  have e2 : buildDirectory "/w".toList (cleanName name) ++ "\\lib\\Release/lib".toList ++ cleanName name ++ "Lib.so".toList ≠ "/b/libc.so".toList := by
    simp [buildDirectory]
  simp only [sample, if_neg e1, if_neg e2]

example : Spec.Distinct [] [.make "f(x)".toList 1, .make "g".toList 2, .drop 0, .make "f[x]".toList 3] := by
  simp only [Spec.Distinct, List.nil_append, List.cons_append, List.eraseIdx]
  decide +kernel

example : Spec.alive [] [.make "f(x)".toList 1, .make "g".toList 2, .drop 0, .make "f[x]".toList 3] = [("g".toList, 2), ("f[x]".toList, 3)] := rfl

/-- Two names of the finding. -/
example : cleanName "f(x)".toList = cleanName "f[x]".toList := by decide +kernel

end Verif.Plugin
