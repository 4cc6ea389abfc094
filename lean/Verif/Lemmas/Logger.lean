import Verif.Spec.Logger
import Verif.Props.ServerMemo
/- Lemmas for the saved variables. -/
namespace Verif.Logger
open Verif.StateM Verif.SolverM Spec
variable {K : Type}

/-! ### The map -/

theorem run_creates (junk : String → Nat → Nat → K) (cs : List (String × Nat × Nat)) (m : Logged K) :
    ∃ m', (cs.map fun c => Cmd.create c.1 c.2.1 c.2.2).foldlM (Cmd.run junk) m = some m' ∧
      (∀ name, name ∉ cs.map (·.1) → m' name = m name) ∧
      ∀ name r c, (name, r, c) ∈ cs → (∀ r' c', (name, r', c') ∈ cs → r' = r ∧ c' = c) → m' name = some ⟨r, c, junk name⟩ := by
  induction cs generalizing m with
  | nil => exact ⟨m, rfl, fun _ _ => rfl, by simp⟩
  | cons e cs ih =>
    obtain ⟨n, r0, c0⟩ := e
    obtain ⟨m', h1, h2, h3⟩ := ih (Function.update m n (some ⟨r0, c0, junk n⟩))
    refine ⟨m', ?_, ?_, ?_⟩
    · simpa [Cmd.run] using h1
    · intro name hn
      simp only [List.map_cons, List.mem_cons, not_or] at hn
      rw [h2 name hn.2, Function.update_of_ne hn.1]
    · intro name r c hmem hf
      by_cases hin : name ∈ cs.map (·.1)
      · obtain ⟨⟨n', r', c'⟩, hm, rfl⟩ := List.mem_map.1 hin
        have h4 := h3 n' r' c' hm fun r'' c'' h'' => by
          have e1 := hf r'' c'' (List.mem_cons_of_mem _ h'')
          have e2 := hf r' c' (List.mem_cons_of_mem _ hm)
          exact ⟨e1.1.trans e2.1.symm, e1.2.trans e2.2.symm⟩
        have e2 := hf r' c' (List.mem_cons_of_mem _ hm)
        rw [h4, e2.1, e2.2]
      · rcases List.mem_cons.1 hmem with h | h
        · cases h
          rw [h2 _ hin, Function.update_self]
        · exact absurd (List.mem_map.2 ⟨_, h, rfl⟩) hin

/-- The column holds the list. -/
def ColumnIs (m : Logged K) (name : String) (column : Nat) (v : List K) : Prop := ∀ a, m name = some a → ∀ r x, v[r]? = some x → a.val r column = x

theorem run_puts (junk : String → Nat → Nat → K) (ps : List (String × Option (List K) × Nat)) (m : Logged K)
    (hok : ∀ p ∈ ps, ∃ v a, p.2.1 = some v ∧ m p.1 = some a ∧ p.2.2 < a.cols ∧ v.length = a.rows) :
    ∃ m', (ps.map fun p => Cmd.put p.1 p.2.1 p.2.2).foldlM (Cmd.run junk) m = some m' ∧
      (∀ name, (m' name).map (fun a => (a.rows, a.cols)) = (m name).map fun a => (a.rows, a.cols)) ∧
      ∀ name column v, ((name, some v, column) ∈ ps ∨ ColumnIs m name column v) → (∀ v', (name, some v', column) ∈ ps → v' = v) → ColumnIs m' name column v := by
  induction ps generalizing m with
  | nil => exact ⟨m, rfl, fun _ => rfl, fun name column v h _ => by simpa using h⟩
  | cons p ps ih =>
    obtain ⟨n, v0, c0⟩ := p
    obtain ⟨v, a, h1, h2, h3, h4⟩ := hok _ List.mem_cons_self
    simp only at h1 h2 h3 h4
    subst h1
    let b : Arr K := { a with val := fun r c => if c = c0 then v.getD r (a.val r c) else a.val r c }
    have hshape : ∀ name, (Function.update m n (some b) name).map (fun a => (a.rows, a.cols)) = (m name).map fun a => (a.rows, a.cols) := by
      intro name
      by_cases hn : name = n
      · subst hn; rw [Function.update_self, h2]; rfl
      · rw [Function.update_of_ne hn]
    obtain ⟨m', g1, g2, g3⟩ := ih (Function.update m n (some b)) (by
      intro p hp
      obtain ⟨v', a', e1, e2, e3, e4⟩ := hok p (List.mem_cons_of_mem _ hp)
      have e5 := hshape p.1
      rw [e2] at e5
      obtain ⟨a'', e6, e7⟩ := Option.map_eq_some_iff.1 e5
      cases a''; cases a'
      simp only [Prod.mk.injEq] at e7
      exact ⟨v', _, e1, e6, by simpa [e7.2] using e3, by simpa [e7.1] using e4⟩)
    refine ⟨m', ?_, fun name => (g2 name).trans (hshape name), ?_⟩
    · rw [List.map_cons, List.foldlM_cons]
      have : Cmd.run junk m (.put n (some v) c0) = some (Function.update m n (some b)) := by
        simp [Cmd.run, h2, h3, h4, b]
      simp only [this]
      exact g1
    · intro name column w hw hf
      refine g3 name column w ?_ fun v' hv' => hf v' (List.mem_cons_of_mem _ hv')
      by_cases hk : name = n ∧ column = c0
      · obtain ⟨rfl, rfl⟩ := hk
        have hvw : v = w := hf v List.mem_cons_self
        subst hvw
        right
        intro a' ha' r x hx
        rw [Function.update_self] at ha'
        cases ha'
        simp [b, List.getD, hx]
      · rcases hw with hw | hw
        · rcases List.mem_cons.1 hw with hw | hw
          · simp only [Prod.mk.injEq, Option.some.injEq] at hw
            exact absurd ⟨hw.1, hw.2.2⟩ hk
          · exact Or.inl hw
        · right
          intro a' ha' r x hx
          by_cases hn : name = n
          · subst hn
            have hc : column ≠ c0 := fun hc => hk ⟨rfl, hc⟩
            rw [Function.update_self] at ha'
            cases ha'
            simp only [b, if_neg hc]
            exact hw a h2 r x hx
          · rw [Function.update_of_ne hn] at ha'
            exact hw a' ha' r x hx

/-! ### The names -/

inductive Q
  | state (q : StateQ)
  | control (q : ControlQ)
  | computationalTime
  | cost

def Q.name : Q → String
  | .state q => q.name
  | .control q => q.name
  | .computationalTime => "computationalTime"
  | .cost => "costValue"

/-- A name with the number of a point. -/
def pointName (foot : Foot) (point : Nat) (what : String) : String := foot.name ++ "Point" ++ toString point ++ what

theorem pointName_inj {f g : Foot} {p q : Nat} {a b : String} (ha : ∃ c l, a.toList = c :: l ∧ c.isDigit = false) (hb : ∃ c l, b.toList = c :: l ∧ c.isDigit = false)
    (h : pointName f p a = pointName g q b) : f = g ∧ p = q ∧ a = b := by
  have h1 := congrArg String.toList h
  simp only [pointName, String.toList_append] at h1
  have hfg : f = g := by
    cases f <;> cases g <;> first | rfl | (simp [Foot.name] at h1)
  subst hfg
  refine ⟨rfl, ?_⟩
  rw [List.append_assoc, List.append_assoc (_ ++ _)] at h1
  have h2 := List.append_cancel_left h1
  have key : ∀ {p : Nat} {a : String}, (∃ c l, a.toList = c :: l ∧ c.isDigit = false) → ((toString p).toList ++ a.toList).takeWhile (·.isDigit) = (toString p).toList := by
    rintro p a ⟨c, l, hl, hc⟩
    rw [List.takeWhile_append_of_pos (fun c hc => Server.digit_of_mem hc), hl]
    simp [hc]
  have h3 : (toString p).toList = (toString q).toList := by rw [← key (p := p) ha, ← key (p := q) hb, h2]
  rw [h3] at h2
  exact ⟨digits_inj (String.toList_inj.1 h3), String.toList_inj.1 (List.append_cancel_left h2)⟩

theorem pointName_ne {f : Foot} {p : Nat} {a s : String} (h : s.toList.take 5 ≠ "leftP".toList ∧ s.toList.take 5 ≠ "right".toList) : pointName f p a ≠ s := by
  rintro rfl
  cases f
  · exact h.1 (by simp [pointName, String.toList_append, Foot.name])
  · exact h.2 (by simp [pointName, String.toList_append, Foot.name])

/-- The parts of a name. -/
def Q.parts : Q → (Foot × Nat × String) ⊕ String
  | .state (.force f p) => .inl (f, p, "Force")
  | .state (.position f p) => .inl (f, p, "Position")
  | .control (.force f p) => .inl (f, p, "ForceControl")
  | .control (.velocity f p) => .inl (f, p, "VelocityControl")
  | q => .inr q.name

/-- The quantity with these parts. -/
def ofParts : (Foot × Nat × String) ⊕ String → Option Q
  | .inl (f, p, w) =>
    if w = "Force" then some (.state (.force f p)) else if w = "Position" then some (.state (.position f p))
    else if w = "ForceControl" then some (.control (.force f p)) else some (.control (.velocity f p))
  | .inr s =>
    [Q.state .momentum, .state .com, .state .basePosition, .state .baseQuaternion, .state .joints, .state .time, .control .baseVelocity,
      .control .quaternionDerivative, .control .jointsVelocity, .control .time, .computationalTime, .cost].find? fun q => q.name = s

theorem ofParts_parts (q : Q) : ofParts q.parts = some q := by
  rcases q with (⟨f, p⟩ | ⟨f, p⟩ | _ | _ | _ | _ | _ | _) | (⟨f, p⟩ | ⟨f, p⟩ | _ | _ | _ | _) | _ | _ <;>
    simp [Q.parts, ofParts, Q.name, StateQ.name, ControlQ.name, List.find?]

theorem parts_name (q : Q) : (∃ f p w, q.parts = .inl (f, p, w) ∧ q.name = pointName f p w ∧ ∃ c l, w.toList = c :: l ∧ c.isDigit = false) ∨
    ∃ s : String, q.parts = .inr s ∧ q.name = s ∧ s.toList.take 5 ≠ "leftP".toList ∧ s.toList.take 5 ≠ "right".toList := by
  rcases q with (⟨f, p⟩ | ⟨f, p⟩ | _ | _ | _ | _ | _ | _) | (⟨f, p⟩ | ⟨f, p⟩ | _ | _ | _ | _) | _ | _ <;>
    first
    | exact Or.inl ⟨f, p, _, rfl, rfl, _, _, rfl, by decide⟩
    | exact Or.inr ⟨_, rfl, rfl, by decide⟩

theorem name_inj {a b : Q} (h : a.name = b.name) : a = b := by
  have : a.parts = b.parts := by
    rcases parts_name a with ⟨f, p, w, h1, h2, h3⟩ | ⟨s, h1, h2, h3⟩ <;> rcases parts_name b with ⟨g, q, v, k1, k2, k3⟩ | ⟨t, k1, k2, k3⟩
    · rw [h2, k2] at h
      obtain ⟨rfl, rfl, rfl⟩ := pointName_inj h3 k3 h
      rw [h1, k1]
    · rw [h2, k2] at h
      exact absurd h (pointName_ne k3)
    · rw [h2, k2] at h
      exact absurd h.symm (pointName_ne h3)
    · rw [h1, k1, ← h2, ← k2, h]
  have h1 := ofParts_parts a
  rw [this, ofParts_parts] at h1
  exact (Option.some.inj h1).symm

end Verif.Logger
