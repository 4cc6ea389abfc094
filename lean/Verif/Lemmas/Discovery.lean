import Verif.Lemmas.Problem6
import Verif.Model.Discovery
/- Substrings of the labels and values of the points. -/
set_option linter.unusedSectionVars false
set_option linter.unusedSimpArgs false
namespace Verif.SolverM
open StateM Spec
open Labeller (Labeller Range)
variable {K : Type} [Zero K]

/-- The last character is not a digit. -/
def plainEnd (p : String) : Bool := match p.toList.getLast? with
  | some c => !c.isDigit
  | none => false

theorem contains_index (a p : String) (i : Nat) (hp : plainEnd p = true) : containsText (a ++ toString i) p = containsText a p := by
  unfold containsText
  rw [String.toList_append]
  refine decide_eq_decide.2 ⟨?_, fun h => List.IsInfix.trans h (List.prefix_append _ _).isInfix⟩
  rintro ⟨u, v, h⟩
  have hd : ∀ c ∈ (toString i).toList, c.isDigit = true := by
    intro c hc
    have : (toString i).toList = Nat.toDigits 10 i := Nat.toList_repr ..
    rw [this] at hc
    exact Nat.isDigit_of_mem_toDigits (by decide) (by decide) hc
  rcases List.append_eq_append_iff.1 h with ⟨x, h1, h2⟩ | ⟨x, h1, h2⟩
  · exact ⟨u, x, h1.symm⟩
  · rcases List.eq_nil_or_concat x with rfl | ⟨y, c, rfl⟩
    · exact ⟨u, [], by simpa using h1⟩
    · exfalso
      have hc : c.isDigit = true := hd c (by rw [h2]; simp)
      unfold plainEnd at hp
      cases hl : p.toList.getLast? with
      | none => rw [hl] at hp; simp at hp
      | some e =>
        rw [hl] at hp
        have h3 := congrArg List.getLast? h1
        rw [List.getLast?_append, hl, List.concat_eq_append, ← List.append_assoc, List.getLast?_append] at h3
        simp at h3
        subst h3
        simp [hc] at hp

theorem filter_foot (foot : String) (n : Nat) (q : String → Bool) (bf bp : Nat → Bool) (hf : ∀ i, q (foot ++ "ForcePoint" ++ toString i) = bf i)
    (hp : ∀ i, q (foot ++ "PositionPoint" ++ toString i) = bp i) :
    (footStateLabels foot n).filter q = (List.range n).flatMap fun i =>
      (if bf i then [foot ++ "ForcePoint" ++ toString i] else []) ++ (if bp i then [foot ++ "PositionPoint" ++ toString i] else []) := by
  rw [footStateLabels, List.filter_flatMap]
  refine congrArg (fun f => (List.range n).flatMap f) ?_
  funext i
  simp only [List.filter_cons, List.filter_nil, hf, hp]
  cases bf i <;> cases bp i <;> rfl

theorem lookupAll_map (s : Labeller K) (l : List Nat) (name : Nat → String) (r : Nat → Range) (h : ∀ i ∈ l, Labeller.getIndexRange s (name i) = some (r i)) :
    lookupAll s (l.map name) = some (l.map r) := by
  induction l with
  | nil => rfl
  | cons i l ih =>
    have h1 := h i (by simp)
    have h2 := ih fun j hj => h j (by simp [hj])
    simp [lookupAll, h1, h2]

theorem lookupAll_append (s : Labeller K) {a b : List String} {x y : List Range} (ha : lookupAll s a = some x) (hb : lookupAll s b = some y) :
    lookupAll s (a ++ b) = some (x ++ y) := by
  induction a generalizing x with
  | nil => simp only [lookupAll, Option.some.injEq] at ha; subst ha; simpa using hb
  | cons t a ih =>
    simp only [lookupAll, Option.bind_eq_bind, Option.bind_eq_some_iff, Option.some.injEq] at ha
    obtain ⟨r, h1, rs, h2, rfl⟩ := ha
    simp [lookupAll, h1, ih h2]

/-- Offset of the first point of a foot. -/
def footOffset (n : Nat) : Foot → Nat
  | .left => 0
  | .right => 6 * n
/-- Range of the force of a point. -/
def forceAt (n : Nat) (f : Foot) (i : Nat) : Range := ⟨footOffset n f + 6 * i, 3⟩
/-- Range of the position of a point. -/
def positionAt (n : Nat) (f : Foot) (i : Nat) : Range := ⟨footOffset n f + 6 * i + 3, 3⟩

/-- The points of a foot of the state. -/
def pointsOf (x : State K) : Foot → List (PointState K)
  | .left => x.left
  | .right => x.right

theorem read_statePoint {d n : Nat} {x : State K} (hx : StateSize d n x) (q : V4 K) (f : Foot) (i : Nat) (p : PointState K) (hp : (pointsOf x f)[i]? = some p) :
    select (forceAt n f i) (stateVector x q) = three p.force ∧ select (positionAt n f i) (stateVector x q) = three p.position := by
  cases f with
  | left =>
    obtain ⟨a, b, e, ha⟩ := flat_split pointState x.left i p hp
    have hal : (a.flatMap pointState).length = 6 * i := by rw [flat_length _ _ (by intro; rfl), ha]
    simp only [forceAt, positionAt, footOffset, Nat.zero_add]
    constructor
    · have := select_mid (a := a.flatMap pointState) (x := three p.force)
        (b := three p.position ++ b.flatMap pointState ++ x.right.flatMap pointState ++ three x.linearMomentum ++ three x.angularMomentum ++ three x.com ++
          three x.base.pos ++ four q ++ x.joints) (k := 6 * i) hal rfl
      rw [← this]; simp [stateVector, three, four, e, pointState]
    · have := select_mid (a := a.flatMap pointState ++ three p.force) (x := three p.position)
        (b := b.flatMap pointState ++ x.right.flatMap pointState ++ three x.linearMomentum ++ three x.angularMomentum ++ three x.com ++
          three x.base.pos ++ four q ++ x.joints) (k := 6 * i + 3) (by rw [List.length_append, hal]; rfl) rfl
      rw [← this]; simp [stateVector, three, four, e, pointState]
  | right =>
    obtain ⟨a, b, e, ha⟩ := flat_split pointState x.right i p hp
    have hal : (x.left.flatMap pointState ++ a.flatMap pointState).length = 6 * n + 6 * i := by
      rw [List.length_append, flat_length _ _ (by intro; rfl), flat_length _ _ (by intro; rfl), ha, hx.left]
    simp only [forceAt, positionAt, footOffset]
    constructor
    · have := select_mid (a := x.left.flatMap pointState ++ a.flatMap pointState) (x := three p.force)
        (b := three p.position ++ b.flatMap pointState ++ three x.linearMomentum ++ three x.angularMomentum ++ three x.com ++
          three x.base.pos ++ four q ++ x.joints) (k := 6 * n + 6 * i) hal rfl
      rw [← this]; simp [stateVector, three, four, e, pointState]
    · have := select_mid (a := x.left.flatMap pointState ++ a.flatMap pointState ++ three p.force) (x := three p.position)
        (b := b.flatMap pointState ++ three x.linearMomentum ++ three x.angularMomentum ++ three x.com ++
          three x.base.pos ++ four q ++ x.joints) (k := 6 * n + 6 * i + 3) (by rw [List.length_append, hal]; rfl) rfl
      rw [← this]; simp [stateVector, three, four, e, pointState]

theorem pointsOf_length {d n : Nat} {x : State K} (hx : StateSize d n x) (f : Foot) : (pointsOf x f).length = n := by
  cases f <;> [exact hx.left; exact hx.right]

theorem read_forces {d n : Nat} {x : State K} (hx : StateSize d n x) (q : V4 K) (f : Foot) :
    (List.range n).map (fun i => select (forceAt n f i) (stateVector x q)) = (pointsOf x f).map fun p => three p.force := by
  refine List.ext_getElem? fun i => ?_
  simp only [List.getElem?_map]
  cases hp : (pointsOf x f)[i]? with
  | none =>
    have : n ≤ i := by rw [← pointsOf_length hx f]; exact List.getElem?_eq_none_iff.1 hp
    rw [List.getElem?_eq_none (by simpa using this)]; rfl
  | some p =>
    have hi : i < n := by rw [← pointsOf_length hx f]; exact (List.getElem?_eq_some_iff.1 hp).1
    rw [List.getElem?_range hi, Option.map_some, Option.map_some, (read_statePoint hx q f i p hp).1]

theorem read_positions {d n : Nat} {x : State K} (hx : StateSize d n x) (q : V4 K) (f : Foot) :
    (List.range n).map (fun i => select (positionAt n f i) (stateVector x q)) = (pointsOf x f).map fun p => three p.position := by
  refine List.ext_getElem? fun i => ?_
  simp only [List.getElem?_map]
  cases hp : (pointsOf x f)[i]? with
  | none =>
    have : n ≤ i := by rw [← pointsOf_length hx f]; exact List.getElem?_eq_none_iff.1 hp
    rw [List.getElem?_eq_none (by simpa using this)]; rfl
  | some p =>
    have hi : i < n := by rw [← pointsOf_length hx f]; exact (List.getElem?_eq_some_iff.1 hp).1
    rw [List.getElem?_range hi, Option.map_some, Option.map_some, (read_statePoint hx q f i p hp).2]

end Verif.SolverM
