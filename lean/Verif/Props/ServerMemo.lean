import Verif.Model.ServerMemo
import Verif.Lemmas.Packing
import Mathlib.Data.Set.Function
/- C72: the expressions that are remembered are the ones that are asked. -/
namespace Verif.Server
open Verif.SolverM (digits_inj)

theorem lookup_after (calls : List Request) (s : Nat × String) : (Maps.after calls).lookup s = calls.find? fun e => e.slot == s := by
  induction calls using List.reverseRecOn with
  | nil => rfl
  | append_singleton calls a ih =>
    have e : Maps.after (calls ++ [a]) = ((Maps.after calls).call a).1 := by simp [Maps.after]
    rw [e, List.find?_append, ← ih, Maps.call]
    cases h : (Maps.after calls).lookup a.slot with
    | some b =>
      by_cases hs : s = a.slot
      · subst hs; simp [h]
      · have : (a.slot == s) = false := by simpa using Ne.symm hs
        simp [this]
    | none =>
      by_cases hs : s = a.slot
      · subst hs; simp [h, List.lookup]
      · have h1 : (s == a.slot) = false := by simpa using hs
        have h2 : (a.slot == s) = false := by simpa using Ne.symm hs
        simp [List.lookup, h1, h2]

/-- **C72.** What a call returns, whatever was called before: the expression made by the first of all the calls with the same map and key. -/
theorem C72_first (calls : List Request) (a : Request) : (calls ++ [a]).find? (fun e => e.slot == a.slot) = some (answer calls a) := by
  rw [List.find?_append, ← lookup_after, answer, Maps.call]
  cases h : (Maps.after calls).lookup a.slot <;> simp

/-- **C72.** All the calls in a set return what they ask, after every history of calls in the set, exactly when no two of them share map and key. -/
theorem C72_right_iff (S : Set Request) : (∀ calls : List Request, (∀ e ∈ calls, e ∈ S) → ∀ a ∈ S, answer calls a = a) ↔ Set.InjOn Request.slot S := by
  constructor
  · intro h a ha b hb hab
    have h1 := h [a] (by simpa using ha) b hb
    have h2 := C72_first [a] b
    rw [h1] at h2
    simp [hab] at h2
    exact h2
  · intro h calls hc a ha
    have h2 := C72_first calls a
    have h3 := List.find?_some h2
    have h4 := List.mem_of_find?_eq_some h2
    have hm : answer calls a ∈ S := by
      rcases List.mem_append.1 h4 with h5 | h5
      · exact hc _ h5
      · rw [List.mem_singleton.1 h5]; exact ha
    exact h hm ha (by simpa using h3)

/-! ### When the keys are different -/

/-- Specification: no name is the beginning of another one. -/
def PrefixFree (N : Set String) : Prop := ∀ a ∈ N, ∀ b ∈ N, a.toList <+: b.toList → a = b

theorem PrefixFree.pair {N : Set String} (h : PrefixFree N) {a b c d : String} (ha : a ∈ N) (hc : c ∈ N) (e : a ++ b = c ++ d) : a = c ∧ b = d := by
  have e2 := congrArg String.toList e
  rw [String.toList_append, String.toList_append] at e2
  have hac : a = c := by
    have h1 : a.toList <+: c.toList ++ d.toList := by rw [← e2]; exact List.prefix_append _ _
    rcases List.prefix_or_prefix_of_prefix h1 (List.prefix_append c.toList d.toList) with h2 | h2
    · exact h a ha c hc h2
    · exact (h c hc a ha h2).symm
  subst hac
  exact ⟨rfl, String.toList_inj.1 (List.append_cancel_left e2)⟩

theorem digit_of_mem {n : Nat} {c : Char} (h : c ∈ (toString n).toList) : c.isDigit = true := by
  have h : c ∈ n.repr.toList := h
  rw [Nat.toList_repr] at h
  exact Nat.isDigit_of_mem_toDigits (by decide) (by decide) h

/-- Specification: the last character is not a digit. -/
def EndsWithoutDigit (a : String) : Prop := ∃ l c, a.toList = l ++ [c] ∧ c.isDigit = false

/-- A name that does not end with a digit, and the digits after it, can be told from each other. -/
theorem split_digits {a b : String} {d e : List Char} (ha : EndsWithoutDigit a) (hb : EndsWithoutDigit b) (hd : ∀ c ∈ d, c.isDigit = true)
    (he : ∀ c ∈ e, c.isDigit = true) (h : a.toList ++ d = b.toList ++ e) : a = b ∧ d = e := by
  have key : ∀ {a : String} {d : List Char}, EndsWithoutDigit a → (∀ c ∈ d, c.isDigit = true) →
      (a.toList ++ d).reverse.takeWhile (·.isDigit) = d.reverse := by
    rintro a d ⟨l, c, hl, hc⟩ hd
    rw [List.reverse_append, List.takeWhile_append_of_pos (by simpa using hd), hl]
    simp [hc]
  have h1 := key ha hd
  rw [h, key hb he] at h1
  have h2 : d = e := List.reverse_injective h1.symm
  subst h2
  exact ⟨String.toList_inj.1 (List.append_cancel_right h), rfl⟩

theorem ends_underscores (a : String) : EndsWithoutDigit (a ++ "__") :=
  ⟨a.toList ++ ['_'], '_', by simp, by decide⟩

theorem column_key {a b : String} {i j : Nat} (h : a ++ "__" ++ toString i = b ++ "__" ++ toString j) : a = b ∧ i = j := by
  have h1 := congrArg String.toList h
  rw [String.toList_append, String.toList_append (s := b ++ "__")] at h1
  obtain ⟨h2, h3⟩ := split_digits (ends_underscores a) (ends_underscores b) (fun c hc => digit_of_mem hc) (fun c hc => digit_of_mem hc) h1
  have h4 := congrArg String.toList h2
  rw [String.toList_append, String.toList_append] at h4
  exact ⟨String.toList_inj.1 (List.append_cancel_right h4), digits_inj (String.toList_inj.1 h3)⟩

theorem joint_key {a b : String} {i j k l : Nat} (ha : EndsWithoutDigit a) (hb : EndsWithoutDigit b)
    (h : a ++ toString i ++ toString j = b ++ toString k ++ toString l) : a = b ∧ toString i ++ toString j = toString k ++ toString l := by
  have h1 := congrArg String.toList h
  simp only [String.toList_append, List.append_assoc] at h1
  have hd : ∀ i j : Nat, ∀ c ∈ (toString i).toList ++ (toString j).toList, c.isDigit = true := by
    intro i j c hc
    rcases List.mem_append.1 hc with hc | hc <;> exact digit_of_mem hc
  obtain ⟨h2, h3⟩ := split_digits ha hb (hd i j) (hd k l) h1
  refine ⟨h2, String.toList_inj.1 ?_⟩
  rw [String.toList_append, String.toList_append]; exact h3

/-! ### The names of a robot -/

/-- Specification: the frames (and links), the joints with the indices of the links they connect, the variable of the twist of the base, and the
variable of the desired quaternion of the orientation error of each frame. -/
structure Names where
  frames : Set String
  joints : Set (String × Nat × Nat)
  twist : Variable
  desired : String → Variable

/-- Specification: the calls about this robot. -/
def Names.About (R : Names) : Request → Prop
  | .adjoint b t | .adjointDerivative b t _ | .adjointWrench b t | .adjointWrenchDerivative b t _ | .relativePosition b t | .relativeQuaternion b t
  | .relativeRotation b t | .relativeTransform b t | .relativeJacobian b t | .relativeVelocity b t => b ∈ R.frames ∧ t ∈ R.frames
  | .absoluteVelocity _ v | .absoluteVelocityDerivative _ v | .momentumDerivative v _ => v = R.twist
  | .quaternionError f v => v = R.desired f
  | .subspace j p c | .subspaceCross j p c | .subspaceCrossWrench j p c => (j, p, c) ∈ R.joints ∨ (j, c, p) ∈ R.joints
  | .linkInertia _ | .linkInertiaInBase _ | .comHessian _ => True

/-- Specification: names that can be told from each other after they are joined. -/
structure Names.Distinct (R : Names) : Prop where
  frames : PrefixFree R.frames
  joints : ∀ j a b, (j, a, b) ∈ R.joints → EndsWithoutDigit j ∧ toString a ++ toString b ≠ toString b ++ toString a
  one : ∀ j a b a' b', (j, a, b) ∈ R.joints → (j, a', b') ∈ R.joints → a = a' ∧ b = b'

theorem Names.Distinct.joint {R : Names} (h : R.Distinct) {j j' : String} {p c p' c' : Nat} (h1 : (j, p, c) ∈ R.joints ∨ (j, c, p) ∈ R.joints)
    (h2 : (j', p', c') ∈ R.joints ∨ (j', c', p') ∈ R.joints) (e : j ++ toString p ++ toString c = j' ++ toString p' ++ toString c') :
    j = j' ∧ p = p' ∧ c = c' := by
  have e1 : EndsWithoutDigit j := by rcases h1 with h1 | h1 <;> exact (h.joints _ _ _ h1).1
  have e2 : EndsWithoutDigit j' := by rcases h2 with h2 | h2 <;> exact (h.joints _ _ _ h2).1
  obtain ⟨rfl, hd⟩ := joint_key e1 e2 e
  rcases h1 with h1 | h1 <;> rcases h2 with h2 | h2 <;> obtain ⟨rfl, rfl⟩ := h.one _ _ _ _ _ h1 h2
  · exact ⟨rfl, rfl, rfl⟩
  · exact absurd hd (h.joints _ _ _ h1).2
  · exact absurd hd.symm (h.joints _ _ _ h1).2
  · exact ⟨rfl, rfl, rfl⟩

/-- **C72.** For a robot whose names can be told from each other (no frame is the beginning of another one, no joint ends with a digit and the two
orders of the links of a joint are written differently), every call returns the expression it asks, whatever was called before. -/
theorem C72_right_partial (R : Names) (hR : R.Distinct) (calls : List Request) (hc : ∀ e ∈ calls, R.About e) (a : Request) (ha : R.About a) : answer calls a = a := by
  refine (C72_right_iff {r | R.About r}).2 ?_ calls hc a ha
  intro r hr r' hr' e
  have hr : R.About r := hr
  have hr' : R.About r' := hr'
  have h1 := congrArg Prod.fst e
  replace e := congrArg Prod.snd e
  cases r <;> cases r' <;> try (simp [Request.slot] at h1; done)
  all_goals clear h1; simp only [Request.slot] at e; simp only [Names.About] at hr hr'
  case adjoint => obtain ⟨rfl, rfl⟩ := hR.frames.pair hr.1 hr'.1 e; rfl
  case adjointDerivative =>
    obtain ⟨e', rfl⟩ := column_key e
    obtain ⟨rfl, rfl⟩ := hR.frames.pair hr.1 hr'.1 e'; rfl
  case adjointWrench => obtain ⟨rfl, rfl⟩ := hR.frames.pair hr.1 hr'.1 e; rfl
  case adjointWrenchDerivative =>
    obtain ⟨e', rfl⟩ := column_key e
    obtain ⟨rfl, rfl⟩ := hR.frames.pair hr.1 hr'.1 e'; rfl
  case relativePosition => obtain ⟨rfl, rfl⟩ := hR.frames.pair hr.1 hr'.1 e; rfl
  case relativeQuaternion => obtain ⟨rfl, rfl⟩ := hR.frames.pair hr.1 hr'.1 e; rfl
  case relativeRotation => obtain ⟨rfl, rfl⟩ := hR.frames.pair hr.1 hr'.1 e; rfl
  case relativeTransform => obtain ⟨rfl, rfl⟩ := hR.frames.pair hr.1 hr'.1 e; rfl
  case relativeJacobian => obtain ⟨rfl, rfl⟩ := hR.frames.pair hr.1 hr'.1 e; rfl
  case relativeVelocity => obtain ⟨rfl, rfl⟩ := hR.frames.pair hr.1 hr'.1 e; rfl
  case absoluteVelocity =>
    subst hr hr'
    have e := congrArg String.toList e
    rw [String.toList_append, String.toList_append] at e
    rw [String.toList_inj.1 (List.append_cancel_right e)]
  case absoluteVelocityDerivative =>
    subst hr hr'
    have e := congrArg String.toList e
    rw [String.toList_append, String.toList_append] at e
    rw [String.toList_inj.1 (List.append_cancel_right e)]
  case quaternionError => subst e hr hr'; rfl
  case subspace => obtain ⟨rfl, rfl, rfl⟩ := hR.joint hr hr' e; rfl
  case subspaceCross => obtain ⟨rfl, rfl, rfl⟩ := hR.joint hr hr' e; rfl
  case subspaceCrossWrench => obtain ⟨rfl, rfl, rfl⟩ := hR.joint hr hr' e; rfl
  case linkInertia => rw [e]
  case linkInertiaInBase => rw [e]
  case momentumDerivative => subst hr hr'; rw [digits_inj e]
  case comHessian => rw [digits_inj e]

/-! ### Findings -/

/-- A call with the map and key of the first call gets the expression of the first one. -/
theorem answer_same (calls : List Request) (b a : Request) (h : b.slot = a.slot) : answer (b :: calls) a = b := by
  have h1 := C72_first (b :: calls) a
  simp [h] at h1
  exact h1.symm

/-- **C72, finding.** The frames `link1` and `1_tip`, and `link11` and `_tip`: after the transform between the first two, the one between the others is
the one between the first two. -/
theorem C72_finding_frames (calls : List Request) :
    answer (.adjoint "link1" "1_tip" :: calls) (.adjoint "link11" "_tip") = .adjoint "link1" "1_tip" :=
  answer_same _ _ _ (by decide +kernel)

/-- **C72, finding.** A joint, whatever its name, between the links with index 1 and 11: after the direction of the motion of the link 11 seen from the
link 1, the one of the link 1 seen from the link 11 is the same. -/
theorem C72_finding_joint (calls : List Request) (j : String) : answer (.subspace j 1 11 :: calls) (.subspace j 11 1) = .subspace j 1 11 := by
  refine answer_same _ _ _ ?_
  simp only [Request.slot]
  congr 1
  rw [String.append_assoc, String.append_assoc]
  congr 1

/-- **C72, finding.** A joint `joint1` from the link 2 to the link 3 and a joint `joint` from the link 12 to the link 3. -/
theorem C72_finding_two_joints (calls : List Request) :
    answer (.subspaceCross "joint1" 2 3 :: calls) (.subspaceCross "joint" 12 3) = .subspaceCross "joint1" 2 3 :=
  answer_same _ _ _ (by decide +kernel)

/-- **C72, finding.** The second derivatives of the momentum do not look at the variable of the twist: the one of the first call is used. -/
theorem C72_finding_twist (calls : List Request) (v v' : Variable) (c : Nat) :
    answer (.momentumDerivative v c :: calls) (.momentumDerivative v' c) = .momentumDerivative v c :=
  answer_same _ _ _ rfl

/-! ### Example -/

/-- A robot whose names can be told from each other. -/
def sampleNames : Names := ⟨{"root_link", "l_sole", "r_sole"}, {("l_hip_pitch", 0, 1), ("r_hip_pitch", 0, 2), ("l_knee", 1, 13)}, ⟨"baseTwist", 0⟩, fun _ => ⟨"desired", 1⟩⟩

theorem sampleNames_distinct : sampleNames.Distinct where
  frames := by
    intro a ha b hb h
    simp only [sampleNames, Set.mem_insert_iff, Set.mem_singleton_iff] at ha hb
    rcases ha with rfl | rfl | rfl <;> rcases hb with rfl | rfl | rfl <;> first | rfl | (exfalso; revert h; decide +kernel)
  joints := by
    intro j a b h
    simp only [sampleNames, Set.mem_insert_iff, Set.mem_singleton_iff, Prod.mk.injEq] at h
    rcases h with ⟨rfl, rfl, rfl⟩ | ⟨rfl, rfl, rfl⟩ | ⟨rfl, rfl, rfl⟩
    · exact ⟨⟨"l_hip_pitc".toList, 'h', by decide +kernel, by decide⟩, by decide +kernel⟩
    · exact ⟨⟨"r_hip_pitc".toList, 'h', by decide +kernel, by decide⟩, by decide +kernel⟩
    · exact ⟨⟨"l_kne".toList, 'e', by decide +kernel, by decide⟩, by decide +kernel⟩
  one := by
    intro j a b a' b' h h'
    simp only [sampleNames, Set.mem_insert_iff, Set.mem_singleton_iff, Prod.mk.injEq] at h h'
    rcases h with ⟨rfl, rfl, rfl⟩ | ⟨rfl, rfl, rfl⟩ | ⟨rfl, rfl, rfl⟩ <;> simp at h' <;> simp [h']

example := C72_right_partial sampleNames sampleNames_distinct
  [.adjoint "root_link" "l_sole", .adjointDerivative "root_link" "l_sole" 3, .subspace "l_knee" 1 13, .absoluteVelocity "l_sole" ⟨"baseTwist", 0⟩]
  (by simp [Names.About, sampleNames]) (.subspace "l_knee" 13 1) (by simp [Names.About, sampleNames])

end Verif.Server
