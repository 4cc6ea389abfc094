import Verif.Lemmas.DerivativeCache
import Verif.Lemmas.DerivativeCacheGood
import Verif.Props.Levi
/- C99: the caches of the derivatives. -/
namespace Verif.Levi
open Ex Spec
namespace DerivativeCache
variable {K : Type} [Field K] [LinearOrder K]

theorem requests_cons {cfg : Nat → Cfg K} {seen : Nat → Option Nat} {n : Nat} {r : Request K} {l : List (Request K)} {s s1 s2 : Store K} {d : Ex K} {ds : List (Ex K)}
    (h1 : getColumnDerivative cfg seen n r.1 r.2.1 r.2.2 s = some (d, s1)) (h2 : requests cfg seen n l s1 = some (ds, s2)) : requests cfg seen n (r :: l) s = some (d :: ds, s2) := by
  show (getColumnDerivative cfg seen n r.1 r.2.1 r.2.2 s >>= fun p => (requests cfg seen n l p.2 >>= fun q => some (p.1 :: q.1, q.2))) = _
  rw [h1]
  show (requests cfg seen n l s1 >>= _) = _
  rw [h2]
  rfl

theorem requests_follow (cfg : Cfg K) (seen : Nat → Option Nat) {vars : Set Var} (hc : Consistent vars) (n : Nat) : ∀ (l : List (Request K)) (ds : List (Ex K)),
    (∀ r ∈ l, r.2.2 ∈ vars) → List.Forall₂ (fun r d => D cfg n r.1 r.2.1 r.2.2 = some d) l ds → ∀ s, Inv cfg vars s → ∃ s', requests (fun _ => cfg) seen n l s = some (ds, s') ∧ Inv cfg vars s' := by
  intro l
  induction l with
  | nil =>
    intro ds _ h s hs
    cases h
    exact ⟨s, rfl, hs⟩
  | cons r l ih =>
    intro ds hv h s hs
    cases h with
    | cons hr hl =>
      obtain ⟨s1, h1, i1⟩ := get_follows cfg seen hc (hv r List.mem_cons_self) n r.1 r.2.1 _ hr s hs
      obtain ⟨s2, h2, i2⟩ := ih _ (fun t ht => hv t (List.mem_cons_of_mem _ ht)) hl s1 i1
      exact ⟨s2, requests_cons h1 h2, i2⟩

/-- Nothing was asked yet. -/
def fresh : Store K := ⟨[], 0⟩

/-- C99: whatever the caches of the objects have when they are asked (cleared or not, shared or not), the answers to any sequence of requests are the ones of a computation without caches, if no two of the
variables have the same name. -/
theorem C99_same_as_without_cache (cfg : Cfg K) (seen : Nat → Option Nat) (n : Nat) (l : List (Request K)) (names : ∀ r ∈ l, ∀ t ∈ l, r.2.2.name = t.2.2.name → r.2.2 = t.2.2)
    (ds : List (Ex K)) (h : List.Forall₂ (fun r d => D cfg n r.1 r.2.1 r.2.2 = some d) l ds) : ∃ s, requests (fun _ => cfg) seen n l fresh = some (ds, s) := by
  have hc : Consistent {v | ∃ r ∈ l, r.2.2 = v} := by
    rintro _ ⟨r, hr, rfl⟩ _ ⟨t, ht, rfl⟩ hn
    exact names r hr t ht hn
  obtain ⟨s, hs, _⟩ := requests_follow cfg seen hc n l ds (fun r hr => ⟨r, hr, rfl⟩) h fresh (fun t ht => absurd ht List.not_mem_nil)
  exact ⟨s, hs⟩

/-- C99: with the caches each answer is the Jacobian of the column that was asked, with respect to the variable that was asked. -/
theorem C99_true_derivatives {cfg : Cfg ℝ} (hs : Sound cfg) (seen : Nat → Option Nat) (S : Set (Env ℝ)) (hS : S.Nonempty) (l : List (Request ℝ))
    (written : ∀ r ∈ l, ∃ e, (∀ ρ ∈ S, Written (PowOk ρ) e) ∧ Obtained cfg e r.1) (columns : ∀ r ∈ l, r.2.1 < r.1.cols) (dims : ∀ r ∈ l, 0 < r.2.2.dim)
    (names : ∀ r ∈ l, ∀ t ∈ l, r.2.2.name = t.2.2.name → r.2.2 = t.2.2) :
    ∃ N, ∀ n, N ≤ n → ∃ ds s, requests (fun _ => cfg) seen n l fresh = some (ds, s) ∧ List.Forall₂ (fun r d => ∀ ρ ∈ S, IsColumnDerivative ρ r.1 r.2.1 r.2.2 d) l ds := by
  have key : ∃ N, ∀ n, N ≤ n → ∃ ds, List.Forall₂ (fun r d => D cfg n r.1 r.2.1 r.2.2 = some d) l ds ∧ List.Forall₂ (fun r d => ∀ ρ ∈ S, IsColumnDerivative ρ r.1 r.2.1 r.2.2 d) l ds := by
    clear names
    induction l with
    | nil => exact ⟨0, fun n _ => ⟨[], .nil, .nil⟩⟩
    | cons r l ih =>
      obtain ⟨N1, h1⟩ := ih (fun t ht => written t (List.mem_cons_of_mem _ ht)) (fun t ht => columns t (List.mem_cons_of_mem _ ht)) (fun t ht => dims t (List.mem_cons_of_mem _ ht))
      obtain ⟨e, he, ho⟩ := written r List.mem_cons_self
      obtain ⟨⟨N2, h2⟩, h3⟩ := C25_column_derivatives_exist_and_are_true hs e S he hS ho r.2.1 (columns r List.mem_cons_self) r.2.2 (dims r List.mem_cons_self)
      refine ⟨max N1 N2, fun n hn => ?_⟩
      obtain ⟨ds, a, b⟩ := h1 n (le_trans (le_max_left _ _) hn)
      obtain ⟨d, hd⟩ := h2 n (le_trans (le_max_right _ _) hn)
      exact ⟨d :: ds, .cons hd a, .cons (h3 n d hd) b⟩
  obtain ⟨N, hN⟩ := key
  refine ⟨N, fun n hn => ?_⟩
  obtain ⟨ds, a, b⟩ := hN n hn
  obtain ⟨s, h⟩ := C99_same_as_without_cache cfg seen n l names ds a
  exact ⟨ds, s, h, b⟩

/-- What the user asked the derivative of: what was written, or an answer received before. -/
def Source.meaning (answers : List (Ex K)) : Source K → Option (Ex K)
  | written _ e => some e
  | answer i => answers[i]?

/-- A session of a user: what is written is well formed, variables have components, no two of them have the same name. -/
structure Proper (S : Set (Env ℝ)) (l : List (Source ℝ × Nat × Var)) : Prop where
  sound : ∀ r ∈ l, ∀ k e, r.1 = .written k e → Sound k
  written : ∀ r ∈ l, ∀ k e, r.1 = .written k e → ∀ ρ ∈ S, Written (PowOk ρ) e
  dims : ∀ r ∈ l, 0 < r.2.2.dim
  names : ∀ r ∈ l, ∀ t ∈ l, r.2.2.name = t.2.2.name → r.2.2 = t.2.2

theorem Proper.tail {S : Set (Env ℝ)} {r : Source ℝ × Nat × Var} {l : List (Source ℝ × Nat × Var)} (h : Proper S (r :: l)) : Proper S l :=
  ⟨fun t ht => h.sound t (List.mem_cons_of_mem _ ht), fun t ht => h.written t (List.mem_cons_of_mem _ ht), fun t ht => h.dims t (List.mem_cons_of_mem _ ht),
    fun t ht u hu => h.names t (List.mem_cons_of_mem _ ht) u (List.mem_cons_of_mem _ hu)⟩

theorem session_right {S : Set (Env ℝ)} {vars : Set Var} (cfg : Nat → Cfg ℝ) (hs : ∀ k, Sound (cfg k)) (seen : Nat → Option Nat) (n : Nat) (hc : Consistent vars) : ∀ (l : List (Source ℝ × Nat × Var)) (as : List (Ex ℝ)) (s s' : Store ℝ) (ds : List (Ex ℝ)),
    Proper S l → (∀ r ∈ l, r.2.2 ∈ vars) → (∀ a ∈ as, ∀ ρ ∈ S, Kept (PowOk ρ) a) → Valid S vars s → session cfg seen n l as s = some (ds, s') →
    ∃ new, ds = as ++ new ∧ new.length = l.length ∧ ∀ i (r : Source ℝ × Nat × Var), l[i]? = some r → ∃ e d, r.1.meaning (as ++ new.take i) = some e ∧ new[i]? = some d ∧ ∀ ρ ∈ S, IsColumnDerivative ρ e r.2.1 r.2.2 d := by
  intro l
  induction l with
  | nil =>
    intro as s s' ds _ _ _ _ h
    cases h
    exact ⟨[], by simp, rfl, fun i r hr => by simp at hr⟩
  | cons r l ih =>
    intro as s s' ds hp hv ha hS h
    unfold session at h
    cases ho : r.1.object as with
    | none => rw [ho] at h; cases h
    | some x =>
      rw [ho] at h
      dsimp only at h
      split_ifs at h with hcol
      · have h : (getColumnDerivative cfg seen n x r.2.1 r.2.2 s >>= fun p => session cfg seen n l (as ++ [p.1]) p.2) = some (ds, s') := h
        cases hg : getColumnDerivative cfg seen n x r.2.1 r.2.2 s with
        | none => rw [hg] at h; cases h
        | some p =>
          rw [hg] at h
          have hk : ∀ ρ ∈ S, Kept (PowOk ρ) x := by
            intro ρ hρ
            cases hr : r.1 with
            | written k e =>
              rw [hr] at ho
              cases ho
              exact (build_val (hp.sound r List.mem_cons_self k e hr) (fun a a' α => PowOk.transfer a a' α) (hp.written r List.mem_cons_self k e hr ρ hρ)).1
            | answer i =>
              rw [hr] at ho
              exact ha x (List.mem_of_getElem? ho) ρ hρ
          obtain ⟨hright, hS1⟩ := get_right (S := S) cfg hs seen hc (hv r List.mem_cons_self) (hp.dims r List.mem_cons_self) n x r.2.1 s hS p.1 p.2 hg
          have good := fun ρ hρ => hright ρ hρ (hk ρ hρ) hcol
          obtain ⟨new, rfl, hlen, hall⟩ := ih (as ++ [p.1]) p.2 s' ds hp.tail (fun t ht => hv t (List.mem_cons_of_mem _ ht))
            (fun a h ρ hρ => by
              rcases List.mem_append.1 h with h | h
              · exact ha a h ρ hρ
              · rw [List.mem_singleton] at h
                rw [h]
                exact (good ρ hρ).1) hS1 h
          refine ⟨p.1 :: new, by simp, by simp [hlen], fun i t ht => ?_⟩
          cases i with
          | zero =>
            obtain rfl : r = t := by simpa using ht
            cases hr : r.1 with
            | written k e =>
              refine ⟨e, p.1, rfl, rfl, fun ρ hρ => ?_⟩
              rw [hr] at ho
              cases ho
              have hw := hp.written r List.mem_cons_self k e hr ρ hρ
              have vb := build_val (hp.sound r List.mem_cons_self k e hr) (fun a a' α => PowOk.transfer a a' α) hw
              have sz := size_of_ev vb.1 hw vb.2
              have g := (good ρ hρ).2
              refine ⟨by rw [g.size, rows, sz], fun i j hi hj => ?_⟩
              have := g.deriv i j (by rw [rows, sz]; exact hi) hj
              simpa only [vb.2] using this
            | answer i =>
              rw [hr] at ho
              exact ⟨x, p.1, by simpa [Source.meaning, Source.object] using ho, rfl, fun ρ hρ => (good ρ hρ).2⟩
          | succ i =>
            obtain ⟨e, d, h1, h2, h3⟩ := hall i t (by simpa using ht)
            exact ⟨e, d, by simpa using h1, by simpa using h2, h3⟩

/-- C99: in any session (requests on what was written, on the derivatives received, on their derivatives, ...), whatever the caches have and whichever nodes are shared at each call, each answer is the Jacobian of the column
of what was asked, with respect to the variable that was asked. -/
theorem C99_sessions {S : Set (Env ℝ)} (cfg : Nat → Cfg ℝ) (hs : ∀ k, Sound (cfg k)) (seen : Nat → Option Nat) (n : Nat) (l : List (Source ℝ × Nat × Var)) (hl : Proper S l) (answers : List (Ex ℝ)) (s : Store ℝ)
    (h : session cfg seen n l [] fresh = some (answers, s)) :
    answers.length = l.length ∧ ∀ i (r : Source ℝ × Nat × Var), l[i]? = some r →
      ∃ e d, r.1.meaning (answers.take i) = some e ∧ answers[i]? = some d ∧ ∀ ρ ∈ S, IsColumnDerivative ρ e r.2.1 r.2.2 d := by
  have hc : Consistent {v | ∃ r ∈ l, r.2.2 = v} := by
    rintro _ ⟨r, hr, rfl⟩ _ ⟨t, ht, rfl⟩ hn
    exact hl.names r hr t ht hn
  obtain ⟨new, rfl, hlen, hall⟩ := session_right (S := S) cfg hs seen n hc l [] fresh s answers hl (fun r hr => ⟨r, hr, rfl⟩) (by simp) (fun t ht => absurd ht List.not_mem_nil) h
  exact ⟨by simpa using hlen, by simpa using hall⟩

/-- Finding: the caches look at the name of the variable only.  With two different variables of the same name the answer for the second one is the one of the first: here the derivative of a constant with respect to a variable
with five components has three columns. -/
theorem C99_finding_same_name (cfg : Cfg ℚ) : ∃ seen : Nat → Option Nat, ∃ s,
    requests (fun _ => cfg) seen 1 [(const 2 1 (fun _ _ => 7), 0, ⟨"x", 3⟩), (const 2 1 (fun _ _ => 7), 0, ⟨"x", 5⟩)] fresh = some ([null 2 3, null 2 3], s) ∧
    D cfg 1 (const 2 1 (fun _ _ => 7)) 0 ⟨"x", 5⟩ = some (null 2 5) := by
  have a1 : found (K := ℚ) (fun n => if n = 1 then some 0 else none) fresh (const 2 1 (fun _ _ => 7)) 0 ⟨"x", 3⟩ = none := rfl
  have g1 := get_new (fun _ => cfg) (fun n => if n = 1 then some 0 else none) 0 (const 2 1 (fun _ _ => 7)) 0 ⟨"x", 3⟩ fresh ⟨[], 1⟩ (null 2 3) a1 rfl
  have a2 : found (K := ℚ) (fun n => if n = 1 then some 0 else none) ⟨[⟨const 2 1 (fun _ _ => 7), "x", 0, null 2 3⟩], 1⟩ (const 2 1 (fun _ _ => 7)) 0 ⟨"x", 5⟩ = some (null 2 3) := by
    simp [found]
  have g2 := get_found (fun _ => cfg) (fun n => if n = 1 then some 0 else none) 0 (const 2 1 (fun _ _ => 7)) 0 ⟨"x", 5⟩ _ _ a2
  exact ⟨_, _, requests_cons g1 (requests_cons g2 rfl), rfl⟩

/- Cases: a sum that shares an operand, asked twice; the second time the entry of the sum is found. -/
namespace Sample

def x : Var := ⟨"x", 3⟩
def twice : Ex ℝ := add (.var x) (.var x)

example (seen : Nat → Option Nat) : ∃ N, ∀ n, N ≤ n → ∃ ds s, requests (fun _ => ⟨fun _ _ => false, 10⟩) seen n [(build ⟨fun _ _ => false, 10⟩ twice, 0, x), (build ⟨fun _ _ => false, 10⟩ twice, 0, ⟨"y", 2⟩), (build ⟨fun _ _ => false, 10⟩ twice, 0, x)] fresh = some (ds, s) ∧
    List.Forall₂ (fun r d => ∀ ρ ∈ Set.univ, IsColumnDerivative ρ r.1 r.2.1 r.2.2 d)
      [(build ⟨fun _ _ => false, 10⟩ twice, 0, x), (build ⟨fun _ _ => false, 10⟩ twice, 0, ⟨"y", 2⟩), (build ⟨fun _ _ => false, 10⟩ twice, 0, x)] ds := by
  have hw : ∀ ρ ∈ Set.univ, Written (PowOk ρ) twice := fun ρ _ => ⟨(by decide : 0 < x.dim), (by decide : 0 < x.dim), rfl⟩
  have hs : Sound (⟨fun _ _ => false, 10⟩ : Cfg ℝ) := fun _ _ h => Bool.noConfusion h
  have hw' : Written (fun _ _ => True) twice := ⟨(by decide : 0 < x.dim), (by decide : 0 < x.dim), rfl⟩
  have hc : 0 < (build ⟨fun _ _ => false, 10⟩ twice).cols := by
    rw [cols, (C46_rewriting_preserves_the_value hs hw').1]
    decide
  refine C99_true_derivatives hs seen Set.univ ⟨fun _ _ => 0, trivial⟩ _ ?_ ?_ ?_ ?_
  · intro r hr
    refine ⟨twice, hw, ?_⟩
    have : r.1 = build ⟨fun _ _ => false, 10⟩ twice := by
      simp only [List.mem_cons, List.not_mem_nil, or_false] at hr
      rcases hr with rfl | rfl | rfl <;> rfl
    rw [this]
    exact Obtained.built
  · intro r hr
    simp only [List.mem_cons, List.not_mem_nil, or_false] at hr
    rcases hr with rfl | rfl | rfl <;> exact hc
  · intro r hr
    simp only [List.mem_cons, List.not_mem_nil, or_false] at hr
    rcases hr with rfl | rfl | rfl <;> decide
  · intro r hr t ht
    simp only [List.mem_cons, List.not_mem_nil, or_false] at hr ht
    rcases hr with rfl | rfl | rfl <;> rcases ht with rfl | rfl | rfl <;> decide

/- A session that ends, with a derivative of a derivative. -/
theorem ends (cfg : Nat → Cfg ℝ) (k : Cfg ℝ) : ∃ s, session cfg (fun _ => none) 1 [(.written k (.var x), 0, x), (.answer 0, 2, x)] [] fresh = some ([ident 3, null 3 3], s) := by
  refine ⟨⟨[⟨.var x, "x", 0, ident 3⟩, ⟨ident 3, "x", 2, null 3 3⟩], 2⟩, ?_⟩
  rfl

example (k : Cfg ℝ) (hk : Sound k) : Proper Set.univ [(Source.written k (.var x), 0, x), (.answer 0, 2, x)] where
  sound r hr k' e h := by
    simp only [List.mem_cons, List.not_mem_nil, or_false] at hr
    rcases hr with rfl | rfl <;> cases h
    exact hk
  written r hr k' e h ρ _ := by
    simp only [List.mem_cons, List.not_mem_nil, or_false] at hr
    rcases hr with rfl | rfl <;> cases h
    exact (by decide : 0 < x.dim)
  dims r hr := by
    simp only [List.mem_cons, List.not_mem_nil, or_false] at hr
    rcases hr with rfl | rfl <;> exact Nat.succ_pos 2
  names r hr t ht := by
    simp only [List.mem_cons, List.not_mem_nil, or_false] at hr ht
    rcases hr with rfl | rfl <;> rcases ht with rfl | rfl <;> exact fun _ => rfl

end Sample
end DerivativeCache
end Verif.Levi
