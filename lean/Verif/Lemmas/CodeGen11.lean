import Verif.Lemmas.CodeGen10
/- Execution of the generated function. -/
set_option linter.unusedSectionVars false
set_option linter.unusedSimpArgs false
set_option linter.unusedVariables false
namespace Verif.Levi.Code
open Ex Spec Squeeze Levi.Spec
variable {K : Type} [Field K] [LinearOrder K]
variable {shown : K → K} {t : Squeeze.Tree K} {pw : K → K → K} {g : List (SM K)}

theorem Executes.append {v v' v'' : Vars K} {L L' : List (Decl K)} (h : Executes pw g v L v') (h' : Executes pw g v' L' v'') :
    Executes pw g v (L ++ L') v'' := by
  induction h with
  | done => exact h'
  | next a b c _ ih => exact .next a b c (ih h')

theorem exec_range (nm : Nat → Tok K) (hinj : ∀ a b, nm a = nm b → a = b) (n : Nat) (act : Nat → Bool) (decl : Nat → Decl K)
    (hname : ∀ k, (decl k).name = nm k) (val : Nat → Value K) (v0 : Vars K) (h0 : ∀ k, v0 (nm k) = none)
    (h : ∀ k < n, act k = true → ∀ vars : Vars K, (∀ j < k, act j = true → vars (nm j) = some (val j)) → (∀ τ, (∀ j, τ ≠ nm j) → vars τ = v0 τ) →
      Means pw g vars .additive (decl k).text (val k) ∧ Fits (decl k).scalar (decl k).rows (decl k).cols (val k)) :
    ∃ vars, Executes pw g v0 (((List.range n).filter fun k => act k).map decl) vars ∧ (∀ k < n, act k = true → vars (nm k) = some (val k)) ∧
      (∀ k, n ≤ k → vars (nm k) = none) ∧ ∀ τ, (∀ j, τ ≠ nm j) → vars τ = v0 τ := by
  induction n with
  | zero => exact ⟨v0, .done, fun k hk => absurd hk (by omega), fun k _ => h0 k, fun _ _ => rfl⟩
  | succ n ih =>
    obtain ⟨vars, E, h1, h2, h3⟩ := ih (fun k hk => h k (by omega))
    rw [List.range_succ, List.filter_append, List.map_append]
    by_cases ha : act n = true
    · obtain ⟨m, f⟩ := h n (by omega) ha vars h1 h3
      refine ⟨Function.update vars (nm n) (some (val n)), Executes.append E ?_, ?_, ?_, ?_⟩
      · simp only [List.filter_cons, ha, if_true, List.filter_nil, List.map_cons, List.map_nil]
        have := Executes.next (vars := vars) (d := decl n) (by rw [hname]; exact h2 n le_rfl) m f .done
        rwa [hname] at this
      · intro k hk hak
        by_cases hkn : k = n
        · subst hkn; rw [Function.update_self]
        · rw [Function.update_of_ne (fun e => hkn (hinj _ _ e))]
          exact h1 k (by omega) hak
      · intro k hk
        rw [Function.update_of_ne (fun e => by have := hinj _ _ e; omega)]
        exact h2 k (by omega)
      · intro τ hτ
        rw [Function.update_of_ne (hτ n)]
        exact h3 τ hτ
    · refine ⟨vars, ?_, ?_, fun k hk => h2 k (by omega), h3⟩
      · simpa [List.filter_cons, ha] using E
      · intro k hk hak
        by_cases hkn : k = n
        · subst hkn; exact absurd hak ha
        · exact h1 k (by omega) hak

/-- The meaning of a text with names, once the names have their values. -/
theorem means_named (H C : Nat → List (Tok K)) (hv cv : Nat → Value K) (vars : Vars K) (s : List (Tok K)) (v : Value K)
    (hs : valueOf pw (named g fun _ => none) (s.flatMap (meaning H C)) = some v)
    (h : ∀ τ ∈ s, IsName τ → (∃ m, τ = .helper m ∧ valueOf pw (named g fun _ => none) (H m) = some (hv m) ∧ vars τ = some (hv m)) ∨
      ∃ m, τ = .common m ∧ valueOf pw (named g fun _ => none) (C m) = some (cv m) ∧ vars τ = some (cv m)) :
    Means pw g vars .additive s v := by
  refine means_of_value (value_unfold (vars := fun _ => none) (meaning H C) s ?_ v hs)
  intro τ hτ
  by_cases hn : IsName τ
  · rcases h τ hτ hn with ⟨m, rfl, h1, h2⟩ | ⟨m, rfl, h1, h2⟩
    · exact Or.inr ⟨hv m, h1, h2⟩
    · exact Or.inr ⟨cv m, h1, h2⟩
  · refine Or.inl ⟨meaning_plain H C τ hn, ?_⟩
    cases τ with
    | gen k b => cases b <;> rfl
    | helper m => exact absurd trivial hn
    | common m => exact absurd trivial hn
    | _ => rfl

theorem program_ok (G : GoodC shown t) (finals : List (Nat × Ex K)) (hf : ∀ f ∈ finals, f.1 < t.n ∧ SameC t f.1 f.2 ∧ KeptE f.2) (ρ : Env K)
    (H C : Nat → List (Tok K)) (s : State K) (S : Generated shown t (finals.map Prod.fst) H C s) :
    Computes pw (t.generics.map fun g => (t.comp g).e.ev pw ρ) (program t s finals) (finals.map fun f => f.2.ev pw ρ) := by
  set g := t.generics.map fun g => (t.comp g).e.ev pw ρ with hg
  have fst := fun i hi => first_says (pw := pw) G ρ (fun _ => none) i hi
  rw [← hg] at fst
  -- values of the names
  have hhv : ∀ m, ∃ x : K, m < s.nHelpers → valueOf pw (named g fun _ => none) (H m) = some (.num x) := by
    intro m
    by_cases hm : m < s.nHelpers
    · obtain ⟨i, hi, e, hsc⟩ := S.helper m hm
      have := (fst i hi).value
      rw [hsc] at this
      exact ⟨_, fun _ => by rw [e]; exact this⟩
    · exact ⟨0, fun h => absurd h hm⟩
  choose hx hhx using hhv
  have hcv : ∀ m, ∃ A : SM K, m < s.nCommons → valueOf pw (named g fun _ => none) (C m) = some (.mat A) ∧ A.r = (s.commons m).rows ∧ A.c = (s.commons m).cols := by
    intro m
    by_cases hm : m < s.nCommons
    · obtain ⟨i, hi, e, hsc, hr, hc⟩ := S.common m hm
      have I := fst i hi
      have := I.value
      rw [hsc] at this
      exact ⟨_, fun _ => ⟨by rw [e]; exact this, by rw [hr]; exact I.r, by rw [hc]; exact I.c⟩⟩
    · exact ⟨.zero 0 0, fun h => absurd h hm⟩
  choose cA hcA using hcv
  -- declarations
  obtain ⟨v1, E1, a1, b1, c1⟩ := exec_range (pw := pw) (g := g) (.helper : Nat → Tok K) (fun a b h => by injection h) s.nHelpers
    (fun i => (s.helpers i).active) (fun i => ⟨.helper i, true, 1, 1, (s.helpers i).expression⟩) (fun _ => rfl) (fun m => .num (hx m)) (fun _ => none)
    (fun _ => rfl) (by
      intro k hk ha vars old rest
      obtain ⟨u1, u2⟩ := S.helpers k hk ha
      refine ⟨means_named H C (fun m => .num (hx m)) (fun m => .mat (cA m)) vars _ _ (by rw [u1]; exact hhx k hk) ?_, rfl⟩
      intro τ hτ hn
      obtain ⟨m, hm, ha', rfl⟩ := u2 τ hτ hn
      exact Or.inl ⟨m, rfl, hhx m (by omega), old m hm ha'⟩)
  obtain ⟨v2, E2, a2, b2, c2⟩ := exec_range (pw := pw) (g := g) (.common : Nat → Tok K) (fun a b h => by injection h) s.nCommons
    (fun i => (s.commons i).active) (fun i => ⟨.common i, false, (s.commons i).rows, (s.commons i).cols, (s.commons i).expression⟩) (fun _ => rfl)
    (fun m => .mat (cA m)) v1 (fun k => c1 _ (by simp)) (by
      intro k hk ha vars old rest
      obtain ⟨u1, u2⟩ := S.commons k hk ha
      obtain ⟨w1, w2, w3⟩ := hcA k hk
      refine ⟨means_named H C (fun m => .num (hx m)) (fun m => .mat (cA m)) vars _ _ (by rw [u1]; exact w1) ?_, rfl, w2, w3⟩
      intro τ hτ hn
      rcases u2 τ hτ hn with ⟨m, hm, ha', rfl⟩ | ⟨m, hm, ha', rfl⟩
      · exact Or.inl ⟨m, rfl, hhx m hm, by rw [rest _ (by simp)]; exact a1 m hm ha'⟩
      · exact Or.inr ⟨m, rfl, (hcA m (by omega)).1, old m hm ha'⟩)
  refine ⟨v2, Executes.append E1 E2, ?_⟩
  -- outputs
  have out : ∀ f ∈ finals, Stores pw g v2 ⟨f.2.rows == 1 && f.2.cols == 1, (s.lits f.1).text⟩ (f.2.ev pw ρ) := by
    intro f hff
    obtain ⟨hlt, same, kept⟩ := hf f hff
    obtain ⟨u1, u2⟩ := S.lits f.1 (List.mem_map.2 ⟨f, hff, rfl⟩)
    have I := (fst f.1 hlt).same (same.size kept) same.2.2
    rw [same.2.1] at I
    have M : Means pw g v2 .additive (s.lits f.1).text (asValue (firstTexts shown t f.1).isScalar (f.2.ev pw ρ)) := by
      refine means_named H C (fun m => .num (hx m)) (fun m => .mat (cA m)) v2 _ _ (by rw [u1]; exact I.value) ?_
      intro τ hτ hn
      rcases u2 τ hτ hn with ⟨m, hm, ha', rfl⟩ | ⟨m, hm, ha', rfl⟩
      · exact Or.inl ⟨m, rfl, hhx m hm, by rw [c2 _ (by simp)]; exact a1 m hm ha'⟩
      · exact Or.inr ⟨m, rfl, (hcA m hm).1, a2 m hm ha'⟩
    unfold Stores
    by_cases hsz : f.2.size = (1, 1)
    · have h1 : f.2.rows = 1 := congrArg Prod.fst hsz
      have h2 : f.2.cols = 1 := congrArg Prod.snd hsz
      rw [I.scalar.2 hsz] at M
      rw [if_pos (by simp [h1, h2])]
      exact ⟨M, (I.one (I.scalar.2 hsz)).2.2⟩
    · have hb : (firstTexts shown t f.1).isScalar = false := by
        rw [← Bool.not_eq_true]
        exact fun h => hsz (I.scalar.1 h)
      rw [hb] at M
      rw [if_neg (by simpa using fun h1 h2 => hsz (Prod.ext h1 h2))]
      exact M
  unfold program
  dsimp only
  clear E1 E2 hf S
  induction finals with
  | nil => exact .nil
  | cons f fs ih => exact .cons (out f (by simp)) (ih fun f hf => out f (by simp [hf]))

end Verif.Levi.Code
