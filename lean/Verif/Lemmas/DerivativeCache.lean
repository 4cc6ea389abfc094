import Verif.Model.DerivativeCache
/- The computation with the caches follows the one without. -/
namespace Verif.Levi
open Ex
namespace DerivativeCache
noncomputable section
variable {K : Type} [Field K] [LinearOrder K]

theorem collectM_option (n : Nat) (f : Nat → Option (Ex K)) : collectM n f = collect n f := by
  induction n with
  | zero => simp [collectM, collect]
  | succ n ih =>
    rw [collectM, ih]
    unfold collect
    by_cases h : ((List.range n).all fun i => (f i).isSome) = true
    · rw [if_pos h]
      cases hn : f n with
      | none =>
        rw [if_neg]
        · rfl
        · rw [List.range_succ, List.all_append]
          simp [hn]
      | some x =>
        rw [if_pos]
        · simp only [Option.pure_def, Option.bind_eq_bind, Option.bind_some, Option.some.injEq]
          funext i
          by_cases hi : i = n
          · subst hi
            simp [hn]
          · have : i < n + 1 ↔ i < n := by omega
            simp only [hi, if_false, this]
        · rw [List.range_succ, List.all_append, h]
          simp [hn]
    · rw [if_neg h, if_neg]
      · rfl
      · rw [List.range_succ, List.all_append]
        simp [h]

/-- `D` is the recursion without caches. -/
theorem D_eq (cfg : Cfg K) (n : Nat) (e : Ex K) (c : Nat) (v : Var) :
    D cfg (n + 1) e c v = if e.dep v then newColumnDerivative cfg v (fun x k => D cfg n x k v) e c else some (null e.rows v.dim) := by
  conv_lhs => unfold D
  by_cases h : e.dep v
  · simp only [h, Bool.not_true, Bool.false_eq_true, if_false, if_true]
    cases e with
    | vee a =>
      simp only [newColumnDerivative, newDerivative, collectM_option]
      congr 2
      funext k
      match k with
      | 0 => rfl
      | 1 => rfl
      | _ + 2 => rfl
    | var w => rfl
    | _ => simp only [newColumnDerivative, newDerivative, collectM_option, Option.pure_def]
  · simp [h]

/-- A relation between computations in two monads, preserved by `pure` and `bind`. -/
structure MonadRel (m m' : Type → Type) [Monad m] [Monad m'] where
  rel : ∀ {α : Type}, m α → m' α → Prop
  pure : ∀ {α : Type} (a : α), rel (pure a : m α) (pure a : m' α)
  bind : ∀ {α β : Type} (x : m α) (y : m' α) (f : α → m β) (g : α → m' β), rel x y → (∀ a, rel (f a) (g a)) → rel (x >>= f) (y >>= g)

theorem collectM_rel {m m' : Type → Type} [Monad m] [Monad m'] (R : MonadRel m m') (n : Nat) (f : Nat → m (Ex K)) (f' : Nat → m' (Ex K)) (h : ∀ k, R.rel (f k) (f' k)) :
    R.rel (collectM n f) (collectM n f') := by
  induction n with
  | zero => exact R.pure _
  | succ n ih => exact R.bind _ _ _ _ ih fun g => R.bind _ _ _ _ (h n) fun x => R.pure _

/-- What a node does with the answers does not depend on how they are computed. -/
theorem newColumnDerivative_rel {m m' : Type → Type} [Monad m] [Monad m'] (R : MonadRel m m') (cfg : Cfg K) (v : Var) (f : Ex K → Nat → m (Ex K)) (f' : Ex K → Nat → m' (Ex K))
    (h : ∀ x k, R.rel (f x k) (f' x k)) (e : Ex K) (c : Nat) : R.rel (newColumnDerivative cfg v f e c) (newColumnDerivative cfg v f' e c) := by
  cases e <;> simp only [newColumnDerivative, newDerivative] <;> (try split_ifs) <;> first
    | exact R.pure _
    | exact h _ _
    | exact R.bind _ _ _ _ (h _ _) fun _ => R.pure _
    | exact R.bind _ _ _ _ (h _ _) fun _ => R.bind _ _ _ _ (h _ _) fun _ => R.pure _
    | exact R.bind _ _ _ _ (collectM_rel R _ _ _ fun _ => h _ _) fun _ => R.pure _
    | exact R.bind _ _ _ _ (h _ _) fun _ => R.bind _ _ _ _ (collectM_rel R _ _ _ fun _ => h _ _) fun _ => R.pure _

/-- More results. -/
def more : MonadRel Option Option where
  rel x y := ∀ a, x = some a → y = some a
  pure a b h := h
  bind x y f g hx hf b h := by
    cases x with
    | none => cases h
    | some a =>
      rw [hx a rfl]
      exact hf a b h

theorem D_succ (cfg : Cfg K) (v : Var) : ∀ (n : Nat) (e : Ex K) (c : Nat) (d : Ex K), D cfg n e c v = some d → D cfg (n + 1) e c v = some d := by
  intro n
  induction n with
  | zero => intro e c d h; cases h
  | succ n ih =>
    intro e c d h
    rw [D_eq] at h ⊢
    split_ifs at h ⊢ with hd
    · exact newColumnDerivative_rel more cfg v (fun x k => D cfg n x k v) (fun x k => D cfg (n + 1) x k v) (fun x k a => ih x k a) e c d h
    · exact h

theorem D_mono (cfg : Cfg K) (v : Var) {n n' : Nat} (hn : n ≤ n') {e : Ex K} {c : Nat} {d : Ex K} (h : D cfg n e c v = some d) : D cfg n' e c v = some d := by
  induction hn with
  | refl => exact h
  | step _ ih => exact D_succ cfg v _ e c d ih

/-- The derivative does not depend on the depth. -/
theorem D_unique (cfg : Cfg K) (v : Var) {n n' : Nat} {e : Ex K} {c : Nat} {d d' : Ex K} (h : D cfg n e c v = some d) (h' : D cfg n' e c v = some d') : d = d' := by
  have h1 := D_mono cfg v (le_max_left n n') h
  have h2 := D_mono cfg v (le_max_right n n') h'
  rw [h1] at h2
  exact Option.some.inj h2

/-- The variables in use: each name belongs to one variable. -/
def Consistent (vars : Set Var) : Prop := ∀ v ∈ vars, ∀ w ∈ vars, v.name = w.name → v = w

/-- Every entry is for one of the variables and is the derivative computed without caches. -/
def Inv (cfg : Cfg K) (vars : Set Var) (s : Store K) : Prop :=
  ∀ t ∈ s.entries, ∃ v ∈ vars, v.name = t.name ∧ ∃ n, D cfg n t.object t.column v = some t.derivative

/-- The computation with the caches has the same result. -/
def follows (cfg : Cfg K) (vars : Set Var) : MonadRel Option (Run K) where
  rel x y := ∀ a, x = some a → ∀ s, Inv cfg vars s → ∃ s', y s = some (a, s') ∧ Inv cfg vars s'
  pure a b h s hs := by
    cases h
    exact ⟨s, rfl, hs⟩
  bind x y f g hx hf b h s hs := by
    cases x with
    | none => cases h
    | some a =>
      obtain ⟨s1, h1, i1⟩ := hx a rfl s hs
      obtain ⟨s2, h2, i2⟩ := hf a b h s1 i1
      refine ⟨s2, ?_, i2⟩
      show (y s >>= fun p => g p.1 p.2) = _
      rw [h1]
      exact h2

/-- The object finds an entry. -/
theorem get_found (cfg : Nat → Cfg K) (seen : Nat → Option Nat) (n : Nat) (e : Ex K) (c : Nat) (v : Var) (s : Store K) (d : Ex K) (h : found seen s e c v = some d) :
    getColumnDerivative cfg seen (n + 1) e c v s = some (d, ⟨s.entries, s.calls + 1⟩) := by
  simp only [getColumnDerivative, bind, StateT.bind, get, getThe, MonadStateOf.get, StateT.get, set, StateT.set, pure, Option.bind, h]
  rfl

/-- The object computes and stores. -/
theorem get_run (cfg : Nat → Cfg K) (seen : Nat → Option Nat) (n : Nat) (e : Ex K) (c : Nat) (v : Var) (s : Store K) (h : found seen s e c v = none) :
    getColumnDerivative cfg seen (n + 1) e c v s =
      ((if e.dep v then newColumnDerivative (cfg s.calls) v (fun x k => getColumnDerivative cfg seen n x k v) e c else (pure (null e.rows v.dim) : Run K (Ex K))) ⟨s.entries, s.calls + 1⟩).bind
        fun p => some (p.1, ⟨p.2.entries ++ [⟨e, v.name, c, p.1⟩], p.2.calls⟩) := by
  conv_lhs => unfold getColumnDerivative
  simp only [bind, StateT.bind, get, getThe, MonadStateOf.get, StateT.get, set, StateT.set, pure, Option.bind, h]
  split_ifs <;> rfl

theorem get_new (cfg : Nat → Cfg K) (seen : Nat → Option Nat) (n : Nat) (e : Ex K) (c : Nat) (v : Var) (s s' : Store K) (d : Ex K) (h : found seen s e c v = none)
    (hd : (if e.dep v then newColumnDerivative (cfg s.calls) v (fun x k => getColumnDerivative cfg seen n x k v) e c else (pure (null e.rows v.dim) : Run K (Ex K))) ⟨s.entries, s.calls + 1⟩ = some (d, s')) :
    getColumnDerivative cfg seen (n + 1) e c v s = some (d, ⟨s'.entries ++ [⟨e, v.name, c, d⟩], s'.calls⟩) := by
  rw [get_run cfg seen n e c v s h, hd]
  rfl

theorem get_follows (cfg : Cfg K) (seen : Nat → Option Nat) {vars : Set Var} (hc : Consistent vars) {v : Var} (hv : v ∈ vars) : ∀ (n : Nat) (e : Ex K) (c : Nat),
    (follows cfg vars).rel (D cfg n e c v) (getColumnDerivative (fun _ => cfg) seen n e c v) := by
  intro n
  induction n with
  | zero => intro e c a h; cases h
  | succ n ih =>
    intro e c d h s hs
    have hs1 : Inv cfg vars (⟨s.entries, s.calls + 1⟩ : Store K) := hs
    cases hf : found seen s e c v with
    | some d' =>
      -- found: it is the same
      have : d' = d := by
        unfold found at hf
        split at hf
        · cases hf
        · split at hf
          · cases hf
          · rename_i i _ entry he
            split_ifs at hf with hm
            cases hf
            obtain ⟨w, hw, hname, k, hk⟩ := hs entry (List.mem_of_getElem? he)
            have : w = v := hc w hw v hv (hname.trans hm.2.1)
            subst this
            rw [hm.1, hm.2.2] at hk
            exact D_unique cfg w hk h
      subst this
      exact ⟨_, get_found (fun _ => cfg) seen n e c v s d' hf, hs1⟩
    | none =>
      have key : ∃ s', (if e.dep v then newColumnDerivative cfg v (fun x k => getColumnDerivative (fun _ => cfg) seen n x k v) e c else (pure (null e.rows v.dim) : Run K (Ex K)))
          ⟨s.entries, s.calls + 1⟩ = some (d, s') ∧ Inv cfg vars s' := by
        have h0 := h
        rw [D_eq] at h0
        split_ifs at h0 ⊢ with hd
        · exact newColumnDerivative_rel (follows cfg vars) cfg v (fun x k => D cfg n x k v) (fun x k => getColumnDerivative (fun _ => cfg) seen n x k v) (fun x k => ih x k) e c d h0 _ hs1
        · cases h0
          exact ⟨_, rfl, hs1⟩
      obtain ⟨s', h1, i1⟩ := key
      refine ⟨_, get_new (fun _ => cfg) seen n e c v s s' d hf h1, ?_⟩
      · intro t ht
        rcases List.mem_append.1 ht with ht | ht
        · exact i1 t ht
        · rw [List.mem_singleton] at ht
          subst ht
          exact ⟨v, hv, rfl, n + 1, h⟩

end
end DerivativeCache
end Verif.Levi
