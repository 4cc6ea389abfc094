import Verif.Lemmas.AsVariable
import Verif.Spec.AsVariable
/- How the values of the variables made from expressions move with a variable. -/
namespace Verif.Levi
open Ex Spec
namespace AsVariable
open DerivativeCache Chain
noncomputable section
variable {K : Type}

theorem any_false {n : Nat} {f : Nat → Bool} (h : ((List.range n).any f) = false) (i : Nat) (hi : i < n) : f i = false := by
  rw [List.any_eq_false] at h
  simpa using h i (List.mem_range.2 hi)

/-- The values of an expression depend on the values of the variables in it. -/
theorem ev_agree [Field K] {M : Ex K → Ex K → Prop} {P : Ex K → K → Prop} {e : Ex K} (hk : Formed M P e) (pw : K → K → K) {ρ σ : Env K} (h : ∀ w, e.dep w = true → ρ w = σ w) : e.ev pw ρ = e.ev pw σ := by
  have l : ∀ {p q : Bool}, p = true → (p || q) = true := by intro p q h; simp [h]
  have r : ∀ {p q : Bool}, q = true → (p || q) = true := by intro p q h; simp [h]
  have any : ∀ {n : Nat} {f : Nat → Bool} {i : Nat}, i < n → f i = true → (List.range n).any f = true :=
    fun hi hf => List.any_eq_true.2 ⟨_, List.mem_range.2 hi, hf⟩
  induction e with
  | const r c M => rfl
  | null r c => rfl
  | ident n => rfl
  | sparse r c l => rfl
  | var w => simp only [ev, h w (by simp [dep])]
  | add a b iha ihb => simp only [ev, iha hk.1 fun w hw => h w (l hw), ihb hk.2.1 fun w hw => h w (r hw)]
  | sub a b iha ihb => simp only [ev, iha hk.1 fun w hw => h w (l hw), ihb hk.2.1 fun w hw => h w (r hw)]
  | mul a b iha ihb => simp only [ev, iha hk.1 fun w hw => h w (l hw), ihb hk.2.1 fun w hw => h w (r hw)]
  | div a b iha ihb => simp only [ev, iha hk.1 fun w hw => h w (l hw), ihb hk.2.1 fun w hw => h w (r hw)]
  | hcat a b iha ihb => simp only [ev, iha hk.1 fun w hw => h w (l hw), ihb hk.2.1 fun w hw => h w (r hw)]
  | vcat a b iha ihb => simp only [ev, iha hk.1 fun w hw => h w (l hw), ihb hk.2.1 fun w hw => h w (r hw)]
  | neg a iha => simp only [ev, iha hk h]
  | pow a e iha => simp only [ev, iha hk.1 h]
  | skew a iha => simp only [ev, iha hk.1 h]
  | transpose a iha => simp only [ev, iha hk h]
  | vee a iha => simp only [ev, iha hk.1 h]
  | row a i iha => simp only [ev, iha hk.1 h]
  | col a i iha => simp only [ev, iha hk.1 h]
  | elem a i k iha => simp only [ev, iha hk.1 h]
  | block a i k r c iha => simp only [ev, iha hk.1 h]
  | byRows n f ihf =>
    have g : ∀ i, i < n → (f i).ev pw ρ = (f i).ev pw σ := fun i hi => ihf i (hk.2 i hi).1 fun w hw => h w (any (f := fun i => (f i).dep w) hi hw)
    simp only [ev, g 0 hk.1]
    exact SM.of_congr rfl rfl fun i j hi _ => by rw [g i hi]
  | byCols n f ihf =>
    have g : ∀ i, i < n → (f i).ev pw ρ = (f i).ev pw σ := fun i hi => ihf i (hk.2 i hi).1 fun w hw => h w (any (f := fun i => (f i).dep w) hi hw)
    simp only [ev, g 0 hk.1]
    exact SM.of_congr rfl rfl fun j i _ hi => by rw [g i hi]
  | mpd n ds x ihd ihx =>
    have g : ∀ i, i < n → (ds i).ev pw ρ = (ds i).ev pw σ := fun i hi => ihd i (hk.2.1 i hi).1 fun w hw => h w (r (any (f := fun i => (ds i).dep w) hi hw))
    simp only [ev, g 0 hk.1, ihx hk.2.2.1 fun w hw => h w (l hw)]
    exact SM.of_congr rfl rfl fun i j _ _ => Finset.sum_congr rfl fun k hk' => by rw [g k (Finset.mem_range.1 hk')]

theorem mentions_iff {p : Var → Bool} {e : Ex K} : mentions p e = true ↔ ∃ w, e.dep w = true ∧ p w = true := by
  induction e with
  | const r c M => simp [mentions, dep]
  | null r c => simp [mentions, dep]
  | ident n => simp [mentions, dep]
  | sparse r c l => simp [mentions, dep]
  | var w => simp [mentions, dep]
  | add a b iha ihb => simp only [mentions, dep, Bool.or_eq_true, iha, ihb, or_and_right, exists_or]
  | sub a b iha ihb => simp only [mentions, dep, Bool.or_eq_true, iha, ihb, or_and_right, exists_or]
  | mul a b iha ihb => simp only [mentions, dep, Bool.or_eq_true, iha, ihb, or_and_right, exists_or]
  | div a b iha ihb => simp only [mentions, dep, Bool.or_eq_true, iha, ihb, or_and_right, exists_or]
  | hcat a b iha ihb => simp only [mentions, dep, Bool.or_eq_true, iha, ihb, or_and_right, exists_or]
  | vcat a b iha ihb => simp only [mentions, dep, Bool.or_eq_true, iha, ihb, or_and_right, exists_or]
  | neg a iha => simpa only [mentions, dep] using iha
  | pow a e iha => simpa only [mentions, dep] using iha
  | skew a iha => simpa only [mentions, dep] using iha
  | transpose a iha => simpa only [mentions, dep] using iha
  | vee a iha => simpa only [mentions, dep] using iha
  | row a i iha => simpa only [mentions, dep] using iha
  | col a i iha => simpa only [mentions, dep] using iha
  | elem a i k iha => simpa only [mentions, dep] using iha
  | block a i k r c iha => simpa only [mentions, dep] using iha
  | byRows n f ihf =>
    simp only [mentions, dep, List.any_eq_true, List.mem_range, ihf]
    exact ⟨fun ⟨i, hi, w, a, b⟩ => ⟨w, ⟨i, hi, a⟩, b⟩, fun ⟨w, ⟨i, hi, a⟩, b⟩ => ⟨i, hi, w, a, b⟩⟩
  | byCols n f ihf =>
    simp only [mentions, dep, List.any_eq_true, List.mem_range, ihf]
    exact ⟨fun ⟨i, hi, w, a, b⟩ => ⟨w, ⟨i, hi, a⟩, b⟩, fun ⟨w, ⟨i, hi, a⟩, b⟩ => ⟨i, hi, w, a, b⟩⟩
  | mpd n ds x ihd ihx =>
    simp only [mentions, dep, Bool.or_eq_true, List.any_eq_true, List.mem_range, ihd, ihx, or_and_right, exists_or]
    exact or_congr Iff.rfl ⟨fun ⟨i, hi, w, a, b⟩ => ⟨w, ⟨i, hi, a⟩, b⟩, fun ⟨w, ⟨i, hi, a⟩, b⟩ => ⟨i, hi, w, a, b⟩⟩

theorem not_mentions {p : Var → Bool} {e : Ex K} (h : mentions p e = false) {w : Var} (hw : e.dep w = true) : p w = false := by
  by_contra h1
  rw [Bool.not_eq_false] at h1
  rw [mentions_iff.2 ⟨w, hw, h1⟩] at h
  cases h

variable {σ : Env ℝ}

theorem ordered_tail {d : Def ℝ} {l : List (Def ℝ)} (h : Ordered σ (d :: l)) : Ordered σ l := h.2.2.2.2

theorem ordered_suffix {pre l : List (Def ℝ)} (h : Ordered σ (pre ++ l)) : Ordered σ l := by
  induction pre with
  | nil => exact h
  | cons d pre ih => exact ih (ordered_tail h)

theorem ordered_newer {pre l : List (Def ℝ)} (h : Ordered σ (pre ++ l)) {n o : Def ℝ} (hn : n ∈ pre) (ho : o ∈ l) : o.var ≠ n.var ∧ o.expr.dep n.var = false := by
  induction pre with
  | nil => cases hn
  | cons d pre ih =>
    rcases List.mem_cons.1 hn with rfl | hn
    · exact h.2.2.2.1 o (List.mem_append.2 (.inr ho))
    · exact ih (ordered_tail h) hn

theorem ordered_unique {l : List (Def ℝ)} (h : Ordered σ l) {a b : Def ℝ} (ha : a ∈ l) (hb : b ∈ l) (hv : a.var = b.var) : a = b := by
  induction l with
  | nil => cases ha
  | cons d l ih =>
    rcases List.mem_cons.1 ha with ea | ha <;> rcases List.mem_cons.1 hb with eb | hb
    · rw [ea, eb]
    · exact absurd (hv.symm.trans (by rw [ea])) (h.2.2.2.1 b hb).1
    · exact absurd (hv.trans (by rw [eb])) (h.2.2.2.1 a ha).1
    · exact ih (ordered_tail h) ha hb

theorem ordered_kept {l : List (Def ℝ)} (h : Ordered σ l) {d : Def ℝ} (hd : d ∈ l) : Kept (PowOk σ) d.expr ∧ d.expr.size = (d.var.dim, 1) := by
  induction l with
  | nil => cases hd
  | cons a l ih =>
    rcases List.mem_cons.1 hd with rfl | hd
    · exact ⟨h.1, h.2.1⟩
    · exact ih (ordered_tail h) hd

/-- The expression of a variable contains older variables only. -/
theorem ordered_older {pre l : List (Def ℝ)} {d : Def ℝ} (h : Ordered σ (pre ++ d :: l)) {w : Var} (hw : d.expr.dep w = true) : ∀ n ∈ pre ++ [d], n.var ≠ w := by
  intro n hn e
  subst e
  rcases List.mem_append.1 hn with hn | hn
  · rw [(ordered_newer h hn List.mem_cons_self).2] at hw; cases hw
  · rw [List.mem_singleton] at hn
    subst hn
    rw [(ordered_suffix h).2.2.1] at hw; cases hw

/-- The variables that do not depend on `v` do not move; none has moved at the start. -/
theorem stays {v : Var} {j : Nat} {γ : ℝ → Env ℝ} {t : ℝ} {defs : List (Def ℝ)} (o : Ordered σ defs) (ag : Agrees defs σ) (m : Moves defs v j σ γ) : ∀ (l pre : List (Def ℝ)), defs = pre ++ l → ∀ w, (∀ n ∈ pre, n.var ≠ w) →
    varDepends v l w = false ∨ t = σ v j → γ t w = σ w := by
  have self : ∀ w, w = v → t = σ v j → γ t w = σ w := by
    intro w hw ht
    subst hw
    funext k
    rw [m.moved]
    split_ifs with hk
    · rw [hk, ht]
    · rfl
  intro l
  induction l with
  | nil =>
    intro pre hp w hw h
    by_cases hv : w = v
    · rcases h with h | h
      · simp [varDepends, hv] at h
      · exact self w hv h
    · refine m.stay t w hv fun d hd _ => hw d ?_
      rwa [hp, List.append_nil] at hd
  | cons d l ih =>
    intro pre hp w hw h
    have hd : d ∈ defs := by rw [hp]; simp
    by_cases hv : w = v
    · rcases h with h | h
      · exfalso
        have : ∀ l : List (Def ℝ), varDepends v l v = true := by
          intro l
          induction l with
          | nil => simp [varDepends]
          | cons a l ih =>
            rw [varDepends]
            split_ifs
            · simp
            · exact ih
        rw [hv, this] at h
        cases h
      · exact self w hv h
    · by_cases e : w = d.var
      · by_cases dp : d.dependent = true
        · rw [e, m.follow t d hd dp (by rw [← e]; exact hv), ag d hd dp]
          funext k
          rw [ev_agree (ordered_kept o hd).1 rpow fun u hu => ?_]
          refine ih (pre ++ [d]) (by rw [hp, List.append_assoc]; rfl) u ?_ ?_
          · rw [hp] at o
            exact ordered_older o hu
          · refine h.imp_left fun h => ?_
            rw [varDepends, if_pos e, dp] at h
            simp only [Bool.true_and, Bool.or_eq_false_iff] at h
            exact not_mentions h.2 hu
        · refine m.stay t w hv fun a ha ad e' => dp ?_
          rw [← ordered_unique o ha hd (e'.trans e)]
          exact ad
      · refine ih (pre ++ [d]) (by rw [hp, List.append_assoc]; rfl) w ?_ ?_
        · intro n hn
          rcases List.mem_append.1 hn with hn | hn
          · exact hw n hn
          · rw [List.mem_singleton] at hn
            rw [hn]
            exact fun h => e h.symm
        · refine h.imp_left fun h => ?_
          rwa [varDepends, if_neg e] at h

/-- The motion. -/
def motion {v : Var} {defs : List (Def ℝ)} (o : Ordered σ defs) (ag : Agrees defs σ) (γ : Nat → ℝ → Env ℝ) (m : ∀ j, Moves defs v j σ (γ j)) : Motion v where
  env := σ
  path := γ
  time j := σ v j
  start j := funext fun w => stays o ag (m j) defs [] rfl w (by simp) (.inr rfl)
  dep := depends defs v
  still e he hd j t := ev_agree he rpow fun w hw => stays o ag (m j) defs [] rfl w (by simp) (.inl (not_mentions hd hw))

/-- All the results of an optional one. -/
def ofOption {α : Type} (x : Option α) : Any α := fun a => x = some a

theorem bind_ofOption {α β : Type} {x : Option α} {f : α → Option β} {b : β} (h : (x >>= f) = some b) : (ofOption x >>= fun a => ofOption (f a)) b := by
  cases x with
  | none => cases h
  | some a => exact ⟨a, rfl, h⟩

/-- From a partial function to the relation. -/
def toAny : MonadRel Option Any where
  rel x y := ∀ a, x = some a → y a
  pure a b h := by cases h; rfl
  bind x y f g hx hf b h := by
    cases x with
    | none => cases h
    | some a => exact ⟨a, hx a rfl, hf a b h⟩

theorem newDerivative_rel {K : Type} [Field K] [LinearOrder K] {m m' : Type → Type} [Monad m] [Monad m'] (R : MonadRel m m') (cfg : Cfg K) (v : Var) (dp : Ex K → Bool) (g : Var → m (Ex K)) (g' : Var → m' (Ex K)) (f : Ex K → Nat → m (Ex K)) (f' : Ex K → Nat → m' (Ex K))
    (hg : ∀ w, R.rel (g w) (g' w)) (h : ∀ x k, R.rel (f x k) (f' x k)) (e : Ex K) (c : Nat) : R.rel (newDerivative cfg v dp g f e c) (newDerivative cfg v dp g' f' e c) := by
  cases e <;> simp only [newDerivative] <;> (try split_ifs) <;> first
    | exact hg _
    | exact R.pure _
    | exact h _ _
    | exact R.bind _ _ _ _ (h _ _) fun _ => R.pure _
    | exact R.bind _ _ _ _ (h _ _) fun _ => R.bind _ _ _ _ (h _ _) fun _ => R.pure _
    | exact R.bind _ _ _ _ (collectM_rel R _ _ _ fun _ => h _ _) fun _ => R.pure _
    | exact R.bind _ _ _ _ (h _ _) fun _ => R.bind _ _ _ _ (collectM_rel R _ _ _ fun _ => h _ _) fun _ => R.pure _

end
end AsVariable
end Verif.Levi
