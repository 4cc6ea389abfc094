import Verif.Spec.Labeller
/- Helper lemmas for the labelled vector. -/
namespace Verif.Labeller
open Spec

variable {K : Type}

/-- Ranges that a store occupies when laid out consecutively from offset `o`. -/
def ranges : Store K → Nat → List (String × Range)
  | [], _ => []
  | (k, v) :: rest, o => (k, { offset := o, size := v.length }) :: ranges rest (o + v.length)

@[simp] theorem flat_nil : flat ([] : Store K) = [] := rfl
@[simp] theorem flat_cons (p : String × List K) (s : Store K) : flat (p :: s) = p.2 ++ flat s := by
  simp [flat]
@[simp] theorem flat_append (s t : Store K) : flat (s ++ t) = flat s ++ flat t := by
  simp [flat]

theorem get_none_iff (s : Store K) (n : String) : lookupName s n = none ↔ n ∉ s.map (·.1) := by
  induction s with
  | nil => simp [lookupName]
  | cons p s ih =>
    obtain ⟨k, v⟩ := p
    by_cases h : k = n
    · simp [lookupName, h]
    · simp [lookupName, h, ih]
      intro _ h'; exact absurd h'.symm h

theorem get_split (s : Store K) (n : String) (v : List K) (h : lookupName s n = some v) :
    ∃ a b, s = a ++ (n, v) :: b ∧ n ∉ a.map (·.1) := by
  induction s with
  | nil => simp [lookupName] at h
  | cons p s ih =>
    obtain ⟨k, w⟩ := p
    by_cases hk : k = n
    · simp [lookupName, hk] at h
      exact ⟨[], s, by simp [hk, h], by simp⟩
    · simp [lookupName, hk] at h
      obtain ⟨a, b, e, hn⟩ := ih h
      refine ⟨(k, w) :: a, b, by simp [e], ?_⟩
      simp only [List.map_cons, List.mem_cons, not_or]
      exact ⟨fun e => hk e.symm, hn⟩

theorem get_of_split (a b : Store K) (n : String) (v : List K) (hn : n ∉ a.map (·.1)) :
    lookupName (a ++ (n, v) :: b) n = some v := by
  induction a with
  | nil => simp [lookupName]
  | cons p a ih =>
    obtain ⟨k, w⟩ := p
    simp only [List.map_cons, List.mem_cons, not_or] at hn
    have hk : ¬ k = n := fun e => hn.1 e.symm
    simp [lookupName, hk, ih hn.2]

theorem find_ranges_split (a b : Store K) (n : String) (v : List K) (o : Nat) (hn : n ∉ a.map (·.1)) :
    find (ranges (a ++ (n, v) :: b) o) n = some { offset := o + (flat a).length, size := v.length } := by
  induction a generalizing o with
  | nil => simp [ranges, find]
  | cons p a ih =>
    obtain ⟨k, w⟩ := p
    simp only [List.map_cons, List.mem_cons, not_or] at hn
    simp only [List.cons_append, ranges, find]
    rw [if_neg (fun e => hn.1 (Eq.symm e)), ih _ hn.2]
    simp [Nat.add_assoc]

theorem find_ranges_none (s : Store K) (n : String) (o : Nat) :
    find (ranges s o) n = none ↔ lookupName s n = none := by
  induction s generalizing o with
  | nil => simp [ranges, find, lookupName]
  | cons p s ih =>
    obtain ⟨k, v⟩ := p
    by_cases h : k = n
    · simp [ranges, find, lookupName, h]
    · simp [ranges, find, lookupName, h, ih]

theorem ranges_append (s t : Store K) (o : Nat) :
    ranges (s ++ t) o = ranges s o ++ ranges t (o + (flat s).length) := by
  induction s generalizing o with
  | nil => simp [ranges]
  | cons p s ih =>
    obtain ⟨k, v⟩ := p
    simp [ranges, ih, Nat.add_assoc]

/-- Ranges only depend on names and lengths. -/
theorem ranges_congr (s t : Store K) (o : Nat)
    (h : s.map (fun p => (p.1, p.2.length)) = t.map (fun p => (p.1, p.2.length))) :
    ranges s o = ranges t o := by
  induction s generalizing t o with
  | nil => cases t with
    | nil => rfl
    | cons => simp at h
  | cons p s ih => cases t with
    | nil => simp at h
    | cons q t =>
      simp only [List.map_cons, List.cons.injEq, Prod.mk.injEq] at h
      obtain ⟨⟨h1, h2⟩, h3⟩ := h
      obtain ⟨k, v⟩ := p
      obtain ⟨k', v'⟩ := q
      simp only at h1 h2
      simp [ranges, h1, h2, ih t _ h3]

theorem distribute_shape (s : Store K) (x : List K) (h : x.length = (flat s).length) :
    (distribute s x).map (fun p => (p.1, p.2.length)) = s.map (fun p => (p.1, p.2.length)) := by
  induction s generalizing x with
  | nil => rfl
  | cons p s ih =>
    obtain ⟨k, v⟩ := p
    simp at h
    simp only [distribute, List.map_cons]
    rw [ih (x.drop v.length) (by simp [h])]
    simp [h]

theorem distribute_flat (s : Store K) (x : List K) (h : x.length = (flat s).length) :
    flat (distribute s x) = x := by
  induction s generalizing x with
  | nil => simp at h; simp [distribute, h]
  | cons p s ih =>
    obtain ⟨k, v⟩ := p
    simp at h
    simp only [distribute, flat_cons]
    rw [ih _ (by simp [h]), List.take_append_drop]

theorem put_split (a b : Store K) (n : String) (v x : List K) (hn : n ∉ a.map (·.1)) :
    put (a ++ (n, v) :: b) n x = a ++ (n, x) :: b := by
  induction a with
  | nil => simp [put]
  | cons p a ih =>
    obtain ⟨k, w⟩ := p
    simp only [List.map_cons, List.mem_cons, not_or] at hn
    have hk : ¬ k = n := fun e => hn.1 e.symm
    simp [put, hk, ih hn.2]

theorem get_put_ne (s : Store K) (n m : String) (x : List K) (h : m ≠ n) :
    lookupName (put s n x) m = lookupName s m := by
  induction s with
  | nil => rfl
  | cons p s ih =>
    obtain ⟨k, w⟩ := p
    by_cases hk : k = n
    · subst hk
      have hm : ¬ k = m := fun e => h e.symm
      simp [put, lookupName, hm]
    · simp only [put, if_neg hk, lookupName, ih]

/-- The relation between the C++ data and the named vectors. -/
structure Rel (s : Labeller K) (σ : Store K) : Prop where
  full : s.full = flat σ
  labels : s.labels = σ.map (·.1)
  map : s.map = ranges σ 0
  nodup : (σ.map (·.1)).Nodup

theorem rel_init : Rel (init K) [] := ⟨rfl, rfl, rfl, List.nodup_nil⟩

theorem names_of_shape {s t : Store K}
    (h : s.map (fun p => (p.1, p.2.length)) = t.map (fun p => (p.1, p.2.length))) :
    s.map (·.1) = t.map (·.1) := by
  have := congrArg (List.map Prod.fst) h
  simpa [List.map_map, Function.comp_def] using this

theorem flat_length_of_shape {s t : Store K}
    (h : s.map (fun p => (p.1, p.2.length)) = t.map (fun p => (p.1, p.2.length))) :
    (flat s).length = (flat t).length := by
  have := congrArg (List.map Prod.snd) h
  simp only [List.map_map, Function.comp_def] at this
  simp [flat, List.length_flatten, List.map_map, Function.comp_def, this]

theorem rel_of_shape {s : Labeller K} {σ τ : Store K} (r : Rel s σ) (x : List K)
    (h : τ.map (fun p => (p.1, p.2.length)) = σ.map (fun p => (p.1, p.2.length)))
    (hx : x = flat τ) : Rel { s with full := x } τ :=
  ⟨hx, by rw [names_of_shape h]; exact r.labels, by rw [ranges_congr _ _ _ h]; exact r.map,
   by rw [names_of_shape h]; exact r.nodup⟩

theorem slice_mid (a v b : List K) : slice (a ++ (v ++ b)) { offset := a.length, size := v.length } = v := by
  simp [slice]

theorem overwrite_mid (a v b x : List K) (h : x.length = v.length) :
    overwrite (a ++ (v ++ b)) a.length x = a ++ (x ++ b) := by
  simp [overwrite, h]

theorem rel_read {s : Labeller K} {σ : Store K} (r : Rel s σ) (n : String) :
    read s n = (lookupName σ n).getD [] := by
  unfold read
  rw [r.map, r.full]
  cases hg : lookupName σ n with
  | none => rw [(find_ranges_none σ n 0).2 hg]; simp [slice]
  | some v =>
    obtain ⟨a, b, e, hn⟩ := get_split σ n v hg
    subst e
    rw [find_ranges_split a b n v 0 hn]
    simp [slice_mid]

/-- One call on the C++ object matches the same call on the named vectors. -/
theorem rel_step [Zero K] {s : Labeller K} {σ : Store K} (r : Rel s σ) (op : Op K) :
    (Spec.step σ op = none ∧ step s op = none) ∨
    ∃ s' σ', step s op = some s' ∧ Spec.step σ op = some σ' ∧ Rel s' σ' := by
  cases op with
  | add n d =>
    right
    cases hg : lookupName σ n with
    | none =>
      have hf := (find_ranges_none σ n 0).2 hg
      refine ⟨_, σ ++ [(n, List.replicate d 0)], rfl, by simp [Spec.step, hg], ?_⟩
      simp only [add, r.map, hf]
      refine ⟨by simp [r.full], by simp [r.labels], ?_, ?_⟩
      · simp [ranges_append, ranges, r.full]
      · have := (get_none_iff σ n).1 hg
        rw [List.map_append, List.nodup_append]
        refine ⟨r.nodup, by simp, ?_⟩
        intro x hx y hy
        simp at hy
        subst hy
        intro e; subst e; exact this hx
    | some v =>
      have hf : find s.map n ≠ none := by
        rw [r.map]; intro h; rw [(find_ranges_none σ n 0).1 h] at hg; cases hg
      obtain ⟨w, hw⟩ := Option.ne_none_iff_exists'.1 hf
      refine ⟨s, σ, ?_, by simp [Spec.step, hg], r⟩
      simp [step, add, hw]
  | zero =>
    right
    refine ⟨_, _, rfl, rfl, ?_⟩
    refine rel_of_shape r _ ?_ ?_
    · simp
    · rw [r.full]
      clear r
      induction σ with
      | nil => rfl
      | cons p σ ih => simp [ih, ← List.replicate_append_replicate]
  | write n x =>
    cases hg : lookupName σ n with
    | none =>
      have hf := (find_ranges_none σ n 0).2 hg
      by_cases hx : x.length = 0
      · right
        have : x = [] := List.eq_nil_of_length_eq_zero hx
        refine ⟨s, σ, ?_, by simp [Spec.step, hg, hx], r⟩
        simp only [step, write, r.map, hf, this, overwrite]; simp [← r.map]
      · left
        simp [Spec.step, hg, step, write, r.map, hf]
        intro e; apply hx; simp [e]
    | some v =>
      obtain ⟨a, b, e, hn⟩ := get_split σ n v hg
      subst e
      have hf := find_ranges_split a b n v 0 hn
      by_cases hx : x.length = v.length
      · right
        refine ⟨{ s with full := flat (a ++ (n, x) :: b) }, a ++ (n, x) :: b, ?_, ?_, ?_⟩
        · simp only [step, write, r.map, hf, Option.getD_some, hx, if_true, r.full]
          congr 2
          simp [overwrite_mid _ _ _ _ hx]
        · simp [Spec.step, hg, hx, put_split a b n v x hn]
        · exact rel_of_shape r _ (by simp [hx]) rfl
      · left
        simp [Spec.step, hg, step, write, r.map, hf, hx]
  | writeAt i x =>
    by_cases hi : i < (flat σ).length
    · right
      refine ⟨_, _, by simp [step, writeAt, r.full, hi]; rfl, by simp only [Spec.step, hi, if_true]; rfl, ?_⟩
      refine rel_of_shape r _ (distribute_shape _ _ (by simp)) ?_
      rw [distribute_flat _ _ (by simp)]
    · left
      simp [Spec.step, step, writeAt, r.full, hi]
  | assign v =>
    by_cases hv : v.length = (flat σ).length
    · right
      refine ⟨_, _, by simp [step, assign, r.full, hv]; rfl, by simp only [Spec.step, hv, if_true]; rfl, ?_⟩
      exact rel_of_shape r _ (distribute_shape _ _ hv) (distribute_flat _ _ hv).symm
    · left
      simp [Spec.step, step, assign, r.full, hv]
  | clear =>
    right
    exact ⟨_, _, rfl, rfl, rel_init⟩

theorem rel_run [Zero K] {s : Labeller K} {σ : Store K} (r : Rel s σ) (ops : List (Op K)) :
    (Spec.run σ ops = none ∧ run s ops = none) ∨
    ∃ s' σ', run s ops = some s' ∧ Spec.run σ ops = some σ' ∧ Rel s' σ' := by
  induction ops generalizing s σ with
  | nil => exact Or.inr ⟨s, σ, rfl, rfl, r⟩
  | cons op ops ih =>
    rcases rel_step r op with ⟨h1, h2⟩ | ⟨s', σ', h1, h2, r'⟩
    · left; simp [Spec.run, run, h1, h2]
    · simp only [Spec.run, run, h1, h2]; exact ih r'

theorem rel_reachable [Zero K] {ops : List (Op K)} {s : Labeller K} (h : run (init K) ops = some s) :
    ∃ σ, Spec.run [] ops = some σ ∧ Rel s σ := by
  rcases rel_run (rel_init (K := K)) ops with ⟨_, h2⟩ | ⟨s', σ', h1, h2, r'⟩
  · rw [h2] at h; cases h
  · rw [h1] at h; cases h; exact ⟨σ', h2, r'⟩

/-- Every position of the concatenation lies in exactly one block. -/
theorem ranges_cover (σ : Store K) (o i : Nat) (h1 : o ≤ i) (h2 : i < o + (flat σ).length) :
    ∃ n r, (n, r) ∈ ranges σ o ∧ r.offset ≤ i ∧ i < r.offset + r.size := by
  induction σ generalizing o with
  | nil => simp at h2; omega
  | cons p σ ih =>
    obtain ⟨k, v⟩ := p
    by_cases h : i < o + v.length
    · exact ⟨k, _, by simp [ranges]; exact Or.inl rfl, h1, h⟩
    · simp at h2
      obtain ⟨n, r, hm, hr⟩ := ih (o + v.length) (by omega) (by omega)
      exact ⟨n, r, by simp [ranges, hm], hr⟩

theorem ranges_bounds (σ : Store K) (o : Nat) {n : String} {r : Range} (h : (n, r) ∈ ranges σ o) :
    o ≤ r.offset ∧ r.offset + r.size ≤ o + (flat σ).length := by
  induction σ generalizing o with
  | nil => simp [ranges] at h
  | cons p σ ih =>
    obtain ⟨k, v⟩ := p
    simp only [ranges, List.mem_cons, Prod.mk.injEq] at h
    rcases h with ⟨_, rfl⟩ | h
    · simp
    · have := ih _ h
      simp; omega

theorem find_mem {m : List (String × Range)} {n : String} {r : Range} (h : find m n = some r) : (n, r) ∈ m := by
  induction m with
  | nil => simp [find] at h
  | cons p m ih =>
    obtain ⟨k, q⟩ := p
    by_cases hk : k = n
    · simp [find, hk] at h; simp [hk, h]
    · simp [find, hk] at h; simp [ih h]

theorem ranges_names (σ : Store K) (o : Nat) : (ranges σ o).map (·.1) = σ.map (·.1) := by
  induction σ generalizing o with
  | nil => rfl
  | cons p σ ih => simp [ranges, ih]

theorem mem_find {m : List (String × Range)} (hd : (m.map (·.1)).Nodup) {n : String} {r : Range}
    (h : (n, r) ∈ m) : find m n = some r := by
  induction m with
  | nil => simp at h
  | cons p m ih =>
    obtain ⟨k, q⟩ := p
    simp only [List.map_cons, List.nodup_cons] at hd
    simp only [List.mem_cons, Prod.mk.injEq] at h
    rcases h with ⟨rfl, rfl⟩ | h
    · simp [find]
    · have hk : k ≠ n := by
        intro e; subst e
        exact hd.1 (List.mem_map.2 ⟨_, h, rfl⟩)
      simp [find, hk, ih hd.2 h]

theorem ranges_disjoint (σ : Store K) (o : Nat) (hd : (σ.map (·.1)).Nodup) {n m : String} {r q : Range}
    (h1 : (n, r) ∈ ranges σ o) (h2 : (m, q) ∈ ranges σ o) (hne : n ≠ m) :
    r.offset + r.size ≤ q.offset ∨ q.offset + q.size ≤ r.offset := by
  induction σ generalizing o with
  | nil => simp [ranges] at h1
  | cons p σ ih =>
    obtain ⟨k, v⟩ := p
    simp only [List.map_cons, List.nodup_cons] at hd
    simp only [ranges, List.mem_cons, Prod.mk.injEq] at h1 h2
    rcases h1 with ⟨rfl, rfl⟩ | h1 <;> rcases h2 with ⟨rfl, rfl⟩ | h2
    · exact absurd rfl hne
    · left; have := ranges_bounds _ _ h2; simp; omega
    · right; have := ranges_bounds _ _ h1; simp; omega
    · exact ih _ hd.2 h1 h2

end Verif.Labeller
