import Verif.Lemmas.Labeller
/- Properties C01 and C02: labelled blocks of the optimisation vector. -/
namespace Verif.Labeller

variable {K : Type} [Zero K]

/-- C01 (exact tiling).  After any history of calls that did not abort: labels are listed once each; exactly the
listed labels have a range; ranges lie inside the vector; every position of the vector belongs to the range of
exactly one label (so ranges are disjoint and cover the vector). -/
theorem C01_ranges_tile (ops : List (Op K)) (s : Labeller K) (h : run (init K) ops = some s) :
    (listOfLabels s).Nodup
    ∧ numberOfLabels s = (listOfLabels s).length
    ∧ (∀ l, l ∈ listOfLabels s ↔ ∃ r, getIndexRange s l = some r)
    ∧ (∀ l r, getIndexRange s l = some r → r.offset + r.size ≤ size s)
    ∧ (∀ l l' r r', l ≠ l' → getIndexRange s l = some r → getIndexRange s l' = some r' →
        r.offset + r.size ≤ r'.offset ∨ r'.offset + r'.size ≤ r.offset)
    ∧ (∀ i, i < size s → ∃ l r, (getIndexRange s l = some r ∧ r.offset ≤ i ∧ i < r.offset + r.size)
        ∧ ∀ l' r', getIndexRange s l' = some r' → r'.offset ≤ i → i < r'.offset + r'.size → l' = l) := by
  obtain ⟨σ, _, R⟩ := rel_reachable h
  have hnd : (s.map.map (·.1)).Nodup := by rw [R.map, ranges_names]; exact R.nodup
  have hmem : ∀ {l r}, getIndexRange s l = some r ↔ (l, r) ∈ ranges σ 0 := by
    intro l r
    unfold getIndexRange
    constructor
    · intro h; have := find_mem h; rwa [R.map] at this
    · intro h; apply mem_find hnd; rwa [R.map]
  have hdisj : ∀ l l' r r', l ≠ l' → getIndexRange s l = some r → getIndexRange s l' = some r' →
        r.offset + r.size ≤ r'.offset ∨ r'.offset + r'.size ≤ r.offset := by
    intro l l' r r' hne h1 h2
    exact ranges_disjoint σ 0 R.nodup (hmem.1 h1) (hmem.1 h2) hne
  refine ⟨by rw [listOfLabels, R.labels]; exact R.nodup, ?_, ?_, ?_, hdisj, ?_⟩
  · rw [numberOfLabels, listOfLabels, R.labels, R.map, ← List.length_map (f := (·.1)), ranges_names]
  · intro l
    rw [listOfLabels, R.labels, ← ranges_names σ 0, List.mem_map]
    constructor
    · rintro ⟨⟨n, r⟩, hm, rfl⟩; exact ⟨r, hmem.2 hm⟩
    · rintro ⟨r, hr⟩; exact ⟨(l, r), hmem.1 hr, rfl⟩
  · intro l r hr
    have := ranges_bounds σ 0 (hmem.1 hr)
    rw [size, R.full]; omega
  · intro i hi
    rw [size, R.full] at hi
    obtain ⟨n, r, hm, h1, h2⟩ := ranges_cover σ 0 i (Nat.zero_le _) (by omega)
    refine ⟨n, r, ⟨hmem.2 hm, h1, h2⟩, ?_⟩
    intro l' r' hr' h1' h2'
    apply Classical.byContradiction
    intro hne
    have := hdisj l' n r' r hne hr' (hmem.2 hm)
    omega

/-- C01 (consecutive layout and refusal).  A registration of a new label is placed right after everything already
registered, with the requested size, and keeps every existing range; a registration of an existing label is
refused and changes nothing. -/
theorem C01_add_label (ops : List (Op K)) (s : Labeller K) (h : run (init K) ops = some s)
    (name : String) (dim : Nat) :
    (name ∈ listOfLabels s → add s name dim = (s, none))
    ∧ (name ∉ listOfLabels s →
        (add s name dim).2 = some { offset := size s, size := dim }
        ∧ getIndexRange (add s name dim).1 name = some { offset := size s, size := dim }
        ∧ size (add s name dim).1 = size s + dim
        ∧ listOfLabels (add s name dim).1 = listOfLabels s ++ [name]
        ∧ ∀ l, l ≠ name → getIndexRange (add s name dim).1 l = getIndexRange s l) := by
  obtain ⟨_, _, h3, _⟩ := C01_ranges_tile ops s h
  constructor
  · intro hm
    obtain ⟨r, hr⟩ := (h3 name).1 hm
    unfold getIndexRange at hr
    simp [add, hr]
  · intro hm
    have hf : find s.map name = none := by
      cases hf : find s.map name with
      | none => rfl
      | some r => exact absurd ((h3 name).2 ⟨r, hf⟩) hm
    have happ : ∀ (m : List (String × Range)) (l : String) (r : Range),
        find (m ++ [(name, r)]) l = (find m l).or (if name = l then some r else none) := by
      intro m l r
      induction m with
      | nil => simp [find]
      | cons p m ih =>
        obtain ⟨k, q⟩ := p
        by_cases hk : k = l <;> simp [find, hk, ih]
    refine ⟨by simp [add, hf, size], ?_, by simp [add, hf, size], by simp [add, hf, listOfLabels], ?_⟩
    · simp [add, hf, getIndexRange, happ, size]
    · intro l hl
      have hl' : ¬ name = l := fun e => hl e.symm
      simp [add, hf, getIndexRange, happ, hl']

/-- C02 (refinement).  For every history, the object behaves like independent named vectors: it aborts exactly
when the specification does, and afterwards every label reads what the specification stores under that name, the
whole vector is the concatenation in registration order. -/
theorem C02_named_vectors (ops : List (Op K)) :
    match Spec.run [] ops with
    | none => run (init K) ops = none
    | some σ => ∃ s, run (init K) ops = some s
        ∧ (∀ l, read s l = (Spec.lookupName σ l).getD [])
        ∧ s.full = Spec.flat σ
        ∧ listOfLabels s = σ.map (·.1) := by
  rcases rel_run (rel_init (K := K)) ops with ⟨h1, h2⟩ | ⟨s', σ', h1, h2, r'⟩
  · rw [h1]; exact h2
  · rw [h2]; exact ⟨s', h1, rel_read r', r'.full, r'.labels⟩

/-- C02 (read-after-write and frame, stated on the implementation).  In every reachable state: writing a label makes
it read back what was written and leaves every other label alone; registering a label keeps all values and the new
label reads zeros; `zero` zeroes; whole-vector assignment gives each label its own slice. -/
theorem C02_read_write (ops : List (Op K)) (s : Labeller K) (h : run (init K) ops = some s) :
    (∀ l x s', l ∈ listOfLabels s → write s l x = some s' →
        read s' l = x ∧ ∀ l', l' ≠ l → read s' l' = read s l')
    ∧ (∀ l x, l ∈ listOfLabels s → x.length = (read s l).length → ∃ s', write s l x = some s')
    ∧ (∀ l d, l ∉ listOfLabels s → read (add s l d).1 l = List.replicate d 0
        ∧ ∀ l', l' ≠ l → read (add s l d).1 l' = read s l')
    ∧ (∀ l, read (zero s) l = List.replicate (read s l).length 0)
    ∧ (∀ v s' l r, assign s v = some s' → getIndexRange s l = some r →
        read s' l = (v.drop r.offset).take r.size)
    ∧ (∀ l, read (clear s) l = []) := by
  obtain ⟨σ, hσ, R⟩ := rel_reachable h
  have hlab : ∀ l, l ∈ listOfLabels s → ∃ v, Spec.lookupName σ l = some v := by
    intro l hl
    rw [listOfLabels, R.labels] at hl
    cases hg : Spec.lookupName σ l with
    | none => exact absurd hl ((get_none_iff σ l).1 hg)
    | some v => exact ⟨v, rfl⟩
  refine ⟨?_, ?_, ?_, ?_, ?_, ?_⟩
  · intro l x s' hl hw
    obtain ⟨v, hv⟩ := hlab l hl
    rcases rel_step R (.write l x) with ⟨_, h2⟩ | ⟨s1, σ1, h1, h2, R1⟩
    · simp only [step] at h2; rw [h2] at hw; cases hw
    · simp only [step] at h1; rw [h1] at hw; cases hw
      simp only [Spec.step, hv] at h2
      split at h2
      · cases h2
        constructor
        · rw [rel_read R1]
          obtain ⟨a, b, e, hn⟩ := get_split σ l v hv
          subst e
          rw [put_split a b l v x hn, get_of_split a b l x hn]; rfl
        · intro l' hl'
          rw [rel_read R1, rel_read R, get_put_ne _ _ _ _ hl']
      · cases h2
  · intro l x hl hx
    obtain ⟨v, hv⟩ := hlab l hl
    rw [rel_read R, hv] at hx
    rcases rel_step R (.write l x) with ⟨h1, _⟩ | ⟨s1, σ1, h1, h2, R1⟩
    · simp only [Spec.step, hv] at h1
      simp only [Option.getD_some] at hx
      simp [hx] at h1
    · exact ⟨s1, h1⟩
  · intro l d hl
    have hg : Spec.lookupName σ l = none := by
      rw [get_none_iff, ← R.labels]; exact hl
    rcases rel_step R (.add l d) with ⟨h1, _⟩ | ⟨s1, σ1, h1, h2, R1⟩
    · simp [Spec.step, hg] at h1
    · simp only [step, Option.some.injEq] at h1
      simp only [Spec.step, hg, Option.some.injEq] at h2
      subst h2
      rw [h1]
      have happ : ∀ (t : Spec.Store K) (m : String) (w : List K),
          Spec.lookupName (t ++ [(l, w)]) m = (Spec.lookupName t m).or (if l = m then some w else none) := by
        intro t m w
        induction t with
        | nil => simp [Spec.lookupName]
        | cons p t ih =>
          obtain ⟨k, q⟩ := p
          by_cases hk : k = m <;> simp [Spec.lookupName, hk, ih]
      constructor
      · rw [rel_read R1, happ, hg]; simp
      · intro l' hl'
        rw [rel_read R1, rel_read R, happ]
        have hl2 : ¬ l = l' := fun e => hl' e.symm
        simp [hl2]
  · intro l
    rcases rel_step R .zero with ⟨h1, _⟩ | ⟨s1, σ1, h1, h2, R1⟩
    · simp [Spec.step] at h1
    · simp only [step, Option.some.injEq] at h1
      simp only [Spec.step, Option.some.injEq] at h2
      subst h2 h1
      rw [rel_read R1, rel_read R]
      clear R R1 hlab hσ
      induction σ with
      | nil => simp [Spec.lookupName]
      | cons p t ih =>
        obtain ⟨k, q⟩ := p
        by_cases hk : k = l
        · simp [Spec.lookupName, hk]
        · simpa [Spec.lookupName, hk] using ih
  · intro v s' l r ha hr
    simp only [assign] at ha
    split at ha
    · cases ha
      unfold getIndexRange at hr
      simp [read, hr, slice]
    · cases ha
  · intro l; rfl

/-- Non-vacuity: a history with two labels, a refused duplicate, writes through both, gives a reachable state. -/
example : ∃ s, run (init Int) [.add "a" 2, .add "b" 1, .add "a" 5, .write "b" [7], .writeAt 0 3] = some s
    ∧ listOfLabels s = ["a", "b"] ∧ s.full = [3, 0, 7] ∧ read s "b" = [7] := by
  exact ⟨_, rfl, rfl, rfl, rfl⟩

end Verif.Labeller
