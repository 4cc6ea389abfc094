import Verif.Lemmas.LeviBuild
/- Every derivative request on a well formed expression ends: with enough depth the recursion returns an expression. -/
set_option linter.unusedSectionVars false
namespace Verif.Levi
open Spec Ex
variable {K : Type} [Field K] [LinearOrder K] {P : Ex K → K → Prop} {cfg : Cfg K} {wt : Var → Nat}

/-- Weight of an expression: weights of the occurrences of variables, plus one for each node whose derivative is taken by rewriting. -/
def rank (wt : Var → Nat) : Ex K → Nat
  | const _ _ _ | null _ _ | ident _ | sparse _ _ _ => 0
  | var v => wt v
  | add a b | sub a b | mul a b | hcat a b | vcat a b => rank wt a + rank wt b
  | neg a | pow a _ | row a _ | col a _ | elem a _ _ | block a _ _ _ _ => rank wt a
  | div a b => rank wt a + rank wt b + 1
  | skew a => 3 * rank wt a
  | transpose a | vee a => rank wt a + 1
  | byRows n f => (∑ i ∈ Finset.range n, rank wt (f i)) + 1
  | byCols n f => ∑ i ∈ Finset.range n, rank wt (f i)
  | mpd n ds x => (∑ i ∈ Finset.range n, rank wt (ds i)) + rank wt x + 1

theorem rank_negOp (a : Ex K) : rank wt (negOp a) ≤ rank wt a := by
  unfold negOp
  split <;> simp [rank]

theorem rank_mulF (n : Nat) (a b : Ex K) : rank wt (mulF n a b) ≤ rank wt a + rank wt b := by
  induction n generalizing a b with
  | zero => unfold mulF; split_ifs <;> simp only [rank] <;> omega
  | succ n ih =>
    have asN : ∀ {a a' : Ex K}, a.asNeg = some a' → rank wt a = rank wt a' := fun h => by rw [asNeg_some h, rank]
    have asP : ∀ {a a1 a2 : Ex K}, a.asProduct = some (a1, a2) → rank wt a = rank wt a1 + rank wt a2 :=
      fun h => by rw [asProduct_some h, rank]
    have neg' := rank_negOp (K := K) (wt := wt)
    have r1 : ∀ a b : Ex K, rank wt (mul a b) = rank wt a + rank wt b := fun _ _ => rfl
    have r2 : ∀ r c, rank wt (null r c : Ex K) = 0 := fun _ _ => rfl
    unfold mulF
    dsimp only
    repeat' split
    all_goals grind

theorem rank_mulOp (cfg : Cfg K) (a b : Ex K) : rank wt (mulOp cfg a b) ≤ rank wt a + rank wt b := rank_mulF _ _ _

theorem rank_splitRight (cfg : Cfg K) (l r : Ex K) :
    rank wt (splitRight cfg l r).1 + rank wt (splitRight cfg l r).2 ≤ rank wt l + rank wt r := by
  induction r generalizing l with
  | mul r1 r2 _ ih2 =>
    have := ih2 (mulOp cfg l r1)
    have := rank_mulOp (wt := wt) cfg l r1
    simp only [splitRight, rank]
    omega
  | _ => simp [splitRight]

theorem rank_expand (cfg : Cfg K) (p : Bool) (e : Ex K) :
    ((expandAddends cfg p e).map fun x => rank wt x.initial).sum = rank wt e ∧
    ∀ x ∈ expandAddends cfg p e, rank wt x.lhs + rank wt x.rhs ≤ rank wt x.initial := by
  induction e generalizing p with
  | add a b iha ihb =>
    simp only [expandAddends, List.map_append, List.sum_append, List.mem_append, rank]
    exact ⟨by rw [(iha p).1, (ihb p).1], fun x hx => hx.elim ((iha p).2 x) ((ihb p).2 x)⟩
  | sub a b iha ihb =>
    simp only [expandAddends, List.map_append, List.sum_append, List.mem_append, rank]
    exact ⟨by rw [(iha p).1, (ihb _).1], fun x hx => hx.elim ((iha p).2 x) ((ihb _).2 x)⟩
  | neg a iha => simpa only [expandAddends, rank] using iha (!p)
  | mul a b iha ihb =>
    have := rank_splitRight (wt := wt) cfg a b
    simp only [expandAddends, List.map_cons, List.map_nil, List.sum_cons, List.sum_nil, List.mem_singleton, Nat.add_zero,
      true_and]
    rintro x rfl
    simp only [rank]; exact this
  | _ => simp [expandAddends, rank]

theorem rank_getLhs (cfg : Cfg K) (a : Addend K) (s : Nat × Nat) : rank wt (getLhs cfg a s) ≤ rank wt a.lhs := by
  unfold getLhs
  split_ifs
  · exact le_refl _
  · have := rank_mulOp (wt := wt) cfg a.lhs (ident s.1)
    simpa [rank] using this

theorem nat_filter_split {α : Type} (L : List α) (q : α → Bool) (f : α → Nat) :
    (L.map f).sum = ((L.filter q).map f).sum + ((L.filter fun x => !q x).map f).sum := by
  induction L with
  | nil => rfl
  | cons x L ihL =>
    rw [List.map_cons, List.sum_cons, ihL]
    cases h : q x
    · simp [h]; omega
    · simp [h]; omega

theorem rank_addF (cfg : Cfg K) (n : Nat) (minus : Bool) (a b : Ex K) : rank wt (addF cfg n minus a b) ≤ rank wt a + rank wt b := by
  induction n generalizing minus a b with
  | zero => cases minus <;> simp [addF, rank]
  | succ n ih =>
    have hneg := rank_negOp (K := K) (wt := wt)
    have hmul := rank_mulOp (K := K) (wt := wt) cfg
    have fold : ∀ (L : List (Addend K)) (g : Addend K → Ex K) (s : Ex K),
        rank wt (L.foldl (fun e x => addF cfg n (!x.positive) e (g x)) s) ≤ rank wt s + (L.map fun x => rank wt (g x)).sum := by
      intro L g s
      induction L generalizing s with
      | nil => simp
      | cons x L ihL =>
        have := ihL (addF cfg n (!x.positive) s (g x))
        have := ih (!x.positive) s (g x)
        simp only [List.foldl_cons, List.map_cons, List.sum_cons]
        omega
    have sign : ∀ (p : Bool) (x : Ex K), rank wt (if p then x else negOp x) ≤ rank wt x := by
      intro p x; cases p
      · simpa using hneg x
      · simp
    unfold addF
    by_cases h1 : a.isNull = true
    · rw [if_pos h1]
      have := hneg b
      split_ifs <;> omega
    rw [if_neg h1]
    by_cases h2 : b.isNull = true
    · rw [if_pos h2]; omega
    rw [if_neg h2]
    by_cases h3 : (a.isIdentity && b.isIdentity || a.eqv cfg b) = true
    · rw [if_pos h3]
      have := hmul (const 1 1 fun _ _ => 2) b
      simp only [rank] at this
      split_ifs
      · simp [rank]
      · omega
    rw [if_neg h3]
    split
    · rename_i a' e
      rw [asNeg_some e, rank]
      have h6 := ih false a' b
      have h7 := hneg (addF cfg n false a' b)
      have h8 := ih true b a'
      split_ifs <;> omega
    · split
      · rename_i b' e
        rw [asNeg_some e, rank]
        exact ih _ _ _
      · have plain : rank wt (if minus = true then sub a b else add a b) ≤ rank wt a + rank wt b := by
          split_ifs <;> simp [rank]
        have ea := rank_expand (wt := wt) cfg true a
        have eb := rank_expand (wt := wt) cfg (!minus) b
        have etot : ((expandAddends cfg true a ++ expandAddends cfg (!minus) b).map fun x => rank wt x.initial).sum =
            rank wt a + rank wt b := by
          rw [List.map_append, List.sum_append, ea.1, eb.1]
        have eall : ∀ x ∈ expandAddends cfg true a ++ expandAddends cfg (!minus) b,
            rank wt x.lhs + rank wt x.rhs ≤ rank wt x.initial := by
          intro x hx
          rw [List.mem_append] at hx
          exact hx.elim (ea.2 x) (eb.2 x)
        split
        · exact plain
        · rename_i first others heq
          rw [heq] at etot eall
          dsimp only
          by_cases h4 : (others.filter fun x => x.rhs.eqv cfg first.rhs).isEmpty = true
          · rw [if_pos h4]; exact plain
          rw [if_neg h4]
          rw [List.map_cons, List.sum_cons] at etot
          have split2 : (others.map fun x => rank wt x.initial).sum =
              ((others.filter fun x => x.rhs.eqv cfg first.rhs).map fun x => rank wt x.initial).sum +
              ((others.filter fun x => !(x.rhs.eqv cfg first.rhs)).map fun x => rank wt x.initial).sum := by
            exact nat_filter_split others (fun x => x.rhs.eqv cfg first.rhs) _
          generalize hsim : (others.filter fun x => x.rhs.eqv cfg first.rhs) = similar at *
          generalize hdif : (others.filter fun x => !(x.rhs.eqv cfg first.rhs)) = different at *
          generalize maximumSizeLhs first similar = sz
          have hle : (similar.map fun x => rank wt (getLhs cfg x sz)).sum ≤ (similar.map fun x => rank wt x.initial).sum := by
            apply List.sum_le_sum
            intro x hx
            have hx' : x ∈ first :: others := by
              rw [← hsim] at hx
              exact List.mem_cons_of_mem _ (List.mem_of_mem_filter hx)
            have := eall x hx'
            have := rank_getLhs (wt := wt) cfg x sz
            omega
          have hf := fold similar (fun x => getLhs cfg x sz)
            (if first.positive then getLhs cfg first sz else negOp (getLhs cfg first sz))
          have hs' := sign first.positive (getLhs cfg first sz)
          have hg := rank_getLhs (wt := wt) cfg first sz
          have h0 := eall first (by simp)
          have hm := hmul (similar.foldl (fun e x => addF cfg n (!x.positive) e (getLhs cfg x sz))
            (if first.positive then getLhs cfg first sz else negOp (getLhs cfg first sz))) first.rhs
          split
          · rw [List.map_nil, List.sum_nil] at split2
            omega
          · rename_i d ds
            rw [List.map_cons, List.sum_cons] at split2
            have hf2 := fold ds (fun x => x.initial) (if d.positive then d.initial else negOp d.initial)
            have hs2 := sign d.positive d.initial
            simp only [rank]
            omega

theorem rank_addOp (cfg : Cfg K) (a b : Ex K) : rank wt (addOp cfg a b) ≤ rank wt a + rank wt b := rank_addF _ _ _ _ _
theorem rank_subOp (cfg : Cfg K) (a b : Ex K) : rank wt (subOp cfg a b) ≤ rank wt a + rank wt b := rank_addF _ _ _ _ _

theorem rank_transposeOp (a : Ex K) : rank wt (transposeOp a) ≤ rank wt a + 1 := by
  unfold transposeOp; split_ifs <;> simp [rank]
theorem rank_blockOp (a : Ex K) (i j r c : Nat) : rank wt (blockOp a i j r c) ≤ rank wt a := by
  unfold blockOp; split_ifs <;> simp [rank]

theorem rank_skewAcc (cfg : Cfg K) (g x : Nat → Ex K) (r : Nat) (hg : ∀ k, rank wt (g k) = 0) (hx : ∀ k, k < 3 → rank wt (x k) ≤ r) :
    rank wt (skewAcc cfg g x) ≤ 3 * r := by
  unfold skewAcc
  have h1 := rank_subOp (wt := wt) cfg (subOp cfg (mulOp cfg (negOp (g 0)) (x 0)) (mulOp cfg (g 1) (x 1))) (mulOp cfg (g 2) (x 2))
  have h2 := rank_subOp (wt := wt) cfg (mulOp cfg (negOp (g 0)) (x 0)) (mulOp cfg (g 1) (x 1))
  have h3 := rank_mulOp (wt := wt) cfg (negOp (g 0)) (x 0)
  have h4 := rank_mulOp (wt := wt) cfg (g 1) (x 1)
  have h5 := rank_mulOp (wt := wt) cfg (g 2) (x 2)
  have h6 := rank_negOp (wt := wt) (g 0)
  have := hg 0; have := hg 1; have := hg 2
  have := hx 0 (by omega); have := hx 1 (by omega); have := hx 2 (by omega)
  omega

theorem rank_sparseRow (c : Nat) (l) (i : Nat) : rank wt (sparseRow c l i : Ex K) = 0 := by
  unfold sparseRow; split <;> rfl
theorem rank_sparseCol (c : Nat) (l) (i : Nat) : rank wt (sparseCol c l i : Ex K) = 0 := by
  unfold sparseCol; split <;> rfl
theorem rank_sparseElem (l) (i j : Nat) : rank wt (sparseElem l i j : Ex K) = 0 := by
  unfold sparseElem; split
  · rfl
  · split_ifs <;> rfl

theorem le_sum_range {n : Nat} (f : Nat → Nat) {i : Nat} (hi : i < n) : f i ≤ ∑ k ∈ Finset.range n, f k :=
  Finset.single_le_sum (fun _ _ => Nat.zero_le _) (Finset.mem_range.2 hi)

theorem mul_size_l {a b : Ex K} (h : Kept P (mul a b)) (sa : a.isScalar = true) : (mul a b).size = b.size := by
  have := (dimsK h pw0 ρ0)
  rw [ev, SM.mul_scalar_left ((isScalar_ev h.1 _ _).1 sa), SM.smul_r, SM.smul_c, (dimsK h.2.1 _ _).1, (dimsK h.2.1 _ _).2] at this
  exact Prod.ext this.1.symm this.2.symm

theorem mul_size_r {a b : Ex K} (h : Kept P (mul a b)) (sb : b.isScalar = true) : (mul a b).size = a.size := by
  have := (dimsK h pw0 ρ0)
  rw [ev, SM.mul_scalar_right _ ((isScalar_ev h.2.1 _ _).1 sb), SM.smul_r, SM.smul_c, (dimsK h.1 _ _).1, (dimsK h.1 _ _).2] at this
  exact Prod.ext this.1.symm this.2.symm

theorem mul_size_s {a b : Ex K} (h : Kept P (mul a b)) (hm : a.cols = b.rows) : (mul a b).size = (a.rows, b.cols) := by
  have hc : (a.ev pw0 ρ0).c = (b.ev pw0 ρ0).r := by rw [(dimsK h.1 _ _).2, (dimsK h.2.1 _ _).1, hm]
  have := (dimsK h pw0 ρ0)
  rw [ev, SM.mul_std_r hc, SM.mul_std_c hc, (dimsK h.1 _ _).1, (dimsK h.2.1 _ _).2] at this
  exact Prod.ext this.1.symm this.2.symm

/-- Accessing does not increase the weight. -/
theorem rank_access {e : Ex K} (h : Kept P e) :
    (∀ i, i < e.rows → rank wt (rowAcc cfg e i) ≤ rank wt e) ∧ (∀ j, j < e.cols → rank wt (colAcc cfg e j) ≤ rank wt e) ∧
    (∀ i j, i < e.rows → j < e.cols → rank wt (elemAcc cfg e i j) ≤ rank wt e) := by
  have A := rank_addOp (K := K) (wt := wt) cfg
  have S := rank_subOp (K := K) (wt := wt) cfg
  have M := rank_mulOp (K := K) (wt := wt) cfg
  have N := rank_negOp (K := K) (wt := wt)
  induction e with
  | const r c M => refine ⟨fun i _ => ?_, fun j _ => ?_, fun i j _ _ => ?_⟩ <;> simp only [rowAcc, colAcc, elemAcc] <;> split_ifs <;> simp [rank]
  | null r c => refine ⟨fun i _ => ?_, fun j _ => ?_, fun i j _ _ => ?_⟩ <;> simp only [rowAcc, colAcc, elemAcc] <;> split_ifs <;> simp [rank]
  | ident n => refine ⟨fun i _ => ?_, fun j _ => ?_, fun i j _ _ => ?_⟩ <;> simp only [rowAcc, colAcc, elemAcc] <;> split_ifs <;> simp [rank]
  | sparse r c l =>
    refine ⟨fun i _ => ?_, fun j _ => ?_, fun i j _ _ => ?_⟩ <;> simp only [rowAcc, colAcc, elemAcc] <;> split_ifs <;>
      simp [rank, rank_sparseRow, rank_sparseCol, rank_sparseElem]
  | var v => refine ⟨fun i _ => ?_, fun j _ => ?_, fun i j _ _ => ?_⟩ <;> simp only [rowAcc, colAcc, elemAcc] <;> split_ifs <;> simp [rank]
  | pow a α => refine ⟨fun i _ => ?_, fun j _ => ?_, fun i j _ _ => ?_⟩ <;> simp only [rowAcc, colAcc, elemAcc] <;> split_ifs <;> simp [rank]
  | add a b iha ihb =>
    obtain ⟨ha, hb, hsz⟩ := id h
    have hr : b.rows = a.rows := congrArg Prod.fst hsz
    have hc : b.cols = a.cols := congrArg Prod.snd hsz
    obtain ⟨ra, ca, ea⟩ := iha ha
    obtain ⟨rb, cb, eb⟩ := ihb hb
    refine ⟨fun i hi => ?_, fun j hj => ?_, fun i j hi hj => ?_⟩
    · have hi : i < a.rows := hi
      have := A (rowAcc cfg a i) (rowAcc cfg b i); have := ra i hi; have := rb i (by omega)
      simp only [rowAcc]; split_ifs
      · exact le_refl _
      · simp only [rank]; omega
    · have hj : j < a.cols := hj
      have := A (colAcc cfg a j) (colAcc cfg b j); have := ca j hj; have := cb j (by omega)
      simp only [colAcc]; split_ifs
      · exact le_refl _
      · simp only [rank]; omega
    · have hi : i < a.rows := hi
      have hj : j < a.cols := hj
      have := A (elemAcc cfg a i j) (elemAcc cfg b i j); have := ea i j hi hj; have := eb i j (by omega) (by omega)
      simp only [elemAcc]; split_ifs
      · exact le_refl _
      · simp only [rank]; omega
  | sub a b iha ihb =>
    obtain ⟨ha, hb, hsz⟩ := id h
    have hr : b.rows = a.rows := congrArg Prod.fst hsz
    have hc : b.cols = a.cols := congrArg Prod.snd hsz
    obtain ⟨ra, ca, ea⟩ := iha ha
    obtain ⟨rb, cb, eb⟩ := ihb hb
    refine ⟨fun i hi => ?_, fun j hj => ?_, fun i j hi hj => ?_⟩
    · have hi : i < a.rows := hi
      have := S (rowAcc cfg a i) (rowAcc cfg b i); have := ra i hi; have := rb i (by omega)
      simp only [rowAcc]; split_ifs
      · exact le_refl _
      · simp only [rank]; omega
    · have hj : j < a.cols := hj
      have := S (colAcc cfg a j) (colAcc cfg b j); have := ca j hj; have := cb j (by omega)
      simp only [colAcc]; split_ifs
      · exact le_refl _
      · simp only [rank]; omega
    · have hi : i < a.rows := hi
      have hj : j < a.cols := hj
      have := S (elemAcc cfg a i j) (elemAcc cfg b i j); have := ea i j hi hj; have := eb i j (by omega) (by omega)
      simp only [elemAcc]; split_ifs
      · exact le_refl _
      · simp only [rank]; omega
  | neg a iha =>
    obtain ⟨ra, ca, ea⟩ := iha h
    refine ⟨fun i hi => ?_, fun j hj => ?_, fun i j hi hj => ?_⟩
    · have hi : i < a.rows := hi
      have := N (rowAcc cfg a i); have := ra i hi
      simp only [rowAcc]; split_ifs
      · exact le_refl _
      · simp only [rank]; omega
    · have hj : j < a.cols := hj
      have := N (colAcc cfg a j); have := ca j hj
      simp only [colAcc]; split_ifs
      · exact le_refl _
      · simp only [rank]; omega
    · have hi : i < a.rows := hi
      have hj : j < a.cols := hj
      have := N (elemAcc cfg a i j); have := ea i j hi hj
      simp only [elemAcc]; split_ifs
      · exact le_refl _
      · simp only [rank]; omega
  | mul a b iha ihb =>
    obtain ⟨ha, hb, hm⟩ := id h
    obtain ⟨ra, ca, ea⟩ := iha ha
    obtain ⟨rb, cb, eb⟩ := ihb hb
    have hl := fun s => mul_size_l h s
    have hr := fun s => mul_size_r h s
    have hn := fun s => mul_size_s h s
    refine ⟨fun i hi => ?_, fun j hj => ?_, fun i j hi hj => ?_⟩
    · simp only [rowAcc]
      split_ifs with h1 h2
      · exact le_refl _
      · rw [rows, hl h2] at hi
        have := M a (rowAcc cfg b i); have := rb i hi; simp only [rank]; omega
      · rw [rows, hn (hm.resolve_right h2)] at hi
        have := M (rowAcc cfg a i) b; have := ra i hi; simp only [rank]; omega
    · simp only [colAcc]
      split_ifs with h1 h2
      · exact le_refl _
      · rw [cols, hr h2] at hj
        have := M (colAcc cfg a j) b; have := ca j hj; simp only [rank]; omega
      · have hj : j < b.cols := by
          rcases hm with hm | hm
          · rw [cols, hn hm] at hj; exact hj
          · rw [cols, hl hm] at hj; exact hj
        have := M a (colAcc cfg b j); have := cb j hj; simp only [rank]; omega
    · simp only [elemAcc]
      split_ifs with h1 h2 h3
      · exact le_refl _
      · rw [rows, hl h2] at hi; rw [cols, hl h2] at hj
        have := M a (elemAcc cfg b i j); have := eb i j hi hj; simp only [rank]; omega
      · rw [rows, hr h3] at hi; rw [cols, hr h3] at hj
        have := M (elemAcc cfg a i j) b; have := ea i j hi hj; simp only [rank]; omega
      · rw [rows, hn (hm.resolve_right h2)] at hi; rw [cols, hn (hm.resolve_right h2)] at hj
        have := M (rowAcc cfg a i) (colAcc cfg b j); have := ra i hi; have := cb j hj; simp only [rank]; omega
  | div a b iha ihb =>
    obtain ⟨ha, hb, h1, h2, _⟩ := id h
    obtain ⟨ra, ca, ea⟩ := iha ha
    refine ⟨fun i hi => ?_, fun j hj => ?_, fun i j hi hj => ?_⟩
    · have := ra i hi
      simp only [rowAcc]; split_ifs
      · exact le_refl _
      · simp only [rank]; omega
    · have hj : j < a.cols := by
        have : j < b.cols := hj
        rw [cols, h2] at this; rw [h1]; exact this
      have := ca j hj
      simp only [colAcc]; split_ifs
      · exact le_refl _
      · simp only [rank]; omega
    · have hj : j < a.cols := by
        have : j < b.cols := hj
        rw [cols, h2] at this; rw [h1]; exact this
      have := ea i j hi hj
      simp only [elemAcc]; split_ifs
      · exact le_refl _
      · simp only [rank]; omega
  | skew a iha =>
    obtain ⟨ha, hsz⟩ := id h
    obtain ⟨ra, ca, ea⟩ := iha ha
    have hx : ∀ k, k < 3 → rank wt (elemAcc cfg a k 0) ≤ rank wt a := fun k hk =>
      ea k 0 (by rw [rows, hsz]; exact hk) (by rw [cols, hsz]; exact Nat.one_pos)
    refine ⟨fun i hi => ?_, fun j hj => ?_, fun i j hi hj => ?_⟩
    · simp only [rowAcc]; split_ifs
      · exact le_refl _
      · exact rank_skewAcc cfg _ _ _ (fun k => rank_sparseRow _ _ _) hx
    · simp only [colAcc]; split_ifs
      · exact le_refl _
      · exact rank_skewAcc cfg _ _ _ (fun k => rank_sparseCol _ _ _) hx
    · simp only [elemAcc]; split_ifs
      · exact le_refl _
      · exact rank_skewAcc cfg _ _ _ (fun k => rank_sparseElem _ _ _) hx
  | transpose a iha =>
    obtain ⟨ra, ca, ea⟩ := iha h
    refine ⟨fun i hi => ?_, fun j hj => ?_, fun i j hi hj => ?_⟩
    · have := ca i hi; have := rank_transposeOp (wt := wt) (colAcc cfg a i)
      simp only [rowAcc]; split_ifs
      · exact le_refl _
      · simp only [rank]; omega
    · have := ra j hj; have := rank_transposeOp (wt := wt) (rowAcc cfg a j)
      simp only [colAcc]; split_ifs
      · exact le_refl _
      · simp only [rank]; omega
    · have := ea j i hj hi
      simp only [elemAcc]; split_ifs
      · exact le_refl _
      · simp only [rank]; omega
  | vee a iha =>
    obtain ⟨ha, hsz⟩ := id h
    obtain ⟨ra, ca, ea⟩ := iha ha
    have ar : a.rows = 3 := by rw [rows, hsz]
    have ac : a.cols = 3 := by rw [cols, hsz]
    refine ⟨fun i _ => ?_, fun j _ => ?_, fun i j _ _ => ?_⟩
    · simp only [rowAcc]; split_ifs <;> simp [rank]
    · simp only [colAcc]; split_ifs <;> simp [rank]
    · have := ea 2 1 (by omega) (by omega)
      have := ea 0 2 (by omega) (by omega)
      have := ea 1 0 (by omega) (by omega)
      simp only [elemAcc]; split_ifs
      · exact le_refl _
      · split <;> simp only [rank] <;> omega
  | row a i0 iha =>
    obtain ⟨ha, hi0⟩ := id h
    obtain ⟨ra, ca, ea⟩ := iha ha
    refine ⟨fun i _ => ?_, fun j hj => ?_, fun i j _ hj => ?_⟩
    · simp only [rowAcc]; split_ifs <;> simp [rank]
    · have := ea i0 j hi0 hj
      simp only [colAcc]; split_ifs
      · exact le_refl _
      · simpa only [rank] using this
    · have := ea i0 j hi0 hj
      simp only [elemAcc]; split_ifs
      · exact le_refl _
      · simpa only [rank] using this
  | col a j0 iha =>
    obtain ⟨ha, hj0⟩ := id h
    obtain ⟨ra, ca, ea⟩ := iha ha
    refine ⟨fun i hi => ?_, fun j hj => ?_, fun i j hi hj => ?_⟩
    · have := ea i j0 hi hj0
      simp only [rowAcc]; split_ifs
      · exact le_refl _
      · simpa only [rank] using this
    · simp only [colAcc]; split_ifs <;> simp [rank]
    · have := ea i j0 hi hj0
      simp only [elemAcc]; split_ifs
      · exact le_refl _
      · simpa only [rank] using this
  | elem a i0 j0 iha => refine ⟨fun i _ => ?_, fun j _ => ?_, fun i j _ _ => ?_⟩ <;> simp only [rowAcc, colAcc, elemAcc] <;> split_ifs <;> simp [rank]
  | block a i0 j0 r c iha =>
    obtain ⟨ha, h1, h2, h3, h4⟩ := id h
    obtain ⟨ra, ca, ea⟩ := iha ha
    refine ⟨fun i hi => ?_, fun j hj => ?_, fun i j hi hj => ?_⟩
    · have hi : i < r := hi
      have := ra (i0 + i) (by omega); have := rank_blockOp (wt := wt) (rowAcc cfg a (i0 + i)) 0 j0 1 c
      simp only [rowAcc]; split_ifs
      · exact le_refl _
      · simp only [rank]; omega
    · have hj : j < c := hj
      have := ca (j0 + j) (by omega); have := rank_blockOp (wt := wt) (colAcc cfg a (j0 + j)) i0 0 r 1
      simp only [colAcc]; split_ifs
      · exact le_refl _
      · simp only [rank]; omega
    · have hi : i < r := hi
      have hj : j < c := hj
      have := ea (i0 + i) (j0 + j) (by omega) (by omega)
      simp only [elemAcc]; split_ifs
      · exact le_refl _
      · simpa only [rank] using this
  | byRows n f ihf =>
    refine ⟨fun i hi => ?_, fun j _ => ?_, fun i j hi hj => ?_⟩
    · have := le_sum_range (fun k => rank wt (f k)) (show i < n from hi)
      simp only [rowAcc]; split_ifs
      · exact le_refl _
      · simp only [rank]; omega
    · simp only [colAcc]; split_ifs <;> simp [rank]
    · have hi : i < n := hi
      have hj : j < (f 0).cols := hj
      have h1 := le_sum_range (fun k => rank wt (f k)) hi
      have h2 := (ihf i (h.2 i hi).1).2.2 0 j (by rw [rows, (h.2 i hi).2]; exact Nat.one_pos)
        (by rw [cols, (h.2 i hi).2]; exact hj)
      simp only [elemAcc]; split_ifs
      · exact le_refl _
      · simp only [rank]; omega
  | byCols n f ihf =>
    refine ⟨fun i hi => ?_, fun j hj => ?_, fun i j hi hj => ?_⟩
    · simp only [rowAcc]; split_ifs <;> simp [rank]
    · have := le_sum_range (fun k => rank wt (f k)) (show j < n from hj)
      simp only [colAcc]; split_ifs
      · exact le_refl _
      · simp only [rank]; omega
    · have hj : j < n := hj
      have hi : i < (f 0).rows := hi
      have h1 := le_sum_range (fun k => rank wt (f k)) hj
      have h2 := (ihf j (h.2 j hj).1).2.2 i 0 (by rw [rows, (h.2 j hj).2]; exact hi)
        (by rw [cols, (h.2 j hj).2]; exact Nat.one_pos)
      simp only [elemAcc]; split_ifs
      · exact le_refl _
      · simp only [rank]; omega
  | hcat a b iha ihb =>
    obtain ⟨ha, hb, hsz⟩ := id h
    obtain ⟨ra, ca, ea⟩ := iha ha
    obtain ⟨rb, cb, eb⟩ := ihb hb
    refine ⟨fun i hi => ?_, fun j hj => ?_, fun i j hi hj => ?_⟩
    · have hi : i < a.rows := hi
      have := ra i hi; have := rb i (by omega)
      simp only [rowAcc]; split_ifs
      · exact le_refl _
      · simp only [rank]; omega
    · have hj : j < a.cols + b.cols := hj
      simp only [colAcc]; split_ifs with h1 h2
      · exact le_refl _
      · have := ca j h2; simp only [rank]; omega
      · have := cb (j - a.cols) (by omega); simp only [rank]; omega
    · have hj : j < a.cols + b.cols := hj
      have hi : i < a.rows := hi
      simp only [elemAcc]; split_ifs with h1 h2
      · exact le_refl _
      · have := ea i j hi h2; simp only [rank]; omega
      · have := eb i (j - a.cols) (by omega) (by omega); simp only [rank]; omega
  | vcat a b iha ihb =>
    obtain ⟨ha, hb, hsz⟩ := id h
    obtain ⟨ra, ca, ea⟩ := iha ha
    obtain ⟨rb, cb, eb⟩ := ihb hb
    refine ⟨fun i hi => ?_, fun j hj => ?_, fun i j hi hj => ?_⟩
    · have hi : i < a.rows + b.rows := hi
      simp only [rowAcc]; split_ifs with h1 h2
      · exact le_refl _
      · have := ra i h2; simp only [rank]; omega
      · have := rb (i - a.rows) (by omega); simp only [rank]; omega
    · have hj : j < a.cols := hj
      have := ca j hj; have := cb j (by omega)
      simp only [colAcc]; split_ifs
      · exact le_refl _
      · simp only [rank]; omega
    · have hi : i < a.rows + b.rows := hi
      have hj : j < a.cols := hj
      simp only [elemAcc]; split_ifs with h1 h2
      · exact le_refl _
      · have := ea i j h2 hj; simp only [rank]; omega
      · have := eb (i - a.rows) j (by omega) (by omega); simp only [rank]; omega
  | mpd n ds x ihd ihx =>
    refine ⟨fun i hi => ?_, fun j hj => ?_, fun i j hi hj => ?_⟩
    · simp only [rowAcc]; split_ifs <;> simp [rank]
    · have h1 := M (byCols n fun k => colAcc cfg (ds k) j) x
      have h2 : ∑ k ∈ Finset.range n, rank wt (colAcc cfg (ds k) j) ≤ ∑ k ∈ Finset.range n, rank wt (ds k) :=
        Finset.sum_le_sum fun k hk => by
          have hk := Finset.mem_range.1 hk
          exact (ihd k (h.2.1 k hk).1).2.1 j (by rw [cols, (h.2.1 k hk).2]; exact hj)
      simp only [colAcc]; split_ifs
      · exact le_refl _
      · simp only [rank] at h1 ⊢; omega
    · simp only [elemAcc]; split_ifs <;> simp [rank]

/-- With enough depth a derivative is returned. -/
def Ends (cfg : Cfg K) (v : Var) (e : Ex K) (c : Nat) : Prop := ∃ N, ∀ n, N ≤ n → ∃ d, D cfg n e c v = some d

theorem collect_isSome {m : Nat} {f : Nat → Option (Ex K)} (h : ∀ k, k < m → ∃ d, f k = some d) :
    ∃ g, collect m f = some g := by
  unfold collect
  rw [if_pos]
  · exact ⟨_, rfl⟩
  · rw [List.all_eq_true]
    intro k hk
    obtain ⟨d, hd⟩ := h k (List.mem_range.1 hk)
    rw [hd]; rfl

theorem ends_all {v : Var} {m : Nat} {x : Nat → Ex K} {c : Nat → Nat} (h : ∀ k, k < m → Ends cfg v (x k) (c k)) :
    ∃ N, ∀ n, N ≤ n → ∀ k, k < m → ∃ d, D cfg n (x k) (c k) v = some d := by
  induction m with
  | zero => exact ⟨0, fun n _ k hk => absurd hk (Nat.not_lt_zero _)⟩
  | succ m ih =>
    obtain ⟨N1, h1⟩ := ih fun k hk => h k (by omega)
    obtain ⟨N2, h2⟩ := h m (by omega)
    refine ⟨max N1 N2, fun n hn k hk => ?_⟩
    rcases Nat.lt_succ_iff_lt_or_eq.1 hk with hk | rfl
    · exact h1 n (by omega) k hk
    · exact h2 n (by omega)

theorem ends_nodep {v : Var} {e : Ex K} (h : e.dep v = false) (c : Nat) : Ends cfg v e c := by
  refine ⟨1, fun n hn => ⟨null e.rows v.dim, ?_⟩⟩
  obtain ⟨n, rfl⟩ : ∃ m, n = m + 1 := ⟨n - 1, by omega⟩
  unfold D; rw [h]; rfl

/-- One step of the recursion. -/
theorem ends_step {v : Var} {e : Ex K} {c : Nat} (N : Nat)
    (h : e.dep v = true → ∀ n, N ≤ n → ∃ d, D cfg (n + 1) e c v = some d) : Ends cfg v e c := by
  by_cases hd : e.dep v = false
  · exact ends_nodep hd c
  · refine ⟨N + 1, fun n hn => ?_⟩
    obtain ⟨n, rfl⟩ : ∃ m, n = m + 1 := ⟨n - 1, by omega⟩
    exact h (by simpa using hd) n (by omega)

theorem ends (hs : Sound cfg) (v : Var) : ∀ (r : Nat) (e : Ex K), rank (fun _ => 1) e ≤ r → Kept P e → ∀ c, c < e.cols → Ends cfg v e c := by
  intro r
  induction r using Nat.strong_induction_on with
  | _ r ihr =>
    have low : ∀ (e x : Ex K), rank (fun _ => 1) e ≤ r → rank (fun _ => 1) x < rank (fun _ => 1) e → Kept P x → ∀ c, c < x.cols → Ends cfg v x c :=
      fun e x h1 h2 hk => ihr (rank (fun _ => 1) x) (by omega) x (le_refl _) hk
    intro e
    induction e with
    | const r c M => intro _ _ c _; exact ends_nodep rfl c
    | null r c => intro _ _ c _; exact ends_nodep rfl c
    | ident n => intro _ _ c _; exact ends_nodep rfl c
    | sparse r c l => intro _ _ c _; exact ends_nodep rfl c
    | var w =>
      intro _ _ c _
      refine ends_step 0 fun hd n _ => ?_
      unfold D; rw [hd]; exact ⟨_, rfl⟩
    | add a b iha ihb =>
      intro hr he c hc
      rw [rank] at hr
      obtain ⟨N1, h1⟩ := iha (by omega) he.1 c hc
      obtain ⟨N2, h2⟩ := ihb (by omega) he.2.1 c (by rw [cols, he.2.2]; exact hc)
      refine ends_step (max N1 N2) fun hd n hn => ?_
      obtain ⟨da, h1⟩ := h1 n (by omega)
      obtain ⟨db, h2⟩ := h2 n (by omega)
      unfold D; rw [hd]
      simp only [Bool.not_true, Bool.false_eq_true, if_false, h1, h2]
      split_ifs <;> exact ⟨_, rfl⟩
    | sub a b iha ihb =>
      intro hr he c hc
      rw [rank] at hr
      obtain ⟨N1, h1⟩ := iha (by omega) he.1 c hc
      obtain ⟨N2, h2⟩ := ihb (by omega) he.2.1 c (by rw [cols, he.2.2]; exact hc)
      refine ends_step (max N1 N2) fun hd n hn => ?_
      obtain ⟨da, h1⟩ := h1 n (by omega)
      obtain ⟨db, h2⟩ := h2 n (by omega)
      unfold D; rw [hd]
      simp only [Bool.not_true, Bool.false_eq_true, if_false, h1, h2]
      split_ifs <;> exact ⟨_, rfl⟩
    | neg a iha =>
      intro hr he c hc
      obtain ⟨N1, h1⟩ := iha hr he c hc
      refine ends_step N1 fun hd n hn => ?_
      obtain ⟨da, h1⟩ := h1 n (by omega)
      unfold D; rw [hd]
      simp only [Bool.not_true, Bool.false_eq_true, if_false, h1]
      exact ⟨_, rfl⟩
    | mul a b iha ihb =>
      intro hr he c hc
      rw [rank] at hr
      have ha := iha (by omega) he.1
      have hb := ihb (by omega) he.2.1
      obtain ⟨N0, h0⟩ := ha 0 (pos he.1).2
      obtain ⟨M0, g0⟩ := hb 0 (pos he.2.1).2
      by_cases sa : a.isScalar = true
      · have hcb : c < b.cols := by rw [cols, ← mul_size_l he sa]; exact hc
        obtain ⟨N2, h2⟩ := hb c hcb
        by_cases sb : b.isScalar = true
        · obtain rfl : c = 0 := by rw [cols, (isScalar_iff b).1 sb] at hcb; simpa using hcb
          refine ends_step (max N0 N2) fun hd n hn => ?_
          obtain ⟨da, h0⟩ := h0 n (by omega)
          obtain ⟨db, h2⟩ := h2 n (by omega)
          unfold D; rw [hd]
          simp only [Bool.not_true, Bool.false_eq_true, if_false, sa, sb, Bool.and_true, if_true, h0, h2]
          split_ifs <;> exact ⟨_, rfl⟩
        · refine ends_step (max N0 N2) fun hd n hn => ?_
          obtain ⟨da, h0⟩ := h0 n (by omega)
          obtain ⟨db, h2⟩ := h2 n (by omega)
          unfold D; rw [hd]
          simp only [Bool.not_true, Bool.false_eq_true, if_false, sa, sb, Bool.and_false, if_true, h0, h2]
          split_ifs <;> exact ⟨_, rfl⟩
      · have hm := he.2.2.resolve_right sa
        by_cases sb : b.isScalar = true
        · have hca : c < a.cols := by rw [cols, ← mul_size_r he sb]; exact hc
          obtain ⟨N2, h2⟩ := ha c hca
          refine ends_step (max M0 N2) fun hd n hn => ?_
          obtain ⟨db, g0⟩ := g0 n (by omega)
          obtain ⟨da, h2⟩ := h2 n (by omega)
          unfold D; rw [hd]
          simp only [Bool.not_true, Bool.false_eq_true, if_false, sa, sb, Bool.false_and, if_true, g0, h2]
          split_ifs <;> exact ⟨_, rfl⟩
        · have hcb : c < b.cols := by
            have := mul_size_s he hm
            rw [cols, this] at hc; exact hc
          obtain ⟨N2, h2⟩ := hb c hcb
          obtain ⟨N1, h1⟩ := ends_all (x := fun _ => a) (c := fun k => k) fun k (hk : k < a.cols) => ha k hk
          refine ends_step (max N1 N2) fun hd n hn => ?_
          obtain ⟨db, h2⟩ := h2 n (by omega)
          obtain ⟨g, h1⟩ := collect_isSome (h1 n (by omega))
          unfold D; rw [hd]
          simp only [Bool.not_true, Bool.false_eq_true, if_false, sa, sb, Bool.false_and, h1, h2]
          split_ifs <;> exact ⟨_, rfl⟩
    | pow a α iha =>
      intro hr he c hc
      obtain rfl : c = 0 := by simpa [cols, size] using hc
      obtain ⟨N1, h1⟩ := iha hr he.1 0 (pos he.1).2
      refine ends_step N1 fun hd n hn => ?_
      obtain ⟨da, h1⟩ := h1 n (by omega)
      unfold D; rw [hd]
      simp only [Bool.not_true, Bool.false_eq_true, if_false, h1]
      split_ifs <;> exact ⟨_, rfl⟩
    | div a b iha ihb =>
      intro hr he c hc
      have hk : Kept P (pow b (-1)) := ⟨he.2.1, he.2.2.2.1, he.2.2.2.2⟩
      have vp := val_mulOp cfg (Val.self he.1) (Val.self hk) fun pw σ => Or.inr (Or.inr ⟨rfl, rfl⟩)
      have hsz : (mulOp cfg a (pow b (-1))).cols = a.cols := by
        rw [cols, vp.size pw0 ρ0, SM.mul_scalar_right (B := (pow b (-1)).ev pw0 ρ0) _ ⟨rfl, rfl⟩, SM.smul_c, (dimsK he.1 _ _).2]
      obtain ⟨N1, h1⟩ := low _ (mulOp cfg a (pow b (-1))) hr (by
        have := rank_mulOp (wt := fun _ => 1) cfg a (pow b (-1))
        simp only [rank] at this ⊢; omega) vp.1 c (by
          have : c < b.cols := hc
          rw [cols, he.2.2.2.1] at this
          rw [hsz, he.2.2.1]; exact this)
      refine ends_step N1 fun hd n hn => ?_
      obtain ⟨da, h1⟩ := h1 n (by omega)
      unfold D; rw [hd]
      simp only [Bool.not_true, Bool.false_eq_true, if_false, h1]
      exact ⟨_, rfl⟩
    | skew a iha =>
      intro hr he c hc
      rw [rank] at hr
      obtain ⟨N1, h1⟩ := iha (by omega) he.1 0 (pos he.1).2
      refine ends_step N1 fun hd n hn => ?_
      obtain ⟨da, h1⟩ := h1 n (by omega)
      unfold D; rw [hd]
      simp only [Bool.not_true, Bool.false_eq_true, if_false, h1]
      exact ⟨_, rfl⟩
    | transpose a iha =>
      intro hr he c hc
      have hk : Kept P a := he
      have hc' : c < a.rows := hc
      obtain ⟨N1, h1⟩ := ends_all (m := (transpose a).rows) (x := fun j => a.elemAcc cfg c j) (c := fun _ => 0) fun k hk' => by
        have v1 := (access hs hk).2.2 c k hc' hk'
        refine low _ _ hr ?_ v1.1 0 (by rw [cols, v1.size pw0 ρ0]; exact Nat.one_pos)
        have := (rank_access (wt := fun _ => 1) (cfg := cfg) hk).2.2 c k hc' hk'
        simp only [rank]; omega
      refine ends_step N1 fun hd n hn => ?_
      obtain ⟨g, h1⟩ := collect_isSome (h1 n (by omega))
      unfold D; rw [hd]
      simp only [Bool.not_true, Bool.false_eq_true, if_false, h1]
      exact ⟨_, rfl⟩
    | vee a iha =>
      intro hr he c hc
      have hk : Kept P a := he.1
      have ar : a.rows = 3 := by rw [rows, he.2]
      have ac : a.cols = 3 := by rw [cols, he.2]
      have one : ∀ i j, i < 3 → j < 3 → Ends cfg v (a.elemAcc cfg i j) 0 := by
        intro i j hi hj
        have v1 := (access hs hk).2.2 i j (by omega) (by omega)
        refine low _ _ hr ?_ v1.1 0 (by rw [cols, v1.size pw0 ρ0]; exact Nat.one_pos)
        have := (rank_access (wt := fun _ => 1) (cfg := cfg) hk).2.2 i j (by omega) (by omega)
        simp only [rank]; omega
      obtain ⟨N0, h0⟩ := one 2 1 (by omega) (by omega)
      obtain ⟨N1, h1⟩ := one 0 2 (by omega) (by omega)
      obtain ⟨N2, h2⟩ := one 1 0 (by omega) (by omega)
      refine ends_step (max N0 (max N1 N2)) fun hd n hn => ?_
      have key : ∀ f : Nat → Option (Ex K), (∃ g, collect 3 f = some g) →
          ∃ d, ((collect 3 f) >>= fun g => some (byRows 3 g)) = some d := by
        rintro f ⟨g, hg⟩; rw [hg]; exact ⟨_, rfl⟩
      unfold D; rw [hd]
      simp only [Bool.not_true, Bool.false_eq_true, if_false]
      apply key
      apply collect_isSome
      intro k hk
      interval_cases k
      · exact h0 n (by omega)
      · exact h1 n (by omega)
      · exact h2 n (by omega)
    | row a i iha =>
      intro hr he c hc
      obtain ⟨N1, h1⟩ := iha hr he.1 c hc
      refine ends_step N1 fun hd n hn => ?_
      obtain ⟨da, h1⟩ := h1 n (by omega)
      unfold D; rw [hd]
      simp only [Bool.not_true, Bool.false_eq_true, if_false, h1]
      exact ⟨_, rfl⟩
    | col a k iha =>
      intro hr he c hc
      obtain ⟨N1, h1⟩ := iha hr he.1 k he.2
      refine ends_step N1 fun hd n hn => ?_
      obtain ⟨da, h1⟩ := h1 n (by omega)
      unfold D; rw [hd]
      simp only [Bool.not_true, Bool.false_eq_true, if_false, h1]
      exact ⟨_, rfl⟩
    | elem a i k iha =>
      intro hr he c hc
      obtain ⟨N1, h1⟩ := iha hr he.1 k he.2.2
      refine ends_step N1 fun hd n hn => ?_
      obtain ⟨da, h1⟩ := h1 n (by omega)
      unfold D; rw [hd]
      simp only [Bool.not_true, Bool.false_eq_true, if_false, h1]
      exact ⟨_, rfl⟩
    | block a i k r cc iha =>
      intro hr he c hc
      have hc' : c < cc := hc
      obtain ⟨N1, h1⟩ := iha hr he.1 (k + c) (by have := he.2.2.2.2; omega)
      refine ends_step N1 fun hd n hn => ?_
      obtain ⟨da, h1⟩ := h1 n (by omega)
      unfold D; rw [hd]
      simp only [Bool.not_true, Bool.false_eq_true, if_false, h1]
      exact ⟨_, rfl⟩
    | byRows m f ihf =>
      intro hr he c hc
      have hc' : c < (f 0).cols := hc
      obtain ⟨N1, h1⟩ := ends_all (m := m) (x := fun i => (f i).elemAcc cfg 0 c) (c := fun _ => 0) fun k hk => by
        have h0 : 0 < (f k).rows := by rw [rows, (he.2 k hk).2]; exact Nat.one_pos
        have h3 : c < (f k).cols := by rw [cols, (he.2 k hk).2]; exact hc'
        have v1 := (access hs (he.2 k hk).1).2.2 0 c h0 h3
        refine low _ _ hr ?_ v1.1 0 (by rw [cols, v1.size pw0 ρ0]; exact Nat.one_pos)
        have h4 := (rank_access (wt := fun _ => 1) (cfg := cfg) (he.2 k hk).1).2.2 0 c h0 h3
        have h5 := le_sum_range (fun k => rank (fun _ => 1) (f k)) hk
        simp only [rank]; omega
      refine ends_step N1 fun hd n hn => ?_
      obtain ⟨g, h1⟩ := collect_isSome (h1 n (by omega))
      unfold D; rw [hd]
      simp only [Bool.not_true, Bool.false_eq_true, if_false, h1]
      exact ⟨_, rfl⟩
    | byCols m f ihf =>
      intro hr he c hc
      have hc' : c < m := hc
      have h5 := le_sum_range (fun k => rank (fun _ => 1) (f k)) hc'
      rw [rank] at hr
      obtain ⟨N1, h1⟩ := ihf c (le_trans h5 hr) (he.2 c hc').1 0 (by rw [cols, (he.2 c hc').2]; exact Nat.one_pos)
      refine ends_step N1 fun hd n hn => ?_
      obtain ⟨da, h1⟩ := h1 n (by omega)
      unfold D; rw [hd]
      simp only [Bool.not_true, Bool.false_eq_true, if_false, h1]
      exact ⟨_, rfl⟩
    | hcat a b iha ihb =>
      intro hr he c hc
      rw [rank] at hr
      have hc' : c < a.cols + b.cols := hc
      by_cases h3 : c < a.cols
      · obtain ⟨N1, h1⟩ := iha (by omega) he.1 c h3
        refine ends_step N1 fun hd n hn => ?_
        obtain ⟨da, h1⟩ := h1 n (by omega)
        unfold D; rw [hd]
        simp only [Bool.not_true, Bool.false_eq_true, if_false, h1, h3, if_true]
        exact ⟨_, rfl⟩
      · obtain ⟨N1, h1⟩ := ihb (by omega) he.2.1 (c - a.cols) (by omega)
        refine ends_step N1 fun hd n hn => ?_
        obtain ⟨da, h1⟩ := h1 n (by omega)
        unfold D; rw [hd]
        simp only [Bool.not_true, Bool.false_eq_true, if_false, h1, h3]
        exact ⟨_, rfl⟩
    | vcat a b iha ihb =>
      intro hr he c hc
      rw [rank] at hr
      have hc' : c < a.cols := hc
      obtain ⟨N1, h1⟩ := iha (by omega) he.1 c hc'
      obtain ⟨N2, h2⟩ := ihb (by omega) he.2.1 c (by rw [he.2.2]; exact hc')
      refine ends_step (max N1 N2) fun hd n hn => ?_
      obtain ⟨da, h1⟩ := h1 n (by omega)
      obtain ⟨db, h2⟩ := h2 n (by omega)
      unfold D; rw [hd]
      simp only [Bool.not_true, Bool.false_eq_true, if_false, h1, h2]
      exact ⟨_, rfl⟩
    | mpd m ds x ihd ihx =>
      intro hr he c hc
      have hc' : c < (ds 0).cols := hc
      have hdc : ∀ k, k < m → c < (ds k).cols := fun k hk => by rw [cols, (he.2.1 k hk).2]; exact hc'
      have vc := val_mpd_col he hc' fun k hk => (access hs (he.2.1 k hk).1).2.1 c (hdc k hk)
      have h1 := rank_mulOp (wt := fun _ => 1) cfg (byCols m fun k => colAcc cfg (ds k) c) x
      have h2 : ∑ k ∈ Finset.range m, rank (fun _ => 1) (colAcc cfg (ds k) c) ≤ ∑ k ∈ Finset.range m, rank (fun _ => 1) (ds k) :=
        Finset.sum_le_sum fun k hk => by
          have hk := Finset.mem_range.1 hk
          exact (rank_access (he.2.1 k hk).1).2.1 c (hdc k hk)
      obtain ⟨N1, h3⟩ := low _ (mulOp cfg (byCols m fun k => colAcc cfg (ds k) c) x) hr (by
        simp only [rank] at h1 ⊢; omega) vc.1 0 (by rw [cols, vc.size pw0 ρ0]; exact Nat.one_pos)
      refine ends_step N1 fun hd n hn => ?_
      obtain ⟨da, h3⟩ := h3 n (by omega)
      unfold D; rw [hd]
      simp only [Bool.not_true, Bool.false_eq_true, if_false, h3]
      exact ⟨_, rfl⟩

end Verif.Levi
