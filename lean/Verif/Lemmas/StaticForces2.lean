import Verif.Lemmas.StaticForces
/- The accumulation of the derivatives of the static forces. -/
namespace Verif.Rigid
open Matrix
variable {L J : Type} [DecidableEq L] [DecidableEq J]
namespace Traversal
variable {m : Model L J} (t : Traversal m)

theorem setAt_apply (D : L → J → Spatial) (l : L) (z : J) (x : Spatial) (a : L) (y : J) : setAt D l z x a y = if a = l ∧ y = z then x else D a y := by
  unfold setAt
  by_cases ha : a = l
  · subst ha
    by_cases hy : y = z
    · subst hy; simp
    · simp [hy]
  · simp [ha]

theorem visitJoint_apply (H : SE3) (a : Spatial) (q : J → ℝ) {l : L} (hl : l ≠ t.root) (D : L → J → Spatial) (v b : L) (y : J) :
    t.visitJoint H a q l D v b y =
      if y = t.joint v ∧ b = l then D l y - t.inertialPart H a q l y
      else if y = t.joint v ∧ b = t.parent l ∧ t.parent l ≠ t.root then
        D (t.parent l) y + (t.rel H q (t.parent l) l).actF (D l y - t.inertialPart H a q l y)
      else D b y := by
  have hp : t.parent l ≠ l := by
    intro e; have := t.depth_lt l hl; rw [e] at this; omega
  unfold visitJoint
  by_cases hr : t.parent l = t.root
  · simp only [hr, ne_eq, not_true_eq_false, if_false, setAt_apply, and_false]
    by_cases hy : y = t.joint v
    · subst hy; simp [inertialPart]
    · simp [hy]
  · simp only [hr, ne_eq, not_false_eq_true, if_true, setAt_apply, and_true]
    by_cases hy : y = t.joint v
    · subst hy
      by_cases hb : b = l
      · subst hb; simp [Ne.symm hp, inertialPart]
      · simp [hb, hp, inertialPart]
    · simp [hy]

theorem visitJoints_apply (H : SE3) (a : Spatial) (q : J → ℝ) {l : L} (hl : l ≠ t.root) (xs : List L) (hn : xs.Nodup) (hr : ∀ v ∈ xs, v ≠ t.root)
    (D : L → J → Spatial) (b : L) (y : J) :
    xs.foldl (t.visitJoint H a q l) D b y =
      if t.child y ∈ xs ∧ b = l then D l y - t.inertialPart H a q l y
      else if t.child y ∈ xs ∧ b = t.parent l ∧ t.parent l ≠ t.root then
        D (t.parent l) y + (t.rel H q (t.parent l) l).actF (D l y - t.inertialPart H a q l y)
      else D b y := by
  have hp : t.parent l ≠ l := by
    intro e; have := t.depth_lt l hl; rw [e] at this; omega
  induction xs generalizing D with
  | nil => simp
  | cons v xs ih =>
    rw [List.nodup_cons] at hn
    rw [List.foldl_cons, ih hn.2 (fun v hv => hr v (List.mem_cons_of_mem _ hv))]
    have hv := hr v (List.mem_cons_self)
    by_cases hy : y = t.joint v
    · subst hy
      rw [t.child_joint v hv]
      simp only [hn.1, false_and, if_false, List.mem_cons_self, true_and]
      rw [t.visitJoint_apply H a q hl]
      simp
    · have hc : t.child y ≠ v := fun e => hy (by rw [← e, t.joint_child])
      simp only [List.mem_cons, hc, false_or]
      rw [t.visitJoint_apply H a q hl D v l y, t.visitJoint_apply H a q hl D v (t.parent l) y, t.visitJoint_apply H a q hl D v b y]
      simp [hy]

theorem ancestors_apply (H : SE3) (q : J → ℝ) (l : L) (j : J) (xs : List L) (hn : xs.Nodup) (hl : l ∉ xs) (D : L → J → Spatial) (b : L) (y : J) :
    xs.foldl (fun D anc => setAt D anc j (D anc j + (t.rel H q anc l).actF (D l j))) D b y =
      if y = j ∧ b ∈ xs then D b j + (t.rel H q b l).actF (D l j) else D b y := by
  induction xs generalizing D with
  | nil => simp
  | cons v xs ih =>
    rw [List.nodup_cons] at hn
    have hlv : l ≠ v := fun e => hl (by rw [e]; exact List.mem_cons_self)
    rw [List.foldl_cons, ih hn.2 (fun h => hl (List.mem_cons_of_mem _ h))]
    simp only [setAt_apply, List.mem_cons, hlv, false_and, if_false]
    by_cases hy : y = j
    · subst hy
      by_cases hb : b = v
      · subst hb; simp [hn.1]
      · simp [hb]
    · simp [hy]

theorem parent_ne_self {l : L} (hl : l ≠ t.root) : t.parent l ≠ l := by
  intro e; have := t.depth_lt l hl; rw [e] at this; omega

/-- The derivatives with respect to the joints above, after the visit of `l`. -/
noncomputable def visited (H : SE3) (a : Spatial) (ext : L → Spatial) (q : J → ℝ) (D : L → J → Spatial) (l : L) (y : J) : Spatial :=
  (D l y + if y = t.joint l then t.childStaticForceDerivative H a ext q y else 0) - if t.child y ∈ t.up l then t.inertialPart H a q l y else 0

theorem visitLink_apply (H : SE3) (a : Spatial) (ext : L → Spatial) (q : J → ℝ) {l : L} (hl : l ≠ t.root) (D : L → J → Spatial) (b : L) (y : J) :
    t.visitLink H a ext q D l b y =
      if b = l then t.visited H a ext q D l y
      else if t.child y ∈ t.up l ∧ b = t.parent l ∧ t.parent l ≠ t.root then D b y + (t.rel H q b l).actF (t.visited H a ext q D l y)
      else if y = t.joint l ∧ t.parent l ≠ t.root ∧ b ∈ t.up (t.parent (t.parent l)) then D b y + (t.rel H q b l).actF (t.visited H a ext q D l y)
      else D b y := by
  have hpl := t.parent_ne_self hl
  have hc : t.child (t.joint l) ∈ t.up l := by rw [t.child_joint l hl]; exact t.mem_up_self hl
  unfold visitLink
  have hE : ∀ b y, (t.up l).foldl (t.visitJoint H a q l) (setAt D l (t.joint l) (D l (t.joint l) + t.childStaticForceDerivative H a ext q (t.joint l))) b y =
      if b = l then t.visited H a ext q D l y
      else if t.child y ∈ t.up l ∧ b = t.parent l ∧ t.parent l ≠ t.root then D b y + (t.rel H q b l).actF (t.visited H a ext q D l y)
      else D b y := by
    intro b y
    rw [t.visitJoints_apply H a q hl (t.up l) (t.up_nodup l) (fun _ h => t.ne_root_of_mem h)]
    have hset : ∀ y, setAt D l (t.joint l) (D l (t.joint l) + t.childStaticForceDerivative H a ext q (t.joint l)) l y =
        D l y + if y = t.joint l then t.childStaticForceDerivative H a ext q y else 0 := by
      intro y
      rw [setAt_apply]
      by_cases hy : y = t.joint l
      · subst hy; simp
      · simp [hy]
    have hset' : ∀ b, b ≠ l → ∀ y, setAt D l (t.joint l) (D l (t.joint l) + t.childStaticForceDerivative H a ext q (t.joint l)) b y = D b y := by
      intro b hb y
      rw [setAt_apply]; simp [hb]
    by_cases hb : b = l
    · subst hb
      by_cases hy : t.child y ∈ t.up b
      · simp only [hy, true_and, if_true, hset, visited]
      · have hyj : y ≠ t.joint b := fun e => hy (e ▸ hc)
        simp [hy, visited, hyj, hset]
    · simp only [hb, and_false, if_false]
      by_cases hy : t.child y ∈ t.up l ∧ b = t.parent l ∧ t.parent l ≠ t.root
      · obtain ⟨hy, rfl, hr⟩ := hy
        simp only [hy, hr, ne_eq, not_false_eq_true, and_self, if_true, hset, hset' _ hpl, visited]
      · rw [if_neg hy, if_neg hy, hset' b hb]
  by_cases hr : t.parent l = t.root
  · simp only [hr, ne_eq, not_true_eq_false, if_false, hE, and_false, false_and]
  · have hnl : l ∉ t.up (t.parent (t.parent l)) := by
      intro h
      have h1 := t.depth_of_mem h; have h2 := t.depth_lt _ hr; have h3 := t.depth_lt l hl; omega
    have hpp := t.not_mem_up_parent hr
    simp only [hr, ne_eq, not_false_eq_true, if_true]
    rw [t.ancestors_apply H q l (t.joint l) _ (t.up_nodup _) hnl]
    simp only [hE, if_true]
    by_cases hb : b = l
    · subst hb; simp [hnl]
    · by_cases hbp : b = t.parent l
      · subst hbp; simp [hpl, hr, hpp]
      · simp only [hb, hbp, if_false, false_and, and_false, true_and]
        by_cases hy : y = t.joint l
        · subst hy; simp
        · simp [hy]

/-! ### The invariant of the loop -/

/-- The final values with respect to the joints above a link. -/
noncomputable def final (H : SE3) (a : Spatial) (ext : L → Spatial) (q : J → ℝ) (l : L) (z : J) : Spatial :=
  (if z = t.joint l then t.childStaticForceDerivative H a ext q z else 0) - t.below H a q l z

structure Inv (H : SE3) (a : Spatial) (ext : L → Spatial) (q : J → ℝ) (ys : List L) (D : L → J → Spatial) : Prop where
  above : ∀ b, b ≠ t.root → ∀ z, t.child z ∈ t.up b →
    D b z = (if b ∈ ys then (if z = t.joint b then t.childStaticForceDerivative H a ext q z else 0) - t.inertialPart H a q b z else 0) +
      total m fun d => if d ∈ ys ∧ d ≠ t.root ∧ t.parent d = b then (t.rel H q b d).actF (t.final H a ext q d z) else 0
  under : ∀ b, ∀ z, b ∈ t.up (t.child z) → b ≠ t.child z →
    D b z = if t.child z ∈ ys then (t.rel H q b (t.child z)).actF (t.final H a ext q (t.child z) z) else 0
  aside : ∀ b, b ≠ t.root → ∀ z, t.child z ∉ t.up b → b ∉ t.up (t.child z) → D b z = 0

/-- When all the children have been visited. -/
theorem sum_children (H : SE3) (a : Spatial) (ext : L → Spatial) (q : J → ℝ) {l : L} (hl : l ≠ t.root) (z : J) (hz : t.child z ∈ t.up l)
    (ys : List L) (hys : ∀ d, d ≠ t.root → t.parent d = l → d ∈ ys) :
    ((if z = t.joint l then t.childStaticForceDerivative H a ext q z else 0) - t.inertialPart H a q l z) +
      total m (fun d => if d ∈ ys ∧ d ≠ t.root ∧ t.parent d = l then (t.rel H q l d).actF (t.final H a ext q d z) else 0) = t.final H a ext q l z := by
  have h1 : ∀ d, (if d ∈ ys ∧ d ≠ t.root ∧ t.parent d = l then (t.rel H q l d).actF (t.final H a ext q d z) else 0) =
      -(if d ≠ t.root ∧ t.parent d = l then total m (fun e => if d ∈ t.up e then (t.rel H q l e).actF (t.inertialPart H a q e z) else 0) else 0) := by
    intro d
    by_cases h : d ≠ t.root ∧ t.parent d = l
    · have hd := hys d h.1 h.2
      have hzd : z ≠ t.joint d := by
        intro e
        rw [e, t.child_joint d h.1, ← h.2] at hz
        exact t.not_mem_up_parent h.1 hz
      rw [if_pos ⟨hd, h⟩, if_pos h, final, if_neg hzd, zero_sub, SE3.actF_neg, below, total_hom _ (SE3.actF_add _) (SE3.actF_zero _)]
      congr 1
      refine total_congr fun e => ?_
      split_ifs
      · rw [← SE3.actF_mul, rel_mul]
      · simp
    · rw [if_neg (fun h' => h h'.2), if_neg h, neg_zero]
  rw [total_congr h1, ← total_hom (fun x => -x) (fun a b => by rw [neg_add]) neg_zero, final, below, t.below_sum hl, rel_self, SE3.actF_one]
  abel

theorem Inv.step {H : SE3} {a : Spatial} {ext : L → Spatial} {q : J → ℝ} {ys : List L} {D : L → J → Spatial} {l : L} (h : t.Inv H a ext q ys D)
    (hl : l ≠ t.root) (hnew : l ∉ ys) (hys : ∀ d, d ≠ t.root → t.parent d = l → d ∈ ys) :
    t.Inv H a ext q (l :: ys) (t.visitLink H a ext q D l) := by
  have hpl := t.parent_ne_self hl
  have hll := t.mem_up_self hl
  have hcl := t.child_joint l hl
  -- the value of the link is the final one
  have hX : ∀ z, t.child z ∈ t.up l → t.visited H a ext q D l z = t.final H a ext q l z := by
    intro z hz
    rw [← t.sum_children H a ext q hl z hz ys hys, visited, h.above l hl z hz, if_neg hnew, zero_add, if_pos hz]
    abel
  refine ⟨?_, ?_, ?_⟩
  · intro b hb z hz
    rw [t.visitLink_apply H a ext q hl]
    by_cases e : b = l
    · subst e
      rw [if_pos rfl, hX z hz, if_pos (List.mem_cons_self), ← t.sum_children H a ext q hl z hz (b :: ys) (fun d h1 h2 => List.mem_cons_of_mem _ (hys d h1 h2))]
    · rw [if_neg e]
      by_cases ep : b = t.parent l
      · subst ep
        have hzl : t.child z ∈ t.up l := (t.mem_up_iff hl).2 (Or.inr hz)
        rw [if_pos ⟨hzl, rfl, hb⟩, hX z hzl, h.above _ hb z hz, add_assoc]
        congr 1
        · simp [e]
        · rw [← total_single (m := m) l (fun d => (t.rel H q (t.parent l) d).actF (t.final H a ext q d z)), ← total_add]
          refine total_congr fun d => ?_
          by_cases hd : d = l
          · subst hd; simp [hnew, hl]
          · simp [hd]
      · rw [if_neg (fun h' => ep h'.2.1), if_neg, h.above b hb z hz]
        · congr 1
          · simp [e]
          · refine total_congr fun d => ?_
            by_cases hd : d = l
            · subst hd; simp [Ne.symm ep]
            · simp [hd]
        · rintro ⟨rfl, hr, hbu⟩
          rw [hcl] at hz
          have := t.depth_of_mem hz; have := t.depth_of_mem hbu; have := t.depth_lt _ hr; have := t.depth_lt l hl; omega
  · intro b z hbz hne
    have hb := t.ne_root_of_mem hbz
    have hnz : t.child z ∉ t.up b := fun h' => hne (t.mem_up_antisymm hbz h')
    rw [t.visitLink_apply H a ext q hl]
    by_cases ec : t.child z = l
    · have ez : z = t.joint l := by rw [← ec, t.joint_child]
      rw [ec] at hbz hne
      have hbp : b ∈ t.up (t.parent l) := ((t.mem_up_iff hl).1 hbz).resolve_left hne
      have hr : t.parent l ≠ t.root := by
        intro e; rw [e, up_root] at hbp; simp at hbp
      have hD : D b z = 0 := by
        rw [h.under b z (by rw [ec]; exact hbz) (by rw [ec]; exact hne), if_neg (by rw [ec]; exact hnew)]
      rw [if_neg hne, ec, if_pos (List.mem_cons_self), hX z (by rw [ec]; exact hll), hD, zero_add]
      by_cases ep : b = t.parent l
      · rw [if_pos ⟨hll, ep, hr⟩]
      · rw [if_neg (fun h' => ep h'.2.1), if_pos ⟨ez, hr, ((t.mem_up_iff hr).1 hbp).resolve_left ep⟩]
    · have ez : z ≠ t.joint l := fun e => ec (by rw [e, hcl])
      have hmem : (t.child z ∈ l :: ys) ↔ t.child z ∈ ys := by simp [ec]
      simp only [hmem]
      rw [← h.under b z hbz hne]
      by_cases e : b = l
      · subst e; rw [if_pos rfl, visited, if_neg ez, if_neg hnz, add_zero, sub_zero]
      · rw [if_neg e, if_neg, if_neg (fun h' => ez h'.1)]
        rintro ⟨h1, h2, _⟩
        rcases (t.mem_up_iff hl).1 h1 with h3 | h3
        · exact ec h3
        · exact hnz (h2 ▸ h3)
  · intro b hb z hz hbz
    rw [t.visitLink_apply H a ext q hl]
    have h0 := h.aside b hb z hz hbz
    by_cases e : b = l
    · subst e
      have ez : z ≠ t.joint b := fun e => hz (by rw [e, hcl]; exact hll)
      rw [if_pos rfl, visited, if_neg ez, if_neg hz, h0]; simp
    · rw [if_neg e, if_neg, if_neg, h0]
      · rintro ⟨rfl, hr, hbu⟩
        rw [hcl] at hbz
        exact hbz ((t.mem_up_iff hl).2 (Or.inr ((t.mem_up_iff hr).2 (Or.inr hbu))))
      · rintro ⟨h1, h2, _⟩
        rcases (t.mem_up_iff hl).1 h1 with h3 | h3
        · apply hbz
          rw [h3, h2]
          exact (t.mem_up_iff hl).2 (Or.inr (t.mem_up_self (h2 ▸ hb)))
        · exact hz (h2 ▸ h3)

theorem Inv.nil (H : SE3) (a : Spatial) (ext : L → Spatial) (q : J → ℝ) : t.Inv H a ext q [] (fun _ _ => 0) :=
  ⟨fun b _ z _ => by simp [total_zero], fun b z _ _ => by simp, fun b _ z _ _ => rfl⟩

/-- The visit of the last links of the order. -/
theorem Inv.visit {H : SE3} {a : Spatial} {ext : L → Spatial} {q : J → ℝ} (ys xs : List L) (hxs : xs ≠ []) (ho : t.order = xs ++ ys) :
    t.Inv H a ext q ys (ys.reverse.foldl (t.visitLink H a ext q) (fun _ _ => 0)) := by
  induction ys generalizing xs with
  | nil => exact Inv.nil t H a ext q
  | cons l ys ih =>
    have ho' : t.order = (xs ++ [l]) ++ ys := by rw [ho]; simp
    rw [List.reverse_cons, List.foldl_append, List.foldl_cons, List.foldl_nil]
    have hn := t.order_nodup
    have hl : l ≠ t.root := by
      rintro e
      obtain ⟨x, xs', rfl⟩ := List.exists_cons_of_ne_nil hxs
      have hh := t.order_head
      rw [ho] at hh hn
      simp only [List.cons_append, List.head?_cons, Option.some.injEq] at hh
      rw [List.cons_append, List.nodup_cons] at hn
      exact hn.1 (by rw [hh, ← e]; simp)
    refine Inv.step t (ih (xs ++ [l]) (by simp) ho') hl ?_ ?_
    · rw [ho] at hn
      exact (List.nodup_cons.1 (List.nodup_append.1 hn).2.1).1
    · intro d hd hp
      have hmem := t.order_complete d
      rw [ho', List.mem_append] at hmem
      rcases hmem with hmem | hmem
      · exfalso
        obtain ⟨u, w, huw⟩ := List.append_of_mem hmem
        have hpar := t.order_parent u d (w ++ ys) (by rw [ho', huw]; simp) hd
        rw [hp] at hpar
        -- the link would be before its child and last
        rcases List.eq_nil_or_concat w with rfl | ⟨w', z, rfl⟩
        · have := List.append_inj' huw rfl
          simp only [List.cons.injEq, and_true] at this
          obtain ⟨_, rfl⟩ := this
          exact t.parent_ne_self hd hp
        · have h1 : xs ++ [l] = (u ++ d :: w') ++ [z] := by rw [huw]; simp
          have h2 := List.append_inj' h1 rfl
          rw [ho, h2.1] at hn
          rw [List.nodup_append] at hn
          exact hn.2.2 l (List.mem_append_left _ hpar) l (List.mem_cons_self) rfl
      · exact hmem

theorem childrenForceDerivatives_inv (H : SE3) (a : Spatial) (ext : L → Spatial) (q : J → ℝ) :
    t.Inv H a ext q t.order.tail (t.childrenForceDerivatives H a ext q) := by
  have hh := t.order_head
  cases ho : t.order with
  | nil => simp [ho] at hh
  | cons x xs => 
    unfold childrenForceDerivatives
    rw [ho]
    exact Inv.visit t xs [x] (by simp) (by rw [ho]; simp)

theorem mem_tail {l : L} (hl : l ≠ t.root) : l ∈ t.order.tail := by
  have hh := t.order_head
  have hc := t.order_complete l
  cases ho : t.order with
  | nil => simp [ho] at hh
  | cons x xs =>
    rw [ho] at hh hc
    simp only [List.head?_cons, Option.some.injEq] at hh
    simpa [hh, hl] using hc

theorem childrenForceDerivatives_above (H : SE3) (a : Spatial) (ext : L → Spatial) (q : J → ℝ) {b : L} {z : J} (h : t.child z ∈ t.up b) :
    t.childrenForceDerivatives H a ext q b z = t.final H a ext q b z := by
  have hb : b ≠ t.root := by rintro rfl; simp [up_root] at h
  rw [(t.childrenForceDerivatives_inv H a ext q).above b hb z h, if_pos (t.mem_tail hb)]
  exact t.sum_children H a ext q hb z h t.order.tail (fun d hd _ => t.mem_tail hd)

theorem childrenForceDerivatives_under (H : SE3) (a : Spatial) (ext : L → Spatial) (q : J → ℝ) {b : L} {z : J} (h : b ∈ t.up (t.child z)) (hne : b ≠ t.child z) :
    t.childrenForceDerivatives H a ext q b z = (t.rel H q b (t.child z)).actF (t.final H a ext q (t.child z) z) := by
  rw [(t.childrenForceDerivatives_inv H a ext q).under b z h hne, if_pos (t.mem_tail (t.child_ne z))]

theorem childrenForceDerivatives_aside (H : SE3) (a : Spatial) (ext : L → Spatial) (q : J → ℝ) {b : L} {z : J} (hb : b ≠ t.root)
    (h : t.child z ∉ t.up b) (h' : b ∉ t.up (t.child z)) : t.childrenForceDerivatives H a ext q b z = 0 :=
  (t.childrenForceDerivatives_inv H a ext q).aside b hb z h h'

theorem hasDerivAt_power (s : Spatial) {f : ℝ → Spatial} {f' : Spatial} {x : ℝ} (hf : HasDerivAt f f' x) : HasDerivAt (fun y => power s (f y)) (power s f') x := by
  have h1 : HasDerivAt (fun t => (f t).1) f'.1 x := hf.fst
  have h2 : HasDerivAt (fun t => (f t).2) f'.2 x := hf.snd
  rw [hasDerivAt_pi] at h1 h2
  have := ((((h1 0).const_mul (s.1 0)).add ((h1 1).const_mul (s.1 1))).add ((h1 2).const_mul (s.1 2))).add
    ((((h2 0).const_mul (s.2 0)).add ((h2 1).const_mul (s.2 1))).add ((h2 2).const_mul (s.2 2)))
  simp only [power, dotProduct, Fin.sum_univ_three]
  exact this

theorem hasDerivAt_staticTorque (hm : m.Regular) (H : SE3) (a : Spatial) (ext : L → Spatial) (q : J → ℝ) (j z : J) :
    HasDerivAt (fun x => t.staticTorque H a ext (Function.update q z x) j) (t.staticTorquesDerivative H a ext q j z) (q z) := by
  unfold staticTorque staticTorquesDerivative
  by_cases h1 : t.child z ∈ t.up (t.child j)
  · refine (hasDerivAt_power _ (t.hasDerivAt_staticForce_above hm H a ext q z _ h1)).congr_deriv ?_
    rw [t.childrenForceDerivatives_above H a ext q h1, final, t.joint_child]
    by_cases e : z = j
    · subst e
      rw [if_pos rfl, sub_eq_add_neg, power_add, childStaticForceDerivative, power_crossF_self, zero_add]
    · rw [if_neg e, zero_sub]
  · by_cases h2 : t.child j ∈ t.up (t.child z)
    · have hne : t.child j ≠ t.child z := by
        intro e; rw [e] at h1; exact h1 (t.mem_up_self (t.child_ne z))
      refine (hasDerivAt_power _ (t.hasDerivAt_staticForce_below hm H a ext q z _ h2 hne)).congr_deriv ?_
      rw [t.childrenForceDerivatives_under H a ext q h2 hne, final, t.joint_child, if_pos rfl]
    · refine (hasDerivAt_power _ (t.hasDerivAt_staticForce_aside hm H a ext q z _ h2 h1)).congr_deriv ?_
      rw [t.childrenForceDerivatives_aside H a ext q (t.child_ne j) h1 h2]

/-- The recursive form of the static forces. -/
theorem newton_euler (H : SE3) (a : Spatial) (ext : L → Spatial) (q : J → ℝ) {l : L} (hl : l ≠ t.root) :
    t.staticForce H a ext q l = (m.inertia l).mul (t.acc a q l) - ext l +
      (m.links.map fun d => if d ≠ t.root ∧ t.parent d = l then (t.jointTransform q d).actF (t.staticForce H a ext q d) else 0).sum := by
  rw [staticForce_total, t.below_sum hl, rel_self, SE3.actF_one, links_sum]
  congr 1
  refine total_congr fun d => ?_
  by_cases h : d ≠ t.root ∧ t.parent d = l
  · rw [if_pos h, if_pos h, ← t.rel_parent H q h.1, h.2, staticForce_total, total_hom _ (SE3.actF_add _) (SE3.actF_zero _)]
    refine total_congr fun e => ?_
    split_ifs
    · rw [← SE3.actF_mul, rel_mul]
    · simp
  · rw [if_neg h, if_neg h]

end Traversal
end Verif.Rigid
