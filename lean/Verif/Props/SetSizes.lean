import Verif.Spec.SetSizes
import Mathlib.Data.List.Forall2
/- C104. -/
namespace Verif.Levi.Sizes
open Spec
variable {K : Type} [Field K]

/-- The sizes of two states of the objects are the same. -/
def SameSizes (ρ τ : Nat → SM K) : Prop := ∀ i, (ρ i).r = (τ i).r ∧ (ρ i).c = (τ i).c

theorem value_size {ρ τ : Nat → SM K} (h : SameSizes ρ τ) (f : Form K) (hf : Fits ρ f) :
    Fits τ f ∧ (value τ f).r = (value ρ f).r ∧ (value τ f).c = (value ρ f).c := by
  induction f with
  | leaf i => exact ⟨trivial, (h i).1.symm, (h i).2.symm⟩
  | const A => exact ⟨trivial, rfl, rfl⟩
  | add x y ihx ihy | sub x y ihx ihy =>
    obtain ⟨fx, fy, hr, hc⟩ := hf
    obtain ⟨gx, rx, cx⟩ := ihx fx
    obtain ⟨gy, ry, cy⟩ := ihy fy
    exact ⟨⟨gx, gy, by rw [rx, ry, hr], by rw [cx, cy, hc]⟩, rx, cx⟩
  | neg x ih => exact ih hf
  | tr x ih =>
    obtain ⟨g, r, c⟩ := ih hf
    exact ⟨g, c, r⟩
  | mul x y ihx ihy =>
    obtain ⟨fx, fy, hm⟩ := hf
    obtain ⟨gx, rx, cx⟩ := ihx fx
    obtain ⟨gy, ry, cy⟩ := ihy fy
    have hm' : (value τ x).c = (value τ y).r := by rw [cx, ry, hm]
    refine ⟨⟨gx, gy, hm'⟩, ?_, ?_⟩
    · simp only [value, SM.mul, if_pos hm, if_pos hm']; exact rx
    · simp only [value, SM.mul, if_pos hm, if_pos hm']; exact cy
  | block x i j r c ih =>
    obtain ⟨fx, hi, hj⟩ := hf
    obtain ⟨gx, rx, cx⟩ := ih fx
    exact ⟨⟨gx, by rw [rx]; exact hi, by rw [cx]; exact hj⟩, rfl, rfl⟩
  | hcat x y ihx ihy =>
    obtain ⟨fx, fy, hr⟩ := hf
    obtain ⟨gx, rx, cx⟩ := ihx fx
    obtain ⟨gy, ry, cy⟩ := ihy fy
    exact ⟨⟨gx, gy, by rw [rx, ry, hr]⟩, rx, congrArg₂ (· + ·) cx cy⟩
  | vcat x y ihx ihy =>
    obtain ⟨fx, fy, hc⟩ := hf
    obtain ⟨gx, rx, cx⟩ := ihx fx
    obtain ⟨gy, ry, cy⟩ := ihy fy
    exact ⟨⟨gx, gy, by rw [cx, cy, hc]⟩, congrArg₂ (· + ·) rx ry, cx⟩

/-- The node `n` was made for `f` and its buffers have the sizes of the values. -/
inductive Made (ρ : Nat → SM K) : Form K → Node K → Prop
  | leaf {i} : Made ρ (.leaf i) (.leaf i)
  | const {A} : Made ρ (.const A) (.const A)
  | add {b f g x y} : Made ρ f x → Made ρ g y → b.r = (value ρ (.add f g)).r → b.c = (value ρ (.add f g)).c → Made ρ (.add f g) (.add b x y)
  | sub {b f g x y} : Made ρ f x → Made ρ g y → b.r = (value ρ (.sub f g)).r → b.c = (value ρ (.sub f g)).c → Made ρ (.sub f g) (.sub b x y)
  | neg {b f x} : Made ρ f x → b.r = (value ρ (.neg f)).r → b.c = (value ρ (.neg f)).c → Made ρ (.neg f) (.neg b x)
  | mul {b f g x y} : Made ρ f x → Made ρ g y → b.r = (value ρ (.mul f g)).r → b.c = (value ρ (.mul f g)).c → Made ρ (.mul f g) (.mul b x y)
  | tr {b f x} : Made ρ f x → b.r = (value ρ (.tr f)).r → b.c = (value ρ (.tr f)).c → Made ρ (.tr f) (.tr b x)
  | block {b f x i j} : Made ρ f x → Made ρ (.block f i j b.r b.c) (.block b x i j)
  | hcat {b f g x y} : Made ρ f x → Made ρ g y → b.r = (value ρ (.hcat f g)).r → b.c = (value ρ (.hcat f g)).c → Made ρ (.hcat f g) (.hcat b x y)
  | vcat {b f g x y} : Made ρ f x → Made ρ g y → b.r = (value ρ (.vcat f g)).r → b.c = (value ρ (.vcat f g)).c → Made ρ (.vcat f g) (.vcat b x y)

theorem Made.mono {ρ τ : Nat → SM K} (h : SameSizes ρ τ) {f : Form K} {n : Node K} (hm : Made ρ f n) (hf : Fits ρ f) : Made τ f n := by
  have hs := value_size h
  induction hm with
  | leaf => exact .leaf
  | const => exact .const
  | add _ _ r c ix iy => exact .add (ix hf.1) (iy hf.2.1) (r.trans (hs _ hf).2.1.symm) (c.trans (hs _ hf).2.2.symm)
  | sub _ _ r c ix iy => exact .sub (ix hf.1) (iy hf.2.1) (r.trans (hs _ hf).2.1.symm) (c.trans (hs _ hf).2.2.symm)
  | neg _ r c ix => exact .neg (ix hf) (r.trans (hs _ hf).2.1.symm) (c.trans (hs _ hf).2.2.symm)
  | mul _ _ r c ix iy => exact .mul (ix hf.1) (iy hf.2.1) (r.trans (hs _ hf).2.1.symm) (c.trans (hs _ hf).2.2.symm)
  | tr _ r c ix => exact .tr (ix hf) (r.trans (hs _ hf).2.1.symm) (c.trans (hs _ hf).2.2.symm)
  | block _ ix => exact .block (ix hf.1)
  | hcat _ _ r c ix iy => exact .hcat (ix hf.1) (iy hf.2.1) (r.trans (hs _ hf).2.1.symm) (c.trans (hs _ hf).2.2.symm)
  | vcat _ _ r c ix iy => exact .vcat (ix hf.1) (iy hf.2.1) (r.trans (hs _ hf).2.1.symm) (c.trans (hs _ hf).2.2.symm)

/-- The values in the buffers of the objects. -/
abbrev vals (σ : Nat → Obj K) (i : Nat) : SM K := (σ i).buffer

theorem Made.size {σ : Nat → Obj K} {f : Form K} {n : Node K} (h : Made (vals σ) f n) : n.size σ = ((value (vals σ) f).r, (value (vals σ) f).c) := by
  cases h with
  | leaf | const | block => rfl
  | add _ _ r c | sub _ _ r c | neg _ r c | mul _ _ r c | tr _ r c | hcat _ _ r c | vcat _ _ r c => exact Prod.ext r c

/-- Building. -/
theorem build_made {σ : Nat → Obj K} (f : Form K) (hf : Fits (vals σ) f) : ∃ n, build σ f = some n ∧ Made (vals σ) f n := by
  induction f with
  | leaf i => exact ⟨_, rfl, .leaf⟩
  | const A => exact ⟨_, rfl, .const⟩
  | add f g ihf ihg =>
    obtain ⟨x, bx, mx⟩ := ihf hf.1
    obtain ⟨y, by', my⟩ := ihg hf.2.1
    refine ⟨.add (.zero (x.size σ).1 (x.size σ).2) x y, ?_, .add mx my ?_ ?_⟩
    · simp only [build, bx, by', mx.size, my.size, hf.2.2.1, hf.2.2.2, Option.bind_eq_bind, Option.bind_some, if_true]
    · rw [mx.size]; rfl
    · rw [mx.size]; rfl
  | sub f g ihf ihg =>
    obtain ⟨x, bx, mx⟩ := ihf hf.1
    obtain ⟨y, by', my⟩ := ihg hf.2.1
    refine ⟨.sub (.zero (x.size σ).1 (x.size σ).2) x y, ?_, .sub mx my ?_ ?_⟩
    · simp only [build, bx, by', mx.size, my.size, hf.2.2.1, hf.2.2.2, Option.bind_eq_bind, Option.bind_some, if_true]
    · rw [mx.size]; rfl
    · rw [mx.size]; rfl
  | neg f ih =>
    obtain ⟨x, bx, mx⟩ := ih hf
    refine ⟨.neg (.zero (x.size σ).1 (x.size σ).2) x, ?_, .neg mx ?_ ?_⟩
    · simp only [build, bx, Option.bind_eq_bind, Option.bind_some]
    · rw [mx.size]; rfl
    · rw [mx.size]; rfl
  | tr f ih =>
    obtain ⟨x, bx, mx⟩ := ih hf
    refine ⟨.tr (.zero (x.size σ).2 (x.size σ).1) x, ?_, .tr mx ?_ ?_⟩
    · simp only [build, bx, Option.bind_eq_bind, Option.bind_some]
    · rw [mx.size]; rfl
    · rw [mx.size]; rfl
  | mul f g ihf ihg =>
    obtain ⟨x, bx, mx⟩ := ihf hf.1
    obtain ⟨y, by', my⟩ := ihg hf.2.1
    have hm := hf.2.2
    refine ⟨.mul (.zero (if x.size σ = (1, 1) ∧ (y.size σ).1 ≠ 1 then (y.size σ).1 else (x.size σ).1) (if y.size σ = (1, 1) ∧ (x.size σ).2 ≠ 1 then (x.size σ).2 else (y.size σ).2)) x y, ?_, .mul mx my ?_ ?_⟩
    · have hc : x.size σ = (1, 1) ∨ y.size σ = (1, 1) ∨ (x.size σ).2 = (y.size σ).1 := by
        rw [mx.size, my.size]; exact Or.inr (Or.inr hm)
      simp only [build, bx, by', Option.bind_eq_bind, Option.bind_some]
      rw [if_pos hc]
    · have hn : ¬ (x.size σ = (1, 1) ∧ (y.size σ).1 ≠ 1) := by
        rw [mx.size, my.size]
        rintro ⟨h, h'⟩
        exact h' (hm.symm.trans (congrArg Prod.snd h))
      rw [if_neg hn, mx.size]
      simp only [value, SM.mul, if_pos hm]; rfl
    · have hn : ¬ (y.size σ = (1, 1) ∧ (x.size σ).2 ≠ 1) := by
        rw [mx.size, my.size]
        rintro ⟨h, h'⟩
        exact h' (hm.trans (congrArg Prod.fst h))
      rw [if_neg hn, my.size]
      simp only [value, SM.mul, if_pos hm]; rfl
  | block f i j r c ih =>
    obtain ⟨x, bx, mx⟩ := ih hf.1
    refine ⟨.block (.zero r c) x i j, ?_, .block (b := .zero r c) mx⟩
    have hc : i + r ≤ (x.size σ).1 ∧ j + c ≤ (x.size σ).2 := by rw [mx.size]; exact hf.2
    simp only [build, bx, Option.bind_eq_bind, Option.bind_some]
    rw [if_pos hc]
  | hcat f g ihf ihg =>
    obtain ⟨x, bx, mx⟩ := ihf hf.1
    obtain ⟨y, by', my⟩ := ihg hf.2.1
    refine ⟨.hcat (.zero (x.size σ).1 ((x.size σ).2 + (y.size σ).2)) x y, ?_, .hcat mx my ?_ ?_⟩
    · have hc : (x.size σ).1 = (y.size σ).1 := by rw [mx.size, my.size]; exact hf.2.2
      simp only [build, bx, by', Option.bind_eq_bind, Option.bind_some]
      rw [if_pos hc]
    · rw [mx.size]; rfl
    · rw [mx.size, my.size]; rfl
  | vcat f g ihf ihg =>
    obtain ⟨x, bx, mx⟩ := ihf hf.1
    obtain ⟨y, by', my⟩ := ihg hf.2.1
    refine ⟨.vcat (.zero ((x.size σ).1 + (y.size σ).1) (x.size σ).2) x y, ?_, .vcat mx my ?_ ?_⟩
    · have hc : (x.size σ).2 = (y.size σ).2 := by rw [mx.size, my.size]; exact hf.2.2
      simp only [build, bx, by', Option.bind_eq_bind, Option.bind_some]
      rw [if_pos hc]
    · rw [mx.size, my.size]; rfl
    · rw [mx.size]; rfl

theorem write_hcat {A B b : SM K} (hr : A.r = B.r) (b1 : b.r = A.r) (b2 : b.c = A.c + B.c) :
    (do let b₁ ← write b 0 0 b.r A.c A
        write b₁ 0 (b₁.c - B.c) b₁.r B.c B) = some (A.hcat B) := by
  have w1 : write b 0 0 b.r A.c A = some (.of b.r b.c fun k l => if 0 ≤ k ∧ k < 0 + b.r ∧ 0 ≤ l ∧ l < 0 + A.c then A.f (k - 0) (l - 0) else b.f k l) :=
    if_pos ⟨by omega, by omega, b1.symm, rfl⟩
  rw [w1]
  simp only [Option.bind_eq_bind, Option.bind_some]
  unfold write
  rw [if_pos]
  · congr 1
    refine SM.ext b1 b2 ?_
    funext i j
    simp only [SM.of, SM.hcat]
    have e1 : b.c - B.c = A.c := by omega
    rw [e1, b1, b2]
    by_cases h : i < A.r ∧ j < A.c + B.c
    · rw [if_pos h, if_pos h]
      by_cases hj : j < A.c
      · rw [if_neg (by omega), if_pos h, if_pos (by omega), if_pos hj]; rfl
      · rw [if_pos (by omega), if_neg hj, if_pos h, Nat.sub_zero]
    · rw [if_neg h, if_neg h]
  · show 0 + b.r ≤ b.r ∧ b.c - B.c + B.c ≤ b.c ∧ B.r = b.r ∧ B.c = B.c
    omega

theorem write_vcat {A B b : SM K} (hc : A.c = B.c) (b1 : b.r = A.r + B.r) (b2 : b.c = A.c) :
    (do let b₁ ← write b 0 0 A.r b.c A
        write b₁ (b₁.r - B.r) 0 B.r b₁.c B) = some (A.vcat B) := by
  have w1 : write b 0 0 A.r b.c A = some (.of b.r b.c fun k l => if 0 ≤ k ∧ k < 0 + A.r ∧ 0 ≤ l ∧ l < 0 + b.c then A.f (k - 0) (l - 0) else b.f k l) :=
    if_pos ⟨by omega, by omega, rfl, b2.symm⟩
  rw [w1]
  simp only [Option.bind_eq_bind, Option.bind_some]
  unfold write
  rw [if_pos]
  · congr 1
    refine SM.ext b1 b2 ?_
    funext i j
    simp only [SM.of, SM.vcat]
    have e1 : b.r - B.r = A.r := by omega
    rw [e1, b1, b2]
    by_cases h : i < A.r + B.r ∧ j < A.c
    · rw [if_pos h, if_pos h]
      by_cases hj : i < A.r
      · rw [if_neg (by omega), if_pos h, if_pos (by omega), if_pos hj]; rfl
      · rw [if_pos (by omega), if_neg hj, if_pos h, Nat.sub_zero]
    · rw [if_neg h, if_neg h]
  · show b.r - B.r + B.r ≤ b.r ∧ 0 + b.c ≤ b.c ∧ B.r = B.r ∧ B.c = b.c
    omega

/-- Evaluating. -/
theorem evaluate_made {σ : Nat → Obj K} {f : Form K} {n : Node K} (h : Made (vals σ) f n) (hf : Fits (vals σ) f) :
    ∃ n', evaluate σ n = some (value (vals σ) f, n') ∧ Made (vals σ) f n' := by
  induction h with
  | leaf => exact ⟨_, rfl, .leaf⟩
  | const => exact ⟨_, rfl, .const⟩
  | @add b f g x y mx my r c ix iy =>
    obtain ⟨x', ex, mx'⟩ := ix hf.1
    obtain ⟨y', ey, my'⟩ := iy hf.2.1
    refine ⟨.add ((value (vals σ) f).add (value (vals σ) g)) x' y', ?_, .add mx' my' rfl rfl⟩
    simp only [evaluate, ex, ey, Option.bind_eq_bind, Option.bind_some]
    rw [if_pos hf.2.2]; rfl
  | @sub b f g x y mx my r c ix iy =>
    obtain ⟨x', ex, mx'⟩ := ix hf.1
    obtain ⟨y', ey, my'⟩ := iy hf.2.1
    refine ⟨.sub ((value (vals σ) f).sub (value (vals σ) g)) x' y', ?_, .sub mx' my' rfl rfl⟩
    simp only [evaluate, ex, ey, Option.bind_eq_bind, Option.bind_some]
    rw [if_pos hf.2.2]; rfl
  | @neg b f x mx r c ix =>
    obtain ⟨x', ex, mx'⟩ := ix hf
    refine ⟨.neg (value (vals σ) f).neg x', ?_, .neg mx' rfl rfl⟩
    simp only [evaluate, ex, Option.bind_eq_bind, Option.bind_some]; rfl
  | @mul b f g x y mx my r c ix iy =>
    obtain ⟨x', ex, mx'⟩ := ix hf.1
    obtain ⟨y', ey, my'⟩ := iy hf.2.1
    refine ⟨.mul ((value (vals σ) f).mul (value (vals σ) g)) x' y', ?_, .mul mx' my' rfl rfl⟩
    simp only [evaluate, ex, ey, Option.bind_eq_bind, Option.bind_some]
    rw [if_pos hf.2.2]; rfl
  | @tr b f x mx r c ix =>
    obtain ⟨x', ex, mx'⟩ := ix hf
    refine ⟨.tr (value (vals σ) f).tr x', ?_, .tr mx' rfl rfl⟩
    simp only [evaluate, ex, Option.bind_eq_bind, Option.bind_some]; rfl
  | @block b f x i j mx ix =>
    obtain ⟨x', ex, mx'⟩ := ix hf.1
    refine ⟨.block ((value (vals σ) f).block i j b.r b.c) x' i j, ?_, .block (b := (value (vals σ) f).block i j b.r b.c) mx'⟩
    simp only [evaluate, ex, Option.bind_eq_bind, Option.bind_some]
    rw [if_pos hf.2]; rfl
  | @hcat b f g x y mx my r c ix iy =>
    obtain ⟨x', ex, mx'⟩ := ix hf.1
    obtain ⟨y', ey, my'⟩ := iy hf.2.1
    refine ⟨.hcat ((value (vals σ) f).hcat (value (vals σ) g)) x' y', ?_, .hcat mx' my' rfl rfl⟩
    have w := write_hcat hf.2.2 r c
    simp only [evaluate, ex, ey, mx.size, my.size, Option.bind_eq_bind, Option.bind_some] at w ⊢
    rcases h1 : write b 0 0 b.r (value (vals σ) f).c (value (vals σ) f) with _ | b₁
    · rw [h1] at w; exact absurd w nofun
    · rw [h1] at w
      simp only [Option.bind_some] at w ⊢
      rw [w]; rfl
  | @vcat b f g x y mx my r c ix iy =>
    obtain ⟨x', ex, mx'⟩ := ix hf.1
    obtain ⟨y', ey, my'⟩ := iy hf.2.1
    refine ⟨.vcat ((value (vals σ) f).vcat (value (vals σ) g)) x' y', ?_, .vcat mx' my' rfl rfl⟩
    have w := write_vcat hf.2.2 r c
    simp only [evaluate, ex, ey, mx.size, my.size, Option.bind_eq_bind, Option.bind_some] at w ⊢
    rcases h1 : write b 0 0 (value (vals σ) f).r b.c (value (vals σ) f) with _ | b₁
    · rw [h1] at w; exact absurd w nofun
    · rw [h1] at w
      simp only [Option.bind_some] at w ⊢
      rw [w]; rfl

/-- What holds during a proper program. -/
structure Inv (d : Nat → Decl) (fs : List (Form K)) (p : Program K) : Prop where
  kind : ∀ i, (p.objects i).kind = (d i).make (K := K).kind
  size : ∀ i, ((p.objects i).buffer.r, (p.objects i).buffer.c) = (d i).size
  exprs : List.Forall₂ (fun f n => Fits (vals p.objects) f ∧ Made (vals p.objects) f n) fs p.exprs

theorem set_proper {d : Decl} {o : Obj K} {v : Value K} (hk : o.kind = d.make (K := K).kind) (h : MaySet d v) :
    o.set v = some ⟨o.kind, asMatrix v⟩ := by
  obtain ⟨hs, ht⟩ := h
  cases d with
  | var m n =>
    have hk : o.kind = .var m n := hk
    cases v with
    | number x => simp only [Obj.set, hk]; rfl
    | vector k x =>
      have : k = n := congrArg Prod.fst hs
      simp only [Obj.set, hk, this, if_true]; rfl
    | matrix A => exact ht.elim
  | mat r c =>
    have hk : o.kind = .mat := hk
    cases v with
    | number x => exact ht.elim
    | vector k x => simp only [Obj.set, hk]; rfl
    | matrix A => simp only [Obj.set, hk]; rfl

theorem answers_proper (d : Nat → Decl) (l : List (Use K)) : ∀ (fs : List (Form K)) (p : Program K), Inv d fs p → Proper d (vals p.objects) fs l →
    p.answers l = some (expected d (vals p.objects) fs l) := by
  induction l with
  | nil => intro fs p _ _; rfl
  | cons u l ih =>
    intro fs p hi hp
    cases u with
    | set i v =>
      obtain ⟨hv, hp⟩ := hp
      have hset := set_proper (hi.kind i) hv
      have hu : Function.update (vals p.objects) i (asMatrix v) = vals (Function.update p.objects i ⟨(p.objects i).kind, asMatrix v⟩) := by
        funext j
        by_cases hj : j = i
        · subst hj; simp only [vals, Function.update_self]
        · simp only [vals, Function.update_of_ne hj]
      have hsame : SameSizes (vals p.objects) (vals (Function.update p.objects i ⟨(p.objects i).kind, asMatrix v⟩)) := by
        intro j
        by_cases hj : j = i
        · subst hj
          have := (hi.size j).trans hv.1.symm
          simp only [vals, Function.update_self]
          exact ⟨congrArg Prod.fst this, congrArg Prod.snd this⟩
        · simp only [vals, Function.update_of_ne hj, and_self]
      have hi' : Inv d fs ⟨Function.update p.objects i ⟨(p.objects i).kind, asMatrix v⟩, p.exprs⟩ := by
        refine ⟨fun j => ?_, fun j => ?_, ?_⟩
        · by_cases hj : j = i
          · subst hj; simp only [Function.update_self]; exact hi.kind j
          · simp only [Function.update_of_ne hj]; exact hi.kind j
        · have := hsame j
          exact (Prod.ext this.1.symm this.2.symm : (_, _) = (_, _)).trans (hi.size j)
        · exact hi.exprs.imp fun f n h => ⟨(value_size hsame f h.1).1, h.2.mono hsame h.1⟩
      rw [hu] at hp
      have := ih fs _ hi' hp
      simp only [Program.answers, Program.step, hset, Option.bind_eq_bind, Option.bind_some]
      rw [this]
      simp only [Option.bind_some, List.nil_append, expected, hu]
    | build f =>
      obtain ⟨hf, hp⟩ := hp
      obtain ⟨n, hb, hm⟩ := build_made f hf
      have hi' : Inv d (fs ++ [f]) ⟨p.objects, p.exprs ++ [n]⟩ :=
        ⟨hi.kind, hi.size, List.rel_append hi.exprs (.cons ⟨hf, hm⟩ .nil)⟩
      have := ih _ _ hi' hp
      simp only [Program.answers, Program.step, hb, Option.bind_eq_bind, Option.bind_some]
      rw [this]; rfl
    | evaluate k =>
      obtain ⟨hk, hp⟩ := hp
      have hl := hi.exprs.length_eq
      have hf : fs[k]? = some fs[k] := List.getElem?_eq_getElem hk
      have hn : p.exprs[k]? = some (p.exprs[k]'(hl ▸ hk)) := List.getElem?_eq_getElem (hl ▸ hk)
      obtain ⟨hfit, hmade⟩ := (List.forall₂_iff_get.1 hi.exprs).2 k hk (hl ▸ hk)
      obtain ⟨n', he, hm'⟩ := evaluate_made hmade hfit
      have hi' : Inv d fs ⟨p.objects, p.exprs.set k n'⟩ := by
        refine ⟨hi.kind, hi.size, List.forall₂_iff_get.2 ⟨by rw [List.length_set]; exact hl, fun j hj hj' => ?_⟩⟩
        simp only [List.get_eq_getElem, List.getElem_set]
        by_cases hkj : k = j
        · subst hkj
          rw [if_pos rfl]; exact ⟨hfit, hm'⟩
        · rw [if_neg hkj]
          exact (List.forall₂_iff_get.1 hi.exprs).2 j hj (hl ▸ hj)
      have he : Sizes.evaluate p.objects (p.exprs[k]'(hl ▸ hk)) = some (value (vals p.objects) fs[k], n') := he
      have := ih fs _ hi' hp
      simp only [Program.answers, Program.step, hn, he, Option.bind_eq_bind, Option.bind_some]
      rw [this]
      simp only [expected, hf, Option.bind_some, List.cons_append, List.nil_append]
    | size k =>
      obtain ⟨hk, hp⟩ := hp
      have hl := hi.exprs.length_eq
      have hf : fs[k]? = some fs[k] := List.getElem?_eq_getElem hk
      have hn : p.exprs[k]? = some (p.exprs[k]'(hl ▸ hk)) := List.getElem?_eq_getElem (hl ▸ hk)
      obtain ⟨hfit, hmade⟩ := (List.forall₂_iff_get.1 hi.exprs).2 k hk (hl ▸ hk)
      have hs : (p.exprs[k]'(hl ▸ hk)).size p.objects = ((value (vals p.objects) fs[k]).r, (value (vals p.objects) fs[k]).c) := hmade.size
      have := ih fs p hi hp
      simp only [Program.answers, Program.step, hn, hs, Option.bind_eq_bind, Option.bind_some]
      rw [this]
      simp only [expected, hf, Option.bind_some, List.cons_append, List.nil_append]
    | derive i name dim =>
      have hp : Proper d (vals p.objects) fs l := hp
      have := ih fs p hi hp
      have hd : (p.objects i).derivative name dim = some ((d i).jacobian name dim) := by
        have hk := hi.kind i
        have hs := hi.size i
        rcases hdi : d i with ⟨m, n⟩ | ⟨r, c⟩
        · rw [hdi] at hk hs
          have hk : (p.objects i).kind = .var m n := hk
          have hs : (p.objects i).buffer.r = n := congrArg Prod.fst hs
          simp only [Obj.derivative, hk, hs, Decl.jacobian]
          by_cases h : m = name ∧ n = dim
          · rw [if_pos h, if_pos h, if_pos (show True ∧ n = dim from ⟨trivial, h.2⟩)]
          · rw [if_neg h, if_neg h]
        · rw [hdi] at hk hs
          have hk : (p.objects i).kind = .mat := hk
          have hs : (p.objects i).buffer.r = r := congrArg Prod.fst hs
          simp only [Obj.derivative, hk, hs, Decl.jacobian]
      simp only [Program.answers, Program.step, hd, Option.bind_eq_bind, Option.bind_some]
      rw [this]
      simp only [expected, Option.bind_some, List.cons_append, List.nil_append]

/-- **C104, partial.** Objects are declared, then set, expressions are built on them at any time, evaluated, asked for their sizes, and objects are derived, in any order.  If each object is set to values of its sizes and the sizes of
what is written are right, no assertion fails and every answer is the expected one: an expression built before has the value of what was written at the values the objects have now, and its `rows()` and `cols()` are those of the value,
evaluated or not.

Missing: objects set to a value of other sizes, when the program accepts it: `C104_finding_number`, `C104_finding_matrix`; products with a 1×1 factor: `C104_finding_factor`. -/
theorem C104_answers_partial (d : Nat → Decl) (l : List (Use K)) (h : Proper d (zeros d) [] l) :
    (Program.mk (fun i => (d i).make) []).answers l = some (expected d (zeros d) [] l) := by
  have hv : vals (fun i => (d i).make) = (zeros d : Nat → SM K) := by
    funext i
    simp only [vals, zeros]
    cases d i <;> rfl
  have hi : Inv d [] (⟨fun i => (d i).make, []⟩ : Program K) := by
    refine ⟨fun i => rfl, fun i => ?_, .nil⟩
    show ((vals (fun i => (d i).make) i : SM K).r, (vals (fun i => (d i).make) i : SM K).c) = (d i).size
    rw [hv]; rfl
  have := answers_proper d l [] ⟨fun i => (d i).make, []⟩ hi (by show Proper d (vals fun i => (d i).make) [] l; rw [hv]; exact h)
  rw [this]
  show some (expected d (vals fun i => (d i).make) [] l) = _
  rw [hv]

/-- **C104, what is refused.** A variable is set to a vector only if the vector has its dimension; then its value is the vector. -/
theorem C104_vector (name : String) (n m : Nat) (A : SM K) (x : Nat → K) :
    Obj.set ⟨.var name n, A⟩ (.vector m x) = if m = n then some ⟨.var name n, .of n 1 fun i _ => x i⟩ else none := by
  simp only [Obj.set]
  by_cases h : m = n
  · subst h; rfl
  · rw [if_neg h, if_neg h]

theorem of_f {r c : Nat} (f : Nat → Nat → K) {i j : Nat} (hi : i < r) (hj : j < c) : (SM.of r c f).f i j = f i j := if_pos ⟨hi, hj⟩

/-- The declarations of the findings: a variable `x` of dimension `n`, a variable `y` of dimension `m`. -/
def twoVariables (n m : Nat) (i : Nat) : Decl := if i = 0 then .var "x" n else .var "y" m

/-- The program of the finding: `x` above `y`; they are set to vectors and the expression is evaluated, then `x` is set to a number. -/
def shrink (n m : Nat) (u v : Nat → K) (s : K) : List (Use K) :=
  [.build (.vcat (.leaf 0) (.leaf 1)), .set 0 (.vector n u), .set 1 (.vector m v), .evaluate 0, .set 0 (.number s)]

/-- **C104, finding.** A variable with more than one component can be set to a number: nothing fails.  An expression that puts it above another variable keeps its sizes, and its value has the number in the first row and, in the other
rows of the variable, what they had before.  The derivative of the variable with respect to itself fails an assertion. -/
theorem C104_finding_number (n m : Nat) (hn : 1 < n) (u v : Nat → K) (s : K) :
    (∃ A B : SM K, (Program.mk (fun i => (twoVariables n m i).make) []).answers (shrink n m u v s ++ [.evaluate 0, .size 0]) = some [.value A, .value B, .size (n + m) 1] ∧
      (∀ i < n, A.f i 0 = u i) ∧ B.f 0 0 = s ∧ (∀ i, 0 < i → i < n → B.f i 0 = u i) ∧ ∀ i < m, B.f (n + i) 0 = v i) ∧
    (Program.mk (fun i => (twoVariables n m i).make) []).answers (shrink n m u v s ++ [.derive 0 "x" n]) = none := by
  have w := write_vcat (A := SM.of n 1 fun i _ => u i) (B := SM.of m 1 fun i _ => v i) (b := .zero (n + m) 1) rfl rfl rfl
  let V : SM K := (SM.of n 1 fun i _ => u i).vcat (SM.of m 1 fun i _ => v i)
  let V₁ : SM K := .of (n + m) 1 fun k l => if 0 ≤ k ∧ k < 0 + 1 ∧ 0 ≤ l ∧ l < 0 + 1 then (SM.of 1 1 fun _ _ => s : SM K).f (k - 0) (l - 0) else V.f k l
  let V₂ : SM K := .of (n + m) 1 fun k l => if n + m - m ≤ k ∧ k < n + m - m + m ∧ 0 ≤ l ∧ l < 0 + 1 then (SM.of m 1 fun i _ => v i : SM K).f (k - (n + m - m)) (l - 0) else V₁.f k l
  have w1 : write V 0 0 1 1 (.of 1 1 fun _ _ => s) = some V₁ := if_pos ⟨by show 0 + 1 ≤ n + m; omega, Nat.le_refl _, rfl, rfl⟩
  have w2 : write V₁ (n + m - m) 0 m 1 (.of m 1 fun i _ => v i) = some V₂ := if_pos ⟨by show n + m - m + m ≤ n + m; omega, Nat.le_refl _, rfl, rfl⟩
  let σ₀ : Nat → Obj K := fun i => (twoVariables n m i).make
  let σ₁ := Function.update σ₀ 0 ⟨.var "x" n, .of n 1 fun i _ => u i⟩
  let σ₂ := Function.update σ₁ 1 ⟨.var "y" m, .of m 1 fun i _ => v i⟩
  let σ₃ := Function.update σ₂ 0 ⟨.var "x" n, .of 1 1 fun _ _ => s⟩
  have s1 : (Program.mk σ₀ []).step (.build (.vcat (.leaf 0) (.leaf 1))) = some ([], ⟨σ₀, [.vcat (.zero (n + m) 1) (.leaf 0) (.leaf 1)]⟩) := rfl
  have a2 : (σ₀ 0).set (.vector n u) = some ⟨.var "x" n, .of n 1 fun i _ => u i⟩ := (C104_vector "x" n n (.zero n 1) u).trans (if_pos rfl)
  have s2 : ∀ e, (Program.mk σ₀ e).step (.set 0 (.vector n u)) = some ([], ⟨σ₁, e⟩) := by
    intro e
    show ((σ₀ 0).set (.vector n u)).bind _ = _
    rw [a2]; rfl
  have a3 : (σ₁ 1).set (.vector m v) = some ⟨.var "y" m, .of m 1 fun i _ => v i⟩ := (C104_vector "y" m m (.zero m 1) v).trans (if_pos rfl)
  have s3 : ∀ e, (Program.mk σ₁ e).step (.set 1 (.vector m v)) = some ([], ⟨σ₂, e⟩) := by
    intro e
    show ((σ₁ 1).set (.vector m v)).bind _ = _
    rw [a3]; rfl
  have e4 : evaluate σ₂ (.vcat (.zero (n + m) 1) (.leaf 0) (.leaf 1)) = some (V, .vcat V (.leaf 0) (.leaf 1)) := by
    have h : evaluate σ₂ (.vcat (.zero (n + m) 1) (.leaf 0) (.leaf 1)) = (do
        let b₂ ← (do
          let b₁ ← write (.zero (n + m) 1) 0 0 n 1 (.of n 1 fun i _ => u i)
          write b₁ (b₁.r - m) 0 m b₁.c (.of m 1 fun i _ => v i))
        some (b₂, .vcat b₂ (.leaf 0) (.leaf 1))) := by
      show Option.bind _ _ = Option.bind (Option.bind _ _) _
      rw [Option.bind_assoc]; rfl
    rw [h]
    exact congrArg (fun o : Option (SM K) => o.bind fun b₂ => some (b₂, Node.vcat b₂ (.leaf 0) (.leaf 1))) w
  have s4 : (Program.mk σ₂ [.vcat (.zero (n + m) 1) (.leaf 0) (.leaf 1)]).step (.evaluate 0) = some ([.value V], ⟨σ₂, [.vcat V (.leaf 0) (.leaf 1)]⟩) := by
    show (evaluate σ₂ (.vcat (.zero (n + m) 1) (.leaf 0) (.leaf 1))).bind _ = _
    rw [e4]; rfl
  have s5 : ∀ e, (Program.mk σ₂ e).step (.set 0 (.number s)) = some ([], ⟨σ₃, e⟩) := fun e => rfl
  have e6 : evaluate σ₃ (.vcat V (.leaf 0) (.leaf 1)) = some (V₂, .vcat V₂ (.leaf 0) (.leaf 1)) := by
    show (write V 0 0 1 1 (.of 1 1 fun _ _ => s)).bind _ = _
    rw [w1]
    show (write V₁ (n + m - m) 0 m 1 (.of m 1 fun i _ => v i)).bind _ = _
    rw [w2]; rfl
  have s6 : (Program.mk σ₃ [.vcat V (.leaf 0) (.leaf 1)]).step (.evaluate 0) = some ([.value V₂], ⟨σ₃, [.vcat V₂ (.leaf 0) (.leaf 1)]⟩) := by
    show (evaluate σ₃ (.vcat V (.leaf 0) (.leaf 1))).bind _ = _
    rw [e6]; rfl
  have s7 : (Program.mk σ₃ [.vcat V₂ (.leaf 0) (.leaf 1)]).step (.size 0) = some ([.size (n + m) 1], ⟨σ₃, [.vcat V₂ (.leaf 0) (.leaf 1)]⟩) := rfl
  have d8 : (σ₃ 0).derivative "x" n = none := by
    show (if "x" = "x" ∧ n = n then (if n = 1 ∧ n = n then some (SM.one n) else none) else _) = _
    rw [if_pos ⟨rfl, rfl⟩, if_neg (by omega)]
  have s8 : ∀ e, (Program.mk σ₃ e).step (.derive 0 "x" n) = none := by
    intro e
    show ((σ₃ 0).derivative "x" n).bind _ = _
    rw [d8]; rfl
  have hV : ∀ i < n, V.f i 0 = u i := by
    intro i hi
    refine (of_f (r := n + m) (c := 1) _ (by omega) (by omega)).trans ((if_pos hi).trans ?_)
    exact of_f _ hi (by omega)
  constructor
  · refine ⟨V, V₂, ?_, ?_, ?_, ?_, ?_⟩
    · show (Program.mk σ₀ []).answers [.build (.vcat (.leaf 0) (.leaf 1)), .set 0 (.vector n u), .set 1 (.vector m v), .evaluate 0, .set 0 (.number s), .evaluate 0, .size 0] = _
      simp only [Program.answers, s1, s2, s3, s4, s5, s6, s7, Option.bind_eq_bind, Option.bind_some, List.append_nil, List.nil_append, List.cons_append]
    · exact fun i hi => hV i hi
    · refine (of_f _ (by omega) (by omega)).trans ((if_neg (by omega)).trans ?_)
      refine (of_f _ (by omega) (by omega)).trans ((if_pos (by omega)).trans ?_)
      exact of_f _ (by omega) (by omega)
    · intro i h0 hi
      refine (of_f _ (by omega) (by omega)).trans ((if_neg (by omega)).trans ?_)
      refine (of_f _ (by omega) (by omega)).trans ((if_neg (by omega)).trans ?_)
      exact hV i hi
    · intro i hi
      refine (of_f _ (by omega) (by omega)).trans ((if_pos (by omega)).trans ?_)
      have e : n + i - (n + m - m) = i := by omega
      rw [e]
      exact of_f _ hi (by omega)
  · show (Program.mk σ₀ []).answers [.build (.vcat (.leaf 0) (.leaf 1)), .set 0 (.vector n u), .set 1 (.vector m v), .evaluate 0, .set 0 (.number s), .derive 0 "x" n] = _
    simp only [Program.answers, s1, s2, s3, s4, s5, s8, Option.bind_eq_bind, Option.bind_some, Option.bind_none]

/-- **C104, finding.** A matrix that can be set (`Mutable`) takes a matrix of other sizes.  Expressions that were built with it keep the sizes it had until they are evaluated, and a sum that was right is evaluated no more. -/
theorem C104_finding_matrix (r c : Nat) (A : SM K) (h : A.r ≠ r) :
    (Program.mk (fun _ => (Decl.mat r c).make) []).answers [.build (.tr (.leaf 0)), .set 0 (.matrix A), .size 0] = some [.size c r] ∧
    (∃ v, (Program.mk (fun _ => (Decl.mat r c).make) []).answers [.build (.tr (.leaf 0)), .set 0 (.matrix A), .evaluate 0, .size 0] = some [.value v, .size A.c A.r]) ∧
    (∃ v, (Program.mk (fun _ => (Decl.mat r c).make) []).answers [.build (.add (.leaf 0) (.leaf 1)), .evaluate 0] = some [.value (v : SM K)]) ∧
    (Program.mk (fun _ => (Decl.mat r c).make) []).answers [.build (.add (.leaf 0) (.leaf 1)), .set 0 (.matrix A), .evaluate 0] = none := by
  let σ₀ : Nat → Obj K := fun _ => (Decl.mat r c).make
  have b : build σ₀ (.add (.leaf 0) (.leaf 1)) = some (.add (.zero r c) (.leaf 0) (.leaf 1)) := by
    show (if ((r, c) : Nat × Nat) = (r, c) then _ else _) = _
    rw [if_pos rfl]; rfl
  have sb : (Program.mk σ₀ []).step (.build (.add (.leaf 0) (.leaf 1))) = some ([], ⟨σ₀, [.add (.zero r c) (.leaf 0) (.leaf 1)]⟩) := by
    show (build σ₀ (.add (.leaf 0) (.leaf 1))).bind _ = _
    rw [b]; rfl
  refine ⟨rfl, ⟨A.tr, rfl⟩, ⟨(SM.zero r c).add (.zero r c), ?_⟩, ?_⟩
  · have e : (Program.mk σ₀ [.add (.zero r c) (.leaf 0) (.leaf 1)]).step (.evaluate 0) = some ([.value ((SM.zero r c).add (.zero r c))], ⟨σ₀, [.add ((SM.zero r c).add (.zero r c)) (.leaf 0) (.leaf 1)]⟩) := by
      show (if r = r ∧ c = c then _ else _ : Option (SM K × Node K)).bind _ = _
      rw [if_pos ⟨rfl, rfl⟩]; rfl
    show (Program.mk σ₀ []).answers _ = _
    simp only [Program.answers, sb, e, Option.bind_eq_bind, Option.bind_some, List.nil_append, List.append_nil]
  · have e : (Program.mk (Function.update σ₀ 0 ⟨.mat, A⟩) [.add (.zero r c) (.leaf 0) (.leaf 1)]).step (.evaluate 0) = none := by
      show (if A.r = r ∧ A.c = c then _ else none : Option (SM K × Node K)).bind _ = _
      rw [if_neg fun h' => h h'.1]; rfl
    have st : ∀ e, (Program.mk σ₀ e).step (.set 0 (.matrix A)) = some ([], ⟨Function.update σ₀ 0 ⟨.mat, A⟩, e⟩) := fun _ => rfl
    show (Program.mk σ₀ []).answers _ = _
    simp only [Program.answers, sb, st, e, Option.bind_eq_bind, Option.bind_some, Option.bind_none]

/-- **C104, finding.** The product of a variable of dimension 1, whose number of rows is not known at compile time, and a matrix is accepted, with the sizes of the matrix; evaluated, it fails an assertion of Eigen. -/
theorem C104_finding_factor (r c : Nat) (hr : r ≠ 1) :
    let p : Program K := ⟨fun i => if i = 0 then (Decl.var "x" 1).make else (Decl.mat r c).make, []⟩
    p.answers [.build (.mul (.leaf 0) (.leaf 1)), .size 0] = some [.size r c] ∧ p.answers [.build (.mul (.leaf 0) (.leaf 1)), .evaluate 0] = none := by
  let σ₀ : Nat → Obj K := fun i => if i = 0 then (Decl.var "x" 1).make else (Decl.mat r c).make
  have b : build σ₀ (.mul (.leaf 0) (.leaf 1)) = some (.mul (.zero (if ((1, 1) : Nat × Nat) = (1, 1) ∧ r ≠ 1 then r else 1) (if ((r, c) : Nat × Nat) = (1, 1) ∧ 1 ≠ 1 then 1 else c)) (.leaf 0) (.leaf 1)) := by
    show (if ((1, 1) : Nat × Nat) = (1, 1) ∨ (r, c) = (1, 1) ∨ 1 = r then some (Node.mul (.zero (if ((1, 1) : Nat × Nat) = (1, 1) ∧ r ≠ 1 then r else 1) (if ((r, c) : Nat × Nat) = (1, 1) ∧ 1 ≠ 1 then 1 else c)) (.leaf 0) (.leaf 1)) else none : Option (Node K)) = _
    rw [if_pos (Or.inl rfl)]; rfl
  have b' : build σ₀ (.mul (.leaf 0) (.leaf 1)) = some (.mul (.zero r c) (.leaf 0) (.leaf 1)) := by
    rw [b, if_pos ⟨rfl, hr⟩, if_neg fun h => h.2 rfl]
  have sb : (Program.mk σ₀ []).step (.build (.mul (.leaf 0) (.leaf 1))) = some ([], ⟨σ₀, [.mul (.zero r c) (.leaf 0) (.leaf 1)]⟩) := by
    show (build σ₀ (.mul (.leaf 0) (.leaf 1))).bind (fun n => some (([] : List (Answer K)), (⟨σ₀, [] ++ [n]⟩ : Program K))) = _
    rw [b']; rfl
  have e : (Program.mk σ₀ [.mul (.zero r c) (.leaf 0) (.leaf 1)]).step (.evaluate 0) = none := by
    show (if 1 = r then _ else none : Option (SM K × Node K)).bind _ = _
    rw [if_neg fun h => hr h.symm]; rfl
  have z : (Program.mk σ₀ [.mul (.zero r c) (.leaf 0) (.leaf 1)]).step (.size 0) = some ([.size r c], ⟨σ₀, [.mul (.zero r c) (.leaf 0) (.leaf 1)]⟩) := rfl
  constructor
  · show (Program.mk σ₀ []).answers _ = _
    simp only [Program.answers, sb, z, Option.bind_eq_bind, Option.bind_some, List.nil_append, List.append_nil]
  · show (Program.mk σ₀ []).answers _ = _
    simp only [Program.answers, sb, e, Option.bind_eq_bind, Option.bind_some, Option.bind_none]

/-- A proper program: a matrix times a vector, above the vector; both are set after the expression is built, and again. -/
example (A B : SM K) (hA : A.r = 2 ∧ A.c = 3) (hB : B.r = 2 ∧ B.c = 3) (x y : Nat → K) :
    Proper (fun i => if i = 0 then .var "x" 3 else .mat 2 3) (zeros fun i => if i = 0 then .var "x" 3 else .mat 2 3) []
      [.build (.vcat (.mul (.leaf 1) (.leaf 0)) (.leaf 0)), .size 0, .set 0 (.vector 3 x), .set 1 (.matrix A), .evaluate 0, .derive 0 "x" 3, .set 1 (.matrix B), .set 0 (.vector 3 y), .evaluate 0, .size 0] := by
  refine ⟨⟨⟨trivial, trivial, rfl⟩, trivial, rfl⟩, Nat.zero_lt_one, ⟨rfl, trivial⟩, ⟨?_, trivial⟩, Nat.zero_lt_one, ⟨?_, trivial⟩, ⟨rfl, trivial⟩, Nat.zero_lt_one, Nat.zero_lt_one, trivial⟩
  · exact Prod.ext hA.1 hA.2
  · exact Prod.ext hB.1 hB.2

end Verif.Levi.Sizes
