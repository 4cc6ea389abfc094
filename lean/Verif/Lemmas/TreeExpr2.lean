import Verif.Lemmas.TreeExpr
import Mathlib.Topology.Algebra.Module.FiniteDimension
import Mathlib.Analysis.Calculus.Deriv.Comp
import Mathlib.Analysis.Calculus.FDeriv.Linear
/- The derivatives of the expressions of the transforms, at all orders. -/
namespace Verif.Rigid
open Matrix
variable {L J F : Type} [DecidableEq L] [DecidableEq J] [DecidableEq F]

theorem crossF_smul (k : ℝ) (a b : Spatial) : crossF a (k • b) = k • crossF a b := by
  ext1 <;> simp [crossF]

theorem smooth_of_linear {M : Spatial → Spatial} (ha : ∀ x y, M (x + y) = M x + M y) (hs : ∀ (k : ℝ) x, M (k • x) = k • M x) : Smooth M :=
  ⟨LinearMap.toContinuousLinearMap ⟨⟨M, ha⟩, hs⟩, fun _ => rfl⟩

theorem smooth_crossM (s : Spatial) : Smooth (crossM s) := smooth_of_linear (crossM_add s) (fun k x => crossM_smul k s x)
theorem smooth_crossF (s : Spatial) : Smooth (crossF s) := smooth_of_linear (crossF_add s) (fun k x => crossF_smul k s x)

theorem Smooth.hasDerivAt {M : Spatial → Spatial} (h : Smooth M) {f : ℝ → Spatial} {f' : Spatial} {x : ℝ} (hf : HasDerivAt f f' x) :
    HasDerivAt (fun y => M (f y)) (M f') x := by
  obtain ⟨N, hN⟩ := h
  simp only [hN]
  exact N.hasFDerivAt.comp_hasDerivAt x hf

namespace Server
variable {m : Model L J} (s : Server m F)

/-- For a link the direction of the joint just above it is the one of the joint. -/
theorem direction_link (q : J → ℝ) (a : F) (l : L) (j : J) (h : (s.tree (s.frames.link a)).child j = l) :
    s.direction q a (s.frames.ofLink l) j = (s.tree (s.frames.link a)).subspace l := by
  subst h
  simp only [direction, s.frames.link_ofLink]
  rw [if_pos (Traversal.mem_up_self _ (Traversal.child_ne _ j)), transform_self, SE3.act_one]

theorem eval_adjDerivative_link (q : J → ℝ) (a : F) (l : L) (j : J) (x : Spatial) :
    s.eval q (s.adjDerivative a (s.frames.ofLink l) j) x = (s.transform q a (s.frames.ofLink l)).act (crossM (s.direction q a (s.frames.ofLink l) j) x) := by
  rw [eval_adjDerivative, s.frames.link_ofLink]
  split_ifs with h
  · rw [s.direction_link q a l j h]
  · rfl
theorem eval_adjWrenchDerivative_link (q : J → ℝ) (a : F) (l : L) (j : J) (x : Spatial) :
    s.eval q (s.adjWrenchDerivative a (s.frames.ofLink l) j) x = (s.transform q a (s.frames.ofLink l)).actF (crossF (s.direction q a (s.frames.ofLink l) j) x) := by
  rw [eval_adjWrenchDerivative, s.frames.link_ofLink]
  split_ifs with h
  · rw [s.direction_link q a l j h]
  · rfl

/-- The derivative of an expression applied to something that moves. -/
theorem hasDerivAt_eval (hm : m.Regular) (q : J → ℝ) (j : J) (e : Op F) (he : e.LinkTargets s.frames) {y : ℝ → Spatial} {y' : Spatial}
    (hy : HasDerivAt y y' (q j)) :
    HasDerivAt (fun x => s.eval (Function.update q j x) e (y x)) (s.eval q (s.deriv j e) (y (q j)) + s.eval q e y') (q j) := by
  induction e generalizing y y' with
  | zero => simpa [eval, deriv] using hasDerivAt_const (q j) (0 : Spatial)
  | const M => simpa [eval, deriv] using he.hasDerivAt hy
  | adj a b =>
    obtain ⟨l, rfl⟩ := he
    simp only [eval_adj, deriv, eval_adjDerivative_link]
    refine ((s.hasTangent_transform hm q a _ j).act hy).congr_deriv ?_
    rw [Function.update_eq_self, SE3.act_add]
  | adjWrench a b =>
    obtain ⟨l, rfl⟩ := he
    simp only [eval_adjWrench, deriv, eval_adjWrenchDerivative_link]
    refine ((s.hasTangent_transform hm q a _ j).actF hy).congr_deriv ?_
    rw [Function.update_eq_self, SE3.actF_add]
  | mul A B hA hB =>
    have h := hA he.1 (hB he.2 hy)
    refine h.congr_deriv ?_
    simp only [Function.update_eq_self, deriv, eval]
    have hadd : ∀ (e : Op F), e.LinkTargets s.frames → ∀ u v, s.eval q e (u + v) = s.eval q e u + s.eval q e v := by
      intro e
      induction e with
      | zero => intro _ u v; simp [eval]
      | const M => rintro ⟨N, hN⟩ u v; simp [eval, hN]
      | adj a b => intro _ u v; rw [eval_adj, SE3.act_add]
      | adjWrench a b => intro _ u v; rw [eval_adjWrench, SE3.actF_add]
      | mul A B hA hB => intro h u v; simp only [eval, hB h.2, hA h.1]
      | add A B hA hB => intro h u v; simp only [eval, hB h.2, hA h.1]; abel
      | sub A B hA hB => intro h u v; simp only [eval, hB h.2, hA h.1]; abel
      | neg A hA => intro h u v; simp only [eval, hA h]; abel
    rw [hadd A he.1]; abel
  | add A B hA hB =>
    refine ((hA he.1 hy).add (hB he.2 hy)).congr_deriv ?_
    simp only [deriv, eval]; abel
  | sub A B hA hB =>
    refine ((hA he.1 hy).sub (hB he.2 hy)).congr_deriv ?_
    simp only [deriv, eval]; abel
  | neg A hA =>
    refine (hA he hy).neg.congr_deriv ?_
    simp only [deriv, eval]; abel

/-- Differentiation keeps the targets among the links. -/
theorem linkTargets_deriv (j : J) (e : Op F) (he : e.LinkTargets s.frames) : (s.deriv j e).LinkTargets s.frames := by
  induction e with
  | zero => trivial
  | const M => trivial
  | adj a b =>
    obtain ⟨l, rfl⟩ := he
    simp only [deriv, adjDerivative_eq]
    split_ifs
    · trivial
    · exact ⟨⟨l, rfl⟩, smooth_crossM _⟩
    · exact ⟨⟨⟨_, rfl⟩, smooth_crossM _⟩, ⟨l, rfl⟩⟩
    · trivial
  | adjWrench a b =>
    obtain ⟨l, rfl⟩ := he
    simp only [deriv, adjWrenchDerivative_eq]
    split_ifs
    · trivial
    · exact ⟨⟨l, rfl⟩, smooth_crossF _⟩
    · exact ⟨⟨⟨_, rfl⟩, smooth_crossF _⟩, ⟨l, rfl⟩⟩
    · trivial
  | mul A B hA hB => exact ⟨⟨hA he.1, he.2⟩, ⟨he.1, hB he.2⟩⟩
  | add A B hA hB => exact ⟨hA he.1, hB he.2⟩
  | sub A B hA hB => exact ⟨hA he.1, hB he.2⟩
  | neg A hA => exact hA he

theorem linkTargets_derivs (js : List J) (e : Op F) (he : e.LinkTargets s.frames) : (s.derivs e js).LinkTargets s.frames := by
  induction js generalizing e with
  | nil => exact he
  | cons j js ih => exact ih _ (s.linkTargets_deriv j e he)

theorem derivs_snoc (e : Op F) (js : List J) (j : J) : s.derivs e (js ++ [j]) = s.deriv j (s.derivs e js) := by
  unfold derivs; rw [List.foldl_append]; rfl

end Server

/-! ### A spatial vector is known by its vector product -/

theorem crossM_injective {a b : Spatial} (h : ∀ x, crossM a x = crossM b x) : a = b := by
  have h1 := h (![1, 0, 0], 0); have h2 := h (![0, 1, 0], 0)
  have h4 := h (0, ![1, 0, 0]); have h5 := h (0, ![0, 1, 0])
  have e : ∀ {u v : Spatial}, u = v → ∀ i, u.1 i = v.1 i ∧ u.2 i = v.2 i := by rintro u v rfl i; exact ⟨rfl, rfl⟩
  have a1 := (e h1 1).1; have a2 := (e h1 2).1; have a3 := (e h2 2).1
  have b1 := (e h4 1).1; have b2 := (e h4 2).1; have b3 := (e h5 2).1
  simp [crossM, cross_apply] at a1 a2 a3 b1 b2 b3
  ext i <;> fin_cases i <;> simp <;> linarith

end Verif.Rigid
