import Verif.Model.ConstraintHessians
import Verif.Lemmas.ObjectiveGradient
import Verif.Spec.SecondDerivatives
import Verif.Spec.Dynamics
import Mathlib.Topology.Algebra.Order.Field
import Mathlib.Topology.MetricSpace.Pseudo.Pi
import Mathlib.Analysis.Calculus.Deriv.Add
/- Second derivatives of functions of the labelled variables, seen in the vectors of the optimiser. -/
set_option linter.unusedSectionVars false
set_option linter.unusedSimpArgs false
namespace Verif.Plan
open NLP NLP.Kin SolverM Function Filter Topology
open NLP.Spec (GradAt HessNear MixedNear)
noncomputable section
variable {n nj : ℕ}

theorem ofFn_getD {N : ℕ} (v : List ℝ) (h : v.length = N) : List.ofFn (fun i : Fin N => v.getD i 0) = v := by
  subst h
  apply List.ext_getElem
  · simp
  · intro i h1 h2
    simp at h1
    simp [h1]

theorem near_box {N : ℕ} {α : Type} [TopologicalSpace α] (f : List ℝ → α) (hf : Continuous fun w : Fin N → ℝ => f (List.ofFn w)) (v : List ℝ) (hv : v.length = N) {P : α → Prop}
    (h : ∀ᶠ y in 𝓝 (f v), P y) : ∃ ε > 0, ∀ v', Spec.Near ε v v' → P (f v') := by
  have h0 : f v = f (List.ofFn fun i : Fin N => v.getD i 0) := by rw [ofFn_getD v hv]
  rw [h0] at h
  have := hf.continuousAt.eventually h
  obtain ⟨ε, hε, H⟩ := Metric.eventually_nhds_iff.1 this
  refine ⟨ε, hε, fun v' hv' => ?_⟩
  have := H (y := fun i : Fin N => v'.getD i 0) ((dist_pi_lt_iff hε).2 fun i => hv'.2 i)
  rwa [ofFn_getD v' (hv'.1.trans hv)] at this

theorem continuous_getD {N : ℕ} (k : ℕ) : Continuous fun w : Fin N → ℝ => (List.ofFn w).getD k 0 := by
  by_cases hk : k < N
  · have : (fun w : Fin N → ℝ => (List.ofFn w).getD k 0) = fun w => w ⟨k, hk⟩ := by funext w; simp [hk]
    rw [this]; exact continuous_apply _
  · have : (fun w : Fin N → ℝ => (List.ofFn w).getD k 0) = fun _ => 0 := by funext w; simp [hk]
    rw [this]; exact continuous_const

theorem continuous_readState {N : ℕ} (r : Ranges) : Continuous fun w : Fin N → ℝ => readState (n := n) r (List.ofFn w) := by
  refine continuous_pi fun p => ?_
  unfold readState
  cases stateRange r p.1 with
  | none => exact continuous_const
  | some rg =>
    dsimp only
    by_cases h : p.2 < rg.size
    · simp only [if_pos h]; exact continuous_getD _
    · simp only [if_neg h]; exact continuous_const

theorem continuous_readControl {N : ℕ} (r : Ranges) : Continuous fun w : Fin N → ℝ => readControl (n := n) r (List.ofFn w) := by
  refine continuous_pi fun p => ?_
  unfold readControl
  cases controlRange r p.1 with
  | none => exact continuous_const
  | some rg =>
    dsimp only
    by_cases h : p.2 < rg.size
    · simp only [if_pos h]; exact continuous_getD _
    · simp only [if_neg h]; exact continuous_const

section
variable {r : Ranges} (hL : Labels r n nj)
include hL

theorem second_state (v : List ℝ) (hv : v.length = 12 * n + 16 + nj) (f : SVec n → ℝ) (H : Idx (SBlk n) → Idx (SBlk n) → ℝ) (h : HessNear f H (readState r v))
    {G : List ℝ → Option ℝ} (hG : ∀ v', G v' = some (f (readState r v'))) : Spec.SecondDerivatives G v (stateMatrixOf r H) := by
  obtain ⟨g, h1, h2⟩ := h
  obtain ⟨ε, hε, h1⟩ := near_box _ (continuous_readState r) v hv h1
  refine ⟨fun v' => stateVectorOf r (g (readState r v')), ⟨ε, hε, fun v' hv' i hi => ⟨_, fun a => hG _, ?_⟩⟩, fun i hi j hj => ⟨_, fun a => rfl, ?_⟩⟩
  · exact deriv_state hL v' (hv'.1.trans hv) f _ (h1 v' hv') i (hv ▸ hi)
  · obtain ⟨p, hp, -⟩ := hL.1 i (hv ▸ hi)
    simp only [stateMatrixOf, stateVectorOf_at hL (hv ▸ hi) hp]
    exact deriv_state hL v hv (fun y => g y p) _ (h2 p) j (hv ▸ hj)

theorem second_control (v : List ℝ) (hv : v.length = 12 * n + 7 + nj) (f : CVec n → ℝ) (H : Idx (CBlk n) → Idx (CBlk n) → ℝ) (h : HessNear f H (readControl r v))
    {G : List ℝ → Option ℝ} (hG : ∀ v', G v' = some (f (readControl r v'))) : Spec.SecondDerivatives G v (controlMatrixOf r H) := by
  obtain ⟨g, h1, h2⟩ := h
  obtain ⟨ε, hε, h1⟩ := near_box _ (continuous_readControl r) v hv h1
  refine ⟨fun v' => controlVectorOf r (g (readControl r v')), ⟨ε, hε, fun v' hv' i hi => ⟨_, fun a => hG _, ?_⟩⟩, fun i hi j hj => ⟨_, fun a => rfl, ?_⟩⟩
  · exact deriv_control hL v' (hv'.1.trans hv) f _ (h1 v' hv') i (hv ▸ hi)
  · obtain ⟨p, hp, -⟩ := hL.2 i (hv ▸ hi)
    simp only [controlMatrixOf, controlVectorOf_at hL (hv ▸ hi) hp]
    exact deriv_control hL v hv (fun y => g y p) _ (h2 p) j (hv ▸ hj)

theorem second_mixed (v w : List ℝ) (hv : v.length = 12 * n + 16 + nj) (hw : w.length = 12 * n + 7 + nj) (f : SVec n → CVec n → ℝ) (H : Idx (SBlk n) → Idx (CBlk n) → ℝ)
    (h : MixedNear f H (readState r v) (readControl r w))
    {G : List ℝ → List ℝ → Option ℝ} (hG : ∀ v' w', G v' w' = some (f (readState r v') (readControl r w'))) : Spec.MixedDerivatives G v w (mixedMatrixOf r H) := by
  obtain ⟨g, h1, h2⟩ := h
  refine ⟨fun w' => stateVectorOf r (g (readControl r w')), fun w' hw' i hi => ⟨_, fun a => hG _ _, ?_⟩, fun i hi j hj => ⟨_, fun a => rfl, ?_⟩⟩
  · exact deriv_state hL v hv (fun y => f y (readControl r w')) _ (h1 _) i (hv ▸ hi)
  · obtain ⟨p, hp, -⟩ := hL.1 i (hv ▸ hi)
    simp only [mixedMatrixOf, stateVectorOf_at hL (hv ▸ hi) hp]
    exact deriv_control hL w hw (fun u => g u p) _ (h2 p) j (hw ▸ hj)

end

/-! ### Sums -/

theorem partial_add {G G' : List ℝ → Option ℝ} {v : List ℝ} {i : ℕ} {d d' : ℝ} (h : Spec.PartialDerivative G v i d) (h' : Spec.PartialDerivative G' v i d')
    {S : List ℝ → Option ℝ} (hS : ∀ v a b, G v = some a → G' v = some b → S v = some (a + b)) : Spec.PartialDerivative S v i (d + d') := by
  obtain ⟨f, h1, h2⟩ := h
  obtain ⟨f', h1', h2'⟩ := h'
  exact ⟨fun a => f a + f' a, fun a => hS _ _ _ (h1 a) (h1' a), h2.add h2'⟩

theorem second_add {G G' : List ℝ → Option ℝ} {v : List ℝ} {H H' : ℕ → ℕ → ℝ} (h : Spec.SecondDerivatives G v H) (h' : Spec.SecondDerivatives G' v H')
    {S : List ℝ → Option ℝ} (hS : ∀ v a b, G v = some a → G' v = some b → S v = some (a + b)) : Spec.SecondDerivatives S v fun i j => H i j + H' i j := by
  obtain ⟨g, ⟨ε, hε, h1⟩, h2⟩ := h
  obtain ⟨g', ⟨ε', hε', h1'⟩, h2'⟩ := h'
  refine ⟨fun v i => g v i + g' v i, ⟨min ε ε', lt_min hε hε', fun v' hv' i hi => ?_⟩, fun i hi j hj => ?_⟩
  · exact partial_add (h1 v' ⟨hv'.1, fun k => (hv'.2 k).trans_le (min_le_left _ _)⟩ i hi) (h1' v' ⟨hv'.1, fun k => (hv'.2 k).trans_le (min_le_right _ _)⟩ i hi) hS
  · exact partial_add (h2 i hi j hj) (h2' i hi j hj) fun v a b ha hb => by rw [← Option.some.inj ha, ← Option.some.inj hb]

theorem mixed_add {G G' : List ℝ → List ℝ → Option ℝ} {v w : List ℝ} {H H' : ℕ → ℕ → ℝ} (h : Spec.MixedDerivatives G v w H) (h' : Spec.MixedDerivatives G' v w H')
    {S : List ℝ → List ℝ → Option ℝ} (hS : ∀ v w a b, G v w = some a → G' v w = some b → S v w = some (a + b)) :
    Spec.MixedDerivatives S v w fun i j => H i j + H' i j := by
  obtain ⟨g, h1, h2⟩ := h
  obtain ⟨g', h1', h2'⟩ := h'
  refine ⟨fun v i => g v i + g' v i, fun w' hw' i hi => ?_, fun i hi j hj => ?_⟩
  · exact partial_add (h1 w' hw' i hi) (h1' w' hw' i hi) fun v a b ha hb => hS _ _ _ _ ha hb
  · exact partial_add (h2 i hi j hj) (h2' i hi j hj) fun v a b ha hb => by rw [← Option.some.inj ha, ← Option.some.inj hb]

theorem partial_const (c : ℝ) (v : List ℝ) (i : ℕ) : Spec.PartialDerivative (fun _ => some c) v i 0 := ⟨fun _ => c, fun _ => rfl, hasDerivAt_const _ _⟩

theorem second_const (c : ℝ) (v : List ℝ) : Spec.SecondDerivatives (fun _ => some c) v fun _ _ => 0 :=
  ⟨fun _ _ => 0, ⟨1, one_pos, fun v' _ i _ => partial_const c v' i⟩, fun _ _ j _ => partial_const 0 v j⟩

theorem mixed_const (c : ℝ) (v w : List ℝ) : Spec.MixedDerivatives (fun _ _ => some c) v w fun _ _ => 0 :=
  ⟨fun _ _ => 0, fun _ _ i _ => partial_const c v i, fun _ _ j _ => partial_const 0 w j⟩

end
end Verif.Plan
