import Verif.Spec.ObjectiveGradient
/- Second derivatives of functions of the vectors of the optimiser. -/
namespace Verif.Plan.Spec
noncomputable section

/-- `v'` has the size of `v`, and each entry differs from that of `v` by less than `ε`. -/
def Near (ε : ℝ) (v v' : List ℝ) : Prop := v'.length = v.length ∧ ∀ i, |v'.getD i 0 - v.getD i 0| < ε

/-- `H` has the second derivatives of `G` at `v`: near `v` there are first derivatives with respect to all the entries, and `H i j` is the derivative of the `i`-th one with respect to
the entry `j`. -/
def SecondDerivatives (G : List ℝ → Option ℝ) (v : List ℝ) (H : ℕ → ℕ → ℝ) : Prop :=
  ∃ g : List ℝ → ℕ → ℝ, (∃ ε > 0, ∀ v', Near ε v v' → ∀ i < v.length, PartialDerivative G v' i (g v' i)) ∧
    ∀ i < v.length, ∀ j < v.length, PartialDerivative (fun v' => some (g v' i)) v j (H i j)

/-- `H i j` is the derivative, with respect to the entry `j` of the second vector, of the derivative with respect to the entry `i` of the first one. -/
def MixedDerivatives (G : List ℝ → List ℝ → Option ℝ) (v w : List ℝ) (H : ℕ → ℕ → ℝ) : Prop :=
  ∃ g : List ℝ → ℕ → ℝ, (∀ w', w'.length = w.length → ∀ i < v.length, PartialDerivative (fun v' => G v' w') v i (g w' i)) ∧
    ∀ i < v.length, ∀ j < w.length, PartialDerivative (fun w' => some (g w' i)) w j (H i j)

end
end Verif.Plan.Spec
