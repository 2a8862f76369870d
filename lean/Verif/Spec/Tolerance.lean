import Verif.Spec.QP
import Verif.Spec.Wrench
import Verif.Spec.HQP
import Verif.Spec.BoxQP

/-! # Answers of a solver that stops at a tolerance -/

namespace Verif.Spec
open Matrix

namespace QP
variable {V : Type*} [Fintype V]

/-- All row bounds hold up to `ε`. -/
def FeasibleWithin (ε : ℝ) (d : QP V) (x : V → ℝ) : Prop :=
  ∀ r < d.rows, (∀ b ∈ d.lb r, b - ε ≤ d.A r ⬝ᵥ x) ∧ d.A r ⬝ᵥ x ≤ d.ub r + ε

/-- All row bounds hold up to `ε`, and the cost is at most `δ` above that of every point that satisfies the bounds. -/
def SolvedWithin (ε δ : ℝ) (d : QP V) (x : V → ℝ) : Prop :=
  d.FeasibleWithin ε x ∧ ∀ y, d.Feasible y → d.cost x ≤ d.cost y + δ

end QP

/-- All rows of a problem with upper bounds only hold up to `ε`. -/
def LeQP.FeasibleWithin {X : Type} [Fintype X] (ε : ℝ) (d : LeQP X) (x : X → ℝ) : Prop := ∀ r : d.R, d.row r ⬝ᵥ x ≤ d.ub r + ε

namespace BoxQP
variable {V R : Type*} [Fintype V]

/-- All row bounds and variable bounds hold up to `ε`. -/
def FeasibleWithin (ε : ℝ) (d : BoxQP V R) (x : V → ℝ) : Prop :=
  (∀ r, (∀ b ∈ d.lbA r, b - ε ≤ d.A r ⬝ᵥ x) ∧ ∀ b ∈ d.ubA r, d.A r ⬝ᵥ x ≤ b + ε) ∧
  ∀ v, (∀ b ∈ d.lb v, b - ε ≤ x v) ∧ ∀ b ∈ d.ub v, x v ≤ b + ε

/-- All bounds hold up to `ε`, and the cost is at most `δ` above that of every point that satisfies the bounds. -/
def SolvedWithin (ε δ : ℝ) (d : BoxQP V R) (x : V → ℝ) : Prop :=
  d.FeasibleWithin ε x ∧ ∀ y, d.Feasible y → d.cost x ≤ d.cost y + δ

end BoxQP

/-- A contact wrench exceeds what the contact can carry by at most `ε`: friction forces, torsional moment and tipping moments. -/
def CarriesWithin (ε lx ly μ μz : ℝ) (w : Fin 6 → ℝ) : Prop :=
  |w 0| ≤ μ * press w + ε ∧ |w 1| ≤ μ * press w + ε ∧ |w 5| ≤ μz * press w + ε ∧ |w 4| ≤ lx * press w + ε ∧ |w 3| ≤ ly * press w + ε

end Verif.Spec
