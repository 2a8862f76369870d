import Mathlib.Data.Real.Basic
import Mathlib.Data.Matrix.Mul

/-!
# Specification: quadratic programmes with variable bounds

`min ½ xᵀ H x + gᵀ x` subject to `lbA ≤ A x ≤ ubA` and `lb ≤ x ≤ ub`; `none` is no bound.
-/

namespace Verif.Spec
open Matrix

structure BoxQP (V R : Type*) where
  H : Matrix V V ℝ
  g : V → ℝ
  A : R → V → ℝ
  lbA : R → Option ℝ
  ubA : R → Option ℝ
  lb : V → Option ℝ
  ub : V → Option ℝ

namespace BoxQP
variable {V R : Type*} [Fintype V]

/-- All row bounds and variable bounds hold. -/
def Feasible (d : BoxQP V R) (x : V → ℝ) : Prop :=
  (∀ r, (∀ b ∈ d.lbA r, b ≤ d.A r ⬝ᵥ x) ∧ ∀ b ∈ d.ubA r, d.A r ⬝ᵥ x ≤ b) ∧
  ∀ v, (∀ b ∈ d.lb v, b ≤ x v) ∧ ∀ b ∈ d.ub v, x v ≤ b

/-- Objective. -/
noncomputable def cost (d : BoxQP V R) (x : V → ℝ) : ℝ := (1 / 2) * (x ⬝ᵥ (d.H *ᵥ x)) + d.g ⬝ᵥ x

/-- `x` is an exact solution. -/
def IsSolution (d : BoxQP V R) (x : V → ℝ) : Prop :=
  d.Feasible x ∧ ∀ y, d.Feasible y → d.cost x ≤ d.cost y

end BoxQP

end Verif.Spec
