import Mathlib.Data.Real.Basic
import Mathlib.Data.Matrix.Mul

/-!
# Specification: quadratic programmes

`min ½ xᵀ H x + gᵀ x` subject to `lb ≤ A x ≤ ub` (row-wise; `lb = none` is no lower bound).
-/

namespace Verif.Spec
open Matrix

structure QP (V : Type*) where
  H : Matrix V V ℝ
  g : V → ℝ
  rows : ℕ
  A : ℕ → V → ℝ
  lb : ℕ → Option ℝ
  ub : ℕ → ℝ

namespace QP
variable {V : Type*} [Fintype V]

/-- All row bounds hold. -/
def Feasible (d : QP V) (x : V → ℝ) : Prop :=
  ∀ r < d.rows, (∀ b ∈ d.lb r, b ≤ d.A r ⬝ᵥ x) ∧ d.A r ⬝ᵥ x ≤ d.ub r

/-- Objective. -/
noncomputable def cost (d : QP V) (x : V → ℝ) : ℝ := (1 / 2) * (x ⬝ᵥ (d.H *ᵥ x)) + d.g ⬝ᵥ x

/-- `x` is an exact solution. -/
def IsSolution (d : QP V) (x : V → ℝ) : Prop :=
  d.Feasible x ∧ ∀ y, d.Feasible y → d.cost x ≤ d.cost y

end QP

end Verif.Spec
