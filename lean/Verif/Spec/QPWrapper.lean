import Verif.Model.ConstraintRows
import Mathlib.Algebra.BigOperators.Group.Finset.Basic

/-!
# The problem a user has stated to the QP wrapper (independent of how the wrapper stores it)
-/

namespace Verif.Spec
open Verif.Model

/-- `min ½ xᵀHx + gᵀx` with optional rows `lbA ≤ A x ≤ ubA` and optional bounds `lb ≤ x ≤ ub`. -/
structure QPData where
  H : DynMat
  g : List ℝ
  rows : Option (DynMat × List ℝ × List ℝ)
  box : Option (List ℝ × List ℝ)

namespace QPData

/-- row `r` of `A x` -/
noncomputable def rowValue (A : DynMat) (x : List ℝ) (r : ℕ) : ℝ := ∑ j ∈ Finset.range A.cols, A.at' r j * x.getD j 0

/-- `x` has the right length and satisfies all rows and bounds. -/
def Feasible (d : QPData) (x : List ℝ) : Prop :=
  x.length = d.g.length ∧
  (∀ A l u, d.rows = some (A, l, u) → ∀ r < A.rows, l.getD r 0 ≤ rowValue A x r ∧ rowValue A x r ≤ u.getD r 0) ∧
  (∀ l u, d.box = some (l, u) → ∀ j < x.length, l.getD j 0 ≤ x.getD j 0 ∧ x.getD j 0 ≤ u.getD j 0)

/-- objective -/
noncomputable def cost (d : QPData) (x : List ℝ) : ℝ :=
  (1 / 2) * (∑ i ∈ Finset.range x.length, x.getD i 0 * rowValue d.H x i) +
    ∑ i ∈ Finset.range x.length, d.g.getD i 0 * x.getD i 0

/-- feasible and no worse than any feasible point -/
def IsSolution (d : QPData) (x : List ℝ) : Prop := d.Feasible x ∧ ∀ y, d.Feasible y → d.cost x ≤ d.cost y

end QPData

/-- What the user says. -/
inductive Statement where
  | size (nv nc : ℕ)
  | objective (H : DynMat) (g : List ℝ)
  | rows (A : DynMat) (lb ub : List ℝ)
  | noRows
  | box (lb ub : List ℝ)
  | noBox

/-- The problem stated so far: a new size starts over with zero objective and no constraints; otherwise the latest
statement of each kind counts. -/
def stated : QPData → List Statement → QPData
  | d, [] => d
  | _, .size nv _ :: h => stated ⟨.zero nv nv, List.replicate nv 0, none, none⟩ h
  | d, .objective H g :: h => stated { d with H := H, g := g } h
  | d, .rows A l u :: h => stated { d with rows := some (A, l, u) } h
  | d, .noRows :: h => stated { d with rows := none } h
  | d, .box l u :: h => stated { d with box := some (l, u) } h
  | d, .noBox :: h => stated { d with box := none } h

end Verif.Spec
