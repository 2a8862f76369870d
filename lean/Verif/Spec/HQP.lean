import Mathlib.Data.Real.Basic
import Mathlib.Data.Matrix.Mul
import Mathlib.Data.List.Basic

/-!
# Specification: hierarchical least squares

A level asks for `B y + b = 0` and `A y + a ≤ 0`.  `y` stands for the decision vector.
-/

namespace Verif.Spec
open Matrix

/-- `min ½ xᵀ H x + gᵀ x` subject to `row r · x ≤ ub r` for every `r : R`. -/
structure LeQP (X : Type) where
  H : Matrix X X ℝ
  g : X → ℝ
  R : Type
  row : R → X → ℝ
  ub : R → ℝ

namespace LeQP
variable {X : Type} [Fintype X]

def Feasible (d : LeQP X) (x : X → ℝ) : Prop := ∀ r : d.R, d.row r ⬝ᵥ x ≤ d.ub r

noncomputable def cost (d : LeQP X) (x : X → ℝ) : ℝ := (1 / 2) * (x ⬝ᵥ (d.H *ᵥ x)) + d.g ⬝ᵥ x

def IsSolution (d : LeQP X) (x : X → ℝ) : Prop :=
  d.Feasible x ∧ ∀ y, d.Feasible y → d.cost x ≤ d.cost y

end LeQP

/-- One level: inequalities `A y + a ≤ 0`, equations `B y + b = 0`, and an optional cost `½ yᵀ H y`. -/
structure Level (V : Type) where
  I : Type
  E : Type
  [fI : Fintype I]
  [fE : Fintype E]
  A : Matrix I V ℝ
  a : I → ℝ
  B : Matrix E V ℝ
  b : E → ℝ
  H : Option (Matrix V V ℝ)

attribute [instance] Level.fI Level.fE

namespace Level
variable {V : Type} [Fintype V]

/-- Equality residual. -/
def residual (l : Level V) (y : V → ℝ) : l.E → ℝ := l.B *ᵥ y + l.b

/-- Inequality value; positive entries are violations. -/
def value (l : Level V) (y : V → ℝ) : l.I → ℝ := l.A *ᵥ y + l.a

/-- What the level minimises: squared residual, squared violation, and the cost if there is one. -/
noncomputable def objective (l : Level V) (y : V → ℝ) : ℝ :=
  (1 / 2) * (l.residual y ⬝ᵥ l.residual y) + (1 / 2) * (∑ r, (max (l.value y r) 0) ^ 2)
    + (1 / 2) * ((l.H.elim 0 fun H => y ⬝ᵥ (H *ᵥ y)))

end Level

/-- The answer of one level: the decision vector, the violation and the reported residual. -/
structure LevelAnswer (V : Type) where
  l : Level V
  y : V → ℝ
  v : l.I → ℝ
  w : l.E → ℝ

/-- `y` keeps what the answer `r` of a higher level achieved: the same equality residual, and inequalities violated
by no more than `r.v`. -/
def Keeps {V : Type} [Fintype V] (r : LevelAnswer V) (y : V → ℝ) : Prop :=
  r.l.residual y = r.l.residual r.y ∧ ∀ i, r.l.value y i ≤ r.v i

/-- A cost that is symmetric and nowhere negative. -/
def CostOk {V : Type} [Fintype V] (H : Matrix V V ℝ) : Prop := Hᵀ = H ∧ ∀ x, 0 ≤ x ⬝ᵥ (H *ᵥ x)

end Verif.Spec
