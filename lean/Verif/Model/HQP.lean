import Verif.Spec.HQP
import Verif.Model.Task
import Mathlib.Data.Matrix.Block
import Mathlib.Analysis.SpecialFunctions.Pow.Real

/-!
# Hierarchical QP (src/dwbc_hqp.cpp, include/dwbc_hqp.h) and the controller built on it (src/dwbc.cpp 4304-4453)

A level with no inequalities has an empty row type `I`, so the guards `if (ineq_const_size_ > 0)` need no model.
The weights `V_`, `W_` of a level are read by `solvefirst` only.  The OSQP solver is a parameter; it receives no
bounds on single variables (`qp_lb_`, `qp_ub_` are set but never handed over, dwbc_hqp.cpp 583-615), its status is
not looked at, and `sparseView(1E-5)` (it drops entries up to 1e-17) is taken as exact.  This file models
solving with `init = true`; `Model/HqpWarm` models `init = false`, which keeps the problem data of the call before.
-/

set_option linter.unusedSectionVars false

namespace Verif.Model
open Matrix Verif Verif.Spec

variable {V : Type} [Fintype V] [DecidableEq V]

/-- A matrix with `k` columns: `Z_` with `null_space_size_ = k`. -/
abbrev Basis (V : Type) := Σ k : ℕ, Matrix V (Fin k) ℝ

/-- src/math.cpp 349-360 `getNullSpace`: a matrix for the kernel of the argument, from a complete orthogonal
decomposition.  Which kernel basis it is depends on the pivoting, so it is a parameter. -/
abbrev NullSpaceFn := ∀ (E W : Type) [Fintype E] [Fintype W], Matrix E W ℝ → Basis W

/-- What a complete orthogonal decomposition guarantees: the columns are annihilated and span the kernel. -/
structure NullSpaceFn.Correct (N : NullSpaceFn) : Prop where
  ann : ∀ (E W : Type) [Fintype E] [Fintype W] (M : Matrix E W ℝ), M * (N E W M).2 = 0
  span : ∀ (E W : Type) [Fintype E] [Fintype W] (M : Matrix E W ℝ) (x : W → ℝ), M *ᵥ x = 0 →
    ∃ u, x = (N E W M).2 *ᵥ u

/-- The solver: any answer it gives, for any problem. -/
abbrev Osqp := ∀ (X : Type) [Fintype X], LeQP X → X → ℝ

/-- The solver returns a feasible point whenever there is one. -/
def OsqpSound (osqp : Osqp) : Prop :=
  ∀ (X : Type) [Fintype X] (d : LeQP X), (∃ x, d.Feasible x) → d.Feasible (osqp X d)

/-- The solver returns an exact solution whenever there is one. -/
def OsqpExact (osqp : Osqp) : Prop :=
  ∀ (X : Type) [Fintype X] (d : LeQP X), (∃ x, d.IsSolution x) → d.IsSolution (osqp X d)

/-- dwbc_hqp.cpp 25: `Z_` of level 0 -/
def firstZ (N : NullSpaceFn) (l : Level V) : Basis V := N l.E V l.B

/-- dwbc_hqp.cpp 40-47: `Z_` of a later level from the one before: `Z_i = Z_{i-1} null(B_i Z_{i-1})` -/
def nextZ (N : NullSpaceFn) (Z : Basis V) (l : Level V) : Basis V :=
  ⟨(N l.E (Fin Z.1) (l.B * Z.2)).1, Z.2 * (N l.E (Fin Z.1) (l.B * Z.2)).2⟩

/-- dwbc_hqp.cpp 291-381: the problem posed at a level `i ≥ 1`.  Variables: `u` (inl) and the own violation `v` (inr).
Rows: the own inequalities (`inl`), then those of every earlier level (`inr`), in order. -/
noncomputable def levelQP (Z : Basis V) (y : V → ℝ) (done : List (LevelAnswer V)) (l : Level V) :
    LeQP (Fin Z.1 ⊕ l.I) :=
  let T := l.B * Z.2
  { H := letI := Classical.decEq l.I
      fromBlocks (Tᵀ * T + l.H.elim 0 fun H => Z.2ᵀ * H * Z.2) 0 0 1
    g := Sum.elim (Tᵀ *ᵥ (l.B *ᵥ y + l.b) + l.H.elim 0 fun H => (Z.2ᵀ * H) *ᵥ y) 0
    R := l.I ⊕ Σ k : Fin done.length, (done.get k).l.I
    row := letI := Classical.decEq l.I
      Sum.elim (fun r => Sum.elim ((l.A * Z.2) r) (-(Pi.single r 1)))
        (fun k => Sum.elim (((done.get k.1).l.A * Z.2) k.2) 0)
    ub := Sum.elim (fun r => -(l.A *ᵥ y) r - l.a r)
      (fun k => -((done.get k.1).l.A *ᵥ y) k.2 + (done.get k.1).v k.2 - (done.get k.1).l.a k.2) }

/-- dwbc_hqp.cpp 387-393: `y_ans_`, `v_ans_`, `w_ans_` from the solver's answer -/
def levelAnswer (Z : Basis V) (y : V → ℝ) (l : Level V) (x : Fin Z.1 ⊕ l.I → ℝ) : LevelAnswer V :=
  let y' := y + Z.2 *ᵥ (x ∘ Sum.inl)
  { l := l, y := y', v := x ∘ Sum.inr, w := l.B *ᵥ y' + l.b }

/-- dwbc_hqp.cpp 291-395 `solveSequentialSingle`, given the earlier answers, their last `y_ans_`, and `Z_{i-1}` -/
noncomputable def solveSingle (osqp : Osqp) (Z : Basis V) (y : V → ℝ) (done : List (LevelAnswer V)) (l : Level V) :
    LevelAnswer V :=
  levelAnswer Z y l (osqp _ (levelQP Z y done l))

/-- dwbc_hqp.cpp 397-403 `solveSequential`: levels `1, 2, …` in order; returns all answers -/
noncomputable def solveRest (osqp : Osqp) (N : NullSpaceFn) :
    Basis V → (V → ℝ) → List (LevelAnswer V) → List (Level V) → List (LevelAnswer V)
  | _, _, done, [] => done
  | Z, y, done, l :: ls =>
    let r := solveSingle osqp Z y done l
    solveRest osqp N (nextZ N Z l) r.y (done ++ [r]) ls

/-- `prepare()` then `solveSequential()` on level 0 with the answer `r₀` and the later levels `ls` -/
noncomputable def solveSequential (osqp : Osqp) (N : NullSpaceFn) (r₀ : LevelAnswer V) (ls : List (Level V)) :
    List (LevelAnswer V) :=
  solveRest osqp N (firstZ N r₀.l) r₀.y [r₀] ls

/-- The answer at every level from 1 on satisfies `P` (with the problem posed to the solver). -/
def EveryAnswer (P : ∀ (X : Type) [Fintype X], LeQP X → (X → ℝ) → Prop) (osqp : Osqp) (N : NullSpaceFn) :
    Basis V → (V → ℝ) → List (LevelAnswer V) → List (Level V) → Prop
  | _, _, _, [] => True
  | Z, y, done, l :: ls =>
    P _ (levelQP Z y done l) (osqp _ (levelQP Z y done l)) ∧
      EveryAnswer P osqp N (nextZ N Z l) (solveSingle osqp Z y done l).y (done ++ [solveSingle osqp Z y done l]) ls

/-- dwbc_hqp.cpp 222-281: the problem posed at level 0 by `solvefirst`; `Vw`, `Ww` are the weights `V_`, `W_`. -/
noncomputable def firstQP (l : Level V) (Vw : Matrix l.I l.I ℝ) (Ww : Matrix l.E l.E ℝ) : LeQP (V ⊕ l.I) :=
  let T := Ww * l.B
  { H := letI := Classical.decEq l.I
      fromBlocks (Tᵀ * T + l.H.elim 0 id) 0 0 1
    g := Sum.elim (Tᵀ *ᵥ (Ww *ᵥ l.b)) 0
    R := l.I
    row := letI := Classical.decEq l.I
      fun r => Sum.elim ((Vw * l.A) r) (-(Pi.single r 1))
    ub := fun r => -(Vw *ᵥ l.a) r }

/-- dwbc_hqp.cpp 222-289 `solvefirst`.  `w_ans_` is not written and stays zero from `initialize`. -/
noncomputable def solveFirst (osqp : Osqp) (l : Level V) (Vw : Matrix l.I l.I ℝ) (Ww : Matrix l.E l.E ℝ) :
    LevelAnswer V :=
  let x := osqp _ (firstQP l Vw Ww)
  { l := l, y := x ∘ Sum.inl, v := x ∘ Sum.inr, w := 0 }

/-- Euclidean norm of a row, `A_.row(i).norm()` -/
noncomputable def rowNorm (r : V → ℝ) : ℝ := Real.sqrt (r ⬝ᵥ r)

/-- Factor applied to a row by `normalizeConstraintMatrix`: `1/norm` if `norm > 0`, otherwise the row is left. -/
noncomputable def rowScale (r : V → ℝ) : ℝ := if 0 < rowNorm r then 1 / rowNorm r else 1

/-- dwbc_hqp.cpp 555-581 `normalizeConstraintMatrix` -/
noncomputable def normalizeRows (l : Level V) : Level V :=
  { l with
    A := fun r => rowScale (l.A r) • l.A r
    a := fun r => rowScale (l.A r) * l.a r
    B := fun r => rowScale (l.B r) • l.B r
    b := fun r => rowScale (l.B r) * l.b r }

/-! ## The controller -/

section Lqp
variable {ι : Type} [Fintype ι] [DecidableEq ι] {n c m : ℕ}

/-- Decision vector of the controller: accelerations, then contact forces. -/
abbrev LqpVar (ι : Type) (c : ℕ) := (Fin 6 ⊕ ι) ⊕ Fin c

/-- What a controller of this kind is built from: mass matrix and its inverse, bias force, contact Jacobian, contact rows, torque
bounds, weight of the acceleration energy, and per task Jacobian and command.  `ι` are the joints. -/
structure LqpConf (ι : Type) (c m : ℕ) where
  M : Matrix (Fin 6 ⊕ ι) (Fin 6 ⊕ ι) ℝ
  Minv : Matrix (Fin 6 ⊕ ι) (Fin 6 ⊕ ι) ℝ
  h : Fin 6 ⊕ ι → ℝ
  J : Matrix (Fin c) (Fin 6 ⊕ ι) ℝ
  C : Matrix (Fin m) (Fin c) ℝ
  lim : ι → ℝ
  weight : ℝ
  tasks : List (Σ t : ℕ, Matrix (Fin t) (Fin 6 ⊕ ι) ℝ × (Fin t → ℝ))

/-- What `ConfigureLQP` reads from the robot: `A_`, `A_inv_`, `B_` (nonlinear effects), `J_C`,
`getContactConstraintMatrix()`, and per task `J_task_`, `f_star_`. -/
structure LqpRobot (n c m : ℕ) where
  M : Matrix (Fin 6 ⊕ Fin n) (Fin 6 ⊕ Fin n) ℝ
  Minv : Matrix (Fin 6 ⊕ Fin n) (Fin 6 ⊕ Fin n) ℝ
  h : Fin 6 ⊕ Fin n → ℝ
  J : Matrix (Fin c) (Fin 6 ⊕ Fin n) ℝ
  C : Matrix (Fin m) (Fin c) ℝ
  tasks : List (Σ t : ℕ, Matrix (Fin t) (Fin 6 ⊕ Fin n) ℝ × (Fin t → ℝ))

/-- `A_.norm()` -/
noncomputable def frobenius {X : Type} [Fintype X] (M : Matrix X X ℝ) : ℝ :=
  Real.sqrt (∑ i, ∑ j, M i j ^ 2)

/-- src/dwbc.cpp 4340, 4359: the weight of the energy is `5/‖A_‖`, every torque bound is 200. -/
noncomputable def LqpRobot.conf (R : LqpRobot n c m) : LqpConf (Fin n) c m :=
  { M := R.M, Minv := R.Minv, h := R.h, J := R.J, C := R.C, lim := fun _ => 200, weight := 5 / frobenius R.M, tasks := R.tasks }

/-- src/dwbc.cpp 4338-4341 `cost_h`: `A_ / ‖A_‖ * 5` on the accelerations, zero on the forces -/
noncomputable def lqpCost (R : LqpConf ι c m) : Matrix (LqpVar ι c) (LqpVar ι c) ℝ :=
  fromBlocks (R.weight • R.M) 0 0 0

/-- src/dwbc.cpp 4343-4372: level 0 before normalisation.  Equations: the base rows of `A q̈ + J_Cᵀ F + B`.
Inequalities: `±(A q̈ + J_Cᵀ F + B)` on the joints, minus the torque bound. -/
def lqpDynamics (R : LqpConf ι c m) : Level (LqpVar ι c) :=
  { I := ι ⊕ ι
    E := Fin 6
    A := Sum.elim (fun i => Sum.elim (R.M (Sum.inr i)) (R.Jᵀ (Sum.inr i)))
      (fun i => Sum.elim (-R.M (Sum.inr i)) (-R.Jᵀ (Sum.inr i)))
    a := Sum.elim (fun i => -R.lim i + R.h (Sum.inr i)) (fun i => -R.lim i - R.h (Sum.inr i))
    B := fun i => Sum.elim (R.M (Sum.inl i)) (R.Jᵀ (Sum.inl i))
    b := fun i => R.h (Sum.inl i)
    H := none }

/-- src/dwbc.cpp 4377-4405: level 1 before normalisation.  Equations `J_C q̈ = 0`; inequalities: contact rows on the
forces, `±q̈ ≤ 5` on the joints. -/
noncomputable def lqpContact (R : LqpConf ι c m) : Level (LqpVar ι c) :=
  { I := Fin m ⊕ (ι ⊕ ι)
    E := Fin c
    A := Sum.elim (fun r => Sum.elim 0 (R.C r))
      (Sum.elim (fun i => Pi.single (Sum.inl (Sum.inr i)) 1) (fun i => -Pi.single (Sum.inl (Sum.inr i)) 1))
    a := Sum.elim 0 (Sum.elim (fun _ => -5) (fun _ => -5))
    B := fun r => Sum.elim (R.J r) 0
    b := 0
    H := some (lqpCost R) }

/-- src/dwbc.cpp 4407-4424: one level per task, `J_task q̈ = f_star` -/
noncomputable def lqpTask (R : LqpConf ι c m) (t : Σ t : ℕ, Matrix (Fin t) (Fin 6 ⊕ ι) ℝ × (Fin t → ℝ)) :
    Level (LqpVar ι c) :=
  { I := Fin 0
    E := Fin t.1
    A := 0
    a := 0
    B := fun r => Sum.elim (t.2.1 r) 0
    b := -t.2.2
    H := some (lqpCost R) }

/-- src/dwbc.cpp 4370-4375: the answer put into level 0: `y = (-A_inv_ B_, 0)`, `v = 0`, `w = 0` -/
noncomputable def lqpStart (R : LqpConf ι c m) : LevelAnswer (LqpVar ι c) :=
  { l := normalizeRows (lqpDynamics R), y := Sum.elim (-(R.Minv *ᵥ R.h)) 0, v := 0, w := 0 }

/-- src/dwbc.cpp 4304-4430 `ConfigureLQP`, levels from 1 on (for a new `HQP` object) -/
noncomputable def lqpLevels (R : LqpConf ι c m) : List (Level (LqpVar ι c)) :=
  normalizeRows (lqpContact R) :: R.tasks.map fun t => normalizeRows (lqpTask R t)

/-- `prepare` and `solveSequential` on the levels of a configuration -/
noncomputable def lqpRun (osqp : Osqp) (N : NullSpaceFn) (R : LqpConf ι c m) : List (LevelAnswer (LqpVar ι c)) :=
  solveSequential osqp N (lqpStart R) (lqpLevels R)

/-- src/dwbc.cpp 4304-4453 `ConfigureLQP`, then `CalcControlTorqueLQP` -/
noncomputable def calcControlTorqueLQP (osqp : Osqp) (N : NullSpaceFn) (R : LqpRobot n c m) :
    List (LevelAnswer (LqpVar (Fin n) c)) :=
  lqpRun osqp N R.conf

end Lqp

end Verif.Model
