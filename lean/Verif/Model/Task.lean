import Verif.Model.Contact

/-!
# Task space: `CalculateJKT`, `CalculateTaskNullSpace`, task stack without QP
(src/wbd.cpp 207-213, 257-261; src/dwbc.cpp 795-873)
-/

namespace Verif.Model
open Matrix Verif

variable {ι : Type*} [Fintype ι] [DecidableEq ι] {c : ℕ}

/-- Inputs of one task space: `J_task_`, `f_star_` (include/dwbc_task.h). -/
structure TaskIn (ι : Type*) where
  t : ℕ
  J : Matrix (Fin t) (Fin 6 ⊕ ι) ℝ
  f : Fin t → ℝ

/-- Task with `Lambda_task_` and `J_kt_` filled in. -/
structure TaskReady (ι : Type*) extends TaskIn ι where
  Λ : Matrix (Fin t) (Fin t) ℝ
  Jkt : Matrix ι (Fin t) ℝ

/-- src/wbd.cpp 207-213 `CalculateJKT`; `none` when `(J A⁻¹ N_C Jᵀ).inverse()` is not finite. -/
noncomputable def calculateJKT (S : ContactSpace c ι) (Ainv : Matrix (Fin 6 ⊕ ι) (Fin 6 ⊕ ι) ℝ)
    (T : TaskIn ι) : Option (TaskReady ι) :=
  (eigenInverse (T.J * Ainv * S.Nc * T.Jᵀ)).map fun Λ =>
    let Q : Matrix (Fin T.t) ι ℝ := (Λ * T.J * Ainv * S.Nc).submatrix id Sum.inr
    { T with Λ := Λ, Jkt := S.Winv * Qᵀ * pinv (Q * S.Winv * Qᵀ) }

/-- src/dwbc.cpp 795-816 `CalcTaskSpace`: `CalcJKT` for every task. -/
noncomputable def calcTaskSpace (S : ContactSpace c ι) (Ainv : Matrix (Fin 6 ⊕ ι) (Fin 6 ⊕ ι) ℝ)
    (ts : List (TaskIn ι)) : Option (List (TaskReady ι)) :=
  ts.mapM (calculateJKT S Ainv)

/-- src/wbd.cpp 257-261 `CalculateTaskNullSpace`. -/
def taskNullSpace (S : ContactSpace c ι) (T : TaskReady ι) (prev : Matrix ι ι ℝ) : Matrix ι ι ℝ :=
  prev * (1 - T.Jkt * T.Λ * T.J * S.AinvNc.submatrix id Sum.inr)

/-- src/dwbc.cpp 856-871, the loop without QP, from some level on: `N` is the null-space matrix of the level
above (`Identity` at level 0, where the code omits the product) and `τ` the torque accumulated so far. -/
def taskTorqueFrom (S : ContactSpace c ι) : Matrix ι ι ℝ → (ι → ℝ) → List (TaskReady ι) → ι → ℝ
  | _, τ, [] => τ
  | N, τ, T :: rest =>
      taskTorqueFrom S (taskNullSpace S T N) (τ + N *ᵥ (T.Jkt *ᵥ (T.Λ *ᵥ T.f))) rest

/-- src/dwbc.cpp 818-873 `CalcTaskControlTorque(hqp = false)`: resulting `torque_task_`. -/
def taskTorque (S : ContactSpace c ι) (ts : List (TaskReady ι)) : ι → ℝ :=
  taskTorqueFrom S 1 0 ts

end Verif.Model
