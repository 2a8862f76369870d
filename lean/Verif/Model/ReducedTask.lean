import Verif.Model.Reduced
import Verif.Model.Task

/-!
# Task control with the reduced model, without QP
(src/dwbc.cpp 3152-3253, 3255-3445 with `hqp = false`; src/task.cpp 95-142; src/wbd.cpp 220-226)
-/

set_option linter.unusedSectionVars false

namespace Verif.Model
open Matrix Verif

variable {κ ν : Type*} [Fintype κ] [DecidableEq κ] [Fintype ν] [DecidableEq ν] {c : ℕ}

/-- src/wbd.cpp 220-226 `CalculateJKT_R`: `lambda_task_R` and `J_kt_R`; `none` when the inverse is not finite. -/
noncomputable def jktR {ι : Type*} [Fintype ι] [DecidableEq ι] {t : ℕ} (P : Matrix (Fin 6 ⊕ ι) (Fin 6 ⊕ ι) ℝ)
    (Winv : Matrix ι ι ℝ) (J : Matrix (Fin t) (Fin 6 ⊕ ι) ℝ) :
    Option (Matrix (Fin t) (Fin t) ℝ × Matrix ι (Fin t) ℝ) :=
  (eigenInverse (J * P * Jᵀ)).map fun Λ =>
    let Q : Matrix (Fin t) ι ℝ := (Λ * J * P).submatrix id Sum.inr
    (Λ, Winv * Qᵀ * pinv (Q * Winv * Qᵀ))

/-- One task space before the calculation: `J_task_`, `f_star_`, the flags `cmm_task`, `reduced_task_`, `noncont_task` and
`nc_heirarchy_` (include/dwbc_task.h 126-142), as left by the classification (`Model/TaskKind`). -/
structure RTaskIn (κ ν : Type*) where
  t : ℕ
  J : Matrix (Fin t) (RSys κ ν) ℝ
  f : Fin t → ℝ
  cmm : Bool
  reduced : Bool
  noncont : Bool
  ncOrder : ℕ

/-- A task space after `CalcJKT_R`.  `JNC` is `J_task_NC_`; `none`: not assigned by this calculation. -/
structure RTask (κ ν : Type*) extends RTaskIn κ ν where
  JR : Matrix (Fin t) (RSys κ (Fin 6)) ℝ
  Λ : Matrix (Fin t) (Fin t) ℝ
  Jkt : Matrix (κ ⊕ Fin 6) (Fin t) ℝ
  JNC : Option (Matrix (Fin t) ν ℝ)

/-- src/task.cpp 109-110, 131-132: `J_task_R_` with the non-contact columns brought to the six reduced coordinates. -/
def taskJR (D : Reduced κ ν) {t : ℕ} (J : Matrix (Fin t) (RSys κ ν) ℝ) : Matrix (Fin t) (RSys κ (Fin 6)) ℝ :=
  fun r a => Sum.elim (fun i => J r (vcOf i)) (fun s => (J.submatrix id ncOf * D.JinvTᵀ) r s)
    ((Equiv.sumAssoc _ _ _).symm a)

/-- src/task.cpp 95-142 `CalcJKT_R`; `P` is `A_inv_N_C`.  `none`: an inverse is not finite, or the task has none of the three
types ("UNDEFINED TASK TYPE": `Lambda_task_` keeps whatever it held before). -/
noncomputable def calcJKTR (D : Reduced κ ν) (C : ReducedContact c κ ν) (P : Matrix (RSys κ ν) (RSys κ ν) ℝ)
    (T : RTaskIn κ ν) : Option (RTask κ ν) :=
  if T.cmm then
    (jktR C.ARinvNCR C.Winv (taskJR D T.J)).map fun x =>
      { T with JR := taskJR D T.J, Λ := x.1, Jkt := x.2, JNC := none }
  else if T.reduced && !T.noncont then
    (jktR C.ARinvNCR C.Winv (jCR T.J)).map fun x =>
      { T with JR := jCR T.J, Λ := x.1, Jkt := x.2, JNC := none }
  else if !T.reduced && T.noncont then
    (eigenInverse (T.J * P * T.Jᵀ)).map fun Λ =>
      { T with JR := taskJR D T.J, Λ := Λ, Jkt := 0, JNC := some (T.J.submatrix id ncOf) }
  else none

/-- src/wbd.cpp 257-261, src/task.cpp `CalcNullMatrix_R`: `Null_task_R_` of a task that is not a non-contact task. -/
def nullR (C : ReducedContact c κ ν) (T : RTask κ ν) (prev : Matrix (κ ⊕ Fin 6) (κ ⊕ Fin 6) ℝ) :
    Matrix (κ ⊕ Fin 6) (κ ⊕ Fin 6) ℝ :=
  prev * (1 - T.Jkt * T.Λ * T.JR * C.ARinvNCR.submatrix id Sum.inr)

/-- `diag(I, R)`, `R` being `link_[0].rotm` -/
def baseRot (R : Mat3) : Matrix (Fin 6) (Fin 6) ℝ := (fromBlocks 1 0 0 R : Mat6).submatrix six.symm six.symm

/-- src/dwbc.cpp 3159: `J_base_R_`, the first columns of the Jacobian of the base link.  RBDL's angular base velocity is in
base coordinates, hence `R`; joints do not move the base link. -/
def jBaseR (R : Mat3) : Matrix (Fin 6) (RSys κ (Fin 6)) ℝ := fun r a => Sum.elim (fun b => baseRot R r b) (fun _ => 0) a

/-- src/dwbc.cpp 3373-3374: `force_on_nc_` of a generalised force. -/
def forceOnNc (R : Mat3) (g : RSys κ ν → ℝ) : Fin 6 → ℝ := baseRot R *ᵥ fun a => g (.inl a)

/-- src/dwbc.cpp 3368-3401: `torque_null_h_R_` and `torque_null_h_nc_` of a non-contact task `T` below the task `Q` with
null-space matrix `N`.  `Kb` is `J_base_R_kt_`.  `none`: `J_task_NC_` of `Q` has not been set, so the sizes do not match. -/
def ncTorque (D : Reduced κ ν) (R : Mat3) (P : Matrix (RSys κ ν) (RSys κ ν) ℝ) (Kb : Matrix (κ ⊕ Fin 6) (Fin 6) ℝ)
    (Q : RTask κ ν) (N : Matrix (κ ⊕ Fin 6) (κ ⊕ Fin 6) ℝ) (T : RTask κ ν) : Option ((κ ⊕ Fin 6 → ℝ) × (ν → ℝ)) :=
  let g := T.Jᵀ *ᵥ (T.Λ *ᵥ T.f)
  let tnc : ν → ℝ := fun j => g (ncOf j)
  let co : κ → ℝ := fun i => (Kb *ᵥ forceOnNc R g) (.inl i)
  if T.ncOrder = 0 then some (N *ᵥ Sum.elim co (D.JinvT *ᵥ tnc), tnc)
  else match Q.JNC with
    | none => none
    | some Jn =>
      let nf := Q.Λ *ᵥ (Q.J *ᵥ (P *ᵥ g))
      let h := Q.Jᵀ *ᵥ nf
      some (N *ᵥ Sum.elim (fun i => co i - (Kb *ᵥ forceOnNc R h) (.inl i)) (D.JinvT *ᵥ (tnc - Jnᵀ *ᵥ nf)),
        tnc - fun j => h (ncOf j))

/-- src/dwbc.cpp 3181-3252, 3275-3425 (`hqp = false`): the loops over the tasks.  `prev` is the task above with its
`Null_task_R_` (`none` for the first task), `τR`, `τN` are `torque_task_R_`, `torque_task_NC_`.  `none`: a non-contact task in the
first place (the code reads `ts_[-1]`), or an undefined value. -/
def rTaskFrom (D : Reduced κ ν) (C : ReducedContact c κ ν) (R : Mat3) (P : Matrix (RSys κ ν) (RSys κ ν) ℝ)
    (Kb : Option (Matrix (κ ⊕ Fin 6) (Fin 6) ℝ)) :
    Option (RTask κ ν × Matrix (κ ⊕ Fin 6) (κ ⊕ Fin 6) ℝ) → (κ ⊕ Fin 6 → ℝ) → (ν → ℝ) → List (RTask κ ν) →
      Option ((κ ⊕ Fin 6 → ℝ) × (ν → ℝ))
  | _, τR, τN, [] => some (τR, τN)
  | prev, τR, τN, T :: rest =>
    if T.noncont then
      match prev, Kb with
      | some (Q, N), some K =>
        match ncTorque D R P K Q N T with
        | none => none
        | some x => rTaskFrom D C R P Kb (some (T, N)) (τR + x.1) (τN + x.2) rest
      | _, _ => none
    else
      let N := match prev with
        | none => 1
        | some (_, N) => N
      rTaskFrom D C R P Kb (some (T, nullR C T N)) (τR + N *ᵥ (T.Jkt *ᵥ (T.Λ *ᵥ T.f))) τN rest

/-- src/dwbc.cpp 3441-3442: `torque_task_` from `torque_task_R_` and `torque_task_NC_`. -/
def assembleTorque (D : Reduced κ ν) (τR : κ ⊕ Fin 6 → ℝ) (τN : ν → ℝ) : κ ⊕ ν → ℝ :=
  Sum.elim (fun i => τR (.inl i)) (D.Jᵀ *ᵥ (fun s => τR (.inr s)) + D.N *ᵥ τN)

/-- src/dwbc.cpp 3152-3253, 3255-3445: `ReducedCalcTaskControlTorque(hqp = false)` after the classification of the tasks;
result `torque_task_`.  `R` is `link_[0].rotm`; `A_inv_N_C` is computed with the `N_C` of the reduced contact calculation. -/
noncomputable def reducedTaskTorque (D : Reduced κ ν) (C : ReducedContact c κ ν) (R : Mat3)
    (Ainv : Matrix (RSys κ ν) (RSys κ ν) ℝ) (ts : List (RTaskIn κ ν)) : Option (κ ⊕ ν → ℝ) :=
  let P := Ainv * C.Nc
  match ts.mapM (calcJKTR D C P) with
  | none => none
  | some rs =>
    match rTaskFrom D C R P ((jktR C.ARinvNCR C.Winv (jBaseR R)).map Prod.snd) none 0 0 rs with
    | none => none
    | some x => some (assembleTorque D x.1 x.2)

end Verif.Model
