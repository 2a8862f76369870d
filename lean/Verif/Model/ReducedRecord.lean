import Verif.Model.ReducedQP
import Verif.Model.TaskRecord

/-!
# What task control with the reduced model records with each task
(src/dwbc.cpp 3255-3445, 3580-3598, 3741-3755; include/dwbc_task.h 120-171)

Of the members written: `f_star_qp_`, `contact_qp_`, `qp_error` and `torque_null_h_R_`, the part of `torque_task_R_` due to the task.
-/

set_option linter.unusedSectionVars false

namespace Verif.Model
open Matrix Verif Verif.Spec

variable {k c : ℕ} {ν : Type*} [Fintype ν] [DecidableEq ν]

/-- include/dwbc_task.h 120-171: `f_star_qp_`, `contact_qp_`, `qp_error`, `torque_null_h_R_`. -/
structure RTaskRecord (k : ℕ) where
  fqp : (t : ℕ) × (Fin t → ℝ)
  cqp : (s : ℕ) × (Fin s → ℝ)
  err : ℕ
  part : Fin k ⊕ Fin 6 → ℝ

/-- A `TaskSpace` as constructed: empty vectors, `qp_error = 0`. -/
def RTaskRecord.fresh (k : ℕ) : RTaskRecord k := ⟨⟨0, 0⟩, ⟨0, 0⟩, 0, 0⟩

/-- src/dwbc.cpp 3582-3586: an answer of the solver is stored. -/
def RTaskRecord.solved (r : RTaskRecord k) (t s : ℕ) (x : Fin t ⊕ Fin s → ℝ) : RTaskRecord k :=
  { r with fqp := ⟨t, fun a => x (Sum.inl a)⟩, cqp := ⟨s, fun b => x (Sum.inr b)⟩, err := 0 }

/-- src/dwbc.cpp 3287, 3588-3597: failure of `CalcSingleTaskTorqueWithQP_R`; `contact_qp_` is left alone. -/
def RTaskRecord.failed (r : RTaskRecord k) (t : ℕ) : RTaskRecord k := { r with fqp := ⟨t, 0⟩, err := 1, part := 0 }

/-- src/dwbc.cpp 3280-3439 with `hqp = true`: the loop of `rqpFrom`, with the records.  A non-contact task gets only its part of the
torque; failure of `CalcSingleTaskTorqueWithQP_R_NC` (3747-3755) writes no record. -/
noncomputable def rqpFromRec (D : Reduced (Fin k) ν) (C : ReducedContact c (Fin k) ν) (R : Mat3)
    (P : Matrix (RSys (Fin k) ν) (RSys (Fin k) ν) ℝ) (K : Option (Matrix (Fin k ⊕ Fin 6) (Fin 6) ℝ)) (Q : RQPRobot k c)
    (solve : Solver) :
    ℕ → Option (RTask (Fin k) ν × Matrix (Fin k ⊕ Fin 6) (Fin k ⊕ Fin 6) ℝ) → (Fin k ⊕ Fin 6 → ℝ) → (Fin 6 → ℝ) →
      Option (NcSum k ν) → List (RTask (Fin k) ν × RTaskRecord k) → RCtrlResult k ν × List (RTaskRecord k)
  | _, _, τR, f, nc, [] => (rqpFinish D C K Q solve τR f nc, [])
  | i, prev, τR, f, nc, (T, r) :: rest =>
    if T.noncont then
      match prev, K with
      | some (U, N), some Kb =>
        match ncTorque D R P Kb U N T with
        | none => (.undefined, r :: rest.map Prod.snd)
        | some x =>
          let q := rqpFromRec D C R P K Q solve (i + 1) (some (T, N)) τR (f + ncForce R P U T)
            (if T.ncOrder = 0 then some ⟨i, N, x.1, x.2⟩
              else nc.map fun a => { a with sumR := a.sumR + x.1, sumN := a.sumN + x.2 }) rest
          (q.1, { r with part := x.1 } :: q.2)
      | _, _ => (.undefined, r :: rest.map Prod.snd)
    else
      let N := match prev with
        | none => 1
        | some (_, N) => N
      match Q.fit, stackC Q.cs c with
      | some lim, some ⟨_, Cm⟩ =>
        match solve i T.t (c - 6) (rQP D C Q lim Cm (N * (T.Jkt * T.Λ)) T.f (reducedGravity D C + τR)) with
        | none => (.ret 0 0 τR, r.failed T.t :: rest.map Prod.snd)
        | some x =>
          let τh := N *ᵥ (T.Jkt *ᵥ (T.Λ *ᵥ (T.f + fun a => x (Sum.inl a))))
          let q := rqpFromRec D C R P K Q solve (i + 1) (some (T, nullR C T N)) (τR + τh) f nc rest
          (q.1, { r.solved T.t (c - 6) x with part := τh } :: q.2)
      | _, _ => (.undefined, r :: rest.map Prod.snd)

/-- src/dwbc.cpp 3152-3253, 3255-3445: `ReducedCalcTaskControlTorque(hqp = true)` with the records the tasks have before and after. -/
noncomputable def reducedTaskTorqueQPRec (D : Reduced (Fin k) ν) (C : ReducedContact c (Fin k) ν) (R : Mat3)
    (Ainv : Matrix (RSys (Fin k) ν) (RSys (Fin k) ν) ℝ) (Q : RQPRobot k c) (solve : Solver) (ts : List (RTaskIn (Fin k) ν))
    (rs : List (RTaskRecord k)) : RCtrlResult k ν × List (RTaskRecord k) :=
  let P := Ainv * C.Nc
  match ts.mapM (calcJKTR D C P) with
  | none => (.undefined, rs)
  | some qs => rqpFromRec D C R P ((jktR C.ARinvNCR C.Winv (jBaseR R)).map Prod.snd) Q solve 0 none 0 0 none (qs.zip rs)

end Verif.Model
