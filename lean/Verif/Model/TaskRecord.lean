import Verif.Model.QPControl

/-!
# What task control records with each task (src/dwbc.cpp 818-872, 1077-1125, 1130-1280; include/dwbc_task.h 120-171)

The members of `TaskSpace` written by task control and public: the change of the command, the contact part of the answer, the error flag
and the torque of the level.  The vectors carry their length; the torque is kept with `model_dof_` entries from the start (the code
starts with an empty vector).
-/

namespace Verif.Model
open Matrix Verif Verif.Spec

/-- include/dwbc_task.h 120-171: `f_star_qp_`, `contact_qp_`, `qp_error`, `torque_h_`. -/
structure TaskRecord (n : ℕ) where
  fqp : (t : ℕ) × (Fin t → ℝ)
  cqp : (k : ℕ) × (Fin k → ℝ)
  err : ℕ
  torque : Fin n → ℝ

variable {n c : ℕ}

/-- A `TaskSpace` as constructed: empty vectors, `qp_error = 0`. -/
def TaskRecord.fresh (n : ℕ) : TaskRecord n := ⟨⟨0, 0⟩, ⟨0, 0⟩, 0, 0⟩

/-- src/dwbc.cpp 1079-1086: an answer of the solver is stored. -/
def TaskRecord.solved (r : TaskRecord n) (t k : ℕ) (x : Fin t ⊕ Fin k → ℝ) : TaskRecord n :=
  { r with fqp := ⟨t, fun a => x (Sum.inl a)⟩, cqp := ⟨k, fun b => x (Sum.inr b)⟩, err := 0 }

/-- src/dwbc.cpp 1117-1124: failure of `CalcSingleTaskTorqueWithQP`. -/
def TaskRecord.failed (r : TaskRecord n) (t k : ℕ) : TaskRecord n :=
  { r with fqp := ⟨t, 0⟩, cqp := ⟨k, 0⟩, err := 1 }

/-- src/dwbc.cpp 1272-1279: failure of `CalcSingleTaskTorqueWithQP2`. -/
def TaskRecord.failed2 (r : TaskRecord n) (t : ℕ) : TaskRecord n :=
  { r with fqp := ⟨t, 0⟩, err := 1 }

/-- src/dwbc.cpp 941-1127 `CalcSingleTaskTorqueWithQP` on the task `T` of level `i`: return value and new record; `none` is undefined
behaviour. -/
def singleTask (R : QPRobot n c) (solve : Solver) (i : ℕ) (T : TaskReady (Fin n)) (N : Matrix (Fin n) (Fin n) ℝ) (τprev : Fin n → ℝ)
    (r : TaskRecord n) : Option (ℕ × TaskRecord n) :=
  match R.C with
  | none => none
  | some ⟨_, C⟩ =>
    match solve i T.t (c - 6) (taskQP R C T N τprev) with
    | some x => some (1, r.solved T.t (c - 6) x)
    | none => some (0, r.failed T.t (c - 6))

/-- src/dwbc.cpp 1130-1280 `CalcSingleTaskTorqueWithQP2`: the same problem (lines 1134-1240 are lines 945-1046), with at most 300
iterations instead of 1000, which is part of the solver. -/
def singleTask2 (R : QPRobot n c) (solve : Solver) (i : ℕ) (T : TaskReady (Fin n)) (N : Matrix (Fin n) (Fin n) ℝ) (τprev : Fin n → ℝ)
    (r : TaskRecord n) : Option (ℕ × TaskRecord n) :=
  match R.C with
  | none => none
  | some ⟨_, C⟩ =>
    match solve i T.t (c - 6) (taskQP R C T N τprev) with
    | some x => some (1, r.solved T.t (c - 6) x)
    | none => some (0, r.failed2 T.t)

/-- src/dwbc.cpp 829-852, the QP loop from level `i` on, with the records. -/
def qpLoopRec (R : QPRobot n c) (solve : Solver) :
    ℕ → Matrix (Fin n) (Fin n) ℝ → (Fin n → ℝ) → (Fin n → ℝ) → List (TaskReady (Fin n) × TaskRecord n) →
      CtrlResult n × List (TaskRecord n)
  | _, _, τt, τc, [] => (.ret 1 τt τc, [])
  | i, N, τt, τc, (T, r) :: rest =>
    match R.C with
    | none => (.undefined, r :: rest.map Prod.snd)
    | some ⟨_, C⟩ =>
      match solve i T.t (c - 6) (taskQP R C T N (R.τg + τt)) with
      | none => (.ret 0 τt τc, r.failed T.t (c - 6) :: rest.map Prod.snd)
      | some x =>
        let τh := T.Jkt *ᵥ (T.Λ *ᵥ (T.f + fun a => x (Sum.inl a)))
        let r' := { r.solved T.t (c - 6) x with torque := τh }
        if c ≤ 6 ∧ n ≠ 0 then (.undefined, r' :: rest.map Prod.snd)
        else
          let q := qpLoopRec R solve (i + 1) (taskNullSpace R.S T N) (τt + N *ᵥ τh) (R.NwJw *ᵥ fun b => x (Sum.inr b)) rest
          (q.1, r' :: q.2)

/-- src/dwbc.cpp 818-853 `CalcTaskControlTorque(hqp = true)` with the records. -/
def taskControlQPRec (R : QPRobot n c) (solve : Solver) (l : List (TaskReady (Fin n) × TaskRecord n)) :
    CtrlResult n × List (TaskRecord n) := qpLoopRec R solve 0 1 0 0 l

/-- src/dwbc.cpp 854-872 `CalcTaskControlTorque(hqp = false)` with the records. -/
def taskControlRec (S : ContactSpace c (Fin n)) (l : List (TaskReady (Fin n) × TaskRecord n)) : (Fin n → ℝ) × List (TaskRecord n) :=
  (taskTorque S (l.map Prod.fst), l.map fun p => { p.2 with torque := p.1.Jkt *ᵥ (p.1.Λ *ᵥ p.1.f) })

end Verif.Model
