import Verif.Model.ReducedTask
import Verif.Model.QPControl

/-!
# Task control and redistribution with the reduced model and quadratic programmes
(src/dwbc.cpp 3121-3139, 3255-3445 with `hqp = true`, 3448-3770)

The reduced model has `k` contact-chain joints and six virtual ones, in this order.
-/

set_option linter.unusedSectionVars false

namespace Verif.Model
open Matrix Verif Verif.Spec

variable {k c : ℕ} {ν : Type*} [Fintype ν] [DecidableEq ν]

/-- A joint vector of the reduced model in storage order. -/
def flatV (v : Fin k ⊕ Fin 6 → ℝ) : Fin (k + 6) → ℝ := v ∘ finSumFinEquiv.symm

/-- The rows of a matrix in storage order. -/
def flatM {V : Type*} (M : Matrix (Fin k ⊕ Fin 6) V ℝ) : Matrix (Fin (k + 6)) V ℝ := M.submatrix finSumFinEquiv.symm id

/-- src/dwbc.cpp 3121-3141: `NwJw_R`.  `f` is the rank-revealing factorisation of `W_R`.  `none`: at most six contact rows (the
`reduced_model_dof_`-square zero matrix of line 3089 stays; no user reads it then), `.inverse()` of a matrix that is not square or
not finite. -/
noncomputable def reducedNwJw (C : ReducedContact c (Fin k) ν) (f : CodNull C.W) :
    Option (Matrix (Fin k ⊕ Fin 6) (Fin (c - 6)) ℝ) :=
  if c > 6 then
    if h : c - 6 = f.k then
      (eigenInverse ((topRight C.JCRinvT * f.V2ᵀ).submatrix id (Fin.cast h))).map fun X =>
        (f.V2ᵀ.submatrix id (Fin.cast h)) * X
    else none
  else none

/-- What the quadratic programmes read besides the reduced model itself. -/
structure RQPRobot (k c : ℕ) where
  /-- `NwJw_R`; meaningful only for `c > 6` -/
  NwJw : Matrix (Fin k ⊕ Fin 6) (Fin (c - 6)) ℝ
  /-- `torque_limit_` if `torque_limit_set_`, with its size -/
  limit : Option ((m : ℕ) × (Fin m → ℝ))
  /-- `cc_` -/
  cs : List ContactLink

/-- `torque_limit_` where it is combined with vectors of `reduced_model_dof_` entries (src/dwbc.cpp 3518, 3524, 3671, 3677, 4857);
`none`: the sizes differ, which only prints a message (3464-3472), and the expression is undefined. -/
def RQPRobot.fit (Q : RQPRobot k c) : Option (Option (Fin (k + 6) → ℝ)) :=
  match Q.limit with
  | none => some none
  | some ⟨m, L⟩ => if h : m = k + 6 then some (some (L ∘ Fin.cast h.symm)) else none

/-- `J_CR_INV_T.rightCols(reduced_model_dof_)` -/
def rightColsR (C : ReducedContact c (Fin k) ν) : Matrix (Fin c) (Fin (k + 6)) ℝ :=
  C.JCRinvT.submatrix id (Sum.inr ∘ finSumFinEquiv.symm)

/-- The QP of `CalcSingleTaskTorqueWithQP_R` (src/dwbc.cpp 3448-3562) and of `CalcSingleTaskTorqueWithQP_R_NC` (3601-3721).  `B` is
`Ntorque_task`, `f` the commanded `f_star_` or `force_on_nc_r_`, `τprev` the torque argument, `Cm` is `A_const_a * A_rot`. -/
def rQP (D : Reduced (Fin k) ν) (C : ReducedContact c (Fin k) ν) (Q : RQPRobot k c) (lim : Option (Fin (k + 6) → ℝ))
    {m t : ℕ} (Cm : Matrix (Fin m) (Fin c) ℝ) (B : Matrix (Fin k ⊕ Fin 6) (Fin t) ℝ) (f : Fin t → ℝ)
    (τprev : Fin k ⊕ Fin 6 → ℝ) : QP (Fin t ⊕ Fin (c - 6)) :=
  let cols := taskCols (flatM B) (flatM Q.NwJw)
  let τ := flatV (τprev + B *ᵥ f)
  let nl := if lim.isSome then 2 * (k + 6) else 0
  let d := qpZero (Matrix.of fun a b => if a = b ∧ a.isLeft then 1 else 0) 0 (m + nl)
  let d := ifLimit lim (torqueRows · τ cols) d
  contactRows nl Cm (rightColsR C) (reducedGravityForce D C) τ cols d

/-- Result of `ReducedCalcTaskControlTorque`. -/
inductive RCtrlResult (k : ℕ) (ν : Type*) where
  /-- undefined behaviour -/
  | undefined
  /-- return value, `torque_task_`, `torque_task_R_` -/
  | ret (value : ℕ) (task : Fin k ⊕ ν → ℝ) (taskR : Fin k ⊕ Fin 6 → ℝ)

/-- `first_nc_TaskSpace_idx_`, `Null_task_R_` of the task above it, and the sums of `torque_null_h_R_`, `torque_null_h_nc_` of the
non-contact tasks from that one on. -/
structure NcSum (k : ℕ) (ν : Type*) where
  idx : ℕ
  N : Matrix (Fin k ⊕ Fin 6) (Fin k ⊕ Fin 6) ℝ
  sumR : Fin k ⊕ Fin 6 → ℝ
  sumN : ν → ℝ

/-- src/dwbc.cpp 3294-3297, 3331: what a non-contact task `T` below `U` adds to `force_on_nc_r_`. -/
def ncForce (R : Mat3) (P : Matrix (RSys (Fin k) ν) (RSys (Fin k) ν) ℝ) (U T : RTask (Fin k) ν) : Fin 6 → ℝ :=
  let g := T.Jᵀ *ᵥ (T.Λ *ᵥ T.f)
  if T.ncOrder = 0 then forceOnNc R g
  else forceOnNc R g - forceOnNc R (U.Jᵀ *ᵥ (U.Λ *ᵥ (U.J *ᵥ (P *ᵥ g))))

/-- src/dwbc.cpp 3418-3444, after the loop: the QP for the non-contact tasks, and the assembly of `torque_task_`.  `K` is
`J_base_R_kt_`, `f` is `force_on_nc_r_`.  `J_base_R_kt_.topRows(co_dof) * force_on_nc_R_qp_` is added to `torque_task_`, not to
`torque_task_R_`. -/
noncomputable def rqpFinish (D : Reduced (Fin k) ν) (C : ReducedContact c (Fin k) ν) (K : Option (Matrix (Fin k ⊕ Fin 6) (Fin 6) ℝ))
    (Q : RQPRobot k c) (solve : Solver) (τR : Fin k ⊕ Fin 6 → ℝ) (f : Fin 6 → ℝ) :
    Option (NcSum k ν) → RCtrlResult k ν
  | none => .ret 1 (assembleTorque D τR 0) τR
  | some a =>
    match K, Q.fit, stackC Q.cs c with
    | some K, some lim, some ⟨_, Cm⟩ =>
      match solve a.idx 6 (c - 6) (rQP D C Q lim Cm (a.N * K) f (reducedGravity D C + τR)) with
      | none => .ret 0 0 τR
      | some x =>
        let q : Fin 6 → ℝ := fun s => x (Sum.inl s)
        .ret 1 (assembleTorque D (τR + a.sumR) a.sumN + Sum.elim (fun i => (K *ᵥ q) (.inl i)) 0) (τR + a.sumR)
    | _, _, _ => .undefined

/-- src/dwbc.cpp 3280-3364 with `hqp = true`: the loop over the tasks from number `i` on.  `prev` is the task above with its
`Null_task_R_`.  A failed QP returns 0 before `torque_task_` is assembled (it is zero from line 3263 then). -/
noncomputable def rqpFrom (D : Reduced (Fin k) ν) (C : ReducedContact c (Fin k) ν) (R : Mat3)
    (P : Matrix (RSys (Fin k) ν) (RSys (Fin k) ν) ℝ) (K : Option (Matrix (Fin k ⊕ Fin 6) (Fin 6) ℝ)) (Q : RQPRobot k c)
    (solve : Solver) :
    ℕ → Option (RTask (Fin k) ν × Matrix (Fin k ⊕ Fin 6) (Fin k ⊕ Fin 6) ℝ) → (Fin k ⊕ Fin 6 → ℝ) → (Fin 6 → ℝ) →
      Option (NcSum k ν) → List (RTask (Fin k) ν) → RCtrlResult k ν
  | _, _, τR, f, nc, [] => rqpFinish D C K Q solve τR f nc
  | i, prev, τR, f, nc, T :: rest =>
    if T.noncont then
      match prev, K with
      | some (U, N), some Kb =>
        match ncTorque D R P Kb U N T with
        | none => .undefined
        | some x =>
          rqpFrom D C R P K Q solve (i + 1) (some (T, N)) τR (f + ncForce R P U T)
            (if T.ncOrder = 0 then some ⟨i, N, x.1, x.2⟩
              else nc.map fun a => { a with sumR := a.sumR + x.1, sumN := a.sumN + x.2 }) rest
      | _, _ => .undefined
    else
      let N := match prev with
        | none => 1
        | some (_, N) => N
      match Q.fit, stackC Q.cs c with
      | some lim, some ⟨_, Cm⟩ =>
        match solve i T.t (c - 6) (rQP D C Q lim Cm (N * (T.Jkt * T.Λ)) T.f (reducedGravity D C + τR)) with
        | none => .ret 0 0 τR
        | some x =>
          rqpFrom D C R P K Q solve (i + 1) (some (T, nullR C T N))
            (τR + N *ᵥ (T.Jkt *ᵥ (T.Λ *ᵥ (T.f + fun a => x (Sum.inl a))))) f nc rest
      | _, _ => .undefined

/-- src/dwbc.cpp 3152-3253, 3255-3445: `ReducedCalcTaskControlTorque(hqp = true)` after the classification of the tasks, starting
from the reduced model `D`, `C`. -/
noncomputable def reducedTaskTorqueQP (D : Reduced (Fin k) ν) (C : ReducedContact c (Fin k) ν) (R : Mat3)
    (Ainv : Matrix (RSys (Fin k) ν) (RSys (Fin k) ν) ℝ) (Q : RQPRobot k c) (solve : Solver) (ts : List (RTaskIn (Fin k) ν)) :
    RCtrlResult k ν :=
  let P := Ainv * C.Nc
  match ts.mapM (calcJKTR D C P) with
  | none => .undefined
  | some rs => rqpFrom D C R P ((jktR C.ARinvNCR C.Winv (jBaseR R)).map Prod.snd) Q solve 0 none 0 0 none rs

/-- The reduced model as `CalcContactRedistributeR` reads it. -/
noncomputable def RQPRobot.flat (D : Reduced (Fin k) ν) (C : ReducedContact c (Fin k) ν) (Q : RQPRobot k c)
    (lim : Option (Fin (k + 6) → ℝ)) : QPRobot (k + 6) c where
  S :=
    { lambda := C.lambda
      JcInvT := C.JCRinvT.submatrix id (Sum.map id finSumFinEquiv.symm)
      Nc := C.NCR.submatrix (Sum.map id finSumFinEquiv.symm) (Sum.map id finSumFinEquiv.symm)
      AinvNc := C.ARinvNCR.submatrix (Sum.map id finSumFinEquiv.symm) (Sum.map id finSumFinEquiv.symm)
      W := C.W.submatrix finSumFinEquiv.symm finSumFinEquiv.symm
      Winv := C.Winv.submatrix finSumFinEquiv.symm finSumFinEquiv.symm }
  NwJw := flatM Q.NwJw
  P := reducedGravityForce D C
  τg := flatV (reducedGravity D C)
  limit := lim
  cs := Q.cs

/-- src/dwbc.cpp 3758-3770 `ReducedCalcContactRedistribute(hqp = true)`: return value and new `torque_contact_`, given the old one;
`τR` is `torque_task_R_`, `Wt` the weight of the contact forces (see `redistributeRQP`).  The first `contact_dof_` places of
`torque_contact_R_` are copied to the first `contact_dof_` places of `torque_contact_`; `nc` is `nc_dof`.  With at most six contact
rows nothing is done and 0 is returned. -/
noncomputable def reducedRedistribute {nc : ℕ} (D : Reduced (Fin k) (Fin nc)) (C : ReducedContact c (Fin k) (Fin nc))
    (Q : RQPRobot k c) (Wt : Matrix (Fin c) (Fin c) ℝ) (solve : RSolver) (τR : Fin k ⊕ Fin 6 → ℝ)
    (old : Fin k ⊕ Fin nc → ℝ) : Option (ℕ × (Fin k ⊕ Fin nc → ℝ)) :=
  if c > 6 then
    match Q.fit with
    | none => none
    | some lim =>
      match redistributeR (RQPRobot.flat D C Q lim) Wt solve (flatV (reducedGravity D C + τR)) with
      | none => none
      | some (v, τc) =>
        if c ≤ k + 6 ∧ c ≤ k + nc then
          some (v, fun j =>
            let p := (finSumFinEquiv j).val
            if h : p < c ∧ p < k + 6 then τc ⟨p, h.2⟩ else 0)
        else none
  else some (0, old)

end Verif.Model
