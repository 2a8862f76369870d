import Verif.Model.ClosedForm
import Verif.Model.Reduced

/-!
# Contact redistribution with the reduced model, without a QP
(src/dwbc.cpp 3758-3770 `ReducedCalcContactRedistribute(false)`, 4762-4774, 4942-4991 `CalcContactRedistributeR(torque_input, false, …)`)
-/

set_option linter.unusedSectionVars false

namespace Verif.Model
open Matrix Verif

variable {k c : ℕ} {ν : Type*} [Fintype ν] [DecidableEq ν]

/-- The members of the reduced model that the closed form reads, with twelve contact rows. -/
def ReducedContact.twelve (C : ReducedContact c (Fin k) ν) (h : c = 12) : ContactSpace 12 (Fin k ⊕ Fin 6) where
  lambda := C.lambda.submatrix (Fin.cast h.symm) (Fin.cast h.symm)
  JcInvT := C.JCRinvT.submatrix (Fin.cast h.symm) id
  Nc := C.NCR
  AinvNc := C.ARinvNCR
  W := C.W
  Winv := C.Winv

/-- src/dwbc.cpp 4944-4990: return value and `torque_contact_R_` after `CalcContactRedistributeR(τ, false)`; `f` is the factorisation that
gives `V2_R` (3119-3121), `s`, `pos`, `com`, `yaw` as in `closedFormForce`.  The branch is on `co_dof = k`, the number of joints of the
contact chains.  `none`: values not finite, or a vector of `contact_dof_ ≠ 12` values stored in one of twelve. -/
noncomputable def closedFormR (D : Reduced (Fin k) ν) (C : ReducedContact c (Fin k) ν) (f : CodNull C.W) (s : Fin 4 → Bool) (pos : List Vec3)
    (com : Vec3) (yaw : ℝ) (τ : Fin k ⊕ Fin 6 → ℝ) : Option (ℕ × (Fin k ⊕ Fin 6 → ℝ)) :=
  if k = 12 then
    if h : c = 12 then
      (closedFormTorque (C.twelve h) f (reducedGravityForce D C ∘ Fin.cast h.symm) s pos com yaw τ).map fun v => (1, v)
    else none
  else some (0, 0)

/-- src/dwbc.cpp 3758-3770 `ReducedCalcContactRedistribute(false)`: return value and new `torque_contact_`, given the old one; `τR` is
`torque_task_R_`.  The first `contact_dof_` places of `torque_contact_R_` are copied, see `reducedRedistribute`. -/
noncomputable def reducedRedistributeClosed {nc : ℕ} (D : Reduced (Fin k) (Fin nc)) (C : ReducedContact c (Fin k) (Fin nc)) (f : CodNull C.W)
    (s : Fin 4 → Bool) (pos : List Vec3) (com : Vec3) (yaw : ℝ) (τR : Fin k ⊕ Fin 6 → ℝ) (old : Fin k ⊕ Fin nc → ℝ) :
    Option (ℕ × (Fin k ⊕ Fin nc → ℝ)) :=
  if c > 6 then
    match closedFormR D C f s pos com yaw (reducedGravity D C + τR) with
    | none => none
    | some (v, τc) =>
      if c ≤ k + 6 ∧ c ≤ k + nc then
        some (v, fun j =>
          let p := (finSumFinEquiv j).val
          if h : p < c ∧ p < k + 6 then τc (finSumFinEquiv.symm ⟨p, h.2⟩) else 0)
      else none
  else some (0, old)

end Verif.Model
