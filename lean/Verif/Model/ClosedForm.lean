import Verif.Model.Contact
import Verif.Model.Redistribute
import Verif.Model.Rotation

/-!
# Contact redistribution without a QP (src/dwbc.cpp 1570-1618, `CalcContactRedistribute(torque_input, false, …)`)
-/

set_option linter.unusedSectionVars false

namespace Verif.Model
open Matrix Verif

variable {ι : Type*} [Fintype ι] [DecidableEq ι]

/-- `force_rot_yaw * F`: the same rotation applied to both forces and both moments -/
def rotate12 (R : Mat3) (F : Fin 12 → ℝ) : Fin 12 → ℝ :=
  let a := R *ᵥ ![F 0, F 1, F 2]
  let b := R *ᵥ ![F 3, F 4, F 5]
  let c := R *ᵥ ![F 6, F 7, F 8]
  let d := R *ᵥ ![F 9, F 10, F 11]
  ![a 0, a 1, a 2, b 0, b 1, b 2, c 0, c 1, c 2, d 0, d 1, d 2]

/-- The constants of src/dwbc.cpp 1596-1602. -/
noncomputable def dwbcParams : RedistParams := ⟨99 / 100, 26 / 100, 1 / 10, 1, 9 / 10, 9 / 10⟩

/-- src/dwbc.cpp 1574-1603: `fc_redist_`.  `pos` lists `xc_pos` of **all registered** contacts; the first two are used,
whichever contacts are active.  `none`: fewer than two registered contacts (out of range), or a split ratio that is not
finite. -/
noncomputable def closedFormForce (s : Fin 4 → Bool) (pos : List Vec3) (com : Vec3) (yaw : ℝ) (F : Fin 12 → ℝ) :
    Option (Fin 12 → ℝ) := do
  let p1 ← pos[0]?
  let p2 ← pos[1]?
  let R := rotateWithZ (-yaw)
  let out ← contactRedistribute s dwbcParams (R *ᵥ (p1 - com)) (R *ᵥ (p2 - com)) (rotate12 R F)
  pure (rotate12 Rᵀ out.2)

/-- `J_C_INV_T.rightCols(model_dof_).bottomRows(6)` -/
def bottomRight (S : ContactSpace 12 ι) : Matrix (Fin 6) ι ℝ :=
  S.JcInvT.submatrix (fun i : Fin 6 => (⟨6 + i, by omega⟩ : Fin 12)) Sum.inr

/-- src/dwbc.cpp 1572-1610: `torque_contact_` when `contact_dof_ == 12`.  `none`: values not finite, or an
inverse of a non-square matrix. -/
noncomputable def closedFormTorque (S : ContactSpace 12 ι) (f : CodNull S.W) (P : Fin 12 → ℝ) (s : Fin 4 → Bool)
    (pos : List Vec3) (com : Vec3) (yaw : ℝ) (τ : ι → ℝ) : Option (ι → ℝ) :=
  let F := contactForce S P τ
  match closedFormForce s pos com yaw F with
  | none => none
  | some fc =>
    if h : 6 = f.k then
      match eigenInverse ((bottomRight S * f.V2ᵀ).submatrix id (Fin.cast h)) with
      | none => none
      | some X => some ((f.V2ᵀ.submatrix id (Fin.cast h) * X) *ᵥ
          fun i : Fin 6 => -F (⟨6 + i, by omega⟩ : Fin 12) + fc (⟨6 + i, by omega⟩ : Fin 12))
    else none

end Verif.Model
