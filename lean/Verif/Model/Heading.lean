import Verif.Model.ClosedForm

/-!
# The angles of a link, and the one the contact redistribution without a QP uses (src/link.cpp 76-81, src/dwbc.cpp 1570-1610)
-/

set_option linter.unusedSectionVars false

namespace Verif.Model
open Matrix Verif

/-- `std::atan2(y, x)` (without signed zeros) -/
noncomputable def atan2 (y x : ℝ) : ℝ := Complex.arg ⟨x, y⟩

open Classical in
/-- src/link.cpp 81 `rpy = rotm.eulerAngles(2, 1, 0)`, also src/task.cpp 328: the angles about `z`, `y`, `x`, in this order (Eigen 3.3,
`Geometry/EulerAngles.h`). -/
noncomputable def eulerAngles210 (m : Mat3) : Vec3 :=
  let a := atan2 (m 1 0) (m 0 0)
  let c2 := √(m 2 2 * m 2 2 + m 2 1 * m 2 1)
  let z := if a < 0 then a + Real.pi else a
  let y := if a < 0 then atan2 (-m 2 0) (-c2) else atan2 (-m 2 0) c2
  ![z, y, atan2 (Real.sin z * m 0 2 - Real.cos z * m 1 2) (Real.cos z * m 1 1 - Real.sin z * m 0 1)]

variable {ι : Type*} [Fintype ι] [DecidableEq ι]

/-- src/dwbc.cpp 1570-1610 `CalcContactRedistribute(torque_input, false, …)` of a robot whose base has the orientation `base`
(`link_[0].rotm`): the frame of the two contacts is turned back by `link_[0].rpy(2)`. -/
noncomputable def redistributeClosed (S : ContactSpace 12 ι) (f : CodNull S.W) (P : Fin 12 → ℝ) (s : Fin 4 → Bool) (pos : List Vec3)
    (com : Vec3) (base : Mat3) (τ : ι → ℝ) : Option (ι → ℝ) :=
  closedFormTorque S f P s pos com (eulerAngles210 base 2) τ

end Verif.Model
