import Verif.Model.Pinv
import Mathlib.LinearAlgebra.Matrix.Notation

/-!
# Splines (src/math.cpp 127-224)

Doubles are reals.  `none` stands for a result with a NaN or infinite entry.
-/

set_option linter.unusedSectionVars false

namespace Verif.Model
open Matrix Verif

/-- src/math.cpp 157-160 `Temp`. -/
def quinticMat (T : ℝ) : Matrix (Fin 3) (Fin 3) ℝ :=
  !![T ^ 3, T ^ 4, T ^ 5;
     3 * T ^ 2, 4 * T ^ 3, 5 * T ^ 4;
     6 * T, 12 * T ^ 2, 20 * T ^ 3]

/-- src/math.cpp 162-165 `R_temp`. -/
noncomputable def quinticRhs (T x0 v0 a0 xf vf af : ℝ) : Fin 3 → ℝ :=
  ![xf - x0 - v0 * T - a0 * T ^ 2 / 2, vf - v0 - a0 * T, af - a0]

/-- src/math.cpp 177-183: position, velocity, acceleration at elapsed time `e`; `r` holds `a4, a5, a6`. -/
noncomputable def quinticEval (x0 v0 a0 : ℝ) (r : Fin 3 → ℝ) (e : ℝ) : Fin 3 → ℝ :=
  ![x0 + v0 * e ^ 1 + a0 / 2 * e ^ 2 + r 0 * e ^ 3 + r 1 * e ^ 4 + r 2 * e ^ 5,
    v0 + 2 * (a0 / 2) * e ^ 1 + 3 * r 0 * e ^ 2 + 4 * r 1 * e ^ 3 + 5 * r 2 * e ^ 4,
    2 * (a0 / 2) + 6 * r 0 * e ^ 1 + 12 * r 1 * e ^ 2 + 20 * r 2 * e ^ 3]

open Classical in
/-- src/math.cpp 127-186 `QuinticSpline`. -/
noncomputable def quinticSpline (time t0 tf x0 v0 a0 xf vf af : ℝ) : Option (Fin 3 → ℝ) :=
  if time < t0 then some ![x0, v0, a0]
  else if time > tf then some ![xf, vf, af]
  else
    match eigenInverse (quinticMat (tf - t0)) with
    | none => none
    | some M => some (quinticEval x0 v0 a0 (M *ᵥ quinticRhs (tf - t0) x0 v0 a0 xf vf af) (time - t0))

/-- src/math.cpp 208-220, the polynomial branch of `cubic`: elapsed time `e`, total time `T`. -/
noncomputable def cubicEval (e T x0 xf v0 vf : ℝ) : ℝ :=
  x0 + v0 * e
    + (3 * (xf - x0) / (T * T) - 2 * v0 / T - vf / T) * e * e
    + (-2 * (xf - x0) / (T * T * T) + (v0 + vf) / (T * T)) * e * e * e

open Classical in
/-- src/math.cpp 187-224 `cubic`.  With `tf = t0` the polynomial branch divides by zero and multiplies by a zero
elapsed time: `none`. -/
noncomputable def cubic (time t0 tf x0 xf v0 vf : ℝ) : Option ℝ :=
  if time < t0 then some x0
  else if time > tf then some xf
  else if tf - t0 = 0 then none
  else some (cubicEval (time - t0) (tf - t0) x0 xf v0 vf)

end Verif.Model
