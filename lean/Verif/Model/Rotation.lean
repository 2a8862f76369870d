import Verif.Model.Spline
import Mathlib.LinearAlgebra.CrossProduct
import Mathlib.Analysis.SpecialFunctions.Complex.Arg
import Mathlib.Analysis.SpecialFunctions.Trigonometric.Inverse

/-!
# Rotations (src/math.cpp 9-21, 55-120, 226-291)

Doubles are reals.  The Eigen conversions between rotation matrix, quaternion and angle-axis are part of what these
functions compute, so they are modelled too, after Eigen 3.3 (`Geometry/Quaternion.h`, `Geometry/AngleAxis.h`).
-/

set_option linter.unusedSectionVars false

namespace Verif.Model
open Matrix Verif

abbrev Mat3 := Matrix (Fin 3) (Fin 3) ℝ
abbrev Vec3 := Fin 3 → ℝ

/-- src/math.cpp 9-21 `skew`. -/
def skew (v : Vec3) : Mat3 := !![0, -v 2, v 1; v 2, 0, -v 0; -v 1, v 0, 0]

/-- src/math.cpp 55-72 `rotateWithZ`. -/
noncomputable def rotateWithZ (x : ℝ) : Mat3 :=
  !![Real.cos x, -Real.sin x, 0; Real.sin x, Real.cos x, 0; 0, 0, 1]

/-- src/math.cpp 73-90 `rotateWithY`. -/
noncomputable def rotateWithY (x : ℝ) : Mat3 :=
  !![Real.cos x, 0, Real.sin x; 0, 1, 0; -Real.sin x, 0, Real.cos x]

/-- src/math.cpp 92-109 `rotateWithX`. -/
noncomputable def rotateWithX (x : ℝ) : Mat3 :=
  !![1, 0, 0; 0, Real.cos x, -Real.sin x; 0, Real.sin x, Real.cos x]

/-- Eigen `AngleAxis::toRotationMatrix`. -/
noncomputable def angleAxisMat (x : ℝ) (a : Vec3) : Mat3 :=
  let s := Real.sin x • a
  let c := Real.cos x
  let k := (1 - c) • a
  !![k 0 * a 0 + c, k 0 * a 1 - s 2, k 0 * a 2 + s 1;
     k 0 * a 1 + s 2, k 1 * a 1 + c, k 1 * a 2 - s 0;
     k 0 * a 2 - s 1, k 1 * a 2 + s 0, k 2 * a 2 + c]

/-- A quaternion `w + x i + y j + z k`. -/
@[ext] structure Quat where
  w : ℝ
  x : ℝ
  y : ℝ
  z : ℝ

open Classical in
/-- Eigen `Quaternion(Matrix3)` (`quaternionbase_assign_impl`). -/
noncomputable def quatOfMat (m : Mat3) : Quat :=
  let tr := m 0 0 + m 1 1 + m 2 2
  if 0 < tr then
    let t := √(tr + 1)
    ⟨1 / 2 * t, (m 2 1 - m 1 2) * (1 / 2 / t), (m 0 2 - m 2 0) * (1 / 2 / t), (m 1 0 - m 0 1) * (1 / 2 / t)⟩
  else if m 1 1 > m 0 0 then
    if m 2 2 > m 1 1 then
      let t := √(m 2 2 - m 0 0 - m 1 1 + 1)
      ⟨(m 1 0 - m 0 1) * (1 / 2 / t), (m 0 2 + m 2 0) * (1 / 2 / t), (m 1 2 + m 2 1) * (1 / 2 / t), 1 / 2 * t⟩
    else
      let t := √(m 1 1 - m 2 2 - m 0 0 + 1)
      ⟨(m 0 2 - m 2 0) * (1 / 2 / t), (m 0 1 + m 1 0) * (1 / 2 / t), 1 / 2 * t, (m 2 1 + m 1 2) * (1 / 2 / t)⟩
  else
    if m 2 2 > m 0 0 then
      let t := √(m 2 2 - m 0 0 - m 1 1 + 1)
      ⟨(m 1 0 - m 0 1) * (1 / 2 / t), (m 0 2 + m 2 0) * (1 / 2 / t), (m 1 2 + m 2 1) * (1 / 2 / t), 1 / 2 * t⟩
    else
      let t := √(m 0 0 - m 1 1 - m 2 2 + 1)
      ⟨(m 2 1 - m 1 2) * (1 / 2 / t), 1 / 2 * t, (m 1 0 + m 0 1) * (1 / 2 / t), (m 2 0 + m 0 2) * (1 / 2 / t)⟩

/-- Eigen `Quaternion::toRotationMatrix`. -/
noncomputable def quatMat (q : Quat) : Mat3 :=
  let tx := 2 * q.x
  let ty := 2 * q.y
  let tz := 2 * q.z
  !![1 - (ty * q.y + tz * q.z), ty * q.x - tz * q.w, tz * q.x + ty * q.w;
     ty * q.x + tz * q.w, 1 - (tx * q.x + tz * q.z), tz * q.y - tx * q.w;
     tz * q.x - ty * q.w, tz * q.y + tx * q.w, 1 - (tx * q.x + ty * q.y)]

open Classical in
/-- Eigen `AngleAxis(Quaternion)`.  `atan2(n, |w|)` is the argument of `|w| + n i`. -/
noncomputable def angleAxisOfQuat (q : Quat) : ℝ × Vec3 :=
  let n := √(q.x ^ 2 + q.y ^ 2 + q.z ^ 2)
  if n ≠ 0 then
    let n' := if q.w < 0 then -n else n
    (2 * Complex.arg ⟨|q.w|, n⟩, ![q.x / n', q.y / n', q.z / n'])
  else (0, ![1, 0, 0])

/-- Eigen `AngleAxis(Matrix3)`. -/
noncomputable def angleAxisOfMat (m : Mat3) : ℝ × Vec3 := angleAxisOfQuat (quatOfMat m)

open Classical in
/-- src/math.cpp 226-274 `rotationCubic`. -/
noncomputable def rotationCubic (time t0 tf : ℝ) (R0 Rf : Mat3) : Option Mat3 :=
  if time ≥ tf then some Rf
  else if time < t0 then some R0
  else
    match cubic time t0 tf 0 1 0 0 with
    | none => none
    | some tau =>
      let aa := angleAxisOfMat (Rf * R0ᵀ)
      some (angleAxisMat (aa.1 * tau) aa.2 * R0)

/-- src/math.cpp 276-291 `GetPhi`. -/
noncomputable def getPhi (cur des : Mat3) : Vec3 :=
  let s : Fin 3 → Vec3 := fun i => crossProduct (fun k => cur k i) (fun k => des k i)
  (-1 : ℝ) • ((-(1 / 2 : ℝ)) • (s 0 + s 1 + s 2))

open Classical in
/-- Eigen `normalized()`: a zero vector is returned unchanged. -/
noncomputable def normalized (v : Vec3) : Vec3 :=
  if 0 < v ⬝ᵥ v then (1 / √(v ⬝ᵥ v)) • v else v

open Classical in
/-- src/math.cpp 111-120 `AxisTransform2V`; `none` for NaN (`0/0` when a direction is zero).  By Cauchy-Schwarz the
argument of `acos` is in `[-1, 1]` in exact arithmetic. -/
noncomputable def axisTransform2V (from_ to_ : Vec3) : Option Mat3 :=
  let o := normalized from_
  let t := normalized to_
  if (o ⬝ᵥ o) * (t ⬝ᵥ t) = 0 then none
  else some (angleAxisMat (Real.arccos ((o ⬝ᵥ t) / ((o ⬝ᵥ o) * (t ⬝ᵥ t)))) (normalized (crossProduct o t)))

end Verif.Model
