import Verif.Model.Rotation

/-!
# PD feedback of a task link (src/task.cpp 217-346)

Doubles are reals, `none` is a result with NaN or infinite entries.  `Quaternion` product, inverse and `slerp` are modelled
after Eigen 3.3.
-/

set_option linter.unusedSectionVars false

namespace Verif.Model
open Matrix Verif

/-- Eigen `Quaternion` product. -/
def quatMul (a b : Quat) : Quat :=
  ⟨a.w * b.w - a.x * b.x - a.y * b.y - a.z * b.z, a.w * b.x + a.x * b.w + a.y * b.z - a.z * b.y,
    a.w * b.y + a.y * b.w + a.z * b.x - a.x * b.z, a.w * b.z + a.z * b.w + a.x * b.y - a.y * b.x⟩

open Classical in
/-- Eigen `QuaternionBase::inverse`. -/
noncomputable def quatInv (a : Quat) : Quat :=
  let n := a.w ^ 2 + a.x ^ 2 + a.y ^ 2 + a.z ^ 2
  if 0 < n then ⟨a.w / n, -a.x / n, -a.y / n, -a.z / n⟩ else ⟨0, 0, 0, 0⟩

/-- Eigen `QuaternionBase::dot`. -/
def quatDot (a b : Quat) : ℝ := a.w * b.w + a.x * b.x + a.y * b.y + a.z * b.z

/-- `s a + r b` on coefficients. -/
def quatLin (s : ℝ) (a : Quat) (r : ℝ) (b : Quat) : Quat :=
  ⟨s * a.w + r * b.w, s * a.x + r * b.x, s * a.y + r * b.y, s * a.z + r * b.z⟩

/-- Eigen's `1 - NumTraits<double>::epsilon()`: closer quaternions are interpolated linearly. -/
noncomputable def slerpOne : ℝ := 1 - 1 / 2 ^ 52

open Classical in
/-- Eigen `QuaternionBase::slerp` -/
noncomputable def slerp (a : Quat) (t : ℝ) (b : Quat) : Quat :=
  let d := quatDot a b
  let s : ℝ × ℝ :=
    if slerpOne ≤ |d| then (1 - t, t)
    else (Real.sin ((1 - t) * Real.arccos |d|) / Real.sin (Real.arccos |d|),
      Real.sin (t * Real.arccos |d|) / Real.sin (Real.arccos |d|))
  quatLin s.1 a (if d < 0 then -s.2 else s.2) b

/-- The members of `TaskLink` (include/dwbc_task.h 49-115) read by the PD functions.  `mode`: 0-2 6-D, 3-5 position, 6-7
rotation. -/
structure TaskLinkPD where
  mode : ℕ
  tStart : ℝ
  tEnd : ℝ
  posInit : Vec3
  velInit : Vec3
  posDes : Vec3
  velDes : Vec3
  rotInit : Mat3
  rotDes : Mat3
  posP : Vec3
  posD : Vec3
  posA : Vec3
  rotP : Vec3
  rotD : Vec3
  rotA : Vec3

namespace TaskLinkPD

/-- src/task.cpp 217-232 `SetTrajectoryQuintic` -/
def setTrajectoryQuintic (k : TaskLinkPD) (t0 tf : ℝ) (p0 v0 pf vf : Vec3) : TaskLinkPD :=
  { k with tStart := t0, tEnd := tf, posInit := p0, velInit := v0, posDes := pf, velDes := vf }

/-- src/task.cpp 233-247 `SetTrajectoryRotation`; the two twists are stored and never read. -/
def setTrajectoryRotation (k : TaskLinkPD) (t0 tf : ℝ) (R0 : Mat3) (_w0 : Vec3) (Rf : Mat3) (_wf : Vec3) : TaskLinkPD :=
  { k with tStart := t0, tEnd := tf, rotInit := R0, rotDes := Rf }

/-- src/task.cpp 249-261 `SetTaskGain` -/
def setTaskGain (k : TaskLinkPD) (pp pd pa rp rd ra : Vec3) : TaskLinkPD :=
  { k with posP := pp, posD := pd, posA := pa, rotP := rp, rotD := rd, rotA := ra }

/-- src/task.cpp 278: one axis of the reference position, velocity, acceleration. -/
noncomputable def axis (k : TaskLinkPD) (t : ℝ) (j : Fin 3) : Option (Fin 3 → ℝ) :=
  quinticSpline t k.tStart k.tEnd (k.posInit j) (k.velInit j) 0 (k.posDes j) (k.velDes j) 0

/-- src/task.cpp 268-294 `GetFstarPosPD` -/
noncomputable def posPD (k : TaskLinkPD) (t : ℝ) (pos vel : Vec3) : Option Vec3 :=
  if k.mode ≤ 5 then
    match k.axis t 0, k.axis t 1, k.axis t 2 with
    | some q0, some q1, some q2 =>
      let p : Vec3 := ![q0 0, q1 0, q2 0]
      let v : Vec3 := ![q0 1, q1 1, q2 1]
      let a : Vec3 := ![q0 2, q1 2, q2 2]
      some (k.posA * a + k.posP * (p - pos) + k.posD * (v - vel))
    | _, _, _ => none
  else some 0

/-- src/task.cpp 296-339 `GetFstarRotPD`.  (`a_traj`, line 333, is computed and not used.) -/
noncomputable def rotPD (k : TaskLinkPD) (t : ℝ) (rot : Mat3) (w : Vec3) : Option Vec3 :=
  match quinticSpline t k.tStart k.tEnd 0 0 0 1 0 0 with
  | none => none
  | some qs =>
    let qi := quatOfMat k.rotInit
    let qd := quatOfMat k.rotDes
    let rt := quatMat (slerp qi (qs 0) qd)
    let ax := angleAxisOfQuat (quatMul qd (quatInv qi))
    let wt : Vec3 := (ax.1 * qs 1) • ax.2
    some (k.rotP * getPhi rot rt + k.rotD * (wt - w))

end TaskLinkPD

end Verif.Model
