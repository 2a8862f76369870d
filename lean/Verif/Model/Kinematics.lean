import Verif.Model.Body

/-!
# Whole-body kinematics (src/dwbc.cpp 279-375, 1633-1709, 2505-2605)

Generalised coordinates have index type `(Fin 3 ⊕ Fin 3) ⊕ ι`: base translation, base rotation, joints.  The mass
matrix computed by RBDL (`CompositeRigidBodyAlgorithm`), the link poses and the link Jacobians are inputs.
-/

set_option linter.unusedSectionVars false

namespace Verif.Model
open Matrix Verif

/-- index type of the system velocity -/
abbrev Sys (ι : Type*) := (Fin 3 ⊕ Fin 3) ⊕ ι

variable {ι : Type*} [Fintype ι] [DecidableEq ι]

/-- What `UpdateKinematics` stores about the whole body. -/
structure WholeBody (ι : Type*) where
  /-- `com_pos`, also `link_.back().xpos` -/
  comPos : Vec3
  /-- `com_vel` -/
  comVel : Vec3
  /-- `CMM_`, rows 0-2 and 3-5 -/
  cmmLin : Matrix (Fin 3) (Sys ι) ℝ
  cmmAng : Matrix (Fin 3) (Sys ι) ℝ
  /-- `link_.back().inertia` -/
  inertia : Mat3
  /-- `link_.back().jac_`, rows 0-2 and 3-5 -/
  jacLin : Matrix (Fin 3) (Sys ι) ℝ
  jacAng : Matrix (Fin 3) (Sys ι) ℝ
  /-- `G_` -/
  G : Sys ι → ℝ
  /-- `link_.back().v`, `link_.back().w` -/
  v : Vec3
  w : Vec3

/-- src/dwbc.cpp 301-369 `UpdateKinematics` with well-sized arguments.  `crba` is the mass matrix RBDL computes, `x0` is
`q.segment(0, 3)`, `R0` is `link_[0].rotm`, `M` is `total_mass_`.  With `update = false` the mass matrix is left
zero (line 301 is outside the `if`).  `none`: an infinite or NaN entry (division by zero mass or singular `SI_body_`). -/
noncomputable def updateKinematics (update : Bool) (crba : Matrix (Sys ι) (Sys ι) ℝ) (x0 : Vec3) (R0 : Mat3) (M : ℝ)
    (qd : Sys ι → ℝ) : Option (WholeBody ι) :=
  let A : Matrix (Sys ι) (Sys ι) ℝ := if update then crba else 0
  let A30 : Mat3 := A.submatrix (fun i => Sum.inl (Sum.inr i)) (fun j => Sum.inl (Sum.inl j))
  let A33 : Mat3 := A.submatrix (fun i => Sum.inl (Sum.inr i)) (fun j => Sum.inl (Sum.inr j))
  let skm : Mat3 := (1 / M) • (R0 * A30)
  let r : Vec3 := ![skm 2 1, skm 0 2, skm 1 0]
  let A0 : Matrix (Fin 3) (Sys ι) ℝ := A.submatrix (fun i => Sum.inl (Sum.inl i)) id
  let A3 : Matrix (Fin 3) (Sys ι) ℝ := A.submatrix (fun i => Sum.inl (Sum.inr i)) id
  let lin := A0
  let ang := (skew r)ᵀ * A0 + R0 * A3
  let inertia := R0 * A33 * R0ᵀ - M • (skew r * (skew r)ᵀ)
  match eigenInverse (fromBlocks (M • 1) 0 0 inertia : Mat6) with
  | none => none
  | some SI =>
    let jl := SI.toBlocks₁₁ * lin + SI.toBlocks₁₂ * ang
    let ja := SI.toBlocks₂₁ * lin + SI.toBlocks₂₂ * ang
    some
      { comPos := r + x0
        comVel := 0
        cmmLin := lin
        cmmAng := ang
        inertia := inertia
        jacLin := jl
        jacAng := ja
        G := -(jlᵀ *ᵥ (M • ![0, 0, -9.81]))
        v := jl *ᵥ qd
        w := ja *ᵥ qd }

/-- What the momentum functions read of a link: pose, body, and the stored Jacobian `jac_` of the link origin (rows 0-2
linear, rows 3-5 angular). -/
structure LinkKin (σ : Type*) where
  body : Body
  rotm : Mat3
  xpos : Vec3
  jacLin : Matrix (Fin 3) σ ℝ
  jacAng : Matrix (Fin 3) σ ℝ

variable {σ : Type*} [Fintype σ]

/-- src/dwbc.cpp 1653, the term added to `H_C.topRows(3)` for one link. -/
def hTop (l : LinkKin σ) : Matrix (Fin 3) σ ℝ :=
  let r := l.rotm
  let c := l.body.com
  let m := l.body.mass
  (r * (l.body.inertia + m • (skew c * (skew c)ᵀ)) * rᵀ + m • (skew l.xpos * r * (skew c)ᵀ) * rᵀ) * l.jacAng
    + (m • (r * skew c) * rᵀ + m • skew l.xpos) * l.jacLin

/-- src/dwbc.cpp 1655, the term added to `H_C.bottomRows(3)`. -/
def hBot (l : LinkKin σ) : Matrix (Fin 3) σ ℝ :=
  l.body.mass • (l.rotm * (skew l.body.com)ᵀ * l.rotmᵀ) * l.jacAng + l.body.mass • l.jacLin

/-- src/dwbc.cpp 1663-1680 and 1682-1709 `CalcAngularMomentumMatrix(cmm)`, `CalcVirtualCMM`: rows 0-2 and 3-5 (the
second function returns rows 0-2 only).  `com` is `link_.back().xpos`.  The loop adds in link order. -/
def angularMomentumMatrix (links : List (LinkKin σ)) (com : Vec3) : Matrix (Fin 3) σ ℝ × Matrix (Fin 3) σ ℝ :=
  let top := (links.map hTop).sum
  let bot := (links.map hBot).sum
  (top - skew com * bot, bot)

/-- Links whose Jacobians are a function of the configuration `q`, with the stored copy (`jac_`). -/
structure RobotKin (Q σ : Type*) where
  /-- what `UpdateJac` and `UpdatePos` compute from the configuration -/
  at_ : Q → List (LinkKin σ)
  q : Q
  /-- stored link data -/
  stored : List (LinkKin σ)
  com : Vec3

/-- src/dwbc.cpp 313-318, link.cpp 70-96 `UpdateAll`: poses are refreshed, Jacobians keep their old value. -/
def RobotKin.updatePos {Q : Type*} (r : RobotKin Q σ) (q : Q) (com : Vec3) : RobotKin Q σ :=
  { r with
    q := q
    com := com
    stored := List.zipWith (fun old new => { new with jacLin := old.jacLin, jacAng := old.jacAng }) r.stored (r.at_ q) }

/-- src/dwbc.cpp 1633-1661 `CalcAngularMomentumMatrix()`: calls `UpdateJac` on every link first, then uses what is
stored. -/
def RobotKin.momentumFresh {Q : Type*} (r : RobotKin Q σ) : Matrix (Fin 3) σ ℝ × RobotKin Q σ :=
  let stored := List.zipWith (fun old new => { old with jacLin := new.jacLin, jacAng := new.jacAng }) r.stored (r.at_ r.q)
  ((angularMomentumMatrix stored r.com).1, { r with stored := stored })

/-- src/dwbc.cpp 1663-1680 `CalcAngularMomentumMatrix(cmm)`: uses the stored Jacobians. -/
def RobotKin.momentumStored {Q : Type*} (r : RobotKin Q σ) : Matrix (Fin 3) σ ℝ × Matrix (Fin 3) σ ℝ :=
  angularMomentumMatrix r.stored r.com

/-- One link's data as read by `CalcCOMInertia`. -/
structure LinkState where
  body : Body
  rotm : Mat3
  xpos : Vec3
  w : Vec3
  v : Vec3

/-- src/link.cpp 84, 94: `xipos`, `vi`. -/
def LinkState.xipos (l : LinkState) : Vec3 := l.xpos + l.rotm *ᵥ l.body.com
def LinkState.vi (l : LinkState) : Vec3 := l.v + crossProduct l.w (l.rotm *ᵥ l.body.com)

/-- src/dwbc.cpp 2518-2532 `com_pos__`. -/
noncomputable def comOf (links : List LinkState) : Vec3 :=
  let M := (links.map fun l => l.body.mass).sum
  (links.map fun l => (1 / M) • (l.body.mass • l.xipos)).sum

/-- src/dwbc.cpp 2536-2544 `AdT[i]`. -/
def adT (com : Vec3) (l : LinkState) : Mat6 := fromBlocks l.rotm 0 (skew (l.xpos - com) * l.rotm) l.rotm

/-- src/dwbc.cpp 2546-2557 `AdTinv[i]`. -/
def adTinv (com : Vec3) (l : LinkState) : Mat6 :=
  fromBlocks l.rotmᵀ 0 (skew (-(l.rotmᵀ *ᵥ (l.xpos - com))) * l.rotmᵀ) l.rotmᵀ

/-- src/dwbc.cpp 2587 `baseframe_inertia_matrix[i]`. -/
def baseInertia (com : Vec3) (l : LinkState) : Mat6 := (adTinv com l)ᵀ * spatialInertia l.body true * adTinv com l

/-- src/dwbc.cpp 2505-2605 `CalcCOMInertia`: `com_inertia`, `com_momentum`.  Links without the trailing "COM" entry;
the total mass must not be zero. -/
noncomputable def calcCOMInertia (links : List LinkState) : Mat6 × (Fin 3 ⊕ Fin 3 → ℝ) :=
  let com := comOf links
  ((links.map (baseInertia com)).sum,
   (links.map fun l => (baseInertia com l * adT com l * fromBlocks l.rotmᵀ 0 0 l.rotmᵀ) *ᵥ Sum.elim l.w l.v).sum)

end Verif.Model
