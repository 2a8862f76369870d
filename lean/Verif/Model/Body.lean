import Verif.Model.Rotation
import Mathlib.Data.Matrix.Block

/-!
# Rigid bodies (src/math.cpp 293-320, src/link.cpp 184-269)

6×6 matrices have index type `Fin 3 ⊕ Fin 3`: rows and columns 0-2, then 3-5.
-/

set_option linter.unusedSectionVars false

namespace Verif.Model
open Matrix Verif

abbrev Mat6 := Matrix (Fin 3 ⊕ Fin 3) (Fin 3 ⊕ Fin 3) ℝ

/-- `mass`, `com_position_l_`, `inertia` of a `Link` (include/dwbc_link.h): inertia about the centre of mass. -/
@[ext] structure Body where
  mass : ℝ
  com : Vec3
  inertia : Mat3

open Classical in
/-- src/link.cpp 247-269 `Link::AddLink`; `none` for the division by a zero total mass. -/
noncomputable def addLink (a b : Body) (R : Mat3) (x : Vec3) : Option Body :=
  let newMass := a.mass + b.mass
  let otherCom := R *ᵥ b.com + x
  let newCom := (1 / newMass) • (a.mass • a.com + b.mass • otherCom)
  let inertiaThis := a.inertia + a.mass • (skew a.com * (skew a.com)ᵀ)
  let inertiaOther := R * b.inertia * Rᵀ + b.mass • (skew otherCom * (skew otherCom)ᵀ)
  let summed := inertiaThis + inertiaOther
  if newMass = 0 then none
  else some ⟨newMass, newCom, summed - newMass • (skew newCom * (skew newCom)ᵀ)⟩

/-- src/link.cpp 200-219 `Link::GetSpatialInertiaMatrix`. -/
def spatialInertia (b : Body) (rotationFirst : Bool) : Mat6 :=
  if rotationFirst then
    fromBlocks (b.inertia + b.mass • (skew b.com * (skew b.com)ᵀ)) (b.mass • skew b.com)
      (b.mass • (skew b.com)ᵀ) (b.mass • 1)
  else
    fromBlocks (b.mass • 1) (b.mass • (skew b.com)ᵀ)
      (b.mass • skew b.com) (b.inertia + b.mass • (skew b.com * (skew b.com)ᵀ))

/-- src/math.cpp 312-320 `InertiaMatrix`. -/
def inertiaMatrix (inertia : Mat3) (mass : ℝ) : Mat6 := fromBlocks (mass • 1) 0 0 inertia

open Classical in
/-- src/math.cpp 304-310 `InertiaMatrixSegment`; `none` for the division by a zero mass. -/
noncomputable def inertiaMatrixSegment (M : Mat6) : Option Body :=
  let mass := M (Sum.inl 0) (Sum.inl 0)
  let s : Mat3 := (1 / mass) • M.toBlocks₂₁
  let c : Vec3 := ![s 2 1, s 0 2, s 1 0]
  if mass = 0 then none else some ⟨mass, c, M.toBlocks₂₂ - mass • (skew c * (skew c)ᵀ)⟩

/-- src/math.cpp 293-302 `spatialTransformMatrix`. -/
def spatialTransform (pos : Vec3) (rot : Mat3) : Mat6 := fromBlocks rot (skew pos * rot) 0 rot

/-- src/link.cpp 189-198 `Link::GetAdjointMatrix`. -/
def adjointMatrix (pos : Vec3) (rot : Mat3) : Mat6 := fromBlocks rot 0 (skew pos * rot) rot

end Verif.Model
