import Verif.Model.Body

/-!
# Jacobians of a link from the joint axes (src/link.cpp 98-117, 131-182)
-/

set_option linter.unusedSectionVars false

namespace Verif.Model
open Matrix Verif

/-- A joint axis in world coordinates, `X_base[j].inverse().apply(S[j])` in RBDL: the angular velocity, and the velocity of the
point of the moving body that is at the world's origin, for unit joint velocity. -/
@[ext] structure SpatialAxis where
  ang : Vec3
  lin : Vec3

/-- The velocity of the point at `p`: RBDL `SpatialTransform(1, p).apply` keeps the angular part and moves the linear one. -/
def SpatialAxis.velAt (s : SpatialAxis) (p : Vec3) : Vec3 := s.lin - crossProduct p s.ang

variable {κ : Type*}

/-- RBDL `CalcPointJacobian6D`, as used by src/link.cpp 98-117: the columns of the joints between the link and the world, angular
rows first (`UpdateJac` and `GetPointJac` then swap the halves). `p`: world position of the point. -/
def pointJacobian (axes : κ → SpatialAxis) (chain : κ → Bool) (p : Vec3) : Matrix (Fin 3 ⊕ Fin 3) κ ℝ :=
  Matrix.of fun r k => if chain k then Sum.elim (axes k).ang ((axes k).velAt p) r else 0

/-- src/link.cpp 98-117: the linear rows come first. -/
def swapHalves (M : Matrix (Fin 3 ⊕ Fin 3) κ ℝ) : Matrix (Fin 3 ⊕ Fin 3) κ ℝ := M.submatrix Sum.swap id

/-- src/link.cpp 131-182 `Link::GetJacDot`.  `v`: the member `v`, the velocity of the link's origin; `point_jac` and the joint
velocities are not used.  The halves are not swapped. -/
def getJacDot (axes : κ → SpatialAxis) (chain : κ → Bool) (v : Vec3) : Matrix (Fin 3 ⊕ Fin 3) κ ℝ :=
  let pointTrans := v
  Matrix.of fun r k => if chain k then Sum.elim (axes k).ang ((axes k).velAt pointTrans) r else 0

end Verif.Model
