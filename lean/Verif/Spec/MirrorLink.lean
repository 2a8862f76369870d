import Verif.Spec.Carried
import Verif.Spec.Mirror

/-!
# Specification: the links of a robot in the mirror
-/

namespace Verif.Spec
open Matrix

variable {ι : Type*} [Fintype ι] [DecidableEq ι]

/-- Turning in the mirror: the mirror image of a turn about an axis is a turn about the mirrored axis, the other way round. -/
def mirrorTurn : Matrix (Fin 3) (Fin 3) ℝ := diagonal ![-1, 1, -1]

/-- Velocities of the mirror image to those of the robot: the base moves as in the mirror, and joint `i` of the image is joint `e i` of
the robot, turning with sign `s i`. -/
def mirrorSys (e : Equiv.Perm ι) (s : ι → ℝ) : Matrix ((Fin 3 ⊕ Fin 3) ⊕ ι) ((Fin 3 ⊕ Fin 3) ⊕ ι) ℝ :=
  fromBlocks (fromBlocks mirror3 0 0 mirrorTurn) 0 0 (Matrix.of fun j i => if j = e i then s i else 0)

/-- The link in the mirror. -/
def mirrorLink (e : Equiv.Perm ι) (s : ι → ℝ) (l : MovingLink ((Fin 3 ⊕ Fin 3) ⊕ ι)) : MovingLink ((Fin 3 ⊕ Fin 3) ⊕ ι) where
  m := l.m
  I := mirror3 * l.I * mirror3
  x := mirror3 *ᵥ l.x
  Jv := mirror3 * l.Jv * mirrorSys e s
  Jw := mirrorTurn * l.Jw * mirrorSys e s

end Verif.Spec
