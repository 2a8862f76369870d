import Verif.Spec.Momentum
import Verif.Spec.Turned

/-!
# Specification: a robot turned by `Q` and moved by `d`
-/

namespace Verif.Spec
open Matrix

variable {ι : Type*} [Fintype ι] [DecidableEq ι]

/-- Velocities of the turned robot to those of the robot, with the coordinates of the base in two groups: the velocity of the base is
turned back, its angular velocity (in the frame of the base) and the joint velocities are the same. -/
def turnSys (Q : Matrix (Fin 3) (Fin 3) ℝ) : Matrix ((Fin 3 ⊕ Fin 3) ⊕ ι) ((Fin 3 ⊕ Fin 3) ⊕ ι) ℝ :=
  fromBlocks (fromBlocks Qᵀ 0 0 1) 0 0 1

/-- The link after the robot has been turned by `Q` about the origin and moved by `d`. -/
def carryLink (Q : Matrix (Fin 3) (Fin 3) ℝ) (d : Fin 3 → ℝ) (l : MovingLink ((Fin 3 ⊕ Fin 3) ⊕ ι)) :
    MovingLink ((Fin 3 ⊕ Fin 3) ⊕ ι) where
  m := l.m
  I := Q * l.I * Qᵀ
  x := Q *ᵥ l.x + d
  Jv := Q * l.Jv * turnSys Q
  Jw := Q * l.Jw * turnSys Q

end Verif.Spec
