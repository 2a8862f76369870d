import Verif.Spec.Dynamics
import Verif.Spec.Momentum

/-!
# Specification: the equations of a robot that moves

The acceleration of a point fixed to a link is linear in the generalised acceleration only up to a term quadratic in the
generalised velocity (`J̇ q̇`).  Newton's and Euler's equations for every link, contracted with the motions the joints allow.
-/

namespace Verif.Spec
open Matrix

/-- A link with the accelerations it has when the generalised acceleration is zero, as functions of the generalised velocity:
`Hv` of its centre of mass, `Hw` of its rotation. -/
structure DrivenLink (σ : Type*) extends MovingLink σ where
  Hv : (σ → ℝ) → Fin 3 → ℝ
  Hw : (σ → ℝ) → Fin 3 → ℝ

/-- Quadratic in the velocity. -/
def Quadratic {σ κ : Type*} (H : (σ → ℝ) → κ → ℝ) : Prop := ∀ (s : ℝ) q, H (s • q) = s ^ 2 • H q

variable {σ κ : Type*} [Fintype σ] [Fintype κ]

/-- Force on the link's centre of mass, less gravity `g`, for velocity `qd` and acceleration `qdd` (Newton). -/
def DrivenLink.force (l : DrivenLink σ) (g : Fin 3 → ℝ) (qd qdd : σ → ℝ) : Fin 3 → ℝ :=
  l.m • ((l.Jv *ᵥ qdd + l.Hv qd) - g)

/-- Moment about the link's centre of mass: rate of change of `I w` (Euler). -/
def DrivenLink.moment (l : DrivenLink σ) (qd qdd : σ → ℝ) : Fin 3 → ℝ :=
  l.I *ᵥ (l.Jw *ᵥ qdd + l.Hw qd) + crossProduct (l.Jw *ᵥ qd) (l.I *ᵥ (l.Jw *ᵥ qd))

/-- The generalised force that moves all links so. -/
def inverseDynamics (L : List (DrivenLink σ)) (g : Fin 3 → ℝ) (qd qdd : σ → ℝ) : σ → ℝ :=
  (L.map fun l => l.Jvᵀ *ᵥ l.force g qd qdd + l.Jwᵀ *ᵥ l.moment qd qdd).sum

variable {ι : Type*} [Fintype ι]

/-- `(qdd, F)` is the motion of a robot in contact that moves with velocity `qd`: Newton's and Euler's equations hold with the
contact force and the joint torques as the only other forces, and the contact points do not accelerate.  `γ qd` is the
acceleration of the contact points for `qdd = 0`. -/
def MovingMotion (L : List (DrivenLink (Fin 6 ⊕ ι))) (g : Fin 3 → ℝ) (J : Matrix κ (Fin 6 ⊕ ι) ℝ)
    (γ : (Fin 6 ⊕ ι → ℝ) → κ → ℝ) (qd : Fin 6 ⊕ ι → ℝ) (torque : ι → ℝ) (qdd : Fin 6 ⊕ ι → ℝ) (F : κ → ℝ) : Prop :=
  inverseDynamics L g qd qdd + Jᵀ *ᵥ F = actuate torque ∧ J *ᵥ qdd + γ qd = 0

/-- The links without their motion. -/
def links (L : List (DrivenLink σ)) : List (MovingLink σ) := L.map DrivenLink.toMovingLink

/-- Centrifugal, Coriolis and gyroscopic forces: what it takes to keep `qdd = 0` without gravity. -/
def velocityForce (L : List (DrivenLink σ)) (qd : σ → ℝ) : σ → ℝ := inverseDynamics L 0 qd 0

end Verif.Spec
