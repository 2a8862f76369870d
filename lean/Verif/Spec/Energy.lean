import Verif.Spec.Moving
import Mathlib.Analysis.Calculus.Deriv.Mul
import Mathlib.Analysis.Calculus.Deriv.Add

/-! # Specification: energy and power of a moving robot -/

namespace Verif.Spec
open Matrix

variable {σ : Type*} [Fintype σ]

/-- `Σ ½ m |v|² + ½ w · I w`. -/
noncomputable def kineticEnergy (L : List (MovingLink σ)) (qd : σ → ℝ) : ℝ :=
  (L.map fun l => 1 / 2 * (l.m * ((l.Jv *ᵥ qd) ⬝ᵥ (l.Jv *ᵥ qd))) + 1 / 2 * ((l.Jw *ᵥ qd) ⬝ᵥ (l.I *ᵥ (l.Jw *ᵥ qd)))).sum

/-- Power of the weight: what gravity `g` does on all links. -/
def weightPower (g : Fin 3 → ℝ) (L : List (MovingLink σ)) (qd : σ → ℝ) : ℝ := (L.map fun l => l.m * (g ⬝ᵥ (l.Jv *ᵥ qd))).sum

/-- Power of the joint torques. -/
def jointPower {ι : Type*} [Fintype ι] (τ : ι → ℝ) (qd : Fin 6 ⊕ ι → ℝ) : ℝ := ∑ i, τ i * qd (Sum.inr i)

/-- A link followed through time, while the robot has velocity `qd` and acceleration `qdd`: its mass stays, its inertia tensor is symmetric
and turns with it, and its Jacobians and drift terms give its velocities and accelerations. -/
structure LinkRun (l : ℝ → DrivenLink σ) (qd qdd : ℝ → σ → ℝ) : Prop where
  mass : ∀ s t, (l s).m = (l t).m
  symm : ∀ t, (l t).Iᵀ = (l t).I
  turns : ∀ t i j, HasDerivAt (fun s => (l s).I i j)
    (crossProduct ((l t).Jw *ᵥ qd t) ((l t).I *ᵥ Pi.single j 1) i - ((l t).I *ᵥ crossProduct ((l t).Jw *ᵥ qd t) (Pi.single j 1)) i) t
  vel : ∀ t i, HasDerivAt (fun s => ((l s).Jv *ᵥ qd s) i) (((l t).Jv *ᵥ qdd t + (l t).Hv (qd t)) i) t
  spin : ∀ t i, HasDerivAt (fun s => ((l s).Jw *ᵥ qd s) i) (((l t).Jw *ᵥ qdd t + (l t).Hw (qd t)) i) t

end Verif.Spec
