import Verif.Spec.Dynamics

/-!
# Specification: one robot seen from two places

The same robot described twice: the second description uses other coordinates for the base and other axes for the contact rows.
A robot that has been carried to another place and turned about the vertical is such a second description of itself.
-/

namespace Verif.Spec
open Matrix

/-- Base velocities `v = U v'`, joint velocities unchanged. -/
def baseChange {ι : Type*} [DecidableEq ι] (U : Matrix (Fin 6) (Fin 6) ℝ) : Matrix (Fin 6 ⊕ ι) (Fin 6 ⊕ ι) ℝ :=
  Matrix.of fun r s =>
    match r, s with
    | .inl a, .inl b => U a b
    | .inr i, .inr j => if i = j then 1 else 0
    | _, _ => 0

/-- `(A', J', G')` are mass matrix, contact Jacobian and weight of the robot `(A, J, G)`, with base velocities `v = U v'` and the
contact rows combined by `R`. -/
structure SeenAs {ι κ : Type*} [Fintype ι] [DecidableEq ι] [Fintype κ] (U : Matrix (Fin 6) (Fin 6) ℝ) (R : Matrix κ κ ℝ)
    (A : Matrix (Fin 6 ⊕ ι) (Fin 6 ⊕ ι) ℝ) (J : Matrix κ (Fin 6 ⊕ ι) ℝ) (G : Fin 6 ⊕ ι → ℝ)
    (A' : Matrix (Fin 6 ⊕ ι) (Fin 6 ⊕ ι) ℝ) (J' : Matrix κ (Fin 6 ⊕ ι) ℝ) (G' : Fin 6 ⊕ ι → ℝ) : Prop where
  mass : A' = (baseChange U)ᵀ * A * baseChange U
  contact : J' = R * J * baseChange U
  weight : G' = (baseChange U)ᵀ *ᵥ G

/-- The three coordinates of every force, moment, linear and angular velocity in a stack of them, each turned by `Q`. -/
def turnRows (Q : Matrix (Fin 3) (Fin 3) ℝ) (c : ℕ) : Matrix (Fin c) (Fin c) ℝ := Matrix.of fun r s =>
  if r.val / 3 = s.val / 3 then Q ⟨r % 3, Nat.mod_lt _ (by norm_num)⟩ ⟨s % 3, Nat.mod_lt _ (by norm_num)⟩ else 0

/-- Base velocities of the turned robot to those of the robot: the first three coordinates are the velocity of the base in the
world, the last three its angular velocity in the frame of the base. -/
def turnBase (Q : Matrix (Fin 3) (Fin 3) ℝ) : Matrix (Fin 6) (Fin 6) ℝ := Matrix.of fun r s =>
  if h : r.val < 3 ∧ s.val < 3 then Q ⟨s, h.2⟩ ⟨r, h.1⟩ else if r = s then 1 else 0

end Verif.Spec
