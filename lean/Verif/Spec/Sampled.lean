import Mathlib.Data.Real.Basic
import Mathlib.Order.Interval.Set.Defs

/-! # A control loop that runs at a fixed rate -/

namespace Verif.Spec

/-- The loop is called at the times `t₁, t₁ + h, t₁ + 2h, …`; the acceleration `u k` set by call `k` is held until the next call, so that in
between a point at `p t` with velocity `v t` moves with constant acceleration. -/
def HeldBetweenCalls (t₁ h : ℝ) (p v : ℝ → Fin 3 → ℝ) (u : ℕ → Fin 3 → ℝ) : Prop :=
  ∀ k : ℕ, ∀ s ∈ Set.Icc 0 h, ∀ i,
    p (t₁ + k * h + s) i = p (t₁ + k * h) i + s * v (t₁ + k * h) i + s ^ 2 / 2 * u k i ∧
      v (t₁ + k * h + s) i = v (t₁ + k * h) i + s * u k i

end Verif.Spec
