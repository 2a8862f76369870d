import Verif.Model.Filter
import Mathlib.Topology.Algebra.InfiniteSum.Real
import Mathlib.Topology.Order.MonotoneConvergence
import Mathlib.Topology.Instances.Real.Lemmas
import Mathlib.Tactic.Linarith
import Mathlib.Tactic.LinearCombination
import Mathlib.Tactic.FieldSimp
import Mathlib.Tactic.Positivity

set_option linter.unusedSectionVars false

namespace Verif
open Filter Topology Verif.Model

/-- A sequence obeying a discretised damped oscillator equation tends to zero. -/
theorem oscillator_tendsto {m γ κ : ℝ} (hm : 0 < m) (hγ : 0 < γ) (hκ : 0 < κ) {y : ℕ → ℝ}
    (h : ∀ k, m * (y (k + 2) - 2 * y (k + 1) + y k) + γ * (y (k + 2) - y k)
      + κ * (y (k + 2) + 2 * y (k + 1) + y k) = 0) :
    Tendsto y atTop (𝓝 0) := by
  set δ : ℕ → ℝ := fun k => y (k + 1) - y k with hδ
  set σ : ℕ → ℝ := fun k => y (k + 1) + y k with hσ
  set V : ℕ → ℝ := fun k => m * δ k ^ 2 + κ * σ k ^ 2 with hV
  set e : ℕ → ℝ := fun k => y (k + 2) - y k with he
  have hstep : ∀ k, V (k + 1) = V k - γ * e k ^ 2 := by
    intro k
    simp only [hV, hδ, hσ, he]
    have := h k
    rw [show k + 1 + 1 = k + 2 from rfl]
    linear_combination (y (k + 2) - y k) * this
  have hanti : Antitone V := antitone_nat_of_succ_le fun k => by
    rw [hstep]; have := mul_nonneg hγ.le (sq_nonneg (e k)); linarith
  have hbdd : BddBelow (Set.range V) := ⟨0, by
    rintro _ ⟨k, rfl⟩
    simp only [hV]; positivity⟩
  have hconv := tendsto_atTop_ciInf hanti hbdd
  have hdiff : Tendsto (fun k => V k - V (k + 1)) atTop (𝓝 0) := by
    have := hconv.sub (hconv.comp (tendsto_add_atTop_nat 1))
    simpa using this
  have he2 : Tendsto (fun k => e k ^ 2) atTop (𝓝 0) := by
    have := hdiff.const_mul (1 / γ)
    rw [mul_zero] at this
    refine this.congr fun k => ?_
    rw [hstep]; field_simp; ring
  have he0 : Tendsto e atTop (𝓝 0) := by
    have h2 := he2.sqrt
    rw [Real.sqrt_zero] at h2
    refine (tendsto_zero_iff_abs_tendsto_zero e).mpr (h2.congr fun k => ?_)
    rw [Real.sqrt_sq_eq_abs]; rfl
  -- κ σ - m δ → 0 and κ σ + m δ → 0
  have h1 : Tendsto (fun k => κ * σ k - m * δ k) atTop (𝓝 0) := by
    have := he0.const_mul (-(m + γ + κ) / 2)
    rw [mul_zero] at this
    refine this.congr fun k => ?_
    simp only [he, hσ, hδ]
    linear_combination (-1 / 2) * h k
  have h2 : Tendsto (fun k => κ * σ k + m * δ k) atTop (𝓝 0) := by
    have ha := h1.comp (tendsto_add_atTop_nat 1)
    have := ha.sub (he0.const_mul (κ - m))
    rw [mul_zero, sub_zero] at this
    refine this.congr fun k => ?_
    simp only [Function.comp, he, hσ, hδ, show k + 1 + 1 = k + 2 from rfl]
    ring
  have h3 := (h1.add h2).const_mul (1 / (4 * κ))
  have h4 := (h2.sub h1).const_mul (1 / (4 * m))
  have h5 := h3.sub h4
  simp only [add_zero, mul_zero, sub_zero] at h5
  refine h5.congr fun k => ?_
  simp only [hσ, hδ]
  field_simp
  ring

end Verif
