import Verif.Spec.QP
import Mathlib.Topology.Order.Compact
import Mathlib.Topology.Instances.Real.Lemmas
import Mathlib.Topology.Algebra.Monoid
import Mathlib.Tactic.Linarith

/-! # A least-norm problem has a solution as soon as it has a feasible point -/

namespace Verif
open Matrix Verif.Spec

variable {V : Type*} [Fintype V]

theorem continuous_dot (a : V → ℝ) : Continuous fun x : V → ℝ => a ⬝ᵥ x := by
  unfold dotProduct
  exact continuous_finsetSum _ fun i _ => continuous_const.mul (continuous_apply i)

theorem isClosed_feasible (d : QP V) : IsClosed {x | d.Feasible x} := by
  have : {x | d.Feasible x} = ⋂ r, ⋂ (_ : r < d.rows),
      ((⋂ b, ⋂ (_ : b ∈ d.lb r), {x : V → ℝ | b ≤ d.A r ⬝ᵥ x}) ∩ {x : V → ℝ | d.A r ⬝ᵥ x ≤ d.ub r}) := by
    ext x; simp [QP.Feasible, Set.mem_iInter]
  rw [this]
  refine isClosed_iInter fun r => isClosed_iInter fun _ => IsClosed.inter ?_ ?_
  · exact isClosed_iInter fun b => isClosed_iInter fun _ => isClosed_le continuous_const (continuous_dot _)
  · exact isClosed_le (continuous_dot _) continuous_const

theorem exists_solution [DecidableEq V] {d : QP V} (hH : d.H = 1) (hg : d.g = 0) {x₀ : V → ℝ} (h0 : d.Feasible x₀) :
    ∃ x, d.IsSolution x := by
  have hc : ∀ x, d.cost x = (1 / 2) * (x ⬝ᵥ x) := by
    intro x; rw [QP.cost, hH, hg, one_mulVec, zero_dotProduct, add_zero]
  have hcont : Continuous d.cost := by
    have : d.cost = fun x => (1 / 2) * (x ⬝ᵥ x) := funext hc
    rw [this]
    unfold dotProduct
    exact continuous_const.mul
      (continuous_finsetSum _ fun i _ => (continuous_apply i).mul (continuous_apply i))
  have hb : ∀ x i, x i ^ 2 ≤ 2 * d.cost x := by
    intro x i
    rw [hc]
    have : x i * x i ≤ x ⬝ᵥ x := by
      unfold dotProduct
      exact Finset.single_le_sum (f := fun i => x i * x i) (fun j _ => mul_self_nonneg _) (Finset.mem_univ i)
    linarith [sq (x i)]
  have hpos : ∀ x, 0 ≤ d.cost x := by
    intro x; rw [hc]
    have : 0 ≤ x ⬝ᵥ x := Finset.sum_nonneg fun i _ => mul_self_nonneg _
    linarith
  set M := 2 * d.cost x₀ + 1 with hM
  have hin : ∀ x, d.cost x ≤ d.cost x₀ → x ∈ Set.Icc (fun _ : V => -M) (fun _ => M) := by
    intro x hx
    have hM0 := hpos x₀
    refine ⟨fun i => ?_, fun i => ?_⟩
    · have := hb x i; nlinarith
    · have := hb x i; nlinarith
  have hK : IsCompact (Set.Icc (fun _ : V => -M) (fun _ => M) ∩ {x | d.Feasible x}) :=
    isCompact_Icc.inter_right (isClosed_feasible d)
  obtain ⟨x, hx, hmin⟩ := hK.exists_isMinOn ⟨x₀, hin x₀ le_rfl, h0⟩ hcont.continuousOn
  refine ⟨x, hx.2, fun y hy => ?_⟩
  by_cases hle : d.cost y ≤ d.cost x₀
  · exact hmin ⟨hin y hle, hy⟩
  · have := hmin (show x₀ ∈ _ from ⟨hin x₀ le_rfl, h0⟩)
    simp only [Set.mem_ofPred_eq] at this
    linarith

end Verif
