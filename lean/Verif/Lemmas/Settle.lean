import Mathlib.Analysis.SpecialFunctions.ExpDeriv
import Mathlib.Analysis.Calculus.Deriv.MeanValue
import Mathlib.Analysis.Calculus.Deriv.Pow
import Mathlib.Tactic.Linarith
import Mathlib.Tactic.Positivity
import Mathlib.Tactic.FieldSimp
import Mathlib.Tactic.Ring

set_option linter.unusedSectionVars false

namespace Verif

/-- A quantity that decays at rate `c` but for a constant input. -/
theorem decay {V V' : ℝ → ℝ} {c k t0 : ℝ} (hc : 0 < c) (hV : ∀ t ≥ t0, HasDerivAt V (V' t) t) (h : ∀ t ≥ t0, V' t ≤ -c * V t + k)
    {t : ℝ} (ht : t0 ≤ t) : V t ≤ (V t0 - k / c) * Real.exp (-c * (t - t0)) + k / c := by
  set U : ℝ → ℝ := fun s => (V s - k / c) * Real.exp (c * (s - t0)) with hU
  have hd : ∀ s ≥ t0, HasDerivAt U (V' s * Real.exp (c * (s - t0)) + (V s - k / c) * (Real.exp (c * (s - t0)) * (c * 1))) s := by
    intro s hs
    exact ((hV s hs).sub_const _).mul (((hasDerivAt_id s).sub_const t0).const_mul c).exp
  have hanti : AntitoneOn U (Set.Ici t0) := by
    refine antitoneOn_of_deriv_nonpos (convex_Ici t0) (fun s hs => (hd s hs).continuousAt.continuousWithinAt)
      (fun s hs => ?_) fun s hs => ?_
    · rw [interior_Ici] at hs
      exact (hd s (le_of_lt hs)).differentiableAt.differentiableWithinAt
    · rw [interior_Ici] at hs
      have hs' : s ≥ t0 := le_of_lt hs
      rw [(hd s hs').deriv]
      have e : V' s * Real.exp (c * (s - t0)) + (V s - k / c) * (Real.exp (c * (s - t0)) * (c * 1)) =
          (V' s + c * V s - k) * Real.exp (c * (s - t0)) := by
        field_simp
        ring
      rw [e]
      exact mul_nonpos_of_nonpos_of_nonneg (by linarith [h s hs']) (Real.exp_pos _).le
  have h1 := hanti (Set.mem_Ici.mpr le_rfl) (Set.mem_Ici.mpr ht) ht
  simp only [hU, sub_self, mul_zero, Real.exp_zero, mul_one] at h1
  have hp := Real.exp_pos (c * (t - t0))
  have h2 : V t - k / c ≤ (V t0 - k / c) * Real.exp (-c * (t - t0)) := by
    rw [neg_mul, Real.exp_neg, ← div_eq_mul_inv, le_div_iff₀ hp]
    exact h1
  linarith

/-- The error of a PD loop with gains `kp, kd > 0` and a disturbance of at most `D`: it decays exponentially, down to a multiple of
`D`.  The rate and the factor depend on the gains alone. -/
theorem pd_settles {kp kd : ℝ} (hp : 0 < kp) (hd : 0 < kd) :
    ∃ c > 0, ∃ K > 0, ∀ (e v d : ℝ → ℝ) (D t0 : ℝ), (∀ t ≥ t0, HasDerivAt e (v t) t) →
      (∀ t ≥ t0, HasDerivAt v (-kp * e t - kd * v t + d t) t) → (∀ t ≥ t0, |d t| ≤ D) →
      ∀ t ≥ t0, e t ^ 2 + v t ^ 2 ≤ K * ((e t0 ^ 2 + v t0 ^ 2) * Real.exp (-c * (t - t0)) + D ^ 2) := by
  -- `V = ½ v² + ½ (kp + kd²/2) e² + ½ kd e v`
  set M : ℝ := 3 / 4 + kd ^ 2 / (2 * kp) + 1 / 2 with hM
  have hM0 : 0 < M := by positivity
  set c : ℝ := kd / (4 * M) with hc
  have hc0 : 0 < c := by positivity
  -- lower bound `κ (e² + v²) ≤ V` and upper bound `V ≤ U (e² + v²)`
  set κ : ℝ := min (1 / 8) (kp / 2) with hκ
  have hκ0 : 0 < κ := lt_min (by norm_num) (by positivity)
  set U : ℝ := 3 / 4 + kp / 2 + kd ^ 2 / 2 with hUdef
  have hU0 : 0 < U := by positivity
  have hlow : ∀ x y : ℝ, κ * (x ^ 2 + y ^ 2) ≤ 1 / 2 * y ^ 2 + 1 / 2 * (kp + kd ^ 2 / 2) * x ^ 2 + 1 / 2 * kd * x * y := by
    intro x y
    have a1 : κ ≤ 1 / 8 := min_le_left _ _
    have a2 : κ ≤ kp / 2 := min_le_right _ _
    nlinarith [sq_nonneg (y + 2 / 3 * kd * x), mul_le_mul_of_nonneg_right a1 (sq_nonneg y), mul_le_mul_of_nonneg_right a2 (sq_nonneg x),
      mul_nonneg (sq_nonneg kd) (sq_nonneg x), sq_nonneg y]
  have hup : ∀ x y : ℝ, 1 / 2 * y ^ 2 + 1 / 2 * (kp + kd ^ 2 / 2) * x ^ 2 + 1 / 2 * kd * x * y ≤ U * (x ^ 2 + y ^ 2) := by
    intro x y
    nlinarith [sq_nonneg (y - kd * x), mul_nonneg (sq_nonneg kd) (sq_nonneg x), sq_nonneg y, mul_nonneg hp.le (sq_nonneg y),
      mul_nonneg (sq_nonneg kd) (sq_nonneg y), sq_nonneg x]
  have hbal : ∀ x y : ℝ, 1 / 2 * y ^ 2 + 1 / 2 * (kp + kd ^ 2 / 2) * x ^ 2 + 1 / 2 * kd * x * y ≤ M * (y ^ 2 + kp * x ^ 2) := by
    intro x y
    have e : M * (y ^ 2 + kp * x ^ 2) = 5 / 4 * y ^ 2 + 5 / 4 * kp * x ^ 2 + kd ^ 2 / 2 * x ^ 2 + kd ^ 2 / (2 * kp) * y ^ 2 := by
      rw [hM]; field_simp; ring
    rw [e]
    have : 0 ≤ kd ^ 2 / (2 * kp) * y ^ 2 := by positivity
    nlinarith [sq_nonneg (y - kd * x), mul_nonneg hp.le (sq_nonneg x), sq_nonneg y]
  refine ⟨c, hc0, U / κ + 1 / (2 * c ^ 2 * κ), by positivity, ?_⟩
  intro e v d D t0 he hv hD t ht
  set V : ℝ → ℝ := fun s => 1 / 2 * v s ^ 2 + 1 / 2 * (kp + kd ^ 2 / 2) * e s ^ 2 + 1 / 2 * kd * e s * v s with hV
  have hder : ∀ s ≥ t0, HasDerivAt V (-(kd / 2) * (v s ^ 2 + kp * e s ^ 2) + (v s + kd / 2 * e s) * d s) s := by
    intro s hs
    have h1 := ((hv s hs).pow 2).const_mul (1 / 2)
    have h2 := ((he s hs).pow 2).const_mul (1 / 2 * (kp + kd ^ 2 / 2))
    have h3 := ((he s hs).const_mul (1 / 2 * kd)).mul (hv s hs)
    refine ((h1.add h2).add h3).congr_deriv ?_
    norm_num
    ring
  have hdecay := decay (k := D ^ 2 / (2 * c)) hc0 hder (fun s hs => ?_) ht
  · have hD0 : 0 ≤ D ^ 2 / (2 * c) / c := by positivity
    have hexp := Real.exp_pos (-c * (t - t0))
    have h1 : κ * (e t ^ 2 + v t ^ 2) ≤ V t := hlow _ _
    have h2 : V t0 ≤ U * (e t0 ^ 2 + v t0 ^ 2) := hup _ _
    have h3 : V t ≤ U * (e t0 ^ 2 + v t0 ^ 2) * Real.exp (-c * (t - t0)) + D ^ 2 / (2 * c) / c := by
      refine hdecay.trans (add_le_add (mul_le_mul_of_nonneg_right ?_ hexp.le) le_rfl)
      linarith
    have h4 : e t ^ 2 + v t ^ 2 ≤ (U * (e t0 ^ 2 + v t0 ^ 2) * Real.exp (-c * (t - t0)) + D ^ 2 / (2 * c) / c) / κ := by
      rw [le_div_iff₀ hκ0]; linarith
    refine h4.trans ?_
    have hX : 0 ≤ (e t0 ^ 2 + v t0 ^ 2) * Real.exp (-c * (t - t0)) := by positivity
    have e5 : (U * (e t0 ^ 2 + v t0 ^ 2) * Real.exp (-c * (t - t0)) + D ^ 2 / (2 * c) / c) / κ =
        U / κ * ((e t0 ^ 2 + v t0 ^ 2) * Real.exp (-c * (t - t0))) + 1 / (2 * c ^ 2 * κ) * D ^ 2 := by
      field_simp
    rw [e5]
    have : 0 ≤ U / κ * D ^ 2 := by positivity
    have : 0 ≤ 1 / (2 * c ^ 2 * κ) * ((e t0 ^ 2 + v t0 ^ 2) * Real.exp (-c * (t - t0))) := by positivity
    nlinarith
  · -- `V' ≤ −2c V + ½ c (v + kd/2 e)² + D²/(2c) ≤ −c V + D²/(2c)`
    have b1 := hbal (e s) (v s)
    have b2 : (v s + kd / 2 * e s) * d s ≤ c / 2 * (v s + kd / 2 * e s) ^ 2 + D ^ 2 / (2 * c) := by
      have hdd : d s ^ 2 ≤ D ^ 2 := by
        have := hD s hs
        exact sq_le_sq' (by linarith [abs_le.mp this |>.1]) (abs_le.mp this).2
      have : (v s + kd / 2 * e s) * d s ≤ c / 2 * (v s + kd / 2 * e s) ^ 2 + d s ^ 2 / (2 * c) := by
        have e' : c / 2 * (v s + kd / 2 * e s) ^ 2 + d s ^ 2 / (2 * c) - (v s + kd / 2 * e s) * d s =
            (c * (v s + kd / 2 * e s) - d s) ^ 2 / (2 * c) := by field_simp; ring
        have : 0 ≤ (c * (v s + kd / 2 * e s) - d s) ^ 2 / (2 * c) := by positivity
        linarith
      have h2 : d s ^ 2 / (2 * c) ≤ D ^ 2 / (2 * c) := div_le_div_of_nonneg_right hdd (by positivity)
      linarith
    have b3 : 1 / 2 * (v s + kd / 2 * e s) ^ 2 ≤ V s := by
      simp only [hV]
      nlinarith [mul_nonneg hp.le (sq_nonneg (e s)), mul_nonneg (sq_nonneg kd) (sq_nonneg (e s))]
    have b4 : 2 * c * V s ≤ kd / 2 * (v s ^ 2 + kp * e s ^ 2) := by
      have : 2 * c * V s ≤ 2 * c * (M * (v s ^ 2 + kp * e s ^ 2)) := mul_le_mul_of_nonneg_left b1 (by positivity)
      refine this.trans (le_of_eq ?_)
      rw [hc]; field_simp; ring
    have b5 : c / 2 * (v s + kd / 2 * e s) ^ 2 ≤ c * V s := by nlinarith
    linarith

end Verif
