import Verif.Model.Spline
import Mathlib.Analysis.Calculus.Deriv.Pow
import Mathlib.Analysis.Calculus.Deriv.Add
import Mathlib.Analysis.Calculus.Deriv.Mul
import Mathlib.LinearAlgebra.Matrix.NonsingularInverse
import Mathlib.LinearAlgebra.Matrix.Determinant.Basic
import Mathlib.Tactic.FieldSimp
import Mathlib.Tactic.Ring
import Mathlib.Tactic.Linarith
import Mathlib.Tactic.FinCases
import Mathlib.Tactic.LinearCombination

set_option linter.unusedSectionVars false

namespace Verif
open Matrix Verif.Model

theorem quinticMat_det (T : ℝ) : (quinticMat T).det = 2 * T ^ 9 := by
  rw [det_fin_three]; simp [quinticMat]; ring

/-- the three end conditions the coefficients satisfy -/
theorem quintic_coeff {T : ℝ} (hT : T ≠ 0) (b : Fin 3 → ℝ) :
    quinticMat T *ᵥ ((quinticMat T)⁻¹ *ᵥ b) = b := by
  have hu : IsUnit (quinticMat T).det := by
    rw [quinticMat_det]; exact isUnit_iff_ne_zero.mpr (mul_ne_zero two_ne_zero (pow_ne_zero _ hT))
  rw [mulVec_mulVec, mul_nonsing_inv _ hu, one_mulVec]

theorem quinticEval_end {T : ℝ} (hT : T ≠ 0) (x0 v0 a0 xf vf af : ℝ) :
    quinticEval x0 v0 a0 ((quinticMat T)⁻¹ *ᵥ quinticRhs T x0 v0 a0 xf vf af) T = ![xf, vf, af] := by
  have h := quintic_coeff hT (quinticRhs T x0 v0 a0 xf vf af)
  generalize ((quinticMat T)⁻¹ *ᵥ quinticRhs T x0 v0 a0 xf vf af) = r at h
  have h0 := congrFun h 0
  have h1 := congrFun h 1
  have h2 := congrFun h 2
  simp [quinticMat, quinticRhs, mulVec, dotProduct, Fin.sum_univ_three] at h0 h1 h2
  ext i
  fin_cases i
  · simp [quinticEval]; linear_combination h0
  · simp [quinticEval]; linear_combination h1
  · simp [quinticEval]; linear_combination h2

theorem quinticEval_start (x0 v0 a0 : ℝ) (r : Fin 3 → ℝ) : quinticEval x0 v0 a0 r 0 = ![x0, v0, a0] := by
  ext i; fin_cases i <;> simp [quinticEval]; ring

theorem quinticEval_deriv_pos (x0 v0 a0 : ℝ) (r : Fin 3 → ℝ) (e : ℝ) :
    HasDerivAt (fun e => quinticEval x0 v0 a0 r e 0) (quinticEval x0 v0 a0 r e 1) e := by
  simp only [quinticEval, cons_val_zero, cons_val_one]
  have h := fun n => hasDerivAt_pow n e
  have := (((((hasDerivAt_const e x0).add ((h 1).const_mul v0)).add ((h 2).const_mul (a0 / 2))).add
    ((h 3).const_mul (r 0))).add ((h 4).const_mul (r 1))).add ((h 5).const_mul (r 2))
  refine this.congr_deriv ?_
  norm_num; ring

theorem quinticEval_deriv_vel (x0 v0 a0 : ℝ) (r : Fin 3 → ℝ) (e : ℝ) :
    HasDerivAt (fun e => quinticEval x0 v0 a0 r e 1) (quinticEval x0 v0 a0 r e 2) e := by
  simp only [quinticEval, cons_val_one]
  have h := fun n => hasDerivAt_pow n e
  have := ((((hasDerivAt_const e v0).add ((h 1).const_mul (2 * (a0 / 2)))).add ((h 2).const_mul (3 * r 0))).add
    ((h 3).const_mul (4 * r 1))).add ((h 4).const_mul (5 * r 2))
  refine this.congr_deriv ?_
  simp; ring

theorem quinticEval_cont (x0 v0 a0 : ℝ) (r : Fin 3 → ℝ) (t0 : ℝ) :
    Continuous (fun t => quinticEval x0 v0 a0 r (t - t0)) := by
  unfold quinticEval
  refine continuous_pi fun i => ?_
  fin_cases i
  · simp; fun_prop
  · simp; fun_prop
  · simp; fun_prop

/-- The spline away from the degenerate interval. -/
theorem quinticSpline_eq {t0 tf : ℝ} (h : t0 < tf) (time x0 v0 a0 xf vf af : ℝ) :
    quinticSpline time t0 tf x0 v0 a0 xf vf af = some (
      if time < t0 then ![x0, v0, a0] else if time > tf then ![xf, vf, af]
      else quinticEval x0 v0 a0 ((quinticMat (tf - t0))⁻¹ *ᵥ quinticRhs (tf - t0) x0 v0 a0 xf vf af) (time - t0)) := by
  have hu : IsUnit (quinticMat (tf - t0)).det := by
    rw [quinticMat_det]; exact isUnit_iff_ne_zero.mpr (mul_ne_zero two_ne_zero (pow_ne_zero _ (sub_pos.mpr h).ne'))
  unfold quinticSpline
  rw [eigenInverse_eq_some.mpr ⟨hu, rfl⟩]
  split_ifs <;> rfl

theorem cubicEval_deriv (e T x0 xf v0 vf : ℝ) :
    HasDerivAt (fun e => cubicEval e T x0 xf v0 vf)
      (v0 + 2 * (3 * (xf - x0) / (T * T) - 2 * v0 / T - vf / T) * e
        + 3 * (-2 * (xf - x0) / (T * T * T) + (v0 + vf) / (T * T)) * e ^ 2) e := by
  have h := fun n => hasDerivAt_pow n e
  have := (((hasDerivAt_const e x0).add ((h 1).const_mul v0)).add
    ((h 2).const_mul (3 * (xf - x0) / (T * T) - 2 * v0 / T - vf / T))).add
    ((h 3).const_mul (-2 * (xf - x0) / (T * T * T) + (v0 + vf) / (T * T)))
  refine HasDerivAt.congr_of_eventuallyEq (f := fun e => _) (this.congr_deriv ?_) ?_
  · norm_num; ring
  · refine Filter.Eventually.of_forall fun y => ?_
    simp only [cubicEval, Pi.add_apply, pow_one]; ring

theorem cubicEval_zero (T x0 xf v0 vf : ℝ) : cubicEval 0 T x0 xf v0 vf = x0 := by simp [cubicEval]

theorem cubicEval_end {T : ℝ} (hT : T ≠ 0) (x0 xf v0 vf : ℝ) : cubicEval T T x0 xf v0 vf = xf := by
  unfold cubicEval; field_simp; ring

theorem cubicEval_rest {T : ℝ} (hT : T ≠ 0) (e x0 xf : ℝ) :
    cubicEval e T x0 xf 0 0 = x0 + (xf - x0) * ((e / T) ^ 2 * (3 - 2 * (e / T))) := by
  unfold cubicEval; field_simp; ring

theorem cubic_eq {t0 tf : ℝ} (h : t0 < tf) (time x0 xf v0 vf : ℝ) :
    cubic time t0 tf x0 xf v0 vf = some (if time < t0 then x0 else if time > tf then xf
      else cubicEval (time - t0) (tf - t0) x0 xf v0 vf) := by
  unfold cubic
  rw [if_neg (sub_pos.mpr h).ne' (α := Option ℝ)]
  split_ifs <;> rfl

/-- the blend of `cubic` at rest is monotone -/
theorem blend_mono {a b : ℝ} (ha : 0 ≤ a) (hab : a ≤ b) (hb : b ≤ 1) :
    a ^ 2 * (3 - 2 * a) ≤ b ^ 2 * (3 - 2 * b) := by
  have h1 : 0 ≤ (b - a) * (3 * (a + b) - 2 * (a ^ 2 + a * b + b ^ 2)) := by
    apply mul_nonneg (by linarith)
    nlinarith [mul_nonneg ha (sub_nonneg.mpr hb), mul_nonneg ha (sub_nonneg.mpr (hab.trans hb)),
      mul_nonneg (ha.trans hab) (sub_nonneg.mpr hb), mul_nonneg (ha.trans hab) (sub_nonneg.mpr (hab.trans hb))]
  nlinarith

end Verif
