import Verif.Model.Rotation
import Verif.Spec.Rotation
import Verif.Lemmas.Spline
import Mathlib.LinearAlgebra.Matrix.Adjugate
import Mathlib.Analysis.SpecialFunctions.Trigonometric.Basic

set_option linter.unusedSectionVars false

namespace Verif
open Matrix Verif.Model Verif.Spec

theorem IsRot.orth' {R : Mat3} (h : IsRot R) : R * Rᵀ = 1 := mul_eq_one_comm.mp h.orth

theorem IsRot.one : IsRot (1 : Mat3) := ⟨by simp, by simp⟩

theorem IsRot.mul {R S : Mat3} (h : IsRot R) (k : IsRot S) : IsRot (R * S) :=
  ⟨by rw [transpose_mul, Matrix.mul_assoc, ← Matrix.mul_assoc Rᵀ, h.orth, one_mul, k.orth], by
    rw [det_mul, h.det, k.det, one_mul]⟩

theorem IsRot.transpose {R : Mat3} (h : IsRot R) : IsRot Rᵀ :=
  ⟨by rw [transpose_transpose, IsRot.orth' h], by rw [det_transpose, h.det]⟩

theorem IsRot.adj {M : Mat3} (h : IsRot M) : M.adjugate = Mᵀ := by
  have : M.adjugate = Mᵀ * M * M.adjugate := by rw [h.orth, one_mul]
  rw [this, Matrix.mul_assoc, mul_adjugate, h.det, one_smul, mul_one]

/-- The equations of a rotation matrix, entry by entry. -/
structure RotEqs (a b c d e f g k i : ℝ) : Prop where
  c1 : a * a + d * d + g * g = 1
  c2 : b * b + e * e + k * k = 1
  c3 : c * c + f * f + i * i = 1
  c12 : a * b + d * e + g * k = 0
  c13 : a * c + d * f + g * i = 0
  c23 : b * c + e * f + k * i = 0
  r1 : a * a + b * b + c * c = 1
  r2 : d * d + e * e + f * f = 1
  r3 : g * g + k * k + i * i = 1
  r12 : a * d + b * e + c * f = 0
  r13 : a * g + b * k + c * i = 0
  r23 : d * g + e * k + f * i = 0
  k00 : e * i - f * k = a
  k01 : f * g - d * i = b
  k02 : d * k - e * g = c
  k10 : c * k - b * i = d
  k11 : a * i - c * g = e
  k12 : b * g - a * k = f
  k20 : b * f - c * e = g
  k21 : c * d - a * f = k
  k22 : a * e - b * d = i

theorem IsRot.eqs {M : Mat3} (h : IsRot M) :
    RotEqs (M 0 0) (M 0 1) (M 0 2) (M 1 0) (M 1 1) (M 1 2) (M 2 0) (M 2 1) (M 2 2) := by
  have hc := IsRot.adj h
  have ho := h.orth
  have ho' := IsRot.orth' h
  rw [← Matrix.ext_iff] at hc ho ho'
  simp [Fin.forall_fin_succ, Matrix.mul_apply, Fin.sum_univ_three, Matrix.adjugate_fin_three] at hc ho ho'
  constructor <;> grind

/-- A quaternion with the right products gives back the matrix. -/
theorem quat_of_products {M : Mat3} {q : Quat}
    (ww : q.w * q.w = (1 + M 0 0 + M 1 1 + M 2 2) / 4) (xx : q.x * q.x = (1 + M 0 0 - M 1 1 - M 2 2) / 4)
    (yy : q.y * q.y = (1 + M 1 1 - M 0 0 - M 2 2) / 4) (zz : q.z * q.z = (1 + M 2 2 - M 0 0 - M 1 1) / 4)
    (wx : q.w * q.x = (M 2 1 - M 1 2) / 4) (wy : q.w * q.y = (M 0 2 - M 2 0) / 4)
    (wz : q.w * q.z = (M 1 0 - M 0 1) / 4) (xy : q.x * q.y = (M 0 1 + M 1 0) / 4)
    (xz : q.x * q.z = (M 0 2 + M 2 0) / 4) (yz : q.y * q.z = (M 1 2 + M 2 1) / 4) :
    q.w ^ 2 + q.x ^ 2 + q.y ^ 2 + q.z ^ 2 = 1 ∧ quatMat q = M := by
  constructor
  · linear_combination ww + xx + yy + zz
  · ext i j
    fin_cases i <;> fin_cases j <;> simp [quatMat]
    · linear_combination -2 * yy - 2 * zz
    · linear_combination 2 * xy - 2 * wz
    · linear_combination 2 * xz + 2 * wy
    · linear_combination 2 * xy + 2 * wz
    · linear_combination -2 * xx - 2 * zz
    · linear_combination 2 * yz - 2 * wx
    · linear_combination 2 * xz - 2 * wy
    · linear_combination 2 * yz + 2 * wx
    · linear_combination -2 * xx - 2 * yy

theorem half_mul {Q t : ℝ} (hQ : 0 < Q) (ht : t = √Q) (P : ℝ) : (1 / 2 * t) * (P * (1 / 2 / t)) = P / 4 := by
  have : t ≠ 0 := by rw [ht]; exact (Real.sqrt_pos.mpr hQ).ne'
  field_simp; ring

theorem half_sq {Q t : ℝ} (hQ : 0 < Q) (ht : t = √Q) : (1 / 2 * t) * (1 / 2 * t) = Q / 4 := by
  have : t * t = Q := by rw [ht]; exact Real.mul_self_sqrt hQ.le
  linear_combination this / 4

theorem part_mul {Q t P P' R : ℝ} (hQ : 0 < Q) (ht : t = √Q) (h : P * P' = Q * R) :
    (P * (1 / 2 / t)) * (P' * (1 / 2 / t)) = R / 4 := by
  have h0 : t ≠ 0 := by rw [ht]; exact (Real.sqrt_pos.mpr hQ).ne'
  have : t * t = Q := by rw [ht]; exact Real.mul_self_sqrt hQ.le
  field_simp
  rw [← this] at h
  linear_combination 4 * h

/-- Eigen's quaternion of a rotation matrix is a unit quaternion of that rotation. -/
theorem quatOfMat_spec {M : Mat3} (h : IsRot M) :
    (quatOfMat M).w ^ 2 + (quatOfMat M).x ^ 2 + (quatOfMat M).y ^ 2 + (quatOfMat M).z ^ 2 = 1 ∧
      quatMat (quatOfMat M) = M := by
  have E := IsRot.eqs h
  have hW : 0 < M 0 0 + M 1 1 + M 2 2 → quatOfMat M = _ := fun hw => if_pos hw
  have caseW : ∀ q : Quat, ∀ t, t = √(M 0 0 + M 1 1 + M 2 2 + 1) → 0 < M 0 0 + M 1 1 + M 2 2 + 1 →
      q = ⟨1 / 2 * t, (M 2 1 - M 1 2) * (1 / 2 / t), (M 0 2 - M 2 0) * (1 / 2 / t), (M 1 0 - M 0 1) * (1 / 2 / t)⟩ →
      q.w ^ 2 + q.x ^ 2 + q.y ^ 2 + q.z ^ 2 = 1 ∧ quatMat q = M := by
    intro q t ht hQ hq
    rw [hq]
    refine quat_of_products ?_ ?_ ?_ ?_ ?_ ?_ ?_ ?_ ?_ ?_
    · simp only; rw [half_sq hQ ht]; ring
    · exact part_mul hQ ht (by obtain ⟨⟩ := E; grind)
    · exact part_mul hQ ht (by obtain ⟨⟩ := E; grind)
    · exact part_mul hQ ht (by obtain ⟨⟩ := E; grind)
    · exact half_mul hQ ht _
    · exact half_mul hQ ht _
    · exact half_mul hQ ht _
    · exact part_mul hQ ht (by obtain ⟨⟩ := E; grind)
    · exact part_mul hQ ht (by obtain ⟨⟩ := E; grind)
    · exact part_mul hQ ht (by obtain ⟨⟩ := E; grind)
  have caseX : ∀ q : Quat, ∀ t, t = √(M 0 0 - M 1 1 - M 2 2 + 1) → 0 < M 0 0 - M 1 1 - M 2 2 + 1 →
      q = ⟨(M 2 1 - M 1 2) * (1 / 2 / t), 1 / 2 * t, (M 1 0 + M 0 1) * (1 / 2 / t), (M 2 0 + M 0 2) * (1 / 2 / t)⟩ →
      q.w ^ 2 + q.x ^ 2 + q.y ^ 2 + q.z ^ 2 = 1 ∧ quatMat q = M := by
    intro q t ht hQ hq
    rw [hq]
    refine quat_of_products ?_ ?_ ?_ ?_ ?_ ?_ ?_ ?_ ?_ ?_
    · exact part_mul hQ ht (by obtain ⟨⟩ := E; grind)
    · simp only; rw [half_sq hQ ht]; ring
    · exact part_mul hQ ht (by obtain ⟨⟩ := E; grind)
    · exact part_mul hQ ht (by obtain ⟨⟩ := E; grind)
    · simp only; rw [mul_comm, half_mul hQ ht]
    · exact part_mul hQ ht (by obtain ⟨⟩ := E; grind)
    · exact part_mul hQ ht (by obtain ⟨⟩ := E; grind)
    · simp only; rw [half_mul hQ ht, add_comm]
    · simp only; rw [half_mul hQ ht, add_comm]
    · exact part_mul hQ ht (by obtain ⟨⟩ := E; grind)
  have caseY : ∀ q : Quat, ∀ t, t = √(M 1 1 - M 2 2 - M 0 0 + 1) → 0 < M 1 1 - M 2 2 - M 0 0 + 1 →
      q = ⟨(M 0 2 - M 2 0) * (1 / 2 / t), (M 0 1 + M 1 0) * (1 / 2 / t), 1 / 2 * t, (M 2 1 + M 1 2) * (1 / 2 / t)⟩ →
      q.w ^ 2 + q.x ^ 2 + q.y ^ 2 + q.z ^ 2 = 1 ∧ quatMat q = M := by
    intro q t ht hQ hq
    rw [hq]
    refine quat_of_products ?_ ?_ ?_ ?_ ?_ ?_ ?_ ?_ ?_ ?_
    · exact part_mul hQ ht (by obtain ⟨⟩ := E; grind)
    · exact part_mul hQ ht (by obtain ⟨⟩ := E; grind)
    · simp only; rw [half_sq hQ ht]; ring
    · exact part_mul hQ ht (by obtain ⟨⟩ := E; grind)
    · exact part_mul hQ ht (by obtain ⟨⟩ := E; grind)
    · simp only; rw [mul_comm, half_mul hQ ht]
    · exact part_mul hQ ht (by obtain ⟨⟩ := E; grind)
    · simp only; rw [mul_comm, half_mul hQ ht]
    · exact part_mul hQ ht (by obtain ⟨⟩ := E; grind)
    · simp only; rw [half_mul hQ ht, add_comm]
  have caseZ : ∀ q : Quat, ∀ t, t = √(M 2 2 - M 0 0 - M 1 1 + 1) → 0 < M 2 2 - M 0 0 - M 1 1 + 1 →
      q = ⟨(M 1 0 - M 0 1) * (1 / 2 / t), (M 0 2 + M 2 0) * (1 / 2 / t), (M 1 2 + M 2 1) * (1 / 2 / t), 1 / 2 * t⟩ →
      q.w ^ 2 + q.x ^ 2 + q.y ^ 2 + q.z ^ 2 = 1 ∧ quatMat q = M := by
    intro q t ht hQ hq
    rw [hq]
    refine quat_of_products ?_ ?_ ?_ ?_ ?_ ?_ ?_ ?_ ?_ ?_
    · exact part_mul hQ ht (by obtain ⟨⟩ := E; grind)
    · exact part_mul hQ ht (by obtain ⟨⟩ := E; grind)
    · exact part_mul hQ ht (by obtain ⟨⟩ := E; grind)
    · simp only; rw [half_sq hQ ht]; ring
    · exact part_mul hQ ht (by obtain ⟨⟩ := E; grind)
    · exact part_mul hQ ht (by obtain ⟨⟩ := E; grind)
    · simp only; rw [mul_comm, half_mul hQ ht]
    · exact part_mul hQ ht (by obtain ⟨⟩ := E; grind)
    · simp only; rw [mul_comm, half_mul hQ ht]
    · simp only; rw [mul_comm, half_mul hQ ht]
  clear hW
  by_cases hw : 0 < M 0 0 + M 1 1 + M 2 2
  · exact caseW _ _ rfl (by linarith) (by unfold quatOfMat; simp only; rw [if_pos hw])
  · by_cases h1 : M 1 1 > M 0 0
    · by_cases h2 : M 2 2 > M 1 1
      · exact caseZ _ _ rfl (by linarith) (by unfold quatOfMat; simp only; rw [if_neg hw, if_pos h1, if_pos h2])
      · exact caseY _ _ rfl (by linarith) (by unfold quatOfMat; simp only; rw [if_neg hw, if_pos h1, if_neg h2])
    · by_cases h2 : M 2 2 > M 0 0
      · exact caseZ _ _ rfl (by linarith) (by unfold quatOfMat; simp only; rw [if_neg hw, if_neg h1, if_pos h2])
      · exact caseX _ _ rfl (by linarith) (by unfold quatOfMat; simp only; rw [if_neg hw, if_neg h1, if_neg h2])

/-- `a` is a unit vector. -/
theorem unit_iff (a : Vec3) : a ⬝ᵥ a = 1 ↔ a 0 * a 0 + a 1 * a 1 + a 2 * a 2 = 1 := by
  simp [dotProduct, Fin.sum_univ_three]

theorem angleAxisMat_about (x : ℝ) (a : Vec3) :
    RotatesAbout (angleAxisMat x a) a (Real.cos x) (Real.sin x) := by
  intro v
  ext i
  fin_cases i <;>
    simp [angleAxisMat, mulVec, dotProduct, Fin.sum_univ_three, cross_apply, vecHead, vecTail] <;> ring

theorem angleAxisMat_rot (x : ℝ) {a : Vec3} (ha : a ⬝ᵥ a = 1) : IsRot (angleAxisMat x a) := by
  rw [unit_iff] at ha
  have hs := Real.sin_sq_add_cos_sq x
  constructor
  · ext i j
    fin_cases i <;> fin_cases j <;>
      simp [angleAxisMat, Matrix.mul_apply, Fin.sum_univ_three] <;> grind
  · rw [det_fin_three]
    simp [angleAxisMat]
    grind

theorem angleAxisMat_zero (a : Vec3) : angleAxisMat 0 a = 1 := by
  ext i j
  fin_cases i <;> fin_cases j <;> simp [angleAxisMat]

theorem angleAxisMat_cont (a : Vec3) : Continuous fun x => angleAxisMat x a := by
  refine continuous_matrix fun i j => ?_
  fin_cases i <;> fin_cases j <;> simp [angleAxisMat] <;> fun_prop

/-- Eigen's angle-axis of a unit quaternion: unit axis, angle in `[0, π]`, same rotation. -/
theorem angleAxisOfQuat_spec {q : Quat} (h : q.w ^ 2 + q.x ^ 2 + q.y ^ 2 + q.z ^ 2 = 1) :
    (angleAxisOfQuat q).2 ⬝ᵥ (angleAxisOfQuat q).2 = 1 ∧ 0 ≤ (angleAxisOfQuat q).1 ∧
      (angleAxisOfQuat q).1 ≤ Real.pi ∧ angleAxisMat (angleAxisOfQuat q).1 (angleAxisOfQuat q).2 = quatMat q := by
  unfold angleAxisOfQuat
  simp only
  have hnn : (0 : ℝ) ≤ q.x ^ 2 + q.y ^ 2 + q.z ^ 2 := by positivity
  have hn2 : √(q.x ^ 2 + q.y ^ 2 + q.z ^ 2) ^ 2 = q.x ^ 2 + q.y ^ 2 + q.z ^ 2 := Real.sq_sqrt hnn
  have hn0 : 0 ≤ √(q.x ^ 2 + q.y ^ 2 + q.z ^ 2) := Real.sqrt_nonneg _
  generalize hn : √(q.x ^ 2 + q.y ^ 2 + q.z ^ 2) = n at hn2 hn0 ⊢
  by_cases hz : n = 0
  · rw [if_neg (not_not.mpr hz)]
    simp only
    rw [hz] at hn2
    have hx : q.x = 0 := by nlinarith [sq_nonneg q.x, sq_nonneg q.y, sq_nonneg q.z]
    have hy : q.y = 0 := by nlinarith [sq_nonneg q.x, sq_nonneg q.y, sq_nonneg q.z]
    have hzz : q.z = 0 := by nlinarith [sq_nonneg q.x, sq_nonneg q.y, sq_nonneg q.z]
    refine ⟨by simp [dotProduct, Fin.sum_univ_three], le_rfl, Real.pi_pos.le, ?_⟩
    rw [angleAxisMat_zero]
    ext i j
    fin_cases i <;> fin_cases j <;> simp [quatMat, hx, hy, hzz]
  · rw [if_pos hz]
    simp only
    set z : ℂ := ⟨|q.w|, n⟩ with hzdef
    have hnorm : ‖z‖ = 1 := by
      rw [Complex.norm_eq_sqrt_sq_add_sq]
      have : z.re ^ 2 + z.im ^ 2 = 1 := by simp only [hzdef, sq_abs]; rw [hn2]; linarith
      rw [this, Real.sqrt_one]
    have hz0 : z ≠ 0 := by intro e; rw [e, norm_zero] at hnorm; norm_num at hnorm
    have hc : Real.cos z.arg = |q.w| := by rw [Complex.cos_arg hz0, hnorm, div_one]
    have hs : Real.sin z.arg = n := by rw [Complex.sin_arg, hnorm, div_one]
    have ha0 : 0 ≤ z.arg := Complex.arg_nonneg_iff.mpr hn0
    have ha1 : z.arg ≤ Real.pi / 2 := (Complex.abs_arg_le_pi_div_two_iff.mpr (abs_nonneg q.w)) |> fun h => (le_abs_self _).trans h
    have hc2 : Real.cos (2 * z.arg) = 2 * q.w ^ 2 - 1 := by rw [Real.cos_two_mul, hc, sq_abs]
    have hs2 : Real.sin (2 * z.arg) = 2 * n * |q.w| := by rw [Real.sin_two_mul, hc, hs]
    have key : ∀ n' : ℝ, n' ^ 2 = n ^ 2 → n * |q.w| = n' * q.w → n' ≠ 0 →
        (![q.x / n', q.y / n', q.z / n'] : Vec3) ⬝ᵥ ![q.x / n', q.y / n', q.z / n'] = 1 ∧
        angleAxisMat (2 * z.arg) ![q.x / n', q.y / n', q.z / n'] = quatMat q := by
      intro n' h1 h2 h3
      have e1 : (1 - (2 * q.w ^ 2 - 1)) = 2 * n' ^ 2 := by rw [h1, hn2]; linarith
      constructor
      · simp [dotProduct, Fin.sum_univ_three]
        field_simp
        rw [h1, hn2]
      · have hx : q.x = n' * (q.x / n') := by field_simp
        have hy : q.y = n' * (q.y / n') := by field_simp
        have hz : q.z = n' * (q.z / n') := by field_simp
        have h2' : 2 * n * |q.w| = 2 * n' * q.w := by linear_combination 2 * h2
        clear_value z
        generalize q.x / n' = X at hx ⊢
        generalize q.y / n' = Y at hy ⊢
        generalize q.z / n' = Z at hz ⊢
        have hr : n' ^ 2 = q.x ^ 2 + q.y ^ 2 + q.z ^ 2 := h1.trans hn2
        rw [hx, hy, hz] at hr
        ext i j
        fin_cases i <;> fin_cases j <;> simp [angleAxisMat, quatMat, hc2, hs2, h2'] <;> rw [e1] <;>
          simp only [hx, hy, hz] <;> clear hx hy hz hc2 hs2 h2' h2 hn hc hs ha0 ha1 hnorm hz0 hnn <;> grind
    split_ifs with hw
    · obtain ⟨k1, k2⟩ := key (-n) (by ring) (by rw [abs_of_neg hw]; ring) (neg_ne_zero.mpr hz)
      exact ⟨k1, by linarith, by linarith, k2⟩
    · obtain ⟨k1, k2⟩ := key n rfl (by rw [abs_of_nonneg (not_lt.mp hw)]) hz
      exact ⟨k1, by linarith, by linarith, k2⟩

theorem angleAxisOfMat_spec {M : Mat3} (h : IsRot M) :
    (angleAxisOfMat M).2 ⬝ᵥ (angleAxisOfMat M).2 = 1 ∧ 0 ≤ (angleAxisOfMat M).1 ∧
      (angleAxisOfMat M).1 ≤ Real.pi ∧ angleAxisMat (angleAxisOfMat M).1 (angleAxisOfMat M).2 = M := by
  obtain ⟨h1, h2⟩ := quatOfMat_spec h
  obtain ⟨k1, k2, k3, k4⟩ := angleAxisOfQuat_spec h1
  exact ⟨k1, k2, k3, k4.trans h2⟩

end Verif
