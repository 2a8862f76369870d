import Verif.Model.TaskPD
import Verif.Spec.TaskPD
import Verif.Lemmas.Rotation
import Mathlib.Analysis.SpecialFunctions.Trigonometric.Deriv
import Mathlib.Analysis.Calculus.Deriv.Mul
import Mathlib.Analysis.Calculus.Deriv.Add

set_option linter.unusedSectionVars false

namespace Verif
open Matrix Verif.Model Verif.Spec

/-- Squared length. -/
def quatNorm (q : Quat) : ℝ := q.w ^ 2 + q.x ^ 2 + q.y ^ 2 + q.z ^ 2

theorem quatNorm_mul (a b : Quat) : quatNorm (quatMul a b) = quatNorm a * quatNorm b := by
  simp only [quatNorm, quatMul]; ring

theorem quatInv_unit {a : Quat} (h : quatNorm a = 1) : quatInv a = ⟨a.w, -a.x, -a.y, -a.z⟩ := by
  unfold quatNorm at h
  unfold quatInv
  simp only [h]
  rw [if_pos one_pos]
  simp

theorem quatMat_mul {a b : Quat} (ha : quatNorm a = 1) (hb : quatNorm b = 1) :
    quatMat (quatMul a b) = quatMat a * quatMat b := by
  unfold quatNorm at ha hb
  ext i j
  fin_cases i <;> fin_cases j <;>
    simp [quatMat, quatMul, Matrix.mul_apply, Fin.sum_univ_three] <;> grind

theorem quatMat_conj (a : Quat) : quatMat ⟨a.w, -a.x, -a.y, -a.z⟩ = (quatMat a)ᵀ := by
  ext i j
  fin_cases i <;> fin_cases j <;> simp [quatMat] <;> ring

theorem quatMul_conj_mul {a b : Quat} (ha : quatNorm a = 1) :
    quatMul (quatMul b ⟨a.w, -a.x, -a.y, -a.z⟩) a = b := by
  unfold quatNorm at ha
  ext <;> simp only [quatMul] <;> grind

/-- The quaternion of a turn by `2 φ` about `a`. -/
noncomputable def quatAbout (φ : ℝ) (a : Vec3) : Quat :=
  ⟨Real.cos φ, Real.sin φ * a 0, Real.sin φ * a 1, Real.sin φ * a 2⟩

theorem quatAbout_norm {a : Vec3} (ha : a ⬝ᵥ a = 1) (φ : ℝ) : quatNorm (quatAbout φ a) = 1 := by
  rw [unit_iff] at ha
  have := Real.sin_sq_add_cos_sq φ
  simp only [quatNorm, quatAbout]
  linear_combination this + (Real.sin φ) ^ 2 * ha

theorem quatMat_about {a : Vec3} (ha : a ⬝ᵥ a = 1) (φ : ℝ) : quatMat (quatAbout φ a) = angleAxisMat (2 * φ) a := by
  rw [unit_iff] at ha
  have hs := Real.sin_sq_add_cos_sq φ
  have h1 := Real.cos_two_mul φ
  have h2 := Real.sin_two_mul φ
  ext i j
  fin_cases i <;> fin_cases j <;> simp [quatMat, quatAbout, angleAxisMat, h1, h2] <;> grind

theorem angleAxisOfQuat_about {q : Quat} (h : quatNorm q = 1) :
    (angleAxisOfQuat q).1 = 2 * Real.arccos |q.w| ∧
      quatAbout (Real.arccos |q.w|) (angleAxisOfQuat q).2 = (open Classical in if q.w < 0 then quatLin (-1) q 0 q else q) := by
  unfold quatNorm at h
  have hn2 : √(q.x ^ 2 + q.y ^ 2 + q.z ^ 2) ^ 2 = q.x ^ 2 + q.y ^ 2 + q.z ^ 2 := Real.sq_sqrt (by positivity)
  have hn0 : 0 ≤ √(q.x ^ 2 + q.y ^ 2 + q.z ^ 2) := Real.sqrt_nonneg _
  unfold angleAxisOfQuat
  simp only
  generalize hn : √(q.x ^ 2 + q.y ^ 2 + q.z ^ 2) = n at hn2 hn0 ⊢
  have hw : |q.w| ≤ 1 := abs_le_one_iff_mul_self_le_one.mpr (by nlinarith [sq_nonneg q.x, sq_nonneg q.y, sq_nonneg q.z])
  have hcos : Real.cos (Real.arccos |q.w|) = |q.w| :=
    Real.cos_arccos (by linarith [abs_nonneg q.w]) hw
  have hsin : Real.sin (Real.arccos |q.w|) = n := by
    rw [Real.sin_arccos, sq_abs, ← hn]
    congr 1
    linarith
  by_cases hz : n = 0
  · rw [if_neg (not_not.mpr hz)]
    rw [hz] at hn2
    have hx : q.x = 0 := by nlinarith [sq_nonneg q.x, sq_nonneg q.y, sq_nonneg q.z]
    have hy : q.y = 0 := by nlinarith [sq_nonneg q.x, sq_nonneg q.y, sq_nonneg q.z]
    have hzz : q.z = 0 := by nlinarith [sq_nonneg q.x, sq_nonneg q.y, sq_nonneg q.z]
    have h1 : |q.w| = 1 := by
      rw [← abs_one (α := ℝ)]
      exact sq_eq_sq_iff_abs_eq_abs _ _ |>.mp (by rw [hx, hy, hzz] at h; linarith)
    refine ⟨by rw [h1, Real.arccos_one]; simp, ?_⟩
    unfold quatAbout
    rw [hcos, hsin, hz]
    split_ifs with hs
    · ext <;> simp [quatLin, hx, hy, hzz, abs_of_neg hs]
    · ext <;> simp [hx, hy, hzz, abs_of_nonneg (not_lt.mp hs)]
  · rw [if_pos hz]
    constructor
    · set z : ℂ := ⟨|q.w|, n⟩ with hzdef
      have hnorm : ‖z‖ = 1 := by
        rw [Complex.norm_eq_sqrt_sq_add_sq]
        have : z.re ^ 2 + z.im ^ 2 = 1 := by simp only [hzdef, sq_abs]; rw [hn2]; linarith
        rw [this, Real.sqrt_one]
      have hz0 : z ≠ 0 := by intro e; rw [e, norm_zero] at hnorm; norm_num at hnorm
      have hc : Real.cos z.arg = |q.w| := by rw [Complex.cos_arg hz0, hnorm, div_one]
      rw [← hc, Real.arccos_cos (Complex.arg_nonneg_iff.mpr hn0) (Complex.arg_le_pi z)]
    · unfold quatAbout
      rw [hcos, hsin]
      split_ifs with hs
      · ext <;> simp [quatLin, abs_of_neg hs] <;> field_simp
      · ext <;> simp [abs_of_nonneg (not_lt.mp hs)] <;> field_simp

theorem quatDot_eq (a b : Quat) : quatDot a b = (quatMul b ⟨a.w, -a.x, -a.y, -a.z⟩).w := by
  simp only [quatDot, quatMul]; ring

/-- `slerp` from `a` to `b` turns about the axis of `b a⁻¹`. -/
theorem slerp_about {a b : Quat} (ha : quatNorm a = 1) (hb : quatNorm b = 1) (hd : |quatDot a b| < slerpOne) (t : ℝ) :
    slerp a t b = quatMul (quatAbout (t * Real.arccos |quatDot a b|) (angleAxisOfQuat (quatMul b (quatInv a))).2) a := by
  rw [quatInv_unit ha]
  have hc : quatNorm ⟨a.w, -a.x, -a.y, -a.z⟩ = 1 := by unfold quatNorm at ha ⊢; linarith
  have hp : quatNorm (quatMul b ⟨a.w, -a.x, -a.y, -a.z⟩) = 1 := by rw [quatNorm_mul, hb, hc, one_mul]
  obtain ⟨-, h2⟩ := angleAxisOfQuat_about hp
  have hba := quatMul_conj_mul (b := b) ha
  rw [← quatDot_eq] at h2
  have hd1 : |quatDot a b| < 1 := hd.trans (by norm_num [slerpOne])
  have hs0 : Real.sin (Real.arccos |quatDot a b|) ≠ 0 := by
    rw [Real.sin_arccos]
    refine (Real.sqrt_pos.mpr ?_).ne'
    nlinarith [abs_nonneg (quatDot a b)]
  have hcos : Real.cos (Real.arccos |quatDot a b|) = |quatDot a b| :=
    Real.cos_arccos (by linarith [abs_nonneg (quatDot a b)]) hd1.le
  unfold slerp
  simp only [if_neg (not_le.mpr hd)]
  rw [show (1 - t) * Real.arccos |quatDot a b| = Real.arccos |quatDot a b| - t * Real.arccos |quatDot a b| by ring,
    Real.sin_sub]
  generalize quatMul b ⟨a.w, -a.x, -a.y, -a.z⟩ = p at *
  generalize (angleAxisOfQuat p).2 = ax at *
  generalize Real.arccos |quatDot a b| = θ at *
  clear hd hd1 hcos hc hp
  have hb' : b = quatLin (if quatDot a b < 0 then -1 else 1) (quatMul (quatAbout θ ax) a) 0 a := by
    rw [h2, ← hba]
    split_ifs <;> ext <;> simp [quatLin, quatMul] <;> ring
  generalize quatDot a b = d at *
  clear h2 hba
  rw [hb']
  by_cases hneg : d < 0
  · simp only [if_pos hneg]
    ext <;> simp only [quatLin, quatMul, quatAbout] <;> field_simp <;> ring
  · simp only [if_neg hneg]
    ext <;> simp only [quatLin, quatMul, quatAbout] <;> field_simp <;> ring

/-- `slerp` starts at `a`. -/
theorem slerp_start {a b : Quat} : slerp a 0 b = a := by
  unfold slerp
  by_cases h : slerpOne ≤ |quatDot a b|
  · simp only [if_pos h]
    split_ifs <;> ext <;> simp [quatLin]
  · have hd1 : |quatDot a b| < 1 := (not_le.mp h).trans (by norm_num [slerpOne])
    have hs0 : Real.sin (Real.arccos |quatDot a b|) ≠ 0 := by
      rw [Real.sin_arccos]
      refine (Real.sqrt_pos.mpr ?_).ne'
      nlinarith [abs_nonneg (quatDot a b)]
    simp only [if_neg h, sub_zero, one_mul, zero_mul, Real.sin_zero, zero_div, neg_zero, ite_self, div_self hs0]
    ext <;> simp [quatLin]

/-- `slerp` ends at `b` or `-b`. -/
theorem slerp_end {a b : Quat} : quatMat (slerp a 1 b) = quatMat b := by
  have key : slerp a 1 b = quatLin 0 a (if quatDot a b < 0 then -1 else 1) b := by
    unfold slerp
    by_cases h : slerpOne ≤ |quatDot a b|
    · simp only [if_pos h, sub_self]
    · have hd1 : |quatDot a b| < 1 := (not_le.mp h).trans (by norm_num [slerpOne])
      have hs0 : Real.sin (Real.arccos |quatDot a b|) ≠ 0 := by
        rw [Real.sin_arccos]
        refine (Real.sqrt_pos.mpr ?_).ne'
        nlinarith [abs_nonneg (quatDot a b)]
      simp only [if_neg h, sub_self, one_mul, zero_mul, Real.sin_zero, zero_div, div_self hs0]
  rw [key]
  split_ifs <;> simp [quatLin, quatMat]

/-- The interpolated orientation turns about one axis from `R0` to `Rf`.  (Between `slerpOne` and 1 Eigen interpolates
coefficients linearly and the result is a rotation only approximately.) -/
theorem rotReference {R0 Rf : Mat3} (h0 : IsRot R0) (hf : IsRot Rf)
    (hd : Rf = R0 ∨ (1 + (Rf * R0ᵀ).trace) / 4 < slerpOne ^ 2) :
    ∃ (θ : ℝ) (a : Vec3), angleAxisOfQuat (quatMul (quatOfMat Rf) (quatInv (quatOfMat R0))) = (θ, a) ∧
      a ⬝ᵥ a = 1 ∧ 0 ≤ θ ∧ θ ≤ Real.pi ∧ angleAxisMat θ a * R0 = Rf ∧
      ∀ u, quatMat (slerp (quatOfMat R0) u (quatOfMat Rf)) = angleAxisMat (u * θ) a * R0 := by
  obtain ⟨n0, m0⟩ := quatOfMat_spec h0
  obtain ⟨nf, mf⟩ := quatOfMat_spec hf
  change quatNorm _ = 1 at n0 nf
  generalize hA : quatOfMat R0 = A at *
  generalize hB : quatOfMat Rf = B at *
  have hc : quatNorm ⟨A.w, -A.x, -A.y, -A.z⟩ = 1 := by unfold quatNorm at n0 ⊢; linarith
  have hp : quatNorm (quatMul B (quatInv A)) = 1 := by rw [quatInv_unit n0, quatNorm_mul, nf, hc, one_mul]
  have hM : quatMat (quatMul B (quatInv A)) = Rf * R0ᵀ := by
    rw [quatInv_unit n0, quatMat_mul nf hc, quatMat_conj, m0, mf]
  obtain ⟨k1, k2, k3, k4⟩ := angleAxisOfQuat_spec hp
  have e1 := (angleAxisOfQuat_about hp).1
  refine ⟨(angleAxisOfQuat (quatMul B (quatInv A))).1, (angleAxisOfQuat (quatMul B (quatInv A))).2, rfl, k1, k2, k3, ?_,
    fun u => ?_⟩
  · rw [k4, hM, Matrix.mul_assoc, h0.orth, mul_one]
  · rcases hd with hd | hd
    · rw [hd] at hB
      have hAB : A = B := hA.symm.trans hB
      rw [hAB] at m0 n0
      have hdot : quatDot B B = 1 := by unfold quatDot; unfold quatNorm at nf; linarith
      rw [hAB, quatInv_unit nf] at e1
      rw [hAB, quatInv_unit nf, e1, ← quatDot_eq, hdot]
      have : slerp B u B = B := by
        unfold slerp
        rw [hdot]
        have : slerpOne ≤ |(1 : ℝ)| := by norm_num [slerpOne]
        simp only [if_pos this]
        rw [if_neg (by norm_num)]
        ext <;> simp [quatLin] <;> ring
      rw [this]
      simp [angleAxisMat_zero, m0]
    · have hdot : |quatDot A B| < slerpOne := by
        refine abs_lt_of_sq_lt_sq ?_ (by norm_num [slerpOne])
        refine lt_of_eq_of_lt ?_ hd
        rw [quatDot_eq, ← quatInv_unit n0, ← hM]
        generalize quatMul B (quatInv A) = p at *
        unfold quatNorm at hp
        simp [Matrix.trace, Fin.sum_univ_three, quatMat]
        linarith
      rw [slerp_about n0 nf hdot, quatMat_mul (quatAbout_norm k1 _) n0, m0, quatMat_about k1, e1, quatInv_unit n0,
        ← quatDot_eq]
      congr 2
      ring

theorem angleAxisMat_deriv (a : Vec3) {φ : ℝ → ℝ} {φ' t : ℝ} (h : HasDerivAt φ φ' t) (ha : a ⬝ᵥ a = 1) (R : Mat3) :
    AngularVelocity (fun s => angleAxisMat (φ s) a * R) (φ' • a) t := by
  intro v i
  rw [unit_iff] at ha
  simp only [← mulVec_mulVec]
  generalize R *ᵥ v = u
  have e : ∀ s, (angleAxisMat (φ s) a *ᵥ u) i =
      Real.cos (φ s) * u i + Real.sin (φ s) * (crossProduct a u i) + (1 - Real.cos (φ s)) * ((a ⬝ᵥ u) * a i) := by
    intro s
    rw [angleAxisMat_about (φ s) a u]
    simp [mul_assoc]
  have hc := h.cos
  have hs := h.sin
  have hd := ((hc.mul_const (u i)).add (hs.mul_const (crossProduct a u i))).add
    ((hc.const_sub 1).mul_const ((a ⬝ᵥ u) * a i))
  have e' : (fun s => (angleAxisMat (φ s) a *ᵥ u) i) = fun s =>
      Real.cos (φ s) * u i + Real.sin (φ s) * (crossProduct a u i) + (1 - Real.cos (φ s)) * ((a ⬝ᵥ u) * a i) := funext e
  rw [e', angleAxisMat_about (φ t) a u]
  refine hd.congr_deriv ?_
  clear e e' hd hc hs h
  generalize Real.cos (φ t) = C
  generalize Real.sin (φ t) = S
  fin_cases i <;> simp [cross_apply, dotProduct, Fin.sum_univ_three, vecHead, vecTail] <;> grind

end Verif
