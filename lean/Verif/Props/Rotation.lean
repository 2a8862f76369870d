import Verif.Lemmas.Rotation
import Verif.Props.Spline
import Mathlib.Analysis.SpecialFunctions.Trigonometric.Inverse

/-!
# C18, C19, C20, C50: rotations
-/
set_option linter.unusedSectionVars false

namespace Verif.Props
open Matrix Verif Verif.Spec Verif.Model

/-! ## C18 -/

/-- C18.  Each axis rotation is the proper rotation about its axis by its angle; angles add, and the transpose is the
rotation by the negative angle. -/
theorem C18_axis_rotations (x y : ℝ) :
    (IsRot (rotateWithX x) ∧ RotatesAbout (rotateWithX x) ![1, 0, 0] (Real.cos x) (Real.sin x) ∧
      rotateWithX x * rotateWithX y = rotateWithX (x + y) ∧ (rotateWithX x)ᵀ = rotateWithX (-x)) ∧
    (IsRot (rotateWithY x) ∧ RotatesAbout (rotateWithY x) ![0, 1, 0] (Real.cos x) (Real.sin x) ∧
      rotateWithY x * rotateWithY y = rotateWithY (x + y) ∧ (rotateWithY x)ᵀ = rotateWithY (-x)) ∧
    (IsRot (rotateWithZ x) ∧ RotatesAbout (rotateWithZ x) ![0, 0, 1] (Real.cos x) (Real.sin x) ∧
      rotateWithZ x * rotateWithZ y = rotateWithZ (x + y) ∧ (rotateWithZ x)ᵀ = rotateWithZ (-x)) := by
  have hs := Real.sin_sq_add_cos_sq x
  have eX : ∀ x, rotateWithX x = angleAxisMat x ![1, 0, 0] := fun x => by
    ext i j; fin_cases i <;> fin_cases j <;> simp [rotateWithX, angleAxisMat]
  have eY : ∀ x, rotateWithY x = angleAxisMat x ![0, 1, 0] := fun x => by
    ext i j; fin_cases i <;> fin_cases j <;> simp [rotateWithY, angleAxisMat]
  have eZ : ∀ x, rotateWithZ x = angleAxisMat x ![0, 0, 1] := fun x => by
    ext i j; fin_cases i <;> fin_cases j <;> simp [rotateWithZ, angleAxisMat]
  refine ⟨⟨?_, ?_, ?_, ?_⟩, ⟨?_, ?_, ?_, ?_⟩, ⟨?_, ?_, ?_, ?_⟩⟩
  · rw [eX]; exact angleAxisMat_rot x (by simp [unit_iff])
  · rw [eX]; exact angleAxisMat_about x _
  · ext i j
    fin_cases i <;> fin_cases j <;>
      simp [rotateWithX, Matrix.mul_apply, Fin.sum_univ_three, Real.cos_add, Real.sin_add] <;> ring
  · ext i j; fin_cases i <;> fin_cases j <;> simp [rotateWithX]
  · rw [eY]; exact angleAxisMat_rot x (by simp [unit_iff])
  · rw [eY]; exact angleAxisMat_about x _
  · ext i j
    fin_cases i <;> fin_cases j <;>
      simp [rotateWithY, Matrix.mul_apply, Fin.sum_univ_three, Real.cos_add, Real.sin_add] <;> ring
  · ext i j; fin_cases i <;> fin_cases j <;> simp [rotateWithY]
  · rw [eZ]; exact angleAxisMat_rot x (by simp [unit_iff])
  · rw [eZ]; exact angleAxisMat_about x _
  · ext i j
    fin_cases i <;> fin_cases j <;>
      simp [rotateWithZ, Matrix.mul_apply, Fin.sum_univ_three, Real.cos_add, Real.sin_add] <;> ring
  · ext i j; fin_cases i <;> fin_cases j <;> simp [rotateWithZ]

/-- a quarter turn about `z` takes `x` to `y` -/
example : rotateWithZ (Real.pi / 2) *ᵥ ![1, 0, 0] = ![0, 1, 0] := by
  ext i; fin_cases i <;> simp [rotateWithZ]

/-! ## C19 -/

/-- C19.  For rotations `R0`, `Rf` and `t0 < tf`: `rotationCubic` is defined at every time, is `R0` up to `t0` and `Rf`
from `tf` on, is a proper rotation at every time, continuous in time, and turns about one fixed axis by an angle
growing monotonically from zero to at most a half turn. -/
theorem C19_rotation_cubic {t0 tf : ℝ} (h : t0 < tf) {R0 Rf : Mat3} (h0 : IsRot R0) (hf : IsRot Rf) :
    ∃ R : ℝ → Mat3, (∀ t, rotationCubic t t0 tf R0 Rf = some (R t)) ∧
      (∀ t ≤ t0, R t = R0) ∧ (∀ t, tf ≤ t → R t = Rf) ∧ (∀ t, IsRot (R t)) ∧ Continuous R ∧
      ∃ (a : Vec3) (θ : ℝ → ℝ), a ⬝ᵥ a = 1 ∧ Monotone θ ∧ (∀ t, 0 ≤ θ t ∧ θ t ≤ Real.pi) ∧
        ∀ t, RotatesAbout (R t * R0ᵀ) a (Real.cos (θ t)) (Real.sin (θ t)) := by
  obtain ⟨s, hm, hs01, hs0, hs1, hs⟩ := C17_monotone h
  obtain ⟨k1, k2, k3, k4⟩ := angleAxisOfMat_spec (IsRot.mul hf (IsRot.transpose h0))
  set aa := angleAxisOfMat (Rf * R0ᵀ) with haa
  have hfin : angleAxisMat aa.1 aa.2 * R0 = Rf := by
    rw [k4, Matrix.mul_assoc, h0.orth, mul_one]
  have hdef : ∀ t, rotationCubic t t0 tf R0 Rf = some (angleAxisMat (aa.1 * s t) aa.2 * R0) := by
    intro t
    unfold rotationCubic
    split_ifs with h1 h2
    · rw [hs1 t h1, mul_one, hfin]
    · rw [hs0 t h2.le, mul_zero, angleAxisMat_zero, one_mul]
    · rw [hs]; simp [← haa]
  refine ⟨_, hdef, ?_, ?_, ?_, ?_, aa.2, fun t => aa.1 * s t, k1, ?_, ?_, ?_⟩
  · intro t ht; rw [hs0 t ht, mul_zero, angleAxisMat_zero, one_mul]
  · intro t ht; rw [hs1 t ht, mul_one, hfin]
  · intro t; exact IsRot.mul (angleAxisMat_rot _ k1) h0
  · have hcs : Continuous s := by
      obtain ⟨y, hy, -, -, -, -, -, hc⟩ := C17_cubic h 0 1 0 0
      have : y = s := by
        funext t
        have := (hy t).symm.trans (hs 0 1 t)
        simpa using this
      rwa [← this]
    exact ((angleAxisMat_cont aa.2).comp (continuous_const.mul hcs)).matrix_mul continuous_const
  · intro a b hab; exact mul_le_mul_of_nonneg_left (hm hab) k2
  · intro t
    exact ⟨mul_nonneg k2 (hs01 t).1, (mul_le_of_le_one_right k2 (hs01 t).2).trans k3⟩
  · intro t
    rw [Matrix.mul_assoc, IsRot.orth' h0, mul_one]
    exact angleAxisMat_about _ _

/-- C19.  A degenerate interval (`tf ≤ t0`) gives a jump from `R0` to `Rf` at `tf`, never an undefined result. -/
theorem C19_degenerate {t0 tf : ℝ} (h : tf ≤ t0) (R0 Rf : Mat3) (t : ℝ) :
    rotationCubic t t0 tf R0 Rf = some (open Classical in if tf ≤ t then Rf else R0) := by
  unfold rotationCubic
  by_cases h1 : tf ≤ t
  · rw [if_pos h1, if_pos h1]
  · rw [if_neg h1, if_pos (lt_of_lt_of_le (not_le.mp h1) h), if_neg h1]

/-- hypotheses met: identity to a half turn about `x` -/
example : IsRot (1 : Mat3) ∧ IsRot (rotateWithX Real.pi) := ⟨IsRot.one, (C18_axis_rotations Real.pi 0).1.1⟩

/-! ## C20 -/

/-- C20.  `skew v` is the matrix of the cross product, antisymmetric, and turns with its argument. -/
theorem C20_skew (v w : Vec3) :
    skew v *ᵥ w = crossProduct v w ∧ (skew v)ᵀ = -skew v ∧
      ∀ R, IsRot R → skew (R *ᵥ v) = R * skew v * Rᵀ := by
  refine ⟨?_, ?_, ?_⟩
  · ext i; fin_cases i <;> simp [skew, mulVec, dotProduct, Fin.sum_univ_three, cross_apply] <;> ring
  · ext i j; fin_cases i <;> fin_cases j <;> simp [skew]
  · intro R hR
    obtain ⟨⟩ := IsRot.eqs hR
    ext i j
    fin_cases i <;> fin_cases j <;>
      simp [skew, mulVec, dotProduct, Fin.sum_univ_three, Matrix.mul_apply] <;> grind

/-- `GetPhi` in terms of the relative rotation -/
theorem getPhi_eq (C D : Mat3) : getPhi C D =
    (1 / 2 : ℝ) • ![(D * Cᵀ) 2 1 - (D * Cᵀ) 1 2, (D * Cᵀ) 0 2 - (D * Cᵀ) 2 0, (D * Cᵀ) 1 0 - (D * Cᵀ) 0 1] := by
  ext i
  fin_cases i <;> simp [getPhi, cross_apply, Matrix.mul_apply, Fin.sum_univ_three] <;> ring

/-- C20.  The orientation error of a current orientation and a desired one that is ahead of it by a turn about `a`
with sine `s` is `s • a`. -/
theorem C20_phi_axis {C D : Mat3} (hC : IsRot C) {a : Vec3} {c s : ℝ} (h : RotatesAbout (D * Cᵀ) a c s) :
    getPhi C D = s • a := by
  have e0 := h ![1, 0, 0]
  have e1 := h ![0, 1, 0]
  have e2 := h ![0, 0, 1]
  rw [getPhi_eq]
  generalize D * Cᵀ = M at *
  have a1 := congrFun e0 1
  have a2 := congrFun e0 2
  have b0 := congrFun e1 0
  have b2 := congrFun e1 2
  have c0 := congrFun e2 0
  have c1 := congrFun e2 1
  simp [mulVec, dotProduct, Fin.sum_univ_three, cross_apply] at a1 a2 b0 b2 c0 c1
  ext i
  fin_cases i <;> simp [a1, a2, b0, b2, c0, c1] <;> ring

/-- C20.  No error when the orientations agree; exchanging the two changes the sign. -/
theorem C20_phi_zero_antisymm {C : Mat3} (hC : IsRot C) (D : Mat3) :
    getPhi C C = 0 ∧ getPhi D C = -getPhi C D := by
  constructor
  · rw [getPhi_eq, IsRot.orth' hC]; ext i; fin_cases i <;> simp
  · ext i
    fin_cases i <;> simp [getPhi, cross_apply] <;> ring

/-- C20.  For rotations the error vanishes only if the orientations agree or differ by a half turn. -/
theorem C20_phi_zero_iff {C D : Mat3} (hC : IsRot C) (hD : IsRot D) :
    getPhi C D = 0 ↔ D = C ∨ ∃ a : Vec3, a ⬝ᵥ a = 1 ∧ RotatesAbout (D * Cᵀ) a (-1) 0 := by
  have hM := IsRot.mul hD (IsRot.transpose hC)
  obtain ⟨k1, k2, k3, k4⟩ := angleAxisOfMat_spec hM
  have hab := angleAxisMat_about (angleAxisOfMat (D * Cᵀ)).1 (angleAxisOfMat (D * Cᵀ)).2
  rw [k4] at hab
  have hphi := C20_phi_axis hC hab
  constructor
  · intro h0
    rw [hphi] at h0
    have hane : (angleAxisOfMat (D * Cᵀ)).2 ≠ 0 := by intro e; rw [e] at k1; simp at k1
    have hsin : Real.sin (angleAxisOfMat (D * Cᵀ)).1 = 0 := (smul_eq_zero.mp h0).resolve_right hane
    rcases k2.eq_or_lt with hz | hpos
    · left
      rw [← hz, angleAxisMat_zero] at k4
      have := congrArg (· * C) k4
      simp only [one_mul, Matrix.mul_assoc, hC.orth, mul_one] at this
      exact this.symm
    · right
      have hpi : (angleAxisOfMat (D * Cᵀ)).1 = Real.pi := by
        rcases k3.eq_or_lt with hp | hp
        · exact hp
        · exact absurd hsin (Real.sin_pos_of_pos_of_lt_pi hpos hp).ne'
      refine ⟨_, k1, ?_⟩
      rw [hpi, Real.cos_pi, Real.sin_pi] at hab
      exact hab
  · rintro (rfl | ⟨a, -, ha⟩)
    · exact (C20_phi_zero_antisymm hC D).1
    · rw [C20_phi_axis hC ha, zero_smul]

/-- hypotheses met: a quarter turn about `z` from the identity -/
example : getPhi 1 (rotateWithZ (Real.pi / 2)) = ![0, 0, 1] := by
  rw [C20_phi_axis (a := ![0, 0, 1]) (c := Real.cos (Real.pi / 2)) (s := Real.sin (Real.pi / 2)) IsRot.one (by
    simpa using (C18_axis_rotations (Real.pi / 2) 0).2.2.2.1)]
  simp

/-! ## C50 -/

theorem normalized_unit {v : Vec3} (h : v ≠ 0) : normalized v = (1 / √(v ⬝ᵥ v)) • v ∧ normalized v ⬝ᵥ normalized v = 1 := by
  have hp : 0 < v ⬝ᵥ v := by
    have h1 : 0 ≤ v ⬝ᵥ v := by
      simp only [dotProduct, Fin.sum_univ_three]
      nlinarith [mul_self_nonneg (v 0), mul_self_nonneg (v 1), mul_self_nonneg (v 2)]
    rcases h1.eq_or_lt with e | e
    · exact absurd (dotProduct_self_eq_zero.mp e.symm) h
    · exact e
  have e : normalized v = (1 / √(v ⬝ᵥ v)) • v := if_pos hp
  refine ⟨e, ?_⟩
  rw [e, smul_dotProduct, dotProduct_smul, smul_eq_mul, smul_eq_mul]
  have := Real.mul_self_sqrt hp.le
  have h0 : √(v ⬝ᵥ v) ≠ 0 := (Real.sqrt_pos.mpr hp).ne'
  field_simp
  rw [sq, this]

theorem cross_normSq (o t : Vec3) : crossProduct o t ⬝ᵥ crossProduct o t = (o ⬝ᵥ o) * (t ⬝ᵥ t) - (o ⬝ᵥ t) ^ 2 := by
  simp [dotProduct, Fin.sum_univ_three, cross_apply]; ring

theorem eq_of_dot_one {o t : Vec3} (ho : o ⬝ᵥ o = 1) (ht : t ⬝ᵥ t = 1) {c : ℝ} (hc : o ⬝ᵥ t = c) (h1 : c ^ 2 = 1) : t = c • o := by
  have : (t - c • o) ⬝ᵥ (t - c • o) = 0 := by
    simp only [sub_dotProduct, dotProduct_sub, smul_dotProduct, dotProduct_smul, smul_eq_mul, ho, ht, hc,
      dotProduct_comm t o]
    linear_combination -h1
  exact sub_eq_zero.mp (dotProduct_self_eq_zero.mp this)

/-- C50, partial: the directions must not be opposite.  `AxisTransform2V` returns a proper rotation taking the first
direction to the second. -/
theorem C50_axis_transform_partial {u v : Vec3} (hu : u ≠ 0) (hv : v ≠ 0) (hopp : ¬ ∃ k : ℝ, k < 0 ∧ v = k • u) :
    ∃ R, axisTransform2V u v = some R ∧ IsRot R ∧
      R *ᵥ ((1 / √(u ⬝ᵥ u)) • u) = (1 / √(v ⬝ᵥ v)) • v := by
  obtain ⟨eo, ho⟩ := normalized_unit hu
  obtain ⟨et, ht⟩ := normalized_unit hv
  unfold axisTransform2V
  simp only
  rw [ho, ht, if_neg (by norm_num), ← eo, ← et]
  refine ⟨_, rfl, ?_⟩
  have hpu : 0 < √(u ⬝ᵥ u) := by
    rcases (Real.sqrt_nonneg (u ⬝ᵥ u)).eq_or_lt with e | e
    · rw [eo, ← e] at ho; simp at ho
    · exact e
  have hpv : 0 < √(v ⬝ᵥ v) := by
    rcases (Real.sqrt_nonneg (v ⬝ᵥ v)).eq_or_lt with e | e
    · rw [et, ← e] at ht; simp at ht
    · exact e
  set o := normalized u with hO
  set t := normalized v with hT
  rw [mul_one, div_one]
  have hk := cross_normSq o t
  rw [ho, ht] at hk
  have hk0 : 0 ≤ crossProduct o t ⬝ᵥ crossProduct o t := by
    simp only [dotProduct, Fin.sum_univ_three]
    nlinarith [mul_self_nonneg (crossProduct o t 0), mul_self_nonneg (crossProduct o t 1),
      mul_self_nonneg (crossProduct o t 2)]
  set c := o ⬝ᵥ t with hc
  by_cases hz : crossProduct o t = 0
  · rw [hz] at hk
    have hc2 : c ^ 2 = 1 := by rw [zero_dotProduct] at hk; linarith
    have htc := eq_of_dot_one ho ht hc.symm hc2
    rcases (mul_self_eq_one_iff.mp ((sq c).symm.trans hc2)) with h1 | h1
    · rw [h1, one_smul] at htc
      rw [h1, Real.arccos_one, angleAxisMat_zero, htc]
      exact ⟨IsRot.one, by simp⟩
    · exfalso
      apply hopp
      refine ⟨-(√(v ⬝ᵥ v) / √(u ⬝ᵥ u)), by simp; positivity, ?_⟩
      rw [h1] at htc
      rw [et, eo] at htc
      have := congrArg (fun w => √(v ⬝ᵥ v) • w) htc
      simp only [smul_smul] at this
      rw [mul_one_div_cancel hpv.ne', one_smul] at this
      refine this.trans (congrArg (fun r => r • u) ?_)
      ring
  · obtain ⟨en, hn⟩ := normalized_unit hz
    refine ⟨angleAxisMat_rot _ hn, ?_⟩
    have hpos : 0 < √(crossProduct o t ⬝ᵥ crossProduct o t) := by
      rcases (Real.sqrt_nonneg (crossProduct o t ⬝ᵥ crossProduct o t)).eq_or_lt with e | e
      · rw [en, ← e] at hn; simp at hn
      · exact e
    have hle : -1 ≤ c ∧ c ≤ 1 := by
      have : c ^ 2 ≤ 1 := by linarith
      exact abs_le.mp (by rwa [← sq_le_one_iff_abs_le_one])
    have hab := angleAxisMat_about (Real.arccos c) (normalized (crossProduct o t)) o
    rw [hab, Real.cos_arccos hle.1 hle.2, Real.sin_arccos, en]
    have hs : √(1 - c ^ 2) = √(crossProduct o t ⬝ᵥ crossProduct o t) := by rw [hk, one_mul]
    have hd : (1 / √(crossProduct o t ⬝ᵥ crossProduct o t)) • crossProduct o t ⬝ᵥ o = 0 := by
      rw [smul_dotProduct, dotProduct_comm (crossProduct o t) o, dot_self_cross, smul_zero]
    rw [hd, mul_zero, zero_smul, add_zero, hs, map_smul, LinearMap.smul_apply, smul_smul, mul_one_div_cancel hpos.ne',
      one_smul]
    have htr : crossProduct (crossProduct o t) o = t - c • o := by
      have ho' := (unit_iff o).mp ho
      have hc' : c = o 0 * t 0 + o 1 * t 1 + o 2 * t 2 := by rw [hc]; simp [dotProduct, Fin.sum_univ_three]
      ext i
      fin_cases i <;> simp [cross_apply, vecHead, vecTail, hc'] <;> grind
    rw [htr]; simp

/-- C50 fails: for opposite directions the result is the point reflection `-1`, which is not a rotation. -/
theorem C50_opposite {u : Vec3} (hu : u ≠ 0) {k : ℝ} (hk : k < 0) :
    axisTransform2V u (k • u) = some (-1) ∧ ¬ IsRot (-1 : Mat3) := by
  constructor
  · obtain ⟨eo, ho⟩ := normalized_unit hu
    obtain ⟨et, ht⟩ := normalized_unit (smul_ne_zero hk.ne hu)
    have hto : normalized (k • u) = -normalized u := by
      rw [et, eo, smul_smul, ← neg_smul]
      congr 1
      rw [smul_dotProduct, dotProduct_smul, smul_eq_mul, smul_eq_mul, ← mul_assoc,
        Real.sqrt_mul (mul_self_nonneg k), Real.sqrt_mul_self_eq_abs, abs_of_neg hk]
      have := hk.ne
      by_cases h0 : √(u ⬝ᵥ u) = 0
      · rw [h0]; simp
      · field_simp
    unfold axisTransform2V
    simp only
    rw [ho, ht, if_neg (by norm_num), hto, mul_one, div_one, dotProduct_neg, ho]
    have hcr : crossProduct (normalized u) (-normalized u) = 0 := by simp
    have hn0 : normalized (0 : Vec3) = 0 := if_neg (by simp)
    rw [hcr, hn0, Real.arccos_neg_one]
    refine congrArg some ?_
    ext i j
    fin_cases i <;> fin_cases j <;> simp [angleAxisMat]
  · intro h
    have := h.det
    rw [det_neg] at this
    norm_num at this

/-- C50.  Undefined exactly for a zero direction. -/
theorem C50_undefined_iff (u v : Vec3) : axisTransform2V u v = none ↔ u = 0 ∨ v = 0 := by
  have hn0 : normalized (0 : Vec3) = 0 := if_neg (by simp)
  constructor
  · intro h
    by_contra hc
    push Not at hc
    unfold axisTransform2V at h
    simp only at h
    rw [(normalized_unit hc.1).2, (normalized_unit hc.2).2, if_neg (by norm_num)] at h
    cases h
  · rintro (rfl | rfl) <;> simp [axisTransform2V, hn0]

/-- hypotheses met: from `x` to `y` -/
example : (![1, 0, 0] : Vec3) ≠ 0 ∧ (![0, 1, 0] : Vec3) ≠ 0 ∧
    ¬ ∃ k : ℝ, k < 0 ∧ (![0, 1, 0] : Vec3) = k • ![1, 0, 0] := by
  refine ⟨fun h => by simpa using congrFun h 0, fun h => by simpa using congrFun h 1, ?_⟩
  rintro ⟨k, -, h⟩
  simpa using congrFun h 1

end Verif.Props
