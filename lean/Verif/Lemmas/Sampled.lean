import Mathlib.Topology.Algebra.Order.LiminfLimsup
import Mathlib.Topology.Order.MonotoneConvergence
import Mathlib.Analysis.SpecificLimits.Basic
import Mathlib.Analysis.SpecialFunctions.Pow.NNReal
import Mathlib.Tactic.Linarith
import Mathlib.Tactic.LinearCombination
import Mathlib.Tactic.FieldSimp

/-! # Second-order recurrences -/

namespace Verif
open Filter Topology

/-- A solution of `x'' = T x' - D x` with `D < 1` and `|T| < 1 + D` tends to zero. -/
theorem recurrence_tendsto {x : ℕ → ℝ} {T D : ℝ} (hrec : ∀ k, x (k + 2) = T * x (k + 1) - D * x k) (hD : D < 1) (h1 : T < 1 + D)
    (h2 : -T < 1 + D) : Tendsto x atTop (𝓝 0) := by
  set V : ℕ → ℝ := fun k => (1 + D) * (x (k + 1) ^ 2 + x k ^ 2) - 2 * T * (x (k + 1) * x k) with hV
  have hpos : ∀ k, 0 ≤ V k := fun k => by
    simp only [hV]
    nlinarith [mul_nonneg (sub_nonneg.mpr h1.le) (sq_nonneg (x (k + 1) + x k)), mul_nonneg (sub_nonneg.mpr h2.le) (sq_nonneg (x (k + 1) - x k))]
  have hstep : ∀ k, V k - V (k + 1) = (1 - D) * (x (k + 2) - x k) ^ 2 := fun k => by
    simp only [hV]
    rw [show k + 1 + 1 = k + 2 from rfl]
    linear_combination (-2 * x (k + 2) + 2 * x k) * hrec k
  have hanti : Antitone V := antitone_nat_of_succ_le fun k => by
    have := hstep k
    nlinarith [mul_nonneg (sub_nonneg.mpr hD.le) (sq_nonneg (x (k + 2) - x k))]
  have hlim := tendsto_atTop_ciInf hanti ⟨0, by rintro _ ⟨k, rfl⟩; exact hpos k⟩
  have hdiff : Tendsto (fun k => V k - V (k + 1)) atTop (𝓝 0) := by
    have := hlim.sub (hlim.comp (tendsto_add_atTop_nat 1))
    simpa using this
  have hd : Tendsto (fun k => x (k + 2) - x k) atTop (𝓝 0) := by
    have h3 : Tendsto (fun k => (x (k + 2) - x k) ^ 2) atTop (𝓝 0) := by
      have := hdiff.const_mul (1 - D)⁻¹
      rw [mul_zero] at this
      refine this.congr fun k => ?_
      rw [hstep, inv_mul_cancel_left₀ (by linarith)]
    have h4 := h3.sqrt
    rw [Real.sqrt_zero] at h4
    refine squeeze_zero_norm (fun k => ?_) h4
    rw [Real.sqrt_sq_eq_abs, Real.norm_eq_abs]
  have hc : 0 < (1 + D) ^ 2 - T ^ 2 := by nlinarith
  have hx : ∀ k, x k = ((1 + D) ^ 2 - T ^ 2)⁻¹ * (T ^ 2 * (x (k + 2) - x k) - T * (x (k + 1 + 2) - x (k + 1)) - (1 + D) * (x (k + 2) - x k)) := by
    intro k
    rw [eq_inv_mul_iff_mul_eq₀ hc.ne']
    have e1 := hrec k
    have e2 := hrec (k + 1)
    rw [show k + 1 + 1 = k + 2 from rfl] at e2
    rw [e2]
    linear_combination ((1 + D)) * e1
  have h5 := (((hd.const_mul (T ^ 2)).sub ((hd.comp (tendsto_add_atTop_nat 1)).const_mul T)).sub (hd.const_mul (1 + D))).const_mul ((1 + D) ^ 2 - T ^ 2)⁻¹
  simp only [mul_zero, sub_zero] at h5
  exact h5.congr fun k => (hx k).symm

/-- Powers of a number that is not inside the unit interval do not tend to zero. -/
theorem pow_not_tendsto {l : ℝ} (h : 1 ≤ |l|) : ¬ Tendsto (fun k : ℕ => l ^ k) atTop (𝓝 0) := by
  intro ht
  have h1 := ht.abs
  rw [abs_zero] at h1
  have h2 : ∀ k : ℕ, (1 : ℝ) ≤ |l ^ k| := fun k => by rw [abs_pow]; exact one_le_pow₀ h
  exact absurd (ge_of_tendsto' h1 h2) (by norm_num)

/-- A real root of `x² - T x + D` at or above `1`, if the value at `1` is negative. -/
theorem root_above {T D : ℝ} (h : 1 - T + D < 0) : ∃ l : ℝ, l ^ 2 - T * l + D = 0 ∧ 1 ≤ |l| := by
  have hs : (T - 2) ^ 2 ≤ T ^ 2 - 4 * D := by nlinarith
  have h0 : 0 ≤ T ^ 2 - 4 * D := (sq_nonneg _).trans hs
  have h1 : |T - 2| ≤ Real.sqrt (T ^ 2 - 4 * D) := by rw [← Real.sqrt_sq_eq_abs]; exact Real.sqrt_le_sqrt hs
  have h2 := Real.sq_sqrt h0
  set s := Real.sqrt (T ^ 2 - 4 * D)
  refine ⟨(T + s) / 2, by linear_combination h2 / 4, ?_⟩
  have h3 := (abs_le.mp h1).1
  refine le_trans ?_ (le_abs_self _)
  linarith

/-- A real root of `x² - T x + D` at or below `-1`, if the value at `-1` is not positive. -/
theorem root_below {T D : ℝ} (h : 1 + T + D ≤ 0) : ∃ l : ℝ, l ^ 2 - T * l + D = 0 ∧ 1 ≤ |l| := by
  have hs : (T + 2) ^ 2 ≤ T ^ 2 - 4 * D := by nlinarith
  have h0 : 0 ≤ T ^ 2 - 4 * D := (sq_nonneg _).trans hs
  have h1 : |T + 2| ≤ Real.sqrt (T ^ 2 - 4 * D) := by rw [← Real.sqrt_sq_eq_abs]; exact Real.sqrt_le_sqrt hs
  have h2 := Real.sq_sqrt h0
  set s := Real.sqrt (T ^ 2 - 4 * D)
  refine ⟨(T - s) / 2, by linear_combination h2 / 4, ?_⟩
  have h3 := le_trans (le_abs_self _) h1
  refine le_trans ?_ (neg_le_abs _)
  linarith

section
variable {h kp kd : ℝ} {e v : ℕ → ℝ}

/-- One axis of a loop with feedback `u = - kp e - kd v` held for `h`. -/
def AxisRun (h kp kd : ℝ) (e v : ℕ → ℝ) : Prop :=
  ∀ k, e (k + 1) = e k + h * v k + h ^ 2 / 2 * (-(kp * e k) - kd * v k) ∧ v (k + 1) = v k + h * (-(kp * e k) - kd * v k)

theorem axis_settles (hr : AxisRun h kp kd e v) (hh : 0 < h) (hp : 0 < kp) (h1 : h * kp < 2 * kd) (h2 : h * kd < 2) :
    Tendsto e atTop (𝓝 0) ∧ Tendsto v atTop (𝓝 0) := by
  have hrec : ∀ k, e (k + 2) = (2 - h * kd - h ^ 2 * kp / 2) * e (k + 1) - (1 - h * kd + h ^ 2 * kp / 2) * e k := fun k => by
    have a := (hr k).1
    have b := (hr k).2
    have a' := (hr (k + 1)).1
    rw [show k + 1 + 1 = k + 2 from rfl, b] at a'
    rw [a']
    linear_combination (h * kd - 1) * a
  have hq : 0 < h ^ 2 * kp := by positivity
  have he : Tendsto e atTop (𝓝 0) := recurrence_tendsto hrec (by nlinarith) (by nlinarith) (by nlinarith)
  refine ⟨he, ?_⟩
  have hb : 0 < h * (1 - h * kd / 2) := mul_pos hh (by linarith)
  have hv : ∀ k, v k = (h * (1 - h * kd / 2))⁻¹ * (e (k + 1) - (1 - h ^ 2 * kp / 2) * e k) := fun k => by
    rw [eq_inv_mul_iff_mul_eq₀ hb.ne', (hr k).1]
    ring
  have := ((he.comp (tendsto_add_atTop_nat 1)).sub (he.const_mul (1 - h ^ 2 * kp / 2))).const_mul (h * (1 - h * kd / 2))⁻¹
  simp only [mul_zero, sub_zero] at this
  exact this.congr fun k => (hv k).symm

/-- The run from a given start. -/
noncomputable def axisRun (h kp kd e0 v0 : ℝ) : ℕ → ℝ × ℝ
  | 0 => (e0, v0)
  | k + 1 =>
    let s := axisRun h kp kd e0 v0 k
    (s.1 + h * s.2 + h ^ 2 / 2 * (-(kp * s.1) - kd * s.2), s.2 + h * (-(kp * s.1) - kd * s.2))

theorem axisRun_run (h kp kd e0 v0 : ℝ) : AxisRun h kp kd (fun k => (axisRun h kp kd e0 v0 k).1) (fun k => (axisRun h kp kd e0 v0 k).2) :=
  fun _ => ⟨rfl, rfl⟩

/-- If every run settles, the gains are within the bounds. -/
theorem axis_bounds (hh : 0 < h) (hall : ∀ e0 v0, Tendsto (fun k => (axisRun h kp kd e0 v0 k).1) atTop (𝓝 0) ∧
    Tendsto (fun k => (axisRun h kp kd e0 v0 k).2) atTop (𝓝 0)) : 0 < kp ∧ h * kp < 2 * kd ∧ h * kd < 2 := by
  have key : ∀ l : ℝ, kp ≠ 0 → l ^ 2 - (2 - h * kd - h ^ 2 * kp / 2) * l + (1 - h * kd + h ^ 2 * kp / 2) = 0 → ¬ 1 ≤ |l| := by
    intro l hp hl h1
    set e := fun k => (axisRun h kp kd 1 0 k).1 with he
    set v := fun k => (axisRun h kp kd 1 0 k).2 with hv
    have hf : ∀ k, -(h * kp) * e k + (l - (1 - h ^ 2 * kp / 2)) * v k = -(h * kp) * l ^ k := by
      intro k
      induction k with
      | zero => simp [he, hv, axisRun]
      | succ k ih =>
        have a : e (k + 1) = e k + h * v k + h ^ 2 / 2 * (-(kp * e k) - kd * v k) := rfl
        have b : v (k + 1) = v k + h * (-(kp * e k) - kd * v k) := rfl
        rw [a, b, pow_succ]
        linear_combination l * ih - (v k) * hl
    have ht := (((hall 1 0).1.const_mul (-(h * kp))).add ((hall 1 0).2.const_mul (l - (1 - h ^ 2 * kp / 2)))).const_mul (-(h * kp))⁻¹
    simp only [mul_zero, add_zero] at ht
    refine pow_not_tendsto h1 (ht.congr fun k => ?_)
    have := hf k
    simp only [he, hv] at this
    rw [this, inv_mul_cancel_left₀ (neg_ne_zero.mpr (mul_ne_zero hh.ne' hp))]
  have hp : 0 < kp := by
    by_contra hn
    rcases (not_lt.mp hn).lt_or_eq with hlt | heq
    · obtain ⟨l, hl, h1⟩ := root_above (T := 2 - h * kd - h ^ 2 * kp / 2) (D := 1 - h * kd + h ^ 2 * kp / 2)
        (by nlinarith [mul_pos (pow_pos hh 2) (neg_pos.mpr hlt)])
      exact key l hlt.ne hl h1
    · subst heq
      have : ∀ k, axisRun h 0 kd 1 0 k = (1, 0) := fun k => by
        induction k with
        | zero => rfl
        | succ k ih => simp [axisRun, ih]
      have ht := (hall 1 0).1
      simp only [this] at ht
      exact absurd (tendsto_nhds_unique ht tendsto_const_nhds) (by norm_num)
  refine ⟨hp, ?_, ?_⟩
  · by_contra hn
    push Not at hn
    have hw : ∀ k, (axisRun h kp kd 1 0 k).1 * (axisRun h kp kd 0 1 k).2 - (axisRun h kp kd 0 1 k).1 * (axisRun h kp kd 1 0 k).2
        = (1 - h * kd + h ^ 2 * kp / 2) ^ k := by
      intro k
      induction k with
      | zero => simp [axisRun]
      | succ k ih =>
        rw [pow_succ, ← ih]
        simp only [axisRun]
        ring
    have ht := ((hall 1 0).1.mul (hall 0 1).2).sub ((hall 0 1).1.mul (hall 1 0).2)
    simp only [mul_zero, sub_zero] at ht
    refine pow_not_tendsto (l := 1 - h * kd + h ^ 2 * kp / 2) ?_ (ht.congr hw)
    refine le_trans ?_ (le_abs_self _)
    nlinarith
  · by_contra hn
    push Not at hn
    obtain ⟨l, hl, h1⟩ := root_below (T := 2 - h * kd - h ^ 2 * kp / 2) (D := 1 - h * kd + h ^ 2 * kp / 2) (by linarith)
    exact key l hp.ne' hl h1

end

end Verif
