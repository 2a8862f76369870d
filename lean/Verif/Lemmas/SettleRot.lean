import Verif.Lemmas.Settle
import Mathlib.LinearAlgebra.Matrix.DotProduct
import Mathlib.Data.Real.StarOrdered
import Mathlib.Topology.Order.MonotoneConvergence
import Mathlib.Topology.Instances.Real.Lemmas
import Mathlib.Topology.Algebra.Order.Field
import Mathlib.Algebra.BigOperators.Fin

/-!
# The error of an orientation under PD control

`φ` is the orientation error, `ω` the angular velocity, `Ψ` one minus the cosine of the angle to the target.
-/

set_option linter.unusedSectionVars false

namespace Verif
open Matrix Filter Topology

/-- What orientation error, angular velocity and angle do under PD control with gains `kp` and `kd`. -/
structure Turning (kp : ℝ) (kd : Fin 3 → ℝ) (t0 : ℝ) (Ψ : ℝ → ℝ) (φ ω q : ℝ → Fin 3 → ℝ) : Prop where
  angle : ∀ t ≥ t0, HasDerivAt Ψ (-(φ t ⬝ᵥ ω t)) t
  error : ∀ t ≥ t0, ∀ i, HasDerivAt (fun s => φ s i) (q t i) t
  law : ∀ t ≥ t0, ∀ i, HasDerivAt (fun s => ω s i) (kp * φ t i - kd i * ω t i) t
  rate : ∀ t ≥ t0, -(q t ⬝ᵥ ω t) ≤ 2 * (ω t ⬝ᵥ ω t)
  pos : ∀ t ≥ t0, 0 ≤ Ψ t
  sine : ∀ t ≥ t0, φ t ⬝ᵥ φ t = Ψ t * (2 - Ψ t)

theorem dot3 (a b : Fin 3 → ℝ) : a ⬝ᵥ b = a 0 * b 0 + a 1 * b 1 + a 2 * b 2 := by
  simp [dotProduct, Fin.sum_univ_three]

theorem dot_self_nonneg (a : Fin 3 → ℝ) : 0 ≤ a ⬝ᵥ a := by
  rw [dot3]; nlinarith [mul_self_nonneg (a 0), mul_self_nonneg (a 1), mul_self_nonneg (a 2)]

theorem dot_le_half (a b : Fin 3 → ℝ) : |a ⬝ᵥ b| ≤ 1 / 2 * (a ⬝ᵥ a + b ⬝ᵥ b) := by
  rw [abs_le]
  simp only [dot3]
  constructor
  · nlinarith [sq_nonneg (a 0 + b 0), sq_nonneg (a 1 + b 1), sq_nonneg (a 2 + b 2)]
  · nlinarith [sq_nonneg (a 0 - b 0), sq_nonneg (a 1 - b 1), sq_nonneg (a 2 - b 2)]

/-- A function that is bounded below and falls at a rate of at least `g ≥ 0`, where `g` does not fall faster than at rate `M`: then
`g` tends to zero. -/
theorem barbalat {V V' g g' : ℝ → ℝ} {t0 M b : ℝ} (hV : ∀ t ≥ t0, HasDerivAt V (V' t) t) (hg : ∀ t ≥ t0, HasDerivAt g (g' t) t)
    (hfall : ∀ t ≥ t0, V' t ≤ -g t) (hpos : ∀ t ≥ t0, 0 ≤ g t) (hM : ∀ t ≥ t0, -M ≤ g' t) (hM0 : 0 ≤ M) (hb : ∀ t ≥ t0, b ≤ V t) :
    Tendsto g atTop (𝓝 0) := by
  have hanti : AntitoneOn V (Set.Ici t0) := by
    refine antitoneOn_of_deriv_nonpos (convex_Ici t0) (fun s hs => (hV s hs).continuousAt.continuousWithinAt)
      (fun s hs => ?_) fun s hs => ?_
    · rw [interior_Ici] at hs
      exact (hV s (le_of_lt hs)).differentiableAt.differentiableWithinAt
    · rw [interior_Ici] at hs
      rw [(hV s (le_of_lt hs)).deriv]
      linarith [hfall s (le_of_lt hs), hpos s (le_of_lt hs)]
  have hgl : ∀ t ≥ t0, ∀ s ≥ t, g t - M * (s - t) ≤ g s := by
    intro t ht s hs
    have hmono : MonotoneOn (fun x => g x + M * x) (Set.Ici t0) := by
      have hd : ∀ x ≥ t0, HasDerivAt (fun x => g x + M * x) (g' x + M * 1) x := fun x hx =>
        (hg x hx).add ((hasDerivAt_id x).const_mul M)
      refine monotoneOn_of_deriv_nonneg (convex_Ici t0) (fun x hx => (hd x hx).continuousAt.continuousWithinAt)
        (fun x hx => ?_) fun x hx => ?_
      · rw [interior_Ici] at hx
        exact (hd x (le_of_lt hx)).differentiableAt.differentiableWithinAt
      · rw [interior_Ici] at hx
        rw [(hd x (le_of_lt hx)).deriv]
        linarith [hM x (le_of_lt hx)]
    have := hmono (Set.mem_Ici.mpr ht) (Set.mem_Ici.mpr (le_trans ht hs)) hs
    simp only at this
    linarith
  -- over a time `h` the function `V` falls by at least `h (g − M h)`
  have hstep : ∀ h > 0, ∀ t ≥ t0, h * (g t - M * h) ≤ V t - V (t + h) := by
    intro h hh t ht
    obtain ⟨s, hs, he⟩ := exists_hasDerivAt_eq_slope V V' (by linarith : t < t + h)
      (fun x hx => (hV x (le_trans ht hx.1)).continuousAt.continuousWithinAt) (fun x hx => hV x (le_trans ht hx.1.le))
    have h1 := hfall s (le_trans ht hs.1.le)
    have h2 := hgl t ht s hs.1.le
    rw [he, add_sub_cancel_left, div_le_iff₀ hh] at h1
    have h3 : M * (s - t) ≤ M * h := mul_le_mul_of_nonneg_left (by linarith [hs.2]) hM0
    nlinarith
  rw [Metric.tendsto_atTop]
  intro e he
  -- `V` converges, so its decrease over a fixed time gets small
  set h : ℝ := e / (4 * (M + 1)) with hh
  have hh0 : 0 < h := by positivity
  have hMh : M * h ≤ e / 4 := by
    rw [hh, ← mul_div_assoc, div_le_div_iff₀ (by positivity) (by norm_num)]
    nlinarith
  have hbdd : BddBelow (V '' Set.Ici t0) := ⟨b, by rintro _ ⟨s, hs, rfl⟩; exact hb s hs⟩
  set m := sInf (V '' Set.Ici t0) with hm
  obtain ⟨_, ⟨s, hs, rfl⟩, hlt⟩ := exists_lt_of_csInf_lt (Set.Nonempty.image V ⟨t0, Set.mem_Ici.mpr le_rfl⟩)
    (show m < m + h * (e / 4) by have := mul_pos hh0 (by positivity : 0 < e / 4); linarith)
  refine ⟨s, fun t ht => ?_⟩
  have ht0 : t ≥ t0 := le_trans (Set.mem_Ici.mp hs) ht
  have h1 := hstep h hh0 t ht0
  have h2 := hanti hs (Set.mem_Ici.mpr ht0) ht
  have h3 : m ≤ V (t + h) := csInf_le hbdd ⟨t + h, Set.mem_Ici.mpr (by linarith), rfl⟩
  have h4 : h * (g t - M * h) < h * (e / 4) := by linarith
  have h5 := lt_of_mul_lt_mul_left h4 hh0.le
  rw [Real.dist_eq, sub_zero, abs_of_nonneg (hpos t ht0)]
  linarith

namespace Turning

variable {kp : ℝ} {kd : Fin 3 → ℝ} {t0 : ℝ} {Ψ : ℝ → ℝ} {φ ω q : ℝ → Fin 3 → ℝ}

/-- Kinetic plus potential energy. -/
noncomputable def energy (kp : ℝ) (Ψ : ℝ → ℝ) (ω : ℝ → Fin 3 → ℝ) (t : ℝ) : ℝ := 1 / 2 * (ω t ⬝ᵥ ω t) + kp * Ψ t

theorem energy_deriv (T : Turning kp kd t0 Ψ φ ω q) {t : ℝ} (ht : t ≥ t0) :
    HasDerivAt (energy kp Ψ ω) (-(kd 0 * ω t 0 ^ 2 + kd 1 * ω t 1 ^ 2 + kd 2 * ω t 2 ^ 2)) t := by
  have hw := T.law t ht
  have h := ((((hw 0).pow 2).add ((hw 1).pow 2)).add ((hw 2).pow 2)).const_mul (1 / 2) |>.add ((T.angle t ht).const_mul kp)
  refine (h.congr_of_eventuallyEq (Eventually.of_forall fun s => ?_)).congr_deriv ?_
  · simp only [energy, dot3]; simp; ring
  · rw [dot3]; norm_num; ring

theorem energy_anti (T : Turning kp kd t0 Ψ φ ω q) (hd : ∀ i, 0 < kd i) : AntitoneOn (energy kp Ψ ω) (Set.Ici t0) := by
  refine antitoneOn_of_deriv_nonpos (convex_Ici t0) (fun s hs => (T.energy_deriv hs).continuousAt.continuousWithinAt)
    (fun s hs => ?_) fun s hs => ?_
  · rw [interior_Ici] at hs
    exact (T.energy_deriv (le_of_lt hs)).differentiableAt.differentiableWithinAt
  · rw [interior_Ici] at hs
    rw [(T.energy_deriv (le_of_lt hs)).deriv]
    have := mul_nonneg (hd 0).le (sq_nonneg (ω s 0))
    have := mul_nonneg (hd 1).le (sq_nonneg (ω s 1))
    have := mul_nonneg (hd 2).le (sq_nonneg (ω s 2))
    linarith

/-- The energy with a small cross term. -/
noncomputable def lyap (ε kp : ℝ) (Ψ : ℝ → ℝ) (φ ω : ℝ → Fin 3 → ℝ) (t : ℝ) : ℝ := energy kp Ψ ω t - ε * (φ t ⬝ᵥ ω t)

theorem lyap_deriv (T : Turning kp kd t0 Ψ φ ω q) (ε : ℝ) {t : ℝ} (ht : t ≥ t0) :
    HasDerivAt (lyap ε kp Ψ φ ω) (-(kd 0 * ω t 0 ^ 2 + kd 1 * ω t 1 ^ 2 + kd 2 * ω t 2 ^ 2) - ε * (q t ⬝ᵥ ω t) -
      ε * kp * (φ t ⬝ᵥ φ t) + ε * (kd 0 * (φ t 0 * ω t 0) + kd 1 * (φ t 1 * ω t 1) + kd 2 * (φ t 2 * ω t 2))) t := by
  have hw := T.law t ht
  have he := T.error t ht
  have h := (T.energy_deriv ht).sub (((((he 0).mul (hw 0)).add ((he 1).mul (hw 1))).add ((he 2).mul (hw 2))).const_mul ε)
  refine (h.congr_of_eventuallyEq (Eventually.of_forall fun s => ?_)).congr_deriv ?_
  · simp only [lyap, dot3]; simp
  · simp only [dot3]; ring

/-- A small enough cross term. -/
noncomputable def small (kp : ℝ) (kd : Fin 3 → ℝ) : ℝ :=
  min (min (1 / 2) (kp / 2)) (min (kd 0 / (4 + kd 0 ^ 2 / kp)) (min (kd 1 / (4 + kd 1 ^ 2 / kp)) (kd 2 / (4 + kd 2 ^ 2 / kp))))

theorem small_pos (hp : 0 < kp) (hd : ∀ i, 0 < kd i) : 0 < small kp kd := by
  have := hd 0; have := hd 1; have := hd 2
  unfold small
  refine lt_min (lt_min (by norm_num) (by positivity)) (lt_min (by positivity) (lt_min (by positivity) (by positivity)))

theorem small_le (hp : 0 < kp) (i : Fin 3) : small kp kd ≤ kd i / (4 + kd i ^ 2 / kp) := by
  fin_cases i
  · exact (min_le_right _ _).trans (min_le_left _ _)
  · exact (min_le_right _ _).trans ((min_le_right _ _).trans (min_le_left _ _))
  · exact (min_le_right _ _).trans ((min_le_right _ _).trans (min_le_right _ _))

theorem small_sq (hp : 0 < kp) (hd : ∀ i, 0 < kd i) : small kp kd ^ 2 ≤ kp / 4 := by
  have h0 := small_pos hp hd
  have h1 : small kp kd ≤ 1 / 2 := (min_le_left _ _).trans (min_le_left _ _)
  have h2 : small kp kd ≤ kp / 2 := (min_le_left _ _).trans (min_le_right _ _)
  nlinarith

/-- The smallest damping. -/
noncomputable def least (kd : Fin 3 → ℝ) : ℝ := min (kd 0) (min (kd 1) (kd 2))

theorem least_pos (hd : ∀ i, 0 < kd i) : 0 < least kd := lt_min (hd 0) (lt_min (hd 1) (hd 2))

theorem least_le (i : Fin 3) : least kd ≤ kd i := by
  fin_cases i
  · exact min_le_left _ _
  · exact (min_le_right _ _).trans (min_le_left _ _)
  · exact (min_le_right _ _).trans (min_le_right _ _)

/-- The derivative of the Lyapunov function is negative except at rest without error. -/
theorem lyap_falls (T : Turning kp kd t0 Ψ φ ω q) (hp : 0 < kp) (hd : ∀ i, 0 < kd i) {t : ℝ} (ht : t ≥ t0) :
    -(kd 0 * ω t 0 ^ 2 + kd 1 * ω t 1 ^ 2 + kd 2 * ω t 2 ^ 2) - small kp kd * (q t ⬝ᵥ ω t) -
      small kp kd * kp * (φ t ⬝ᵥ φ t) + small kp kd * (kd 0 * (φ t 0 * ω t 0) + kd 1 * (φ t 1 * ω t 1) + kd 2 * (φ t 2 * ω t 2)) ≤
    -(least kd / 2 * (ω t ⬝ᵥ ω t) + small kp kd * kp / 2 * (φ t ⬝ᵥ φ t)) := by
  have h0 := small_pos hp hd
  have hr := mul_le_mul_of_nonneg_left (T.rate t ht) h0.le
  have hax : ∀ i, small kp kd * (kd i * (φ t i * ω t i)) + 2 * small kp kd * ω t i ^ 2 - kd i * ω t i ^ 2 ≤
      small kp kd * kp / 2 * φ t i ^ 2 - least kd / 2 * ω t i ^ 2 := by
    intro i
    have hs := small_le (kd := kd) hp i
    have hdi := hd i
    have hpos : 0 < 4 + kd i ^ 2 / kp := by positivity
    rw [le_div_iff₀ hpos] at hs
    have e1 : small kp kd * (kd i * (φ t i * ω t i)) ≤ small kp kd * (kp / 2 * φ t i ^ 2 + kd i ^ 2 / kp / 2 * ω t i ^ 2) := by
      refine mul_le_mul_of_nonneg_left ?_ h0.le
      have e : kp / 2 * φ t i ^ 2 + kd i ^ 2 / kp / 2 * ω t i ^ 2 - kd i * (φ t i * ω t i) =
          (kp * φ t i - kd i * ω t i) ^ 2 / (2 * kp) := by field_simp; ring
      have : 0 ≤ (kp * φ t i - kd i * ω t i) ^ 2 / (2 * kp) := by positivity
      linarith
    have e2 := mul_le_mul_of_nonneg_right hs (sq_nonneg (ω t i))
    have e3 := mul_le_mul_of_nonneg_right (least_le (kd := kd) i) (sq_nonneg (ω t i))
    nlinarith
  have a0 := hax 0
  have a1 := hax 1
  have a2 := hax 2
  simp only [dot3] at hr ⊢
  nlinarith

theorem lyap_lower (T : Turning kp kd t0 Ψ φ ω q) (hp : 0 < kp) (hd : ∀ i, 0 < kd i) {t : ℝ} (ht : t ≥ t0) :
    1 / 4 * (ω t ⬝ᵥ ω t) + kp / 2 * Ψ t ≤ lyap (small kp kd) kp Ψ φ ω t ∧
      lyap (small kp kd) kp Ψ φ ω t ≤ 3 / 4 * (ω t ⬝ᵥ ω t) + 3 / 2 * kp * Ψ t := by
  have h0 := small_sq (kd := kd) hp hd
  have hΨ := T.pos t ht
  have hs := T.sine t ht
  have hP : small kp kd ^ 2 * (φ t ⬝ᵥ φ t) ≤ kp / 2 * Ψ t := by
    have h1 : φ t ⬝ᵥ φ t ≤ 2 * Ψ t := by rw [hs]; nlinarith
    have h2 : 0 ≤ φ t ⬝ᵥ φ t := dot_self_nonneg _
    nlinarith
  unfold lyap energy
  simp only [dot3] at hP ⊢
  have e1 : ∀ i, |small kp kd * (φ t i * ω t i)| ≤ small kp kd ^ 2 * φ t i ^ 2 + 1 / 4 * ω t i ^ 2 := fun i => by
    rw [abs_le]
    constructor
    · nlinarith [sq_nonneg (small kp kd * φ t i + 1 / 2 * ω t i)]
    · nlinarith [sq_nonneg (small kp kd * φ t i - 1 / 2 * ω t i)]
  have b0 := abs_le.mp (e1 0)
  have b1 := abs_le.mp (e1 1)
  have b2 := abs_le.mp (e1 2)
  constructor <;> nlinarith

/-- With less energy than at rest half a turn away: exponential convergence.  Rate and factor depend on the gains and on the margin
alone. -/
theorem settles_fast (hp : 0 < kp) (hd : ∀ i, 0 < kd i) {ρ : ℝ} (hρ : ρ < 2) :
    ∃ c > 0, ∃ K > 0, ∀ (t0 : ℝ) (Ψ : ℝ → ℝ) (φ ω q : ℝ → Fin 3 → ℝ), Turning kp kd t0 Ψ φ ω q → energy kp Ψ ω t0 ≤ ρ * kp →
      ∀ t ≥ t0, ω t ⬝ᵥ ω t + Ψ t ≤ K * (ω t0 ⬝ᵥ ω t0 + Ψ t0) * Real.exp (-c * (t - t0)) := by
  have h0 := small_pos hp hd
  have hl := least_pos hd
  have hρ' : 0 < 2 - ρ := by linarith
  set c := min (2 / 3 * least kd) (small kp kd * (2 - ρ) / 3) with hc
  have hc0 : 0 < c := lt_min (by positivity) (by positivity)
  set κ := min (1 / 4) (kp / 2) with hκ
  have hκ0 : 0 < κ := lt_min (by norm_num) (by positivity)
  set U := 3 / 4 + 3 / 2 * kp with hU
  refine ⟨c, hc0, U / κ, by positivity, ?_⟩
  intro t0 Ψ φ ω q T hE t ht
  have hlow : ∀ s ≥ t0, Ψ s ≤ ρ := by
    intro s hs
    have h1 := (T.energy_anti hd) (Set.mem_Ici.mpr le_rfl) (Set.mem_Ici.mpr hs) hs
    have h2 : kp * Ψ s ≤ energy kp Ψ ω s := by
      unfold energy; rw [dot3]; nlinarith [sq_nonneg (ω s 0), sq_nonneg (ω s 1), sq_nonneg (ω s 2)]
    have : kp * Ψ s ≤ kp * ρ := by linarith
    exact le_of_mul_le_mul_left this hp
  have hdecay := decay (k := 0) hc0 (fun s hs => T.lyap_deriv (small kp kd) hs) (fun s hs => ?_) ht
  · rw [zero_div, sub_zero, add_zero] at hdecay
    have b1 := (T.lyap_lower hp hd ht).1
    have b2 := (T.lyap_lower hp hd (le_refl t0)).2
    have hΨ := T.pos t ht
    have hΨ0 := T.pos t0 le_rfl
    have hN : 0 ≤ ω t ⬝ᵥ ω t := by rw [dot3]; nlinarith [mul_self_nonneg (ω t 0), mul_self_nonneg (ω t 1), mul_self_nonneg (ω t 2)]
    have hN0 : 0 ≤ ω t0 ⬝ᵥ ω t0 := by
      rw [dot3]; nlinarith [mul_self_nonneg (ω t0 0), mul_self_nonneg (ω t0 1), mul_self_nonneg (ω t0 2)]
    have h1 : κ * (ω t ⬝ᵥ ω t + Ψ t) ≤ lyap (small kp kd) kp Ψ φ ω t := by
      have a1 : κ ≤ 1 / 4 := min_le_left _ _
      have a2 : κ ≤ kp / 2 := min_le_right _ _
      nlinarith
    have h2 : lyap (small kp kd) kp Ψ φ ω t0 ≤ U * (ω t0 ⬝ᵥ ω t0 + Ψ t0) := by
      rw [hU]
      nlinarith [mul_nonneg hp.le hN0]
    have h3 : κ * (ω t ⬝ᵥ ω t + Ψ t) ≤ U * (ω t0 ⬝ᵥ ω t0 + Ψ t0) * Real.exp (-c * (t - t0)) :=
      h1.trans (hdecay.trans (mul_le_mul_of_nonneg_right h2 (Real.exp_pos _).le))
    have e : U / κ * (ω t0 ⬝ᵥ ω t0 + Ψ t0) * Real.exp (-c * (t - t0)) =
        U * (ω t0 ⬝ᵥ ω t0 + Ψ t0) * Real.exp (-c * (t - t0)) / κ := by ring
    rw [e, le_div_iff₀ hκ0]
    linarith
  · refine (T.lyap_falls hp hd hs).trans ?_
    have b2 := (T.lyap_lower hp hd hs).2
    have hΨ := T.pos s hs
    have hρs := hlow s hs
    have hN : 0 ≤ ω s ⬝ᵥ ω s := by rw [dot3]; nlinarith [mul_self_nonneg (ω s 0), mul_self_nonneg (ω s 1), mul_self_nonneg (ω s 2)]
    have hP : (2 - ρ) * Ψ s ≤ φ s ⬝ᵥ φ s := by rw [T.sine s hs]; nlinarith
    have c1 : c ≤ 2 / 3 * least kd := min_le_left _ _
    have c2 : c ≤ small kp kd * (2 - ρ) / 3 := min_le_right _ _
    have e1 : c * lyap (small kp kd) kp Ψ φ ω s ≤ c * (3 / 4 * (ω s ⬝ᵥ ω s) + 3 / 2 * kp * Ψ s) :=
      mul_le_mul_of_nonneg_left b2 hc0.le
    have e2 : c * (3 / 4 * (ω s ⬝ᵥ ω s)) ≤ least kd / 2 * (ω s ⬝ᵥ ω s) := by nlinarith
    have e3 : c * (3 / 2 * kp * Ψ s) ≤ small kp kd * kp / 2 * (φ s ⬝ᵥ φ s) := by
      have f1 : c * (3 / 2 * kp * Ψ s) ≤ small kp kd * (2 - ρ) / 3 * (3 / 2 * kp * Ψ s) :=
        mul_le_mul_of_nonneg_right c2 (by positivity)
      have f2 : small kp kd * kp / 2 * ((2 - ρ) * Ψ s) ≤ small kp kd * kp / 2 * (φ s ⬝ᵥ φ s) :=
        mul_le_mul_of_nonneg_left hP (by positivity)
      linarith
    linarith

/-- Whatever the energy: the motion comes to rest, without error or half a turn away from the target. -/
theorem settles_anyway (T : Turning kp kd t0 Ψ φ ω q) (hp : 0 < kp) (hd : ∀ i, 0 < kd i) :
    Tendsto (fun t => ω t ⬝ᵥ ω t) atTop (𝓝 0) ∧ (Tendsto Ψ atTop (𝓝 0) ∨ Tendsto Ψ atTop (𝓝 2)) := by
  have h0 := small_pos hp hd
  have hl := least_pos hd
  set a := min (least kd / 2) (small kp kd * kp / 2) with ha
  have ha0 : 0 < a := lt_min (by positivity) (by positivity)
  set E := energy kp Ψ ω t0 with hE
  have hEs : ∀ s ≥ t0, energy kp Ψ ω s ≤ E := fun s hs => (T.energy_anti hd) (Set.mem_Ici.mpr le_rfl) (Set.mem_Ici.mpr hs) hs
  have hN : ∀ s ≥ t0, ω s ⬝ᵥ ω s ≤ 2 * E := fun s hs => by
    have := hEs s hs
    unfold energy at this
    nlinarith [mul_nonneg hp.le (T.pos s hs)]
  have hE0 : 0 ≤ E := by linarith [hN t0 le_rfl, dot_self_nonneg (ω t0)]
  have hΨ2 : ∀ s ≥ t0, Ψ s ≤ 2 := fun s hs => by
    by_contra hc
    push Not at hc
    have h1 := dot_self_nonneg (φ s)
    rw [T.sine s hs] at h1
    nlinarith [T.pos s hs]
  have hP1 : ∀ s ≥ t0, φ s ⬝ᵥ φ s ≤ 1 := fun s hs => by
    rw [T.sine s hs]; nlinarith [sq_nonneg (Ψ s - 1)]
  set B := 1 / 2 * (1 + 2 * E) with hB
  have hX : ∀ s ≥ t0, |φ s ⬝ᵥ ω s| ≤ B := fun s hs => (dot_le_half _ _).trans (by
    have := hN s hs; have := hP1 s hs
    rw [hB]; linarith)
  set kM := kd 0 + kd 1 + kd 2 with hkM
  have hkM0 : 0 ≤ kM := by have := hd 0; have := hd 1; have := hd 2; positivity
  set g : ℝ → ℝ := fun s => a * ((ω s 0 ^ 2 + ω s 1 ^ 2 + ω s 2 ^ 2) + Ψ s * (2 - Ψ s)) with hg
  have hgeq : ∀ s ≥ t0, g s = a * (ω s ⬝ᵥ ω s + φ s ⬝ᵥ φ s) := fun s hs => by
    simp only [hg, T.sine s hs, dot3]; ring
  have hgd : ∀ s ≥ t0, HasDerivAt g (a * ((2 * kp - 2 + 2 * Ψ s) * (φ s ⬝ᵥ ω s) -
      2 * (kd 0 * ω s 0 ^ 2 + kd 1 * ω s 1 ^ 2 + kd 2 * ω s 2 ^ 2))) s := by
    intro s hs
    have hw := T.law s hs
    have hψ := T.angle s hs
    have h := (((((hw 0).pow 2).add ((hw 1).pow 2)).add ((hw 2).pow 2)).add (hψ.mul (hψ.const_sub 2))).const_mul a
    refine h.congr_deriv ?_
    simp only [dot3]
    norm_num
    left
    ring
  have hlim := barbalat (g := g) (M := a * ((2 * kp + 2) * B + 2 * (kM * (2 * E)))) (b := 0) (t0 := t0)
    (fun s hs => T.lyap_deriv (small kp kd) hs) hgd (fun s hs => ?_) (fun s hs => ?_) (fun s hs => ?_) ?_ (fun s hs => ?_)
  · have hsum : Tendsto (fun s => ω s ⬝ᵥ ω s + φ s ⬝ᵥ φ s) atTop (𝓝 0) := by
      have h1 := hlim.const_mul a⁻¹
      rw [mul_zero] at h1
      refine h1.congr' ?_
      filter_upwards [eventually_ge_atTop t0] with s hs
      rw [hgeq s hs, ← mul_assoc, inv_mul_cancel₀ ha0.ne', _root_.one_mul]
    have hω : Tendsto (fun s => ω s ⬝ᵥ ω s) atTop (𝓝 0) :=
      squeeze_zero (fun s => dot_self_nonneg _) (fun s => le_add_of_nonneg_right (dot_self_nonneg _)) hsum
    have hφ : Tendsto (fun s => φ s ⬝ᵥ φ s) atTop (𝓝 0) :=
      squeeze_zero (fun s => dot_self_nonneg _) (fun s => le_add_of_nonneg_left (dot_self_nonneg _)) hsum
    refine ⟨hω, ?_⟩
    -- the energy converges, hence the angle
    have hbdd : BddBelow (energy kp Ψ ω '' Set.Ici t0) := ⟨0, by
      rintro _ ⟨s, hs, rfl⟩
      unfold energy
      have := dot_self_nonneg (ω s); have := mul_nonneg hp.le (T.pos s hs)
      linarith⟩
    set m := sInf (energy kp Ψ ω '' Set.Ici t0) with hm
    have hen : Tendsto (energy kp Ψ ω) atTop (𝓝 m) := by
      rw [Metric.tendsto_atTop]
      intro e he
      obtain ⟨_, ⟨s, hs, rfl⟩, hlt⟩ := exists_lt_of_csInf_lt (Set.Nonempty.image (energy kp Ψ ω) ⟨t0, Set.mem_Ici.mpr le_rfl⟩)
        (show m < m + e by linarith)
      refine ⟨s, fun t ht => ?_⟩
      have ht0 : t ≥ t0 := le_trans (Set.mem_Ici.mp hs) ht
      have h2 := (T.energy_anti hd) hs (Set.mem_Ici.mpr ht0) ht
      have h3 : m ≤ energy kp Ψ ω t := csInf_le hbdd ⟨t, Set.mem_Ici.mpr ht0, rfl⟩
      rw [Real.dist_eq, abs_of_nonneg (by linarith)]
      linarith
    have hΨl : Tendsto Ψ atTop (𝓝 (m / kp)) := by
      have h1 := (hen.sub (hω.const_mul (1 / 2))).div_const kp
      rw [mul_zero, sub_zero] at h1
      refine h1.congr fun s => ?_
      unfold energy
      field_simp
      ring
    have h2 : Tendsto (fun s => φ s ⬝ᵥ φ s) atTop (𝓝 (m / kp * (2 - m / kp))) := by
      refine (hΨl.mul (hΨl.const_sub 2)).congr' ?_
      filter_upwards [eventually_ge_atTop t0] with s hs
      rw [T.sine s hs]
    rcases mul_eq_zero.mp (tendsto_nhds_unique h2 hφ) with h | h
    · left; rwa [h] at hΨl
    · right
      have : m / kp = 2 := by linarith
      rwa [this] at hΨl
  · refine (T.lyap_falls hp hd hs).trans ?_
    rw [hgeq s hs, neg_le_neg_iff, mul_add]
    exact add_le_add (mul_le_mul_of_nonneg_right (min_le_left _ _) (dot_self_nonneg _))
      (mul_le_mul_of_nonneg_right (min_le_right _ _) (dot_self_nonneg _))
  · rw [hgeq s hs]
    exact mul_nonneg ha0.le (add_nonneg (dot_self_nonneg _) (dot_self_nonneg _))
  · rw [← mul_neg]
    refine mul_le_mul_of_nonneg_left ?_ ha0.le
    have h1 := hX s hs
    have h2 : |(2 * kp - 2 + 2 * Ψ s) * (φ s ⬝ᵥ ω s)| ≤ (2 * kp + 2) * B := by
      rw [abs_mul]
      refine mul_le_mul ?_ h1 (abs_nonneg _) (by positivity)
      rw [abs_le]
      constructor <;> linarith [T.pos s hs, hΨ2 s hs]
    have h3 : kd 0 * ω s 0 ^ 2 + kd 1 * ω s 1 ^ 2 + kd 2 * ω s 2 ^ 2 ≤ kM * (2 * E) := by
      have h4 := hN s hs
      have h5 : kM * (ω s ⬝ᵥ ω s) ≤ kM * (2 * E) := mul_le_mul_of_nonneg_left h4 hkM0
      rw [dot3] at h5
      have := hd 0; have := hd 1; have := hd 2
      have m01 := mul_nonneg (hd 0).le (sq_nonneg (ω s 1)); have m02 := mul_nonneg (hd 0).le (sq_nonneg (ω s 2))
      have m10 := mul_nonneg (hd 1).le (sq_nonneg (ω s 0)); have m12 := mul_nonneg (hd 1).le (sq_nonneg (ω s 2))
      have m20 := mul_nonneg (hd 2).le (sq_nonneg (ω s 0)); have m21 := mul_nonneg (hd 2).le (sq_nonneg (ω s 1))
      rw [hkM] at h5 ⊢
      nlinarith
    have := (abs_le.mp h2).1
    linarith
  · positivity
  · have h1 := (T.lyap_lower hp hd hs).1
    have := dot_self_nonneg (ω s); have := mul_nonneg hp.le (T.pos s hs)
    linarith

end Turning

end Verif
