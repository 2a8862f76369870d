import Verif.Lemmas.Spline
import Mathlib.Analysis.Calculus.Deriv.Comp
import Mathlib.Analysis.Calculus.Deriv.Shift
import Mathlib.Topology.Order.Lattice

/-!
# C16, C17: quintic and cubic splines
-/
set_option linter.unusedSectionVars false

namespace Verif.Props
open Matrix Verif Verif.Model Set

/-- Gluing at a point: a function equal to `g` up to `a` and to `k` from `a` on. -/
theorem glue_deriv {f g k : ℝ → ℝ} {a d : ℝ} (hg : HasDerivAt g d a) (hk : HasDerivAt k d a)
    (hfg : ∀ t ≤ a, f t = g t) (hfk : ∀ t, a ≤ t → f t = k t) : HasDerivAt f d a := by
  rw [← hasDerivWithinAt_univ, ← Iic_union_Ici (a := a)]
  exact (hg.hasDerivWithinAt.congr (fun t ht => hfg t ht) (hfg a le_rfl)).union
    (hk.hasDerivWithinAt.congr (fun t ht => hfk t ht) (hfk a le_rfl))

/-- a three-piece trajectory is the middle piece with clamped time -/
theorem piece_clamp {α : Type*} {t0 tf : ℝ} (h : t0 < tf) (E : ℝ → α) (t : ℝ) :
    (open Classical in if t < t0 then E t0 else if t > tf then E tf else E t) = E (max t0 (min t tf)) := by
  split_ifs with h1 h2
  · rw [min_eq_left (h1.le.trans h.le), max_eq_left h1.le]
  · rw [min_eq_right h2.le, max_eq_right h.le]
  · rw [min_eq_left (not_lt.mp h2), max_eq_right (not_lt.mp h1)]

theorem quintic_clamp {t0 tf : ℝ} (h : t0 < tf) (x0 v0 a0 xf vf af t : ℝ) :
    quinticSpline t t0 tf x0 v0 a0 xf vf af = some (quinticEval x0 v0 a0
      ((quinticMat (tf - t0))⁻¹ *ᵥ quinticRhs (tf - t0) x0 v0 a0 xf vf af) (max t0 (min t tf) - t0)) := by
  rw [quinticSpline_eq h]
  have := piece_clamp h (fun t => quinticEval x0 v0 a0
      ((quinticMat (tf - t0))⁻¹ *ᵥ quinticRhs (tf - t0) x0 v0 a0 xf vf af) (t - t0)) t
  simp only [sub_self, quinticEval_start, quinticEval_end (sub_pos.mpr h).ne'] at this
  rw [← this]

/-- C16.  For `t0 < tf` the spline is defined at every time; inside the interval its second and third component are
the first and second derivative of the first; the boundary data are met at `t0` and `tf` and held outside; the
whole profile is continuous. -/
theorem C16_quintic {t0 tf : ℝ} (h : t0 < tf) (x0 v0 a0 xf vf af : ℝ) :
    ∃ y : ℝ → Fin 3 → ℝ, (∀ t, quinticSpline t t0 tf x0 v0 a0 xf vf af = some (y t)) ∧
      (∀ t ≤ t0, y t = ![x0, v0, a0]) ∧ (∀ t, tf ≤ t → y t = ![xf, vf, af]) ∧
      (∀ t ∈ Ioo t0 tf, HasDerivAt (fun s => y s 0) (y t 1) t ∧ HasDerivAt (fun s => y s 1) (y t 2) t) ∧
      Continuous y := by
  set r := (quinticMat (tf - t0))⁻¹ *ᵥ quinticRhs (tf - t0) x0 v0 a0 xf vf af with hr
  refine ⟨fun t => quinticEval x0 v0 a0 r (max t0 (min t tf) - t0), quintic_clamp h x0 v0 a0 xf vf af, ?_, ?_, ?_, ?_⟩
  · intro t ht
    simp only
    rw [max_eq_left ((min_le_left _ _).trans ht), sub_self, quinticEval_start]
  · intro t ht
    simp only
    rw [min_eq_right ht, max_eq_right h.le, hr, quinticEval_end (sub_pos.mpr h).ne']
  · intro t ht
    have hev : ∀ᶠ s in nhds t, max t0 (min s tf) = s := by
      filter_upwards [Ioo_mem_nhds ht.1 ht.2] with s hs
      rw [min_eq_left hs.2.le, max_eq_right hs.1.le]
    have ht' : max t0 (min t tf) = t := by rw [min_eq_left ht.2.le, max_eq_right ht.1.le]
    simp only [ht']
    constructor
    · have := (quinticEval_deriv_pos x0 v0 a0 r (t - t0)).comp_sub_const t t0
      exact this.congr_of_eventuallyEq (hev.mono fun s hs => by simp only [hs])
    · have := (quinticEval_deriv_vel x0 v0 a0 r (t - t0)).comp_sub_const t t0
      exact this.congr_of_eventuallyEq (hev.mono fun s hs => by simp only [hs])
  · exact (quinticEval_cont x0 v0 a0 r t0).comp
      (Continuous.max continuous_const (Continuous.min continuous_id continuous_const))

/-- C16.  From rest to rest (zero end velocities and accelerations) velocity and acceleration are the derivatives at
every time, the ends included. -/
theorem C16_rest_to_rest {t0 tf : ℝ} (h : t0 < tf) (x0 xf : ℝ) :
    ∃ y : ℝ → Fin 3 → ℝ, (∀ t, quinticSpline t t0 tf x0 0 0 xf 0 0 = some (y t)) ∧
      ∀ t, HasDerivAt (fun s => y s 0) (y t 1) t ∧ HasDerivAt (fun s => y s 1) (y t 2) t := by
  obtain ⟨y, hy, hlo, hhi, hin, -⟩ := C16_quintic h x0 0 0 xf 0 0
  refine ⟨y, hy, fun t => ?_⟩
  set r := (quinticMat (tf - t0))⁻¹ *ᵥ quinticRhs (tf - t0) x0 0 0 xf 0 0 with hr
  have hyr : ∀ s, y s = quinticEval x0 0 0 r (max t0 (min s tf) - t0) := fun s =>
    Option.some.inj ((hy s).symm.trans (quintic_clamp h x0 0 0 xf 0 0 s))
  have hmid : ∀ s, t0 ≤ s → s ≤ tf → y s = quinticEval x0 0 0 r (s - t0) := fun s h1 h2 => by
    rw [hyr, min_eq_left h2, max_eq_right h1]
  have hst := quinticEval_start x0 0 0 r
  have hen : quinticEval x0 0 0 r (tf - t0) = ![xf, 0, 0] := quinticEval_end (sub_pos.mpr h).ne' x0 0 0 xf 0 0
  have hconst : ∀ c : ℝ, HasDerivAt (fun _ : ℝ => c) 0 t := fun c => hasDerivAt_const t c
  have hp := (quinticEval_deriv_pos x0 0 0 r (t - t0)).comp_sub_const t t0
  have hv := (quinticEval_deriv_vel x0 0 0 r (t - t0)).comp_sub_const t t0
  rcases lt_trichotomy t t0 with h1 | h1 | h1
  · have hev : ∀ᶠ s in nhds t, y s = ![x0, 0, 0] := (Iio_mem_nhds h1 : Iio t0 ∈ nhds t) |> fun hm =>
      Filter.mem_of_superset hm fun s hs => hlo s (le_of_lt hs)
    rw [hlo t h1.le]
    exact ⟨(hconst x0).congr_of_eventuallyEq (hev.mono fun s hs => by simp [hs]),
      (hconst 0).congr_of_eventuallyEq (hev.mono fun s hs => by simp [hs])⟩
  · subst h1
    rw [sub_self, hst] at hp hv
    rw [hlo t le_rfl]
    -- glue constant and polynomial near `t0`: use a local version
    have hle : ∀ s ≤ t, y s = ![x0, 0, 0] := hlo
    have key : ∀ i : Fin 3, HasDerivAt (fun s => quinticEval x0 0 0 r (s - t) i) 0 t →
        HasDerivAt (fun s => y s i) 0 t := by
      intro i hi
      have hg : HasDerivAt (fun s => (open Classical in if s ≤ t then (![x0, 0, 0] : Fin 3 → ℝ) i
          else quinticEval x0 0 0 r (s - t) i)) 0 t := by
        refine glue_deriv (hconst ((![x0, 0, 0] : Fin 3 → ℝ) i)) hi ?_ ?_
        · intro s hs; exact if_pos hs
        · intro s hs
          rcases hs.eq_or_lt with rfl | hs
          · rw [if_pos le_rfl, sub_self, hst]
          · exact if_neg (not_le.mpr hs)
      refine hg.congr_of_eventuallyEq ?_
      filter_upwards [Iio_mem_nhds h] with s hs
      split_ifs with hc
      · rw [hle s hc]
      · rw [hmid s (not_le.mp hc).le (le_of_lt hs)]
    exact ⟨key 0 (by simpa using hp), key 1 (by simpa using hv)⟩
  · rcases lt_trichotomy t tf with h2 | h2 | h2
    · exact hin t ⟨h1, h2⟩
    · subst h2
      rw [hen] at hp hv
      rw [hhi t le_rfl]
      have key : ∀ i : Fin 3, HasDerivAt (fun s => quinticEval x0 0 0 r (s - t0) i) 0 t →
          HasDerivAt (fun s => y s i) 0 t := by
        intro i hi
        have hg : HasDerivAt (fun s => (open Classical in if s ≤ t then quinticEval x0 0 0 r (s - t0) i
            else (![xf, 0, 0] : Fin 3 → ℝ) i)) 0 t := by
          refine glue_deriv hi (hconst ((![xf, 0, 0] : Fin 3 → ℝ) i)) ?_ ?_
          · intro s hs; exact if_pos hs
          · intro s hs
            rcases hs.eq_or_lt with rfl | hs
            · rw [if_pos le_rfl, hen]
            · exact if_neg (not_le.mpr hs)
        refine hg.congr_of_eventuallyEq ?_
        filter_upwards [Ioi_mem_nhds h] with s hs
        split_ifs with hc
        · rw [hmid s (le_of_lt hs) hc]
        · rw [hhi s (not_le.mp hc).le]
      exact ⟨key 0 (by simpa using hp), key 1 (by simpa using hv)⟩
    · have hev : ∀ᶠ s in nhds t, y s = ![xf, 0, 0] :=
        Filter.mem_of_superset (Ioi_mem_nhds h2) fun s hs => hhi s (le_of_lt hs)
      rw [hhi t h2.le]
      exact ⟨(hconst xf).congr_of_eventuallyEq (hev.mono fun s hs => by simp [hs]),
        (hconst 0).congr_of_eventuallyEq (hev.mono fun s hs => by simp [hs])⟩

/-- C16.  The only undefined call: start, end and current time all equal (`0/0`). -/
theorem C16_undefined_iff (t t0 tf x0 v0 a0 xf vf af : ℝ) :
    quinticSpline t t0 tf x0 v0 a0 xf vf af = none ↔ t0 = tf ∧ t = t0 := by
  constructor
  · intro hn
    rcases lt_or_ge t0 tf with h | h
    · rw [quinticSpline_eq h] at hn; cases hn
    · unfold quinticSpline at hn
      split_ifs at hn with h1 h2
      have : t0 = tf := le_antisymm (by linarith) h
      exact ⟨this, by linarith⟩
  · rintro ⟨rfl, rfl⟩
    unfold quinticSpline
    rw [if_neg (lt_irrefl _), if_neg (lt_irrefl _), eigenInverse_eq_none.mpr]
    rw [quinticMat_det]; simp

/-- hypotheses met: half way from 0 to 1 in one second, from rest to rest, the position is 1/2 -/
example : ∃ y, quinticSpline (1 / 2) 0 1 0 0 0 1 0 0 = some y ∧ y 0 = 1 / 2 := by
  refine ⟨_, quintic_clamp one_pos 0 0 0 1 0 0 (1 / 2), ?_⟩
  have h := quintic_coeff (T := 1 - 0) (by norm_num) (quinticRhs (1 - 0) 0 0 0 1 0 0)
  generalize ((quinticMat (1 - 0))⁻¹ *ᵥ quinticRhs (1 - 0) 0 0 0 1 0 0) = r at h ⊢
  have h0 := congrFun h 0
  have h1 := congrFun h 1
  have h2 := congrFun h 2
  simp [quinticMat, quinticRhs, mulVec, dotProduct, Fin.sum_univ_three] at h0 h1 h2
  have : max (0 : ℝ) (min (1 / 2) 1) - 0 = 1 / 2 := by norm_num
  rw [this]
  simp [quinticEval]
  linarith

theorem cubic_clamp {t0 tf : ℝ} (h : t0 < tf) (x0 xf v0 vf t : ℝ) :
    cubic t t0 tf x0 xf v0 vf = some (cubicEval (max t0 (min t tf) - t0) (tf - t0) x0 xf v0 vf) := by
  rw [cubic_eq h]
  have := piece_clamp h (fun t => cubicEval (t - t0) (tf - t0) x0 xf v0 vf) t
  simp only [sub_self, cubicEval_zero, cubicEval_end (sub_pos.mpr h).ne'] at this
  rw [← this]

/-- C17.  For `t0 < tf` the cubic is defined at every time, differentiable inside the interval, leaves `t0` and
reaches `tf` with the requested velocities, holds the end values outside, and is continuous. -/
theorem C17_cubic {t0 tf : ℝ} (h : t0 < tf) (x0 xf v0 vf : ℝ) :
    ∃ y : ℝ → ℝ, (∀ t, cubic t t0 tf x0 xf v0 vf = some (y t)) ∧
      (∀ t ≤ t0, y t = x0) ∧ (∀ t, tf ≤ t → y t = xf) ∧
      (∀ t ∈ Ioo t0 tf, DifferentiableAt ℝ y t) ∧
      HasDerivWithinAt y v0 (Ici t0) t0 ∧ HasDerivWithinAt y vf (Iic tf) tf ∧
      Continuous y := by
  have hT := (sub_pos.mpr h).ne'
  set y : ℝ → ℝ := fun t => cubicEval (max t0 (min t tf) - t0) (tf - t0) x0 xf v0 vf with hy
  have hd := fun t => (cubicEval_deriv (t - t0) (tf - t0) x0 xf v0 vf).comp_sub_const t t0
  have hmid : ∀ s, t0 ≤ s → s ≤ tf → y s = cubicEval (s - t0) (tf - t0) x0 xf v0 vf := fun s h1 h2 => by
    simp only [hy]; rw [min_eq_left h2, max_eq_right h1]
  refine ⟨y, cubic_clamp h x0 xf v0 vf, ?_, ?_, ?_, ?_, ?_, ?_⟩
  · intro t ht
    simp only [hy]
    rw [max_eq_left ((min_le_left _ _).trans ht), sub_self, cubicEval_zero]
  · intro t ht
    simp only [hy]
    rw [min_eq_right ht, max_eq_right h.le, cubicEval_end hT]
  · intro t ht
    refine ((hd t).congr_of_eventuallyEq ?_).differentiableAt
    filter_upwards [Ioo_mem_nhds ht.1 ht.2] with s hs using hmid s hs.1.le hs.2.le
  · have h1 : HasDerivWithinAt (fun s => cubicEval (s - t0) (tf - t0) x0 xf v0 vf) v0 (Ici t0) t0 :=
      ((hd t0).congr_deriv (by simp)).hasDerivWithinAt
    refine h1.congr_of_eventuallyEq ?_ (hmid t0 le_rfl h.le)
    filter_upwards [self_mem_nhdsWithin, mem_nhdsWithin_of_mem_nhds (Iio_mem_nhds h)] with s h2 h3
    exact hmid s h2 (le_of_lt h3)
  · have h1 : HasDerivWithinAt (fun s => cubicEval (s - t0) (tf - t0) x0 xf v0 vf) vf (Iic tf) tf :=
      ((hd tf).congr_deriv (by field_simp; ring)).hasDerivWithinAt
    refine h1.congr_of_eventuallyEq ?_ (hmid tf h.le le_rfl)
    filter_upwards [self_mem_nhdsWithin, mem_nhdsWithin_of_mem_nhds (Ioi_mem_nhds h)] with s h2 h3
    exact hmid s (le_of_lt h3) h2
  · have : Continuous fun e => cubicEval e (tf - t0) x0 xf v0 vf := by unfold cubicEval; fun_prop
    exact this.comp ((Continuous.max continuous_const (Continuous.min continuous_id continuous_const)).sub continuous_const)

/-- C17.  With zero end velocities the trajectory moves monotonically from `x0` to `xf`: `y t` is `x0 + s(t)(xf - x0)`
with `s` nondecreasing and between 0 and 1. -/
theorem C17_monotone {t0 tf : ℝ} (h : t0 < tf) :
    ∃ s : ℝ → ℝ, Monotone s ∧ (∀ t, 0 ≤ s t ∧ s t ≤ 1) ∧ (∀ t ≤ t0, s t = 0) ∧ (∀ t, tf ≤ t → s t = 1) ∧
      ∀ x0 xf t, cubic t t0 tf x0 xf 0 0 = some (x0 + (xf - x0) * s t) := by
  have hT := sub_pos.mpr h
  set u : ℝ → ℝ := fun t => (max t0 (min t tf) - t0) / (tf - t0) with hu
  have h0 : ∀ t, 0 ≤ u t := fun t => div_nonneg (by simp) hT.le
  have h1 : ∀ t, u t ≤ 1 := fun t => by
    rw [hu]; simp only; rw [div_le_one hT]
    linarith [max_le h.le (min_le_right t tf)]
  have hm : Monotone u := fun a b hab => by
    simp only [hu]
    gcongr
  refine ⟨fun t => u t ^ 2 * (3 - 2 * u t), fun a b hab => blend_mono (h0 a) (hm hab) (h1 b), fun t => ⟨?_, ?_⟩, ?_, ?_, ?_⟩
  · exact mul_nonneg (sq_nonneg _) (by linarith [h1 t])
  · have := blend_mono (h0 t) (h1 t) le_rfl
    simpa [show (3 : ℝ) - 2 = 1 by norm_num] using this
  · intro t ht
    have : u t = 0 := by simp only [hu]; rw [max_eq_left ((min_le_left _ _).trans ht)]; simp
    simp [this]
  · intro t ht
    have : u t = 1 := by simp only [hu]; rw [min_eq_right ht, max_eq_right h.le, div_self hT.ne']
    simp only [this]; norm_num
  · intro x0 xf t
    rw [cubic_clamp h, cubicEval_rest hT.ne']

/-- C17.  The only undefined call: start, end and current time all equal. -/
theorem C17_undefined_iff (t t0 tf x0 xf v0 vf : ℝ) :
    cubic t t0 tf x0 xf v0 vf = none ↔ t0 = tf ∧ t = t0 := by
  constructor
  · intro hn
    unfold cubic at hn
    split_ifs at hn with h1 h2 h3
    have : t0 = tf := by linarith
    exact ⟨this, by linarith⟩
  · rintro ⟨rfl, rfl⟩
    simp [cubic]

/-- hypotheses met: a quarter of the way through, the rest-to-rest cubic from 2 to 4 is at `2 + 2·10/64` -/
example : cubic (1 / 4) 0 1 2 4 0 0 = some (2 + 2 * (10 / 64)) := by
  rw [cubic_eq one_pos, if_neg (by norm_num), if_neg (by norm_num)]
  norm_num [cubicEval]

end Verif.Props
