import Verif.Model.Redistribute
import Verif.Spec.TwoContacts
import Mathlib.Tactic.Linarith
import Mathlib.Tactic.Ring
import Mathlib.Tactic.FieldSimp
import Mathlib.Tactic.LinearCombination
import Mathlib.Tactic.FinCases

set_option linter.unusedSectionVars false

namespace Verif
open Verif.Model Verif.Spec Matrix

theorem quad_disc {A B C : ℝ} (hC : 0 ≤ C) :
    Real.sqrt ((2 * A * B) * (2 * A * B) - 4 * (A * A) * (B * B - C * C)) = 2 * (|A| * C) := by
  have : (2 * A * B) * (2 * A * B) - 4 * (A * A) * (B * B - C * C) = (2 * (|A| * C)) ^ 2 := by
    have h := abs_mul_abs_self A
    linear_combination (-4 * C * C) * h
  rw [this, Real.sqrt_sq (by positivity)]

/-- Roots of `(A η + B)² = C²` delimit `|A η + B| ≤ C`. -/
theorem root_iff {A B C : ℝ} (hA : A ≠ 0) (η : ℝ) :
    |A * η + B| ≤ C ↔
      (-(2 * A * B) - 2 * (|A| * C)) / 2 / (A * A) ≤ η ∧ η ≤ (-(2 * A * B) + 2 * (|A| * C)) / 2 / (A * A) := by
  have hpos : 0 < A * A := mul_self_pos.mpr hA
  have hab : 0 < |A| := abs_pos.mpr hA
  rw [div_le_iff₀ hpos, le_div_iff₀ hpos]
  have h1 : |A * η + B| ≤ C ↔ |A| * |A * η + B| ≤ |A| * C := by
    constructor
    · intro h; exact mul_le_mul_of_nonneg_left h hab.le
    · intro h; exact le_of_mul_le_mul_left h hab
  rw [h1, ← abs_mul, abs_le]
  have e : A * (A * η + B) = η * (A * A) + A * B := by ring
  rw [e]
  constructor
  · rintro ⟨h2, h3⟩; constructor <;> linarith
  · rintro ⟨h2, h3⟩; constructor <;> linarith

/-- With `A = 0` the quadratic gives NaN bounds and nothing changes. -/
theorem tighten_zero (s : Bool) (B C : ℝ) (p : Fl × Fl) : tighten s 0 B C p = p := by
  unfold tighten
  have h : ∀ x : ℝ, x = 0 → Fl.div s x (0 * 0) = Fl.nan := by
    intro x hx; simp [Fl.div, hx]
  simp only
  rw [h _ (by simp), h _ (by simp)]
  simp [Fl.Lt]

/-- Otherwise the bounds are intersected with the interval where `|A η + B| ≤ C`. -/
theorem tighten_spec (s : Bool) {A B C : ℝ} (hA : A ≠ 0) (hC : 0 ≤ C) (lb ub : ℝ) :
    ∃ lb' ub', tighten s A B C (.fin lb, .fin ub) = (.fin lb', .fin ub') ∧ lb ≤ lb' ∧ ub' ≤ ub ∧
      ∀ η, (lb' ≤ η ∧ η ≤ ub') ↔ (lb ≤ η ∧ η ≤ ub) ∧ |A * η + B| ≤ C := by
  have hAA : A * A ≠ 0 := mul_self_ne_zero.mpr hA
  unfold tighten
  simp only
  rw [quad_disc hC]
  set s1 := (-(2 * A * B) + 2 * (|A| * C)) / 2 / (A * A) with h1
  set s2 := (-(2 * A * B) - 2 * (|A| * C)) / 2 / (A * A) with h2
  have e1 : Fl.div s ((-(2 * A * B) + 2 * (|A| * C)) / 2) (A * A) = .fin s1 := by simp [Fl.div, hA, h1]
  have e2 : Fl.div s ((-(2 * A * B) - 2 * (|A| * C)) / 2) (A * A) = .fin s2 := by simp [Fl.div, hA, h2]
  rw [e1, e2]
  have hle : s2 ≤ s1 := by
    rw [h1, h2]
    have : 0 ≤ |A| * C := by positivity
    have hpos : 0 < A * A := mul_self_pos.mpr hA
    gcongr
    linarith
  have hr : ∀ η, |A * η + B| ≤ C ↔ s2 ≤ η ∧ η ≤ s1 := fun η => root_iff hA η
  simp only [hr]
  by_cases hlt : Fl.Lt (.fin s2) (.fin s1)
  · rw [if_pos hlt]
    by_cases ha : Fl.Lt (.fin lb) (.fin s2) <;> by_cases hb : Fl.Lt (.fin s1) (.fin ub) <;>
      simp only [ha, hb, if_true, if_false] <;> change _ < _ at hlt <;> simp only [Fl.Lt, not_lt] at ha hb
    · exact ⟨s2, s1, rfl, ha.le, hb.le, fun η => ⟨fun h => ⟨⟨by linarith, by linarith⟩, h⟩, fun h => h.2⟩⟩
    · exact ⟨s2, ub, rfl, ha.le, le_rfl, fun η =>
        ⟨fun h => ⟨⟨by linarith, h.2⟩, h.1, by linarith⟩, fun h => ⟨h.2.1, h.1.2⟩⟩⟩
    · exact ⟨lb, s1, rfl, le_rfl, hb.le, fun η =>
        ⟨fun h => ⟨⟨h.1, by linarith⟩, by linarith, h.2⟩, fun h => ⟨h.1.1, h.2.2⟩⟩⟩
    · exact ⟨lb, ub, rfl, le_rfl, le_rfl, fun η =>
        ⟨fun h => ⟨h, by linarith, by linarith⟩, fun h => h.1⟩⟩
  · have heq : s1 = s2 := le_antisymm (not_lt.mp hlt) hle
    rw [if_neg hlt]
    by_cases ha : Fl.Lt (.fin lb) (.fin s1) <;> by_cases hb : Fl.Lt (.fin s2) (.fin ub) <;>
      simp only [ha, hb, if_true, if_false] <;> simp only [Fl.Lt, not_lt] at ha hb
    · exact ⟨s1, s2, rfl, ha.le, hb.le, fun η =>
        ⟨fun h => ⟨⟨by linarith, by linarith⟩, by linarith, by linarith⟩,
          fun h => ⟨by linarith, by linarith⟩⟩⟩
    · exact ⟨s1, ub, rfl, ha.le, le_rfl, fun η =>
        ⟨fun h => ⟨⟨by linarith, h.2⟩, by linarith, by linarith⟩,
          fun h => ⟨by linarith [h.2.1], h.1.2⟩⟩⟩
    · exact ⟨lb, s2, rfl, le_rfl, hb.le, fun η =>
        ⟨fun h => ⟨⟨h.1, by linarith⟩, by linarith, by linarith⟩, fun h => ⟨h.1.1, by linarith [h.2.2]⟩⟩⟩
    · exact ⟨lb, ub, rfl, le_rfl, le_rfl, fun η =>
        ⟨fun h => ⟨h, by linarith, by linarith⟩, fun h => h.1⟩⟩

/-- In all cases: the bounds stay finite, only shrink, and cut out exactly the values allowed by `|A η + B| ≤ C`
(if `A ≠ 0`). -/
theorem tighten_gen (s : Bool) {A B C : ℝ} (hC : 0 ≤ C) (lb ub : ℝ) :
    ∃ lb' ub', tighten s A B C (.fin lb, .fin ub) = (.fin lb', .fin ub') ∧ lb ≤ lb' ∧ ub' ≤ ub ∧
      ∀ η, (lb' ≤ η ∧ η ≤ ub') ↔ (lb ≤ η ∧ η ≤ ub) ∧ (A ≠ 0 → |A * η + B| ≤ C) := by
  by_cases hA : A = 0
  · subst hA
    exact ⟨lb, ub, tighten_zero s B C _, le_rfl, le_rfl, by simp⟩
  · obtain ⟨l, u, h1, h2, h3, h4⟩ := tighten_spec s (B := B) hA hC lb ub
    exact ⟨l, u, h1, h2, h3, by simpa [hA] using h4⟩

/-- All three tightenings together. -/
theorem bounds_spec (s : Fin 4 → Bool) {A B C : Fin 3 → ℝ} (hC : ∀ i, 0 ≤ C i) (lb ub : ℝ) :
    ∃ lb' ub', tighten (s 2) (A 2) (B 2) (C 2) (tighten (s 1) (A 1) (B 1) (C 1)
        (tighten (s 0) (A 0) (B 0) (C 0) (.fin lb, .fin ub))) = (.fin lb', .fin ub') ∧ lb ≤ lb' ∧ ub' ≤ ub ∧
      ∀ η, (lb' ≤ η ∧ η ≤ ub') ↔ (lb ≤ η ∧ η ≤ ub) ∧ ∀ i, A i ≠ 0 → |A i * η + B i| ≤ C i := by
  obtain ⟨l0, u0, e0, a0, b0, h0⟩ := tighten_gen (s 0) (A := A 0) (B := B 0) (hC 0) lb ub
  obtain ⟨l1, u1, e1, a1, b1, h1⟩ := tighten_gen (s 1) (A := A 1) (B := B 1) (hC 1) l0 u0
  obtain ⟨l2, u2, e2, a2, b2, h2⟩ := tighten_gen (s 2) (A := A 2) (B := B 2) (hC 2) l1 u1
  refine ⟨l2, u2, by rw [e0, e1, e2], by linarith, by linarith, fun η => ?_⟩
  rw [h2, h1, h0, Fin.forall_fin_succ, Fin.forall_fin_two]
  simp only [Fin.succ_zero_eq_one, Fin.succ_one_eq_two]
  tauto

theorem coefC_nonneg {p : RedistParams} (hw : 0 ≤ p.ratioY * p.footWidth) (hl : 0 ≤ p.ratioX * p.footLength)
    (hm : 0 ≤ p.mu) (R : Fin 6 → ℝ) (i : Fin 3) : 0 ≤ coefC p R i := by
  have := abs_nonneg (R 2)
  fin_cases i <;> simp [coefC] <;> positivity

theorem forall_fin_three {P : Fin 3 → Prop} : (∀ i, P i) ↔ P 0 ∧ P 1 ∧ P 2 := by
  rw [Fin.forall_fin_succ, Fin.forall_fin_two]; rfl

theorem clamp_range {k e : ℝ} {b : Fl × Fl} {x : Fl} (h : clampRatio k b x = .fin e) :
    (1 - k ≤ e ∧ e ≤ k) ∨ e = 1 / 2 := by
  unfold clampRatio at h
  simp only at h
  generalize (open Classical in if Fl.Lt b.2 x then b.2 else if Fl.Lt x b.1 then b.1 else x) = y at h
  split_ifs at h with h1
  · right; simpa using h.symm
  · subst h
    simp only [Fl.Lt, not_or, not_lt] at h1
    exact Or.inl ⟨h1.2, h1.1⟩

theorem clamp_nan (k lb ub : ℝ) : clampRatio k (.fin lb, .fin ub) .nan = .nan := by
  simp [clampRatio, Fl.Lt]

theorem clamp_fin (k lb ub : ℝ) {x : Fl} (hx : x ≠ .nan) : ∃ e, clampRatio k (.fin lb, .fin ub) x = .fin e := by
  unfold clampRatio
  simp only
  have : ∃ y, (open Classical in if Fl.Lt (.fin ub) x then Fl.fin ub else if Fl.Lt x (.fin lb) then .fin lb else x)
      = .fin y := by
    rcases x with _ | b | x
    · exact absurd rfl hx
    · cases b
      · exact ⟨ub, if_pos (by simp [Fl.Lt])⟩
      · refine ⟨lb, ?_⟩
        rw [if_neg (by simp [Fl.Lt]), if_pos (by simp [Fl.Lt])]
    · split_ifs <;> exact ⟨_, rfl⟩
  obtain ⟨y, hy⟩ := this
  rw [hy]
  split_ifs <;> exact ⟨_, rfl⟩

/-- With nonempty bounds inside the range the result lies in the bounds. -/
theorem clamp_mem {k lb ub e : ℝ} (hl : 1 - k ≤ lb) (hu : ub ≤ k) (hlu : lb ≤ ub) {x : Fl}
    (h : clampRatio k (.fin lb, .fin ub) x = .fin e) : lb ≤ e ∧ e ≤ ub := by
  have : ∀ y, lb ≤ y → y ≤ ub → (open Classical in
      if Fl.Lt (.fin k) (.fin y) ∨ Fl.Lt (.fin y) (.fin (1 - k)) then Fl.fin (1 / 2) else .fin y) = .fin e →
      lb ≤ e ∧ e ≤ ub := by
    intro y h1 h2 h3
    rw [if_neg (by simp only [Fl.Lt, not_or, not_lt]; exact ⟨by linarith, by linarith⟩)] at h3
    have : y = e := by simpa using h3
    exact ⟨by linarith, by linarith⟩
  unfold clampRatio at h
  simp only at h
  by_cases hc1 : Fl.Lt (.fin ub) x
  · rw [if_pos hc1] at h; exact this ub hlu le_rfl h
  · rw [if_neg hc1] at h
    by_cases hc2 : Fl.Lt x (.fin lb)
    · rw [if_pos hc2] at h; exact this lb le_rfl hlu h
    · rw [if_neg hc2] at h
      rcases x with _ | b | x
      · simp [Fl.Lt] at h
      · cases b <;> simp [Fl.Lt] at hc1 hc2
      · simp only [Fl.Lt, not_lt] at hc1 hc2
        exact this x hc2 hc1 h

end Verif
