import Verif.Lemmas.Redistribute

set_option linter.unusedSectionVars false

namespace Verif
open Verif.Model Verif.Spec Matrix

/-- The other foot first. -/
def swap12 (F : Fin 12 → ℝ) : Fin 12 → ℝ :=
  ![F 6, F 7, F 8, F 9, F 10, F 11, F 0, F 1, F 2, F 3, F 4, F 5]

theorem resultant_swap (P1 P2 : Fin 3 → ℝ) (F : Fin 12 → ℝ) : resultant P2 P1 (swap12 F) = resultant P1 P2 F := by
  ext i
  fin_cases i <;> simp [resultant, swap12] <;> ring

theorem coefA_swap (P1 P2 : Fin 3 → ℝ) (R : Fin 6 → ℝ) : coefA P2 P1 R = -coefA P1 P2 R := by
  ext i
  fin_cases i <;> simp [coefA] <;> ring

theorem coefB_swap (P1 P2 : Fin 3 → ℝ) (R : Fin 6 → ℝ) : coefB P1 R = coefB P2 R + coefA P1 P2 R := by
  ext i
  fin_cases i <;> simp [coefA, coefB] <;> ring

theorem splitForce_swap (P1 P2 : Fin 3 → ℝ) (R : Fin 6 → ℝ) (η : ℝ) :
    splitForce P2 P1 R (1 - η) = swap12 (splitForce P1 P2 R η) := by
  unfold splitForce
  rw [coefA_swap, coefB_swap P1 P2]
  simp only [Pi.neg_apply, Pi.add_apply]
  ext i
  fin_cases i <;> simp [swap12] <;> ring

/-- The bounds, written out. -/
theorem tighten_explicit (s : Bool) {A B C : ℝ} (hA : A ≠ 0) (hC : 0 ≤ C) (lb ub : ℝ) :
    tighten s A B C (.fin lb, .fin ub) = (.fin (max lb (-B / A - C / |A|)), .fin (min ub (-B / A + C / |A|))) := by
  have hAA : A * A ≠ 0 := mul_self_ne_zero.mpr hA
  have hab : 0 < |A| := abs_pos.mpr hA
  have hsq : A * A = |A| * |A| := (abs_mul_abs_self A).symm
  have r1 : (-(2 * A * B) + 2 * (|A| * C)) / 2 / (A * A) = -B / A + C / |A| := by
    have : C / |A| = |A| * C / (A * A) := by rw [hsq]; field_simp
    rw [this]; field_simp
  have r2 : (-(2 * A * B) - 2 * (|A| * C)) / 2 / (A * A) = -B / A - C / |A| := by
    have : C / |A| = |A| * C / (A * A) := by rw [hsq]; field_simp
    rw [this]; field_simp
  unfold tighten
  simp only
  rw [quad_disc hC]
  have e1 : Fl.div s ((-(2 * A * B) + 2 * (|A| * C)) / 2) (A * A) = .fin (-B / A + C / |A|) := by simp [Fl.div, hA, r1]
  have e2 : Fl.div s ((-(2 * A * B) - 2 * (|A| * C)) / 2) (A * A) = .fin (-B / A - C / |A|) := by simp [Fl.div, hA, r2]
  rw [e1, e2]
  have hq : 0 ≤ C / |A| := by positivity
  have hmax : ∀ a b : ℝ, (open Classical in if Fl.Lt (.fin a) (.fin b) then Fl.fin b else .fin a) = .fin (max a b) := by
    intro a b
    by_cases h : a < b
    · rw [if_pos (show Fl.Lt (.fin a) (.fin b) from h), max_eq_right h.le]
    · rw [if_neg (show ¬ Fl.Lt (.fin a) (.fin b) from h), max_eq_left (not_lt.mp h)]
  have hmin : ∀ a b : ℝ, (open Classical in if Fl.Lt (.fin b) (.fin a) then Fl.fin b else .fin a) = .fin (min a b) := by
    intro a b
    by_cases h : b < a
    · rw [if_pos (show Fl.Lt (.fin b) (.fin a) from h), min_eq_right h.le]
    · rw [if_neg (show ¬ Fl.Lt (.fin b) (.fin a) from h), min_eq_left (not_lt.mp h)]
  by_cases hlt : Fl.Lt (.fin (-B / A - C / |A|)) (.fin (-B / A + C / |A|))
  · rw [if_pos hlt, hmax, hmin]
  · have h0 : C / |A| = 0 := by
      have : ¬ (-B / A - C / |A| < -B / A + C / |A|) := hlt
      linarith
    rw [if_neg hlt, hmax, hmin, h0, sub_zero, add_zero]

/-- With the other foot first the bounds are those of the other share. -/
theorem tighten_mirror (s s' : Bool) {A B C : ℝ} (hC : 0 ≤ C) (lb ub : ℝ) :
    ∃ l u, tighten s A B C (.fin lb, .fin ub) = (.fin l, .fin u) ∧
      tighten s' (-A) (B + A) C (.fin (1 - ub), .fin (1 - lb)) = (.fin (1 - u), .fin (1 - l)) := by
  by_cases hA : A = 0
  · subst hA
    exact ⟨lb, ub, tighten_zero s B C _, by rw [neg_zero, tighten_zero]⟩
  · refine ⟨_, _, tighten_explicit s hA hC lb ub, ?_⟩
    rw [tighten_explicit s' (neg_ne_zero.mpr hA) hC, abs_neg]
    have e : -(B + A) / -A = 1 - -B / A := by field_simp; ring
    rw [e]
    have h1 : max (1 - ub) (1 - -B / A - C / |A|) = 1 - min ub (-B / A + C / |A|) := by
      rw [show 1 - -B / A - C / |A| = 1 - (-B / A + C / |A|) by ring, max_sub_sub_left]
    have h2 : min (1 - lb) (1 - -B / A + C / |A|) = 1 - max lb (-B / A - C / |A|) := by
      rw [show 1 - -B / A + C / |A| = 1 - (-B / A - C / |A|) by ring, min_sub_sub_left]
    rw [h1, h2]

/-- All three. -/
theorem bounds_mirror (s s' : Fin 4 → Bool) {A B C : Fin 3 → ℝ} (hC : ∀ i, 0 ≤ C i) (k : ℝ) :
    ∃ l u, tighten (s 2) (A 2) (B 2) (C 2) (tighten (s 1) (A 1) (B 1) (C 1)
        (tighten (s 0) (A 0) (B 0) (C 0) (.fin (1 - k), .fin k))) = (.fin l, .fin u) ∧
      tighten (s' 2) (-A 2) (B 2 + A 2) (C 2) (tighten (s' 1) (-A 1) (B 1 + A 1) (C 1)
        (tighten (s' 0) (-A 0) (B 0 + A 0) (C 0) (.fin (1 - k), .fin k))) = (.fin (1 - u), .fin (1 - l)) := by
  obtain ⟨l0, u0, e0, f0⟩ := tighten_mirror (s 0) (s' 0) (A := A 0) (B := B 0) (hC 0) (1 - k) k
  obtain ⟨l1, u1, e1, f1⟩ := tighten_mirror (s 1) (s' 1) (A := A 1) (B := B 1) (hC 1) l0 u0
  obtain ⟨l2, u2, e2, f2⟩ := tighten_mirror (s 2) (s' 2) (A := A 2) (B := B 2) (hC 2) l1 u1
  rw [sub_sub_cancel] at f0
  exact ⟨l2, u2, by rw [e0, e1, e2], by rw [f0, f1, f2]⟩

/-- The clamp of the library. -/
theorem clamp_real (k l u x : ℝ) :
    clampRatio k (.fin l, .fin u) (.fin x) = .fin (open Classical in
      let η := if u < x then u else if x < l then l else x
      if k < η ∨ η < 1 - k then 1 / 2 else η) := by
  unfold clampRatio
  simp only
  by_cases h1 : u < x
  · rw [if_pos (show Fl.Lt (.fin u) (.fin x) from h1), if_pos h1]
    by_cases h2 : k < u ∨ u < 1 - k
    · rw [if_pos (show Fl.Lt (.fin k) (.fin u) ∨ Fl.Lt (.fin u) (.fin (1 - k)) from h2), if_pos h2]
    · rw [if_neg (show ¬ (Fl.Lt (.fin k) (.fin u) ∨ Fl.Lt (.fin u) (.fin (1 - k))) from h2), if_neg h2]
  · rw [if_neg (show ¬ Fl.Lt (.fin u) (.fin x) from h1), if_neg h1]
    by_cases h3 : x < l
    · rw [if_pos (show Fl.Lt (.fin x) (.fin l) from h3), if_pos h3]
      by_cases h2 : k < l ∨ l < 1 - k
      · rw [if_pos (show Fl.Lt (.fin k) (.fin l) ∨ Fl.Lt (.fin l) (.fin (1 - k)) from h2), if_pos h2]
      · rw [if_neg (show ¬ (Fl.Lt (.fin k) (.fin l) ∨ Fl.Lt (.fin l) (.fin (1 - k))) from h2), if_neg h2]
    · rw [if_neg (show ¬ Fl.Lt (.fin x) (.fin l) from h3), if_neg h3]
      by_cases h2 : k < x ∨ x < 1 - k
      · rw [if_pos (show Fl.Lt (.fin k) (.fin x) ∨ Fl.Lt (.fin x) (.fin (1 - k)) from h2), if_pos h2]
      · rw [if_neg (show ¬ (Fl.Lt (.fin k) (.fin x) ∨ Fl.Lt (.fin x) (.fin (1 - k))) from h2), if_neg h2]

theorem clamp_mirror {k l u x : ℝ} (h : l ≤ u) :
    ∃ η, clampRatio k (.fin l, .fin u) (.fin x) = .fin η ∧ clampRatio k (.fin (1 - u), .fin (1 - l)) (.fin (1 - x)) = .fin (1 - η) := by
  refine ⟨_, clamp_real k l u x, ?_⟩
  rw [clamp_real]
  congr 1
  simp only
  by_cases h1 : u < x
  · rw [if_pos h1, if_neg (show ¬ 1 - l < 1 - x by linarith), if_pos (show 1 - x < 1 - u by linarith)]
    by_cases h2 : k < u ∨ u < 1 - k
    · rw [if_pos h2, if_pos (by rcases h2 with h2 | h2; right; linarith; left; linarith)]; norm_num
    · rw [if_neg h2, if_neg (by push Not at h2 ⊢; exact ⟨by linarith [h2.2], by linarith [h2.1]⟩)]
  · rw [if_neg h1]
    by_cases h3 : x < l
    · rw [if_pos h3, if_pos (show 1 - l < 1 - x by linarith)]
      by_cases h2 : k < l ∨ l < 1 - k
      · rw [if_pos h2, if_pos (by rcases h2 with h2 | h2; right; linarith; left; linarith)]; norm_num
      · rw [if_neg h2, if_neg (by push Not at h2 ⊢; exact ⟨by linarith [h2.2], by linarith [h2.1]⟩)]
    · rw [if_neg h3, if_neg (show ¬ 1 - l < 1 - x by linarith), if_neg (show ¬ 1 - x < 1 - u by linarith)]
      by_cases h2 : k < x ∨ x < 1 - k
      · rw [if_pos h2, if_pos (by rcases h2 with h2 | h2; right; linarith; left; linarith)]; norm_num
      · rw [if_neg h2, if_neg (by push Not at h2 ⊢; exact ⟨by linarith [h2.2], by linarith [h2.1]⟩)]

end Verif
