import Verif.Spec.Supply
import Verif.Lemmas.Stance

/-!
# What feet on level ground can supply
-/

set_option linter.unusedSectionVars false

namespace Verif.Lemmas
open Matrix Verif.Spec

variable {k : ℕ} {p : Fin k → Fin 3 → ℝ} {R : Fin k → Matrix (Fin 3) (Fin 3) ℝ} {lx ly μ μz : Fin k → ℝ}

theorem fpart_zero : fpart (0 : Fin 6 → ℝ) = 0 := by funext a; fin_cases a <;> rfl
theorem mpart_zero : mpart (0 : Fin 6 → ℝ) = 0 := by funext a; fin_cases a <;> rfl

/-- Neither tipping nor slipping of a flat foot, in coordinates. -/
theorem holds_flat {c s lx ly μ μz : ℝ} (hx : 0 < lx) (hy : 0 < ly) (w : Fin 6 → ℝ) :
    NoTip lx ly (inFrame !![c, -s, 0; s, c, 0; 0, 0, 1] w) ∧ NoSlip μ μz (inFrame !![c, -s, 0; s, c, 0; 0, 0, 1] w) ↔
      (|-s * w 3 + c * w 4| ≤ lx * press w ∧ |c * w 3 + s * w 4| ≤ ly * press w) ∧
        |c * w 0 + s * w 1| ≤ μ * press w ∧ |-s * w 0 + c * w 1| ≤ μ * press w ∧ |w 5| ≤ μz * press w := by
  rw [noTip_flat hx hy, inFrame_flat]
  exact Iff.rfl

/-- Every point of the support polygon can carry every force for which there is grip. -/
theorem supply_of_polygon (hR : ∀ i, Flat (R i)) (hl : ∀ i, 0 < lx i ∧ 0 < ly i) {f : Fin 3 → ℝ} (hf2 : f 2 ≤ 0) (hg : Grips R lx ly μ μz f)
    {q : Fin 3 → ℝ} (hq : q ∈ supportPolygon p R lx ly) : CanSupply p R lx ly μ μz q f 0 := by
  let V : Set (Fin 3 → ℝ) := {q | ∃ w : Fin k → Fin 6 → ℝ,
    (∀ i, NoTip (lx i) (ly i) (inFrame (R i) (w i)) ∧ NoSlip (μ i) (μz i) (inFrame (R i) (w i))) ∧
    ∑ i, fpart (w i) = f ∧ ∑ i, (mpart (w i) + crossProduct (p i) (fpart (w i))) = crossProduct q f}
  have hV : supportPolygon p R lx ly ⊆ V := by
    refine convexHull_min (Set.iUnion_subset fun i => ?_) ?_
    · rintro x ⟨a, b, ha, hb, rfl⟩
      obtain ⟨c, s, hcs, hRi⟩ := flat_entries (hR i)
      have hP : 0 ≤ -f 2 := by linarith
      refine ⟨Pi.single i ![f 0, f 1, f 2, (s * a + c * b) * f 2, -((c * a - s * b) * f 2), (c * a - s * b) * f 1 - (s * a + c * b) * f 0],
        fun j => ?_, ?_, ?_⟩
      · rcases eq_or_ne j i with rfl | hj
        · obtain ⟨g0, g1, g2⟩ := hg j
          have e0 : ((R j)ᵀ *ᵥ f) 0 = c * f 0 + s * f 1 := by rw [hRi]; simp [mulVec, dotProduct, Fin.sum_univ_three]
          have e1 : ((R j)ᵀ *ᵥ f) 1 = -s * f 0 + c * f 1 := by rw [hRi]; simp [mulVec, dotProduct, Fin.sum_univ_three]
          rw [e0] at g0 g2
          rw [e1] at g1 g2
          rw [Pi.single_eq_same, hRi, holds_flat (hl j).1 (hl j).2]
          simp only [cons_val, press]
          refine ⟨⟨?_, ?_⟩, g0, g1, ?_⟩
          · have : -s * ((s * a + c * b) * f 2) + c * -((c * a - s * b) * f 2) = a * -f 2 := by linear_combination -(f 2 * a) * hcs
            rw [this, abs_mul, abs_of_nonneg hP]
            exact mul_le_mul_of_nonneg_right ha hP
          · have : c * ((s * a + c * b) * f 2) + s * -((c * a - s * b) * f 2) = -(b * -f 2) := by linear_combination (f 2 * b) * hcs
            rw [this, abs_neg, abs_mul, abs_of_nonneg hP]
            exact mul_le_mul_of_nonneg_right hb hP
          · have : (c * a - s * b) * f 1 - (s * a + c * b) * f 0 = a * (-s * f 0 + c * f 1) + -(b * (c * f 0 + s * f 1)) := by ring
            rw [this]
            refine (abs_add_le _ _).trans (le_trans ?_ g2)
            rw [abs_neg, abs_mul, abs_mul]
            exact add_le_add (mul_le_mul_of_nonneg_right ha (abs_nonneg _)) (mul_le_mul_of_nonneg_right hb (abs_nonneg _))
        · obtain ⟨c, s, -, hRj⟩ := flat_entries (hR j)
          rw [Pi.single_eq_of_ne hj, hRj, holds_flat (hl j).1 (hl j).2]
          simp [press]
      · rw [Finset.sum_eq_single i]
        · rw [Pi.single_eq_same]
          funext a; fin_cases a <;> rfl
        · intro j _ hj
          rw [Pi.single_eq_of_ne hj, fpart_zero]
        · simp
      · rw [Finset.sum_eq_single i]
        · rw [Pi.single_eq_same, hRi, flat_point]
          funext a
          fin_cases a
          · simp only [Fin.zero_eta, Pi.add_apply, cross0]
            simp [mpart, fpart]; ring
          · simp only [Fin.mk_one, Pi.add_apply, cross1]
            simp [mpart, fpart]; ring
          · simp only [Fin.reduceFinMk, Pi.add_apply, cross2]
            simp [mpart, fpart]; ring
        · intro j _ hj
          rw [Pi.single_eq_of_ne hj, fpart_zero, mpart_zero, map_zero, add_zero]
        · simp
    · rintro q₁ ⟨w₁, h₁, f₁, m₁⟩ q₂ ⟨w₂, h₂, f₂, m₂⟩ a b ha hb hab
      have hf : ∀ i, fpart (a • w₁ i + b • w₂ i) = a • fpart (w₁ i) + b • fpart (w₂ i) := by
        intro i; funext j; fin_cases j <;> simp [fpart]
      have hm : ∀ i, mpart (a • w₁ i + b • w₂ i) = a • mpart (w₁ i) + b • mpart (w₂ i) := by
        intro i; funext j; fin_cases j <;> simp [mpart]
      refine ⟨fun i => a • w₁ i + b • w₂ i, fun i => ?_, ?_, ?_⟩
      · obtain ⟨c, s, -, hRi⟩ := flat_entries (hR i)
        have t₁ := h₁ i
        have t₂ := h₂ i
        rw [hRi, holds_flat (hl i).1 (hl i).2] at t₁ t₂ ⊢
        have comb : ∀ {x y X Y l : ℝ}, |x| ≤ l * X → |y| ≤ l * Y → |a * x + b * y| ≤ l * (a * X + b * Y) := by
          intro x y X Y l hx hy
          refine (abs_add_le _ _).trans ?_
          rw [abs_mul, abs_mul, abs_of_nonneg ha, abs_of_nonneg hb]
          nlinarith [mul_le_mul_of_nonneg_left hx ha, mul_le_mul_of_nonneg_left hy hb]
        have hp : press (a • w₁ i + b • w₂ i) = a * press (w₁ i) + b * press (w₂ i) := by simp [press]; ring
        have hc : ∀ j, (a • w₁ i + b • w₂ i) j = a * w₁ i j + b * w₂ i j := fun j => rfl
        rw [hp]
        simp only [hc]
        refine ⟨⟨?_, ?_⟩, ?_, ?_, comb t₁.2.2.2 t₂.2.2.2⟩
        · have := comb t₁.1.1 t₂.1.1
          convert this using 2
          ring
        · have := comb t₁.1.2 t₂.1.2
          convert this using 2
          ring
        · have := comb t₁.2.1 t₂.2.1
          convert this using 2
          ring
        · have := comb t₁.2.2.1 t₂.2.2.1
          convert this using 2
          ring
      · simp only [hf]
        rw [Finset.sum_add_distrib, ← Finset.smul_sum, ← Finset.smul_sum, f₁, f₂, ← add_smul, hab, one_smul]
      · have e : ∀ i, mpart (a • w₁ i + b • w₂ i) + crossProduct (p i) (fpart (a • w₁ i + b • w₂ i)) =
            a • (mpart (w₁ i) + crossProduct (p i) (fpart (w₁ i))) + b • (mpart (w₂ i) + crossProduct (p i) (fpart (w₂ i))) := by
          intro i
          rw [hf, hm, map_add, map_smul, map_smul]
          module
        simp only [e]
        rw [Finset.sum_add_distrib, ← Finset.smul_sum, ← Finset.smul_sum, m₁, m₂, map_add, map_smul, map_smul]
        rfl
  obtain ⟨w, hw, hf, hm⟩ := hV hq
  refine ⟨w, hw, hf, ?_⟩
  have e : ∀ i, mpart (w i) + crossProduct (p i - q) (fpart (w i)) = mpart (w i) + crossProduct (p i) (fpart (w i)) - crossProduct q (fpart (w i)) := by
    intro i
    rw [map_sub, LinearMap.sub_apply]
    abel
  simp only [e]
  rw [Finset.sum_sub_distrib, hm, ← map_sum, hf, sub_self]

/-- The moment about another point. -/
theorem supply_shift {c f m : Fin 3 → ℝ} (c' : Fin 3 → ℝ) (h : CanSupply p R lx ly μ μz c f m) :
    CanSupply p R lx ly μ μz c' f (m + crossProduct (c - c') f) := by
  obtain ⟨w, hw, hf, hm⟩ := h
  refine ⟨w, hw, hf, ?_⟩
  rw [← hm, ← hf, map_sum, ← Finset.sum_add_distrib]
  refine Finset.sum_congr rfl fun i _ => ?_
  rw [add_assoc, ← LinearMap.add_apply, ← map_add]
  congr 3
  abel

end Verif.Lemmas
