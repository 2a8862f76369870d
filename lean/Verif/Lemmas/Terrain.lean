import Verif.Spec.Terrain
import Verif.Lemmas.Supply
import Verif.Lemmas.Carried

/-!
# Where a robot can stand
-/

set_option linter.unusedSectionVars false

namespace Verif.Lemmas
open Matrix Verif Verif.Spec

variable {k : ℕ} {p : Fin k → Fin 3 → ℝ} {R : Fin k → Matrix (Fin 3) (Fin 3) ℝ} {lx ly μ μz : Fin k → ℝ}

theorem fpart_comb (a b : ℝ) (w₁ w₂ : Fin 6 → ℝ) : fpart (a • w₁ + b • w₂) = a • fpart w₁ + b • fpart w₂ := by
  funext j; fin_cases j <;> simp [fpart]
theorem mpart_comb (a b : ℝ) (w₁ w₂ : Fin 6 → ℝ) : mpart (a • w₁ + b • w₂) = a • mpart w₁ + b • mpart w₂ := by
  funext j; fin_cases j <;> simp [mpart]

theorem inFrame_eq (R : Matrix (Fin 3) (Fin 3) ℝ) (w : Fin 6 → ℝ) :
    inFrame R w = ![(Rᵀ *ᵥ fpart w) 0, (Rᵀ *ᵥ fpart w) 1, (Rᵀ *ᵥ fpart w) 2, (Rᵀ *ᵥ mpart w) 0, (Rᵀ *ᵥ mpart w) 1, (Rᵀ *ᵥ mpart w) 2] := rfl

theorem inFrame_f (R : Matrix (Fin 3) (Fin 3) ℝ) (w : Fin 6 → ℝ) : fpart (inFrame R w) = Rᵀ *ᵥ fpart w := by
  funext j; fin_cases j <;> rfl
theorem inFrame_m (R : Matrix (Fin 3) (Fin 3) ℝ) (w : Fin 6 → ℝ) : mpart (inFrame R w) = Rᵀ *ᵥ mpart w := by
  funext j; fin_cases j <;> rfl

theorem inFrame_comb (R : Matrix (Fin 3) (Fin 3) ℝ) (a b : ℝ) (w₁ w₂ : Fin 6 → ℝ) :
    inFrame R (a • w₁ + b • w₂) = a • inFrame R w₁ + b • inFrame R w₂ := by
  rw [inFrame_eq, inFrame_eq, inFrame_eq, fpart_comb, mpart_comb, mulVec_add, mulVec_add, mulVec_smul, mulVec_smul, mulVec_smul, mulVec_smul]
  funext j; fin_cases j <;> simp

/-- wrenches that neither tip nor slip form a convex cone -/
theorem holds_comb {lx ly μ μz : ℝ} (hx : 0 < lx) (hy : 0 < ly) {R : Matrix (Fin 3) (Fin 3) ℝ} {w₁ w₂ : Fin 6 → ℝ} {a b : ℝ} (ha : 0 ≤ a) (hb : 0 ≤ b)
    (h₁ : NoTip lx ly (inFrame R w₁) ∧ NoSlip μ μz (inFrame R w₁)) (h₂ : NoTip lx ly (inFrame R w₂) ∧ NoSlip μ μz (inFrame R w₂)) :
    NoTip lx ly (inFrame R (a • w₁ + b • w₂)) ∧ NoSlip μ μz (inFrame R (a • w₁ + b • w₂)) := by
  rw [inFrame_comb]
  generalize inFrame R w₁ = v₁ at *
  generalize inFrame R w₂ = v₂ at *
  rw [noTip_iff hx hy] at h₁ h₂ ⊢
  have comb : ∀ {x y X Y l : ℝ}, |x| ≤ l * X → |y| ≤ l * Y → |a * x + b * y| ≤ l * (a * X + b * Y) := by
    intro x y X Y l hx hy
    refine (abs_add_le _ _).trans ?_
    rw [abs_mul, abs_mul, abs_of_nonneg ha, abs_of_nonneg hb]
    nlinarith [mul_le_mul_of_nonneg_left hx ha, mul_le_mul_of_nonneg_left hy hb]
  have hp : press (a • v₁ + b • v₂) = a * press v₁ + b * press v₂ := by simp [press]; ring
  unfold NoSlip at *
  rw [hp]
  exact ⟨⟨comb h₁.1.1 h₂.1.1, comb h₁.1.2 h₂.1.2⟩, comb h₁.2.1 h₂.2.1, comb h₁.2.2.1 h₂.2.2.1, comb h₁.2.2.2 h₂.2.2.2⟩

/-- What two points can carry, every point between can. -/
theorem supply_convex (hl : ∀ i, 0 < lx i ∧ 0 < ly i) (f : Fin 3 → ℝ) : Convex ℝ {c | CanSupply p R lx ly μ μz c f 0} := by
  rintro c₁ ⟨w₁, h₁, f₁, m₁⟩ c₂ ⟨w₂, h₂, f₂, m₂⟩ a b ha hb hab
  refine ⟨fun i => a • w₁ i + b • w₂ i, fun i => holds_comb (hl i).1 (hl i).2 ha hb (h₁ i) (h₂ i), ?_, ?_⟩
  · simp only [fpart_comb]
    rw [Finset.sum_add_distrib, ← Finset.smul_sum, ← Finset.smul_sum, f₁, f₂, ← add_smul, hab, one_smul]
  · have e : ∀ (w : Fin k → Fin 6 → ℝ) (c : Fin 3 → ℝ), ∑ i, fpart (w i) = f →
        ∑ i, (mpart (w i) + crossProduct (p i - c) (fpart (w i))) = ∑ i, (mpart (w i) + crossProduct (p i) (fpart (w i))) - crossProduct c f := by
      intro w c hf
      rw [← hf, map_sum, ← Finset.sum_sub_distrib]
      refine Finset.sum_congr rfl fun i _ => ?_
      rw [map_sub, LinearMap.sub_apply]
      abel
    have hf : ∑ i, fpart (a • w₁ i + b • w₂ i) = f := by
      simp only [fpart_comb]
      rw [Finset.sum_add_distrib, ← Finset.smul_sum, ← Finset.smul_sum, f₁, f₂, ← add_smul, hab, one_smul]
    rw [e _ _ f₁, sub_eq_zero] at m₁
    rw [e _ _ f₂, sub_eq_zero] at m₂
    refine (e _ _ hf).trans ?_
    have e' : ∀ i, mpart (a • w₁ i + b • w₂ i) + crossProduct (p i) (fpart (a • w₁ i + b • w₂ i)) =
        a • (mpart (w₁ i) + crossProduct (p i) (fpart (w₁ i))) + b • (mpart (w₂ i) + crossProduct (p i) (fpart (w₂ i))) := by
      intro i
      rw [fpart_comb, mpart_comb, map_add, map_smul, map_smul]
      module
    simp only [e']
    rw [Finset.sum_add_distrib, ← Finset.smul_sum, ← Finset.smul_sum, m₁, m₂, map_add, map_smul, map_smul]
    simp

theorem supply_scale (hl : ∀ i, 0 < lx i ∧ 0 < ly i) {c f m : Fin 3 → ℝ} {a : ℝ} (ha : 0 ≤ a) (h : CanSupply p R lx ly μ μz c f m) :
    CanSupply p R lx ly μ μz c (a • f) (a • m) := by
  obtain ⟨w, hw, hf, hm⟩ := h
  have e : ∀ i, a • w i + (0 : ℝ) • w i = a • w i := fun i => by rw [zero_smul, add_zero]
  have e1 : ∀ i, fpart (a • w i) = a • fpart (w i) := fun i => by rw [← e, fpart_comb, zero_smul, add_zero]
  have e2 : ∀ i, mpart (a • w i) = a • mpart (w i) := fun i => by rw [← e, mpart_comb, zero_smul, add_zero]
  refine ⟨fun i => a • w i, fun i => ?_, ?_, ?_⟩
  · show NoTip _ _ (inFrame _ (a • w i)) ∧ NoSlip _ _ (inFrame _ (a • w i))
    rw [← e]
    exact holds_comb (hl i).1 (hl i).2 ha le_rfl (hw i) (hw i)
  · simp only [e1]
    rw [← Finset.smul_sum, hf]
  · simp only [e1, e2, map_smul, ← smul_add]
    rw [← Finset.smul_sum, hm]

/-- Only the horizontal position matters. -/
theorem supply_vertical {c : Fin 3 → ℝ} (a : ℝ) (h : c ∈ supportRegion p R lx ly μ μz) : c + ![0, 0, a] ∈ supportRegion p R lx ly μ μz := by
  have := supply_shift (c + ![0, 0, a]) h
  have e : (0 : Fin 3 → ℝ) + crossProduct (c - (c + ![0, 0, a])) ![0, 0, -1] = 0 := by
    rw [sub_add_cancel_left, cross_apply]
    funext j; fin_cases j <;> simp
  rwa [e] at this

theorem holds_zero {lx ly μ μz : ℝ} (R : Matrix (Fin 3) (Fin 3) ℝ) : NoTip lx ly (inFrame R 0) ∧ NoSlip μ μz (inFrame R 0) := by
  have : inFrame R 0 = 0 := by
    rw [inFrame_eq, fpart_zero, mpart_zero, mulVec_zero]
    funext j; fin_cases j <;> rfl
  rw [this]
  exact ⟨Or.inr ⟨rfl, rfl, rfl⟩, by simp [NoSlip, press]⟩

/-- With footing every point between points of the soles can carry a weight. -/
theorem hull_supply (hR : ∀ i, IsRot (R i)) (hl : ∀ i, 0 < lx i ∧ 0 < ly i) (hg : Footing R lx ly μ μz) :
    supportPolygon p R lx ly ⊆ supportRegion p R lx ly μ μz := by
  refine convexHull_min (Set.iUnion_subset fun i => ?_) (supply_convex hl _)
  rintro x ⟨a, b, ha, hb, rfl⟩
  obtain ⟨g2, g0, g1, gz⟩ := hg i
  -- all of the weight on foot `i`
  let M : Fin 3 → ℝ := crossProduct (R i *ᵥ ![a, b, 0]) ![0, 0, -1]
  let W : Fin 6 → ℝ := ![0, 0, -1, M 0, M 1, M 2]
  have hWf : fpart W = ![0, 0, -1] := by funext j; fin_cases j <;> rfl
  have hWm : mpart W = M := by funext j; fin_cases j <;> rfl
  have hdown : (R i)ᵀ *ᵥ (![0, 0, -1] : Fin 3 → ℝ) = -upIn (R i) := by
    rw [upIn, ← mulVec_neg]
    congr 1
    funext j; fin_cases j <;> simp
  have hrt : IsRot (R i)ᵀ := ⟨by rw [transpose_transpose]; exact mul_eq_one_comm.mp (hR i).1, by rw [det_transpose]; exact (hR i).2⟩
  have hM : (R i)ᵀ *ᵥ M = crossProduct ![a, b, 0] (-upIn (R i)) := by
    rw [← hdown, ← cross_turn hrt, mulVec_mulVec, (hR i).1, one_mulVec]
  refine ⟨Pi.single i W, fun j => ?_, ?_, ?_⟩
  · rcases eq_or_ne j i with rfl | hj
    · rw [Pi.single_eq_same, inFrame_eq, hWf, hWm, hM, hdown, noTip_iff (hl j).1 (hl j).2]
      simp only [NoSlip, press, cons_val, cross0, cross1, cross2, Pi.neg_apply, neg_neg, abs_neg]
      refine ⟨⟨?_, ?_⟩, g0, g1, ?_⟩
      · have : (0 : ℝ) * -upIn (R j) 0 - a * -upIn (R j) 2 = a * upIn (R j) 2 := by ring
        rw [this, abs_mul, abs_of_nonneg g2]
        exact mul_le_mul_of_nonneg_right ha g2
      · have : b * -upIn (R j) 2 - 0 * -upIn (R j) 1 = -(b * upIn (R j) 2) := by ring
        rw [this, abs_neg, abs_mul, abs_of_nonneg g2]
        exact mul_le_mul_of_nonneg_right hb g2
      · have : a * -upIn (R j) 1 - b * -upIn (R j) 0 = -(a * upIn (R j) 1) + b * upIn (R j) 0 := by ring
        rw [this]
        refine (abs_add_le _ _).trans (le_trans ?_ gz)
        rw [abs_neg, abs_mul, abs_mul]
        exact add_le_add (mul_le_mul_of_nonneg_right ha (abs_nonneg _)) (mul_le_mul_of_nonneg_right hb (abs_nonneg _))
    · rw [Pi.single_eq_of_ne hj]
      exact holds_zero _
  · rw [Finset.sum_eq_single i]
    · rw [Pi.single_eq_same, hWf]
    · intro j _ hj
      rw [Pi.single_eq_of_ne hj, fpart_zero]
    · simp
  · rw [Finset.sum_eq_single i]
    · rw [Pi.single_eq_same, hWf, hWm, sub_add_cancel_left, map_neg]
      exact add_neg_cancel _
    · intro j _ hj
      rw [Pi.single_eq_of_ne hj, fpart_zero, mpart_zero, map_zero, add_zero]
    · simp

/-- On soles in one plane that is not vertical, a weight can only be carried on a vertical line through the convex hull of the soles. -/
theorem plane_supply (hk : 0 < k) {Q : Matrix (Fin 3) (Fin 3) ℝ} (hQ : InPlane Q p R) (hl : ∀ i, 0 < lx i ∧ 0 < ly i) (hv : upIn Q 2 ≠ 0)
    {c : Fin 3 → ℝ} (h : c ∈ supportRegion p R lx ly μ μz) : ∃ h, ![c 0, c 1, h] ∈ supportPolygon p R lx ly := by
  obtain ⟨hQ, hflat, z, hz⟩ := hQ
  obtain ⟨w, hw, hf, hm⟩ := h
  have hQQ : Q * Qᵀ = 1 := mul_eq_one_comm.mp hQ.1
  have hrt : IsRot Qᵀ := ⟨by rw [transpose_transpose]; exact hQQ, by rw [det_transpose]; exact hQ.2⟩
  have hback : ∀ v : Fin 3 → ℝ, Q *ᵥ (Qᵀ *ᵥ v) = v := fun v => by rw [mulVec_mulVec, hQQ, one_mulVec]
  obtain ⟨q, hq, hq2, hq0⟩ := zmp_in_polygon (p := fun i => Qᵀ *ᵥ p i) (R := fun i => Qᵀ * R i) (lx := lx) (ly := ly) (w := fun i => inFrame Q (w i)) hk hz
    hflat hl (fun i => by
      have e : inFrame (Qᵀ * R i) (inFrame Q (w i)) = inFrame (R i) (w i) := by
        rw [inFrame_eq, inFrame_f, inFrame_m, transpose_mul, transpose_transpose, ← mulVec_mulVec, ← mulVec_mulVec, hback, hback]
        rfl
      rw [e]
      exact (hw i).1)
  -- turned back
  have hQq : Q *ᵥ q ∈ supportPolygon p R lx ly := by
    have hsub : supportPolygon (fun i => Qᵀ *ᵥ p i) (fun i => Qᵀ * R i) lx ly ⊆ (fun v => Q *ᵥ v) ⁻¹' supportPolygon p R lx ly := by
      refine convexHull_min (Set.iUnion_subset fun i => ?_) ?_
      · rintro x ⟨a, b, ha, hb, rfl⟩
        refine subset_convexHull ℝ _ (Set.mem_iUnion.mpr ⟨i, a, b, ha, hb, ?_⟩)
        show Q *ᵥ (Qᵀ *ᵥ p i + (Qᵀ * R i) *ᵥ ![a, b, 0]) = _
        rw [mulVec_add, hback, ← mulVec_mulVec, hback]
      · intro x hx y hy a b ha hb hab
        show Q *ᵥ (a • x + b • y) ∈ supportPolygon p R lx ly
        rw [mulVec_add, mulVec_smul, mulVec_smul]
        exact convex_convexHull ℝ _ hx hy ha hb hab
    exact hsub hq
  -- the moment about `q`
  have hmom : ∑ i, (mpart (inFrame Q (w i)) + crossProduct (Qᵀ *ᵥ p i - q) (fpart (inFrame Q (w i)))) = crossProduct (Qᵀ *ᵥ c - q) (-upIn Q) := by
    have hdown : -upIn Q = ∑ i, Qᵀ *ᵥ fpart (w i) := by
      rw [← mulVec_sum, hf, upIn, ← mulVec_neg]
      congr 1
      funext j; fin_cases j <;> simp
    have e : ∀ i, mpart (inFrame Q (w i)) + crossProduct (Qᵀ *ᵥ p i - q) (fpart (inFrame Q (w i))) =
        Qᵀ *ᵥ (mpart (w i) + crossProduct (p i - c) (fpart (w i))) + crossProduct (Qᵀ *ᵥ c - q) (Qᵀ *ᵥ fpart (w i)) := by
      intro i
      rw [inFrame_f, inFrame_m, mulVec_add, ← cross_turn hrt, mulVec_sub, add_assoc, ← LinearMap.add_apply, ← map_add]
      congr 3
      abel
    rw [Finset.sum_congr rfl fun i _ => e i, Finset.sum_add_distrib, ← mulVec_sum, hm, mulVec_zero, zero_add, ← map_sum, ← hdown]
  have m0 := hq0 0 (by decide)
  have m1 := hq0 1 (by decide)
  rw [hmom] at m0 m1
  simp only [cross0, cross1, Pi.neg_apply, Pi.sub_apply] at m0 m1
  -- hence `c` is above or below `q`
  let t := ((Qᵀ *ᵥ c) 2 - q 2) / upIn Q 2
  have hline : Qᵀ *ᵥ c = q + t • upIn Q := by
    funext j
    have ht : t * upIn Q 2 = (Qᵀ *ᵥ c) 2 - q 2 := div_mul_cancel₀ _ hv
    fin_cases j
    · show (Qᵀ *ᵥ c) 0 = q 0 + t * upIn Q 0
      refine mul_left_cancel₀ hv ?_
      linear_combination m1 - upIn Q 0 * ht
    · show (Qᵀ *ᵥ c) 1 = q 1 + t * upIn Q 1
      refine mul_left_cancel₀ hv ?_
      linear_combination -m0 - upIn Q 1 * ht
    · show (Qᵀ *ᵥ c) 2 = q 2 + t * upIn Q 2
      linarith
  have hc : c = Q *ᵥ q + t • ![0, 0, 1] := by
    rw [← hback c, hline, mulVec_add, mulVec_smul, upIn, hback]
  refine ⟨(Q *ᵥ q) 2, ?_⟩
  have e : (![c 0, c 1, (Q *ᵥ q) 2] : Fin 3 → ℝ) = Q *ᵥ q := by
    have c0 := congrFun hc 0
    have c1 := congrFun hc 1
    simp at c0 c1
    funext j
    fin_cases j
    · exact c0
    · exact c1
    · rfl
  rwa [e]

/-- On parallel soles too steep for their friction nothing can be carried. -/
theorem steep_supply {Q : Matrix (Fin 3) (Fin 3) ℝ} (hR : ∀ i, R i = Q) {m : ℝ} (hl : ∀ i, 0 < lx i ∧ 0 < ly i) (hμ : ∀ i, μ i ≤ m)
    (hs : m * upIn Q 2 < |upIn Q 0| ∨ m * upIn Q 2 < |upIn Q 1|) : supportRegion p R lx ly μ μz = ∅ := by
  refine Set.eq_empty_of_forall_notMem fun c ⟨w, hw, hf, _⟩ => ?_
  have hdown : -upIn Q = ∑ i, Qᵀ *ᵥ fpart (w i) := by
    rw [← mulVec_sum, hf, upIn, ← mulVec_neg]
    congr 1
    funext j; fin_cases j <;> simp
  have hpr : ∀ i, 0 ≤ -(Qᵀ *ᵥ fpart (w i)) 2 := by
    intro i
    have := (hw i).1
    rw [noTip_iff (hl i).1 (hl i).2, hR] at this
    have h1 : 0 ≤ lx i * press (inFrame Q (w i)) := (abs_nonneg _).trans this.1
    exact nonneg_of_mul_nonneg_right h1 (hl i).1
  have hsum : ∀ j : Fin 3, (∀ i, |(Qᵀ *ᵥ fpart (w i)) j| ≤ μ i * -(Qᵀ *ᵥ fpart (w i)) 2) → |upIn Q j| ≤ m * upIn Q 2 := by
    intro j h
    have e : ∀ j, upIn Q j = -∑ i, (Qᵀ *ᵥ fpart (w i)) j := by
      intro j
      rw [← Finset.sum_apply, ← hdown]
      simp
    rw [e j, e 2, abs_neg, ← Finset.sum_neg_distrib, Finset.mul_sum]
    exact (Finset.abs_sum_le_sum_abs _ _).trans (Finset.sum_le_sum fun i _ => (h i).trans (mul_le_mul_of_nonneg_right (hμ i) (hpr i)))
  rcases hs with h | h
  · exact absurd (hsum 0 fun i => by have := (hw i).2.1; rw [hR] at this; exact this) (not_le.mpr h)
  · exact absurd (hsum 1 fun i => by have := (hw i).2.2.1; rw [hR] at this; exact this) (not_le.mpr h)

end Verif.Lemmas
