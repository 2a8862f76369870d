import Verif.Spec.Stance
import Verif.Spec.TwoContacts
import Verif.Lemmas.ConstraintRows
import Mathlib.Analysis.Convex.Combination
import Mathlib.LinearAlgebra.CrossProduct
import Mathlib.Algebra.BigOperators.Field
import Mathlib.Tactic.FinCases
import Mathlib.Tactic.Module
import Mathlib.Tactic.Linarith

/-!
# Statics on level ground
-/

set_option linter.unusedSectionVars false

namespace Verif.Lemmas
open Matrix Verif.Spec

theorem cross0 (u v : Fin 3 → ℝ) : crossProduct u v 0 = u 1 * v 2 - u 2 * v 1 := by rw [cross_apply]; rfl
theorem cross1 (u v : Fin 3 → ℝ) : crossProduct u v 1 = u 2 * v 0 - u 0 * v 2 := by rw [cross_apply]; rfl
theorem cross2 (u v : Fin 3 → ℝ) : crossProduct u v 2 = u 0 * v 1 - u 1 * v 0 := by rw [cross_apply]; rfl

/-- A flat sole is turned about the vertical. -/
theorem flat_entries {R : Matrix (Fin 3) (Fin 3) ℝ} (h : Flat R) : ∃ c s : ℝ, c ^ 2 + s ^ 2 = 1 ∧ R = !![c, -s, 0; s, c, 0; 0, 0, 1] := by
  obtain ⟨⟨ho, hd⟩, hz⟩ := h
  have z0 := congrFun hz 0; have z1 := congrFun hz 1; have z2 := congrFun hz 2
  simp [mulVec, dotProduct, Fin.sum_univ_three] at z0 z1 z2
  have o := fun i j => congrFun (congrFun ho i) j
  have o00 := o 0 0; have o01 := o 0 1; have o11 := o 1 1; have o02 := o 0 2; have o12 := o 1 2
  simp [Matrix.mul_apply, Fin.sum_univ_three, z0, z1, z2] at o00 o01 o11 o02 o12
  rw [det_fin_three, z0, z1, z2, o02, o12] at hd
  simp [o02, o12] at o00 o01 o11
  have hsq : (R 0 0 - R 1 1) ^ 2 + (R 0 1 + R 1 0) ^ 2 = 0 := by nlinarith
  have e1 : R 1 1 = R 0 0 := by nlinarith [sq_nonneg (R 0 0 - R 1 1), sq_nonneg (R 0 1 + R 1 0)]
  have e2 : R 0 1 = -R 1 0 := by nlinarith [sq_nonneg (R 0 0 - R 1 1), sq_nonneg (R 0 1 + R 1 0)]
  refine ⟨R 0 0, R 1 0, by nlinarith, ?_⟩
  ext i j
  fin_cases i <;> fin_cases j <;> simp [z0, z1, z2, o02, o12, e1, e2]

theorem inFrame_flat (c s : ℝ) (w : Fin 6 → ℝ) : inFrame !![c, -s, 0; s, c, 0; 0, 0, 1] w =
    ![c * w 0 + s * w 1, -s * w 0 + c * w 1, w 2, c * w 3 + s * w 4, -s * w 3 + c * w 4, w 5] := by
  funext i
  fin_cases i <;> simp [inFrame, mulVec, dotProduct, Fin.sum_univ_three]

theorem flat_point (c s a b : ℝ) : (!![c, -s, 0; s, c, 0; 0, 0, 1] : Matrix (Fin 3) (Fin 3) ℝ) *ᵥ ![a, b, 0] = ![c * a - s * b, s * a + c * b, 0] := by
  funext i
  fin_cases i <;> simp [mulVec, dotProduct, Fin.sum_univ_three] <;> ring

variable {k : ℕ} {p : Fin k → Fin 3 → ℝ} {R : Fin k → Matrix (Fin 3) (Fin 3) ℝ} {lx ly : Fin k → ℝ} {z : ℝ}

/-- A foot that does not tip has a point of its sole about which its wrench has no horizontal moment. -/
theorem cop_in_sole {p : Fin 3 → ℝ} {R : Matrix (Fin 3) (Fin 3) ℝ} {lx ly : ℝ} (hR : Flat R) (hx : 0 < lx) (hy : 0 < ly) {w : Fin 6 → ℝ}
    (h : NoTip lx ly (inFrame R w)) : 0 ≤ press w ∧ ∃ q ∈ sole p R lx ly, q 2 = p 2 ∧
      ∀ a : Fin 3, a ≠ 2 → (mpart w + crossProduct (p - q) (fpart w)) a = 0 := by
  obtain ⟨c, s, hcs, rfl⟩ := flat_entries hR
  rw [inFrame_flat] at h
  rcases h with ⟨hp, px, py, ⟨h1, h2⟩, hpx, hpy⟩ | ⟨h1, h2, h3⟩
  · simp [press] at hp h1 h2
    refine ⟨by unfold press; linarith, p + !![c, -s, 0; s, c, 0; 0, 0, 1] *ᵥ ![px, py, 0], ⟨px, py, hpx, hpy, rfl⟩, ?_, fun a ha => ?_⟩
    · rw [flat_point]; simp
    · rw [flat_point]
      fin_cases a
      · simp only [Fin.zero_eta, Pi.add_apply, Pi.sub_apply, cross0, mpart, fpart, cons_val]
        linear_combination c * h1 - s * h2 - w 3 * hcs
      · simp only [Fin.mk_one, Pi.add_apply, Pi.sub_apply, cross1, mpart, fpart, cons_val]
        linear_combination s * h1 + c * h2 - w 4 * hcs
      · exact absurd rfl ha
  · simp at h1 h2 h3
    have m3 : w 3 = 0 := by linear_combination c * h2 - s * h3 - w 3 * hcs
    have m4 : w 4 = 0 := by linear_combination s * h2 + c * h3 - w 4 * hcs
    refine ⟨by simp [press, h1], p, ⟨0, 0, by simpa using hx.le, by simpa using hy.le, ?_⟩, rfl, fun a ha => ?_⟩
    · rw [flat_point]; funext i; fin_cases i <;> simp
    · rw [sub_self, map_zero, LinearMap.zero_apply, add_zero]
      fin_cases a
      · exact m3
      · exact m4
      · exact absurd rfl ha

/-- Feet at one height that do not tip have a common point in the support polygon about which all their wrenches have no horizontal moment. -/
theorem zmp_in_polygon (hk : 0 < k) (hz : ∀ i, p i 2 = z) (hR : ∀ i, Flat (R i)) (hl : ∀ i, 0 < lx i ∧ 0 < ly i) {w : Fin k → Fin 6 → ℝ}
    (h : ∀ i, NoTip (lx i) (ly i) (inFrame (R i) (w i))) :
    ∃ q ∈ supportPolygon p R lx ly, q 2 = z ∧ ∀ a : Fin 3, a ≠ 2 → (∑ i, (mpart (w i) + crossProduct (p i - q) (fpart (w i)))) a = 0 := by
  choose hp c hc hc2 hm using fun i => cop_in_sole (p := p i) (hR i) (hl i).1 (hl i).2 (h i)
  have hmem : ∀ i, c i ∈ supportPolygon p R lx ly := fun i => subset_convexHull ℝ _ (Set.mem_iUnion.mpr ⟨i, hc i⟩)
  -- the moment about any point at the same height
  have key : ∀ q : Fin 3 → ℝ, q 2 = z →
      (∑ i, (mpart (w i) + crossProduct (p i - q) (fpart (w i)))) 0 = -∑ i, press (w i) * (c i 1 - q 1) ∧
      (∑ i, (mpart (w i) + crossProduct (p i - q) (fpart (w i)))) 1 = ∑ i, press (w i) * (c i 0 - q 0) := by
    intro q hq
    rw [Finset.sum_apply, Finset.sum_apply, ← Finset.sum_neg_distrib]
    refine ⟨Finset.sum_congr rfl fun i _ => ?_, Finset.sum_congr rfl fun i _ => ?_⟩
    · have := hm i 0 (by decide)
      simp only [Pi.add_apply, cross0, Pi.sub_apply, hc2, hz, hq, sub_self, zero_mul, sub_zero] at this ⊢
      simp only [fpart, press, cons_val] at this ⊢
      linear_combination this
    · have := hm i 1 (by decide)
      simp only [Pi.add_apply, cross1, Pi.sub_apply, hc2, hz, hq, sub_self, zero_mul, zero_sub] at this ⊢
      simp only [fpart, press, cons_val, cons_val_zero] at this ⊢
      linear_combination this
  rcases eq_or_ne (∑ i, press (w i)) 0 with h0 | h0
  · have hz0 := (Finset.sum_eq_zero_iff_of_nonneg fun i _ => hp i).mp h0
    refine ⟨c ⟨0, hk⟩, hmem _, (hc2 _).trans (hz _), fun a ha => ?_⟩
    obtain ⟨k0, k1⟩ := key (c ⟨0, hk⟩) ((hc2 _).trans (hz _))
    fin_cases a
    · refine k0.trans ?_
      rw [Finset.sum_eq_zero fun i hi => by rw [hz0 i hi, zero_mul], neg_zero]
    · refine k1.trans ?_
      rw [Finset.sum_eq_zero fun i hi => by rw [hz0 i hi, zero_mul]]
    · exact absurd rfl ha
  · have hpos : 0 < ∑ i, press (w i) := lt_of_le_of_ne (Finset.sum_nonneg fun i _ => hp i) (Ne.symm h0)
    set P := ∑ i, press (w i) with hP
    have hsum : ∑ i, press (w i) / P = 1 := by rw [← Finset.sum_div, ← hP, div_self h0]
    have hq : ∀ a, (∑ i, (press (w i) / P) • c i) a = (∑ i, press (w i) * c i a) / P := by
      intro a
      rw [Finset.sum_apply, Finset.sum_div]
      exact Finset.sum_congr rfl fun i _ => by rw [Pi.smul_apply, smul_eq_mul]; ring
    have hq2 : (∑ i, (press (w i) / P) • c i) 2 = z := by
      rw [hq, Finset.sum_congr rfl fun i _ => by rw [hc2 i, hz i], ← Finset.sum_mul, ← hP, mul_div_assoc, mul_comm, div_mul_cancel₀ z h0]
    refine ⟨∑ i, (press (w i) / P) • c i, ?_, hq2, fun a ha => ?_⟩
    · exact (convex_convexHull ℝ _).sum_mem (fun i _ => div_nonneg (hp i) hpos.le) hsum fun i _ => hmem i
    · obtain ⟨k0, k1⟩ := key _ hq2
      have e : ∀ a, ∑ i, press (w i) * (c i a - (∑ i, (press (w i) / P) • c i) a) = 0 := by
        intro a
        rw [hq]
        simp only [mul_sub]
        rw [Finset.sum_sub_distrib, ← Finset.sum_mul, ← hP, mul_comm P, div_mul_cancel₀ _ h0, sub_self]
      fin_cases a
      · exact k0.trans (by rw [e, neg_zero])
      · exact k1.trans (e 0)
      · exact absurd rfl ha

/-- Forces of the feet that press with the weight `P` at the point `q` and neither tip nor slip. -/
def CarriedAt (p : Fin k → Fin 3 → ℝ) (R : Fin k → Matrix (Fin 3) (Fin 3) ℝ) (lx ly μ μz : Fin k → ℝ) (P : ℝ) (q : Fin 3 → ℝ) : Prop :=
  ∃ w : Fin k → Fin 6 → ℝ, (∀ i, NoTip (lx i) (ly i) (inFrame (R i) (w i)) ∧ NoSlip (μ i) (μz i) (inFrame (R i) (w i))) ∧
    ∑ i, fpart (w i) = ![0, 0, -P] ∧ ∑ i, (mpart (w i) + crossProduct (p i) (fpart (w i))) = crossProduct q ![0, 0, -P]

theorem noTip_flat {c s lx ly : ℝ} (hx : 0 < lx) (hy : 0 < ly) (w : Fin 6 → ℝ) :
    NoTip lx ly (inFrame !![c, -s, 0; s, c, 0; 0, 0, 1] w) ↔ |-s * w 3 + c * w 4| ≤ lx * press w ∧ |c * w 3 + s * w 4| ≤ ly * press w := by
  rw [noTip_iff hx hy, inFrame_flat]
  simp [press]

/-- Every point of the support polygon can carry every weight. -/
theorem carried_of_polygon (hR : ∀ i, Flat (R i)) (hl : ∀ i, 0 < lx i ∧ 0 < ly i) {μ μz : Fin k → ℝ} (hμ : ∀ i, 0 ≤ μ i ∧ 0 ≤ μz i) {P : ℝ} (hP : 0 ≤ P)
    {q : Fin 3 → ℝ} (hq : q ∈ supportPolygon p R lx ly) : CarriedAt p R lx ly μ μz P q := by
  -- vertical forces only
  let V : Set (Fin 3 → ℝ) := {q | ∃ w : Fin k → Fin 6 → ℝ, (∀ i, NoTip (lx i) (ly i) (inFrame (R i) (w i)) ∧ w i 0 = 0 ∧ w i 1 = 0 ∧ w i 5 = 0) ∧
    ∑ i, fpart (w i) = ![0, 0, -P] ∧ ∑ i, (mpart (w i) + crossProduct (p i) (fpart (w i))) = crossProduct q ![0, 0, -P]}
  have hV : supportPolygon p R lx ly ⊆ V := by
    refine convexHull_min (Set.iUnion_subset fun i => ?_) ?_
    · rintro x ⟨a, b, ha, hb, rfl⟩
      obtain ⟨c, s, hcs, hRi⟩ := flat_entries (hR i)
      refine ⟨Pi.single i ![0, 0, -P, -P * (s * a + c * b), P * (c * a - s * b), 0], fun j => ?_, ?_, ?_⟩
      · rcases eq_or_ne j i with rfl | hj
        · rw [Pi.single_eq_same, hRi, noTip_flat (hl j).1 (hl j).2]
          refine ⟨⟨?_, ?_⟩, rfl, rfl, rfl⟩
          · have : -s * (-P * (s * a + c * b)) + c * (P * (c * a - s * b)) = P * a := by linear_combination P * a * hcs
            simp only [cons_val, press, neg_neg]
            rw [this, abs_mul, abs_of_nonneg hP, mul_comm]
            exact mul_le_mul_of_nonneg_right ha hP
          · have : c * (-P * (s * a + c * b)) + s * (P * (c * a - s * b)) = -(P * b) := by linear_combination -(P * b) * hcs
            simp only [cons_val, press, neg_neg]
            rw [this, abs_neg, abs_mul, abs_of_nonneg hP, mul_comm]
            exact mul_le_mul_of_nonneg_right hb hP
        · rw [Pi.single_eq_of_ne hj, noTip_iff (hl j).1 (hl j).2]
          obtain ⟨c, s, -, hRj⟩ := flat_entries (hR j)
          rw [hRj, inFrame_flat]
          simp [press]
      · rw [Finset.sum_eq_single i]
        · rw [Pi.single_eq_same]; rfl
        · intro j _ hj
          rw [Pi.single_eq_of_ne hj]
          funext a; fin_cases a <;> rfl
        · simp
      · rw [Finset.sum_eq_single i]
        · rw [Pi.single_eq_same, hRi, flat_point]
          funext a
          fin_cases a
          · simp only [Fin.zero_eta, Pi.add_apply, cross0]
            simp [mpart, fpart]; ring
          · simp only [Fin.mk_one, Pi.add_apply, cross1]
            simp [mpart, fpart]; ring
          · simp only [Fin.reduceFinMk, Pi.add_apply, cross2]
            simp [mpart, fpart]
        · intro j _ hj
          rw [Pi.single_eq_of_ne hj]
          have h1 : fpart (0 : Fin 6 → ℝ) = 0 := by funext a; fin_cases a <;> rfl
          have h2 : mpart (0 : Fin 6 → ℝ) = 0 := by funext a; fin_cases a <;> rfl
          rw [h1, h2, map_zero, add_zero]
        · simp
    · rintro q₁ ⟨w₁, h₁, f₁, m₁⟩ q₂ ⟨w₂, h₂, f₂, m₂⟩ a b ha hb hab
      have hf : ∀ i, fpart (a • w₁ i + b • w₂ i) = a • fpart (w₁ i) + b • fpart (w₂ i) := by
        intro i; funext j; fin_cases j <;> simp [fpart]
      have hm : ∀ i, mpart (a • w₁ i + b • w₂ i) = a • mpart (w₁ i) + b • mpart (w₂ i) := by
        intro i; funext j; fin_cases j <;> simp [mpart]
      refine ⟨fun i => a • w₁ i + b • w₂ i, fun i => ⟨?_, ?_, ?_, ?_⟩, ?_, ?_⟩
      · obtain ⟨c, s, -, hRi⟩ := flat_entries (hR i)
        have t₁ := (h₁ i).1
        have t₂ := (h₂ i).1
        rw [hRi, noTip_flat (hl i).1 (hl i).2] at t₁ t₂ ⊢
        have comb : ∀ {x y X Y l : ℝ}, |x| ≤ l * X → |y| ≤ l * Y → |a * x + b * y| ≤ l * (a * X + b * Y) := by
          intro x y X Y l hx hy
          refine (abs_add_le _ _).trans ?_
          rw [abs_mul, abs_mul, abs_of_nonneg ha, abs_of_nonneg hb]
          nlinarith [mul_le_mul_of_nonneg_left hx ha, mul_le_mul_of_nonneg_left hy hb]
        have hp : press (a • w₁ i + b • w₂ i) = a * press (w₁ i) + b * press (w₂ i) := by simp [press]; ring
        rw [hp]
        refine ⟨?_, ?_⟩
        · have := comb t₁.1 t₂.1
          convert this using 2
          simp; ring
        · have := comb t₁.2 t₂.2
          convert this using 2
          simp; ring
      · simp [(h₁ i).2.1, (h₂ i).2.1]
      · simp [(h₁ i).2.2.1, (h₂ i).2.2.1]
      · simp [(h₁ i).2.2.2, (h₂ i).2.2.2]
      · simp only [hf]
        rw [Finset.sum_add_distrib, ← Finset.smul_sum, ← Finset.smul_sum, f₁, f₂, ← add_smul, hab, one_smul]
      · have e : ∀ i, mpart (a • w₁ i + b • w₂ i) + crossProduct (p i) (fpart (a • w₁ i + b • w₂ i)) =
            a • (mpart (w₁ i) + crossProduct (p i) (fpart (w₁ i))) + b • (mpart (w₂ i) + crossProduct (p i) (fpart (w₂ i))) := by
          intro i
          rw [hf, hm, map_add, map_smul, map_smul]
          module
        simp only [e]
        rw [Finset.sum_add_distrib, ← Finset.smul_sum, ← Finset.smul_sum, m₁, m₂, map_add, map_smul, map_smul]
        rfl
  obtain ⟨w, hw, hf, hm⟩ := hV hq
  refine ⟨w, fun i => ⟨(hw i).1, ?_⟩, hf, hm⟩
  obtain ⟨h1, h2, h3, h4⟩ := hw i
  obtain ⟨c, s, -, hRi⟩ := flat_entries (hR i)
  have hpr : 0 ≤ press (w i) := by
    rw [hRi, noTip_flat (hl i).1 (hl i).2] at h1
    have := (abs_nonneg _).trans h1.1
    exact nonneg_of_mul_nonneg_right this (hl i).1
  rw [hRi, inFrame_flat, h2, h3, h4]
  unfold NoSlip
  have hpr' : press ![c * 0 + s * 0, -s * 0 + c * 0, w i 2, c * w i 3 + s * w i 4, -s * w i 3 + c * w i 4, 0] = press (w i) := rfl
  rw [hpr']
  refine ⟨?_, ?_, ?_⟩
  · simpa using mul_nonneg (hμ i).1 hpr
  · simpa using mul_nonneg (hμ i).1 hpr
  · simpa using mul_nonneg (hμ i).2 hpr

end Verif.Lemmas
