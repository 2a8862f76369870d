import Verif.Lemmas.Body
import Mathlib.LinearAlgebra.Matrix.PosDef
import Mathlib.Algebra.Order.Star.Real

/-!
# C22, C23, C51: merging links, spatial inertia, spatial transforms
-/
set_option linter.unusedSectionVars false

namespace Verif.Props
open Matrix Verif Verif.Spec Verif.Model

/-! ## C22 -/

/-- C22.  If one link describes the mass points `P` and the other, in its own frame, the mass points `Q`, then the
merged link describes `P` together with `Q` moved by the mounting pose. -/
theorem C22_add_link {a b : Body} {P Q : List Particle} (ha : Describes a.mass a.com a.inertia P)
    (hb : Describes b.mass b.com b.inertia Q) {R : Mat3} (hR : IsRot R) (x : Vec3) (hm : a.mass + b.mass ≠ 0) :
    ∃ c, addLink a b R x = some c ∧ Describes c.mass c.com c.inertia (P ++ Q.map (Particle.move R x)) := by
  obtain ⟨c, hc⟩ := addLink_isSome hm R x
  obtain ⟨h1, h2, h3, h4⟩ := addLink_ext hc
  obtain ⟨pa1, pa2, pa3⟩ := (describes_iff a P).mp ha
  obtain ⟨pb1, pb2, pb3⟩ := (describes_iff (b.moved R x) _).mp (describes_moved hb hR.orth x)
  refine ⟨c, hc, (describes_iff c _).mpr ⟨?_, ?_, ?_⟩⟩
  · rw [h1, totalMass_append, ← pa1, ← pb1]; rfl
  · rw [h3, firstMoment_append, ← pa2, ← pb2]; rfl
  · rw [h4, inertiaAbout_append, ← pa3, ← pb3]

/-- C22.  For any links (described by mass points or not) the inertias about an arbitrary point add. -/
theorem C22_inertia_adds {a b c : Body} {R : Mat3} {x : Vec3} (h : addLink a b R x = some c) (p : Vec3) :
    c.mass = a.mass + b.mass ∧
    c.mass • c.com = a.mass • a.com + b.mass • (R *ᵥ b.com + x) ∧
    c.inertia + c.mass • pointInertia (c.com - p) =
      (a.inertia + a.mass • pointInertia (a.com - p)) +
      (R * b.inertia * Rᵀ + b.mass • pointInertia (R *ᵥ b.com + x - p)) := by
  obtain ⟨h1, h2, h3, h4⟩ := addLink_ext h
  refine ⟨h1, h3, ?_⟩
  have e : ∀ (m : ℝ) (I : Mat3) (v : Vec3), I + m • pointInertia (v - p) =
      (I + m • pointInertia v) + m • pointInertia p - mixInertia (m • v) p := by
    intro m I v
    rw [pointInertia_sub, mixInertia_smul]
    unfold mixInertia
    module
  unfold originInertia at h4
  rw [e, e, e, h4, h3, mixInertia_add, h1]
  simp only [Model.Body.moved]
  module

/-- C22.  The order in which two links are merged into a third does not matter. -/
theorem C22_order {a b c ab ac abc acb : Body} {R S : Mat3} {x y : Vec3}
    (h1 : addLink a b R x = some ab) (h2 : addLink ab c S y = some abc)
    (h3 : addLink a c S y = some ac) (h4 : addLink ac b R x = some acb) : abc = acb := by
  obtain ⟨p1, -, p3, p4⟩ := addLink_ext h1
  obtain ⟨q1, q2, q3, q4⟩ := addLink_ext h2
  obtain ⟨r1, -, r3, r4⟩ := addLink_ext h3
  obtain ⟨s1, -, s3, s4⟩ := addLink_ext h4
  refine body_ext_of ?_ q2 ?_ ?_
  · rw [q1, s1, p1, r1]; ring
  · rw [q3, s3, p3, r3]; abel
  · rw [q4, s4, p4, r4]; abel

/-- hypotheses met: a dumbbell merged with a copy of itself turned by a quarter turn -/
example : ∃ (b : Body) (P : List Particle), Describes b.mass b.com b.inertia P ∧ b.mass + b.mass ≠ 0 ∧
    IsRot (1 : Mat3) := by
  refine ⟨⟨2, 0, inertiaAbout 0 [⟨1, ![1, 0, 0]⟩, ⟨1, ![-1, 0, 0]⟩]⟩, [⟨1, ![1, 0, 0]⟩, ⟨1, ![-1, 0, 0]⟩],
    ⟨?_, ?_, rfl⟩, by norm_num, IsRot.one⟩
  · norm_num [totalMass]
  · ext i; fin_cases i <;> simp [firstMoment]

/-! ## C23 -/

/-- C23.  Extracting mass, centre of mass and inertia from the spatial inertia (translation first) returns them; same
for the spatial inertia built about the centre of mass. -/
theorem C23_round_trip {b : Body} (hm : b.mass ≠ 0) :
    inertiaMatrixSegment (spatialInertia b false) = some b ∧
      inertiaMatrixSegment (inertiaMatrix b.inertia b.mass) = some ⟨b.mass, 0, b.inertia⟩ := by
  constructor
  · unfold inertiaMatrixSegment
    have hs : spatialInertia b false = fromBlocks (b.mass • 1) (b.mass • (skew b.com)ᵀ)
      (b.mass • skew b.com) (b.inertia + b.mass • (skew b.com * (skew b.com)ᵀ)) := rfl
    have h00 : spatialInertia b false (Sum.inl 0) (Sum.inl 0) = b.mass := by rw [hs]; simp
    simp only
    rw [h00, if_neg hm, hs, toBlocks_fromBlocks₂₁, toBlocks_fromBlocks₂₂, smul_smul, one_div_mul_cancel hm, one_smul]
    have hc : (![skew b.com 2 1, skew b.com 0 2, skew b.com 1 0] : Vec3) = b.com := by
      ext i; fin_cases i <;> simp [skew]
    rw [hc, add_sub_cancel_right]
  · unfold inertiaMatrixSegment
    have h00 : inertiaMatrix b.inertia b.mass (Sum.inl 0) (Sum.inl 0) = b.mass := by simp [inertiaMatrix]
    simp only
    rw [h00, if_neg hm]
    have hc : (![((1 / b.mass) • (inertiaMatrix b.inertia b.mass).toBlocks₂₁) 2 1,
        ((1 / b.mass) • (inertiaMatrix b.inertia b.mass).toBlocks₂₁) 0 2,
        ((1 / b.mass) • (inertiaMatrix b.inertia b.mass).toBlocks₂₁) 1 0] : Vec3) = 0 := by
      ext i; fin_cases i <;> simp [inertiaMatrix]
    rw [hc, skew_zero]
    simp [inertiaMatrix]

/-- Twist with angular velocity `w` and linear velocity `v`, in the order used by `spatialInertia`. -/
def twist (rotationFirst : Bool) (w v : Vec3) : Fin 3 ⊕ Fin 3 → ℝ :=
  if rotationFirst then Sum.elim w v else Sum.elim v w

/-- C23.  The quadratic form of the spatial inertia is twice the kinetic energy: mass times squared velocity of the
centre of mass plus the rotational part. -/
theorem C23_kinetic_energy (b : Body) (r : Bool) (w v : Vec3) :
    twist r w v ⬝ᵥ (spatialInertia b r *ᵥ twist r w v) =
      b.mass * ((v + crossProduct w b.com) ⬝ᵥ (v + crossProduct w b.com)) + w ⬝ᵥ (b.inertia *ᵥ w) := by
  cases r
  · simp only [twist, spatialInertia, Bool.false_eq_true, if_false, fromBlocks_mulVec, sumElim_dotProduct_sumElim, skew_sq, skew_transpose]
    simp [skew, pointInertia, mulVec, dotProduct, Fin.sum_univ_three, vecMulVec_apply, cross_apply, Matrix.one_apply]
    ring
  · simp only [twist, spatialInertia, if_true, fromBlocks_mulVec, sumElim_dotProduct_sumElim, skew_sq, skew_transpose]
    simp [skew, pointInertia, mulVec, dotProduct, Fin.sum_univ_three, vecMulVec_apply, cross_apply, Matrix.one_apply]
    ring

theorem dot_self_nonneg (v : Vec3) : 0 ≤ v ⬝ᵥ v := by
  simp only [dotProduct]; exact Finset.sum_nonneg fun i _ => mul_self_nonneg _

/-- C23.  A body with positive mass and positive definite inertia has a positive definite spatial inertia. -/
theorem C23_posDef {b : Body} (hm : 0 < b.mass) (hI : b.inertia.PosDef) (r : Bool) : (spatialInertia b r).PosDef := by
  have hsym : b.inertiaᵀ = b.inertia := by
    have := hI.1.eq
    rwa [conjTranspose_eq_transpose_of_trivial] at this
  refine PosDef.of_dotProduct_mulVec_pos ?_ ?_
  · rw [IsHermitian, conjTranspose_eq_transpose_of_trivial]
    cases r <;> simp [spatialInertia, fromBlocks_transpose, hsym, transpose_mul]
  · intro ξ hξ
    obtain ⟨w, v, rfl⟩ : ∃ w v, ξ = twist r w v := by
      cases r
      · exact ⟨fun i => ξ (Sum.inr i), fun i => ξ (Sum.inl i), by ext (i | i) <;> rfl⟩
      · exact ⟨fun i => ξ (Sum.inl i), fun i => ξ (Sum.inr i), by ext (i | i) <;> rfl⟩
    rw [star_trivial, C23_kinetic_energy]
    have h2 : 0 ≤ (v + crossProduct w b.com) ⬝ᵥ (v + crossProduct w b.com) := dot_self_nonneg _
    by_cases hw : w = 0
    · subst hw
      have hv : v ≠ 0 := by
        rintro rfl
        apply hξ
        cases r <;> ext (i | i) <;> rfl
      simp only [map_zero, LinearMap.zero_apply, add_zero, zero_dotProduct]
      exact mul_pos hm (lt_of_le_of_ne (dot_self_nonneg _) fun e => hv (dotProduct_self_eq_zero.mp e.symm))
    · have := hI.dotProduct_mulVec_pos hw
      rw [star_trivial] at this
      have := mul_nonneg hm.le h2
      linarith

/-- hypotheses met -/
example : (⟨1, ![1, 2, 3], 1⟩ : Body).mass ≠ 0 ∧ (⟨1, ![1, 2, 3], 1⟩ : Body).inertia.PosDef :=
  ⟨one_ne_zero, PosDef.one⟩

/-! ## C51 -/

/-- C51.  Spatial transforms and adjoint matrices compose like rigid motions: transforming by `(p, R)` after `(q, S)` is
transforming by `(p + R q, R S)`. -/
theorem C51_compose {R : Mat3} (hR : IsRot R) (S : Mat3) (p q : Vec3) :
    spatialTransform p R * spatialTransform q S = spatialTransform (p + R *ᵥ q) (R * S) ∧
      adjointMatrix p R * adjointMatrix q S = adjointMatrix (p + R *ᵥ q) (R * S) := by
  have key : skew (p + R *ᵥ q) * (R * S) = R * (skew q * S) + skew p * R * S := by
    rw [skew_add, skew_rot hR, Matrix.add_mul, add_comm, ← Matrix.mul_assoc, ← Matrix.mul_assoc]
    congr 1
    rw [Matrix.mul_assoc (R * skew q), hR.orth, mul_one, Matrix.mul_assoc]
  constructor
  · simp only [spatialTransform, fromBlocks_multiply, Matrix.mul_zero, Matrix.zero_mul, add_zero, zero_add]
    rw [key]
  · simp only [adjointMatrix, fromBlocks_multiply, Matrix.mul_zero, Matrix.zero_mul, add_zero, zero_add]
    rw [key, add_comm]

/-- C51.  The two matrices are dual: the adjoint of twists is the inverse transpose of the transform, so the power
(wrench · twist) does not depend on the frame. -/
theorem C51_power {R : Mat3} (hR : IsRot R) (p : Vec3) : (adjointMatrix p R)ᵀ * spatialTransform p R = 1 := by
  simp only [adjointMatrix, spatialTransform, fromBlocks_transpose, fromBlocks_multiply, transpose_zero,
    Matrix.zero_mul, Matrix.mul_zero, add_zero, zero_add, hR.orth, transpose_mul, skew_transpose]
  rw [← fromBlocks_one]
  congr 1
  rw [Matrix.mul_neg, Matrix.neg_mul, Matrix.mul_assoc, add_neg_cancel]

end Verif.Props
