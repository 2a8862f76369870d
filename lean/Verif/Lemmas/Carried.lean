import Verif.Spec.Carried
import Verif.Lemmas.Kinematics
import Verif.Lemmas.Heading

/-!
# Lemmas for C80: kinematics of a robot turned and moved
-/

set_option linter.unusedSectionVars false

namespace Verif
open Matrix Verif.Spec Verif.Model

theorem cross_turn {Q : Mat3} (h : IsRot Q) (a b : Vec3) : crossProduct (Q *ᵥ a) (Q *ᵥ b) = Q *ᵥ crossProduct a b := by
  have k := IsRot.eqs h
  obtain ⟨_, _, _, _, _, _, k00, k01, k02, k10, k11, k12, k20, k21, k22⟩ := k
  ext i
  fin_cases i <;> simp [cross_apply, mulVec, dotProduct, Fin.sum_univ_three] <;> grind

variable {ι : Type*} [Fintype ι] [DecidableEq ι]

theorem turnSys_base (Q : Mat3) (v ω : Vec3) : turnSys (ι := ι) Q *ᵥ baseVelocity v ω = baseVelocity (Qᵀ *ᵥ v) ω := by
  ext i
  rcases i with (i | i) | i <;> simp [turnSys, baseVelocity, fromBlocks_mulVec]

theorem carry_floating {Q : Mat3} (h : IsRot Q) (d : Vec3) {x0 : Vec3} {R0 : Mat3} {l : MovingLink (Sys ι)}
    (hb : FloatingBase x0 R0 l) : FloatingBase (Q *ᵥ x0 + d) (Q * R0) (carryLink Q d l) := by
  constructor
  · intro v ω
    have e : (Q *ᵥ l.x + d) - (Q *ᵥ x0 + d) = Q *ᵥ (l.x - x0) := by rw [mulVec_sub]; abel
    simp only [carryLink]
    rw [Matrix.mul_assoc, ← mulVec_mulVec, ← mulVec_mulVec, turnSys_base, hb.lin, e, ← mulVec_mulVec, cross_turn h, mulVec_add,
      mulVec_mulVec, IsRot.orth' h, one_mulVec]
  · intro v ω
    simp only [carryLink]
    rw [Matrix.mul_assoc, ← mulVec_mulVec, ← mulVec_mulVec, turnSys_base, hb.ang, mulVec_mulVec]

theorem carry_mass (Q : Mat3) (d : Vec3) (L : List (MovingLink (Sys ι))) : mass (L.map (carryLink Q d)) = mass L := by
  simp [mass, carryLink, Function.comp_def]

theorem carry_massMatrix {Q : Mat3} (h : IsRot Q) (d : Vec3) (L : List (MovingLink (Sys ι))) :
    massMatrix (L.map (carryLink Q d)) = (turnSys Q)ᵀ * massMatrix L * turnSys Q := by
  unfold massMatrix
  rw [linMap_sum (fun A : Matrix (Sys ι) (Sys ι) ℝ => (turnSys Q)ᵀ * A * turnSys Q) (by simp)
    (fun _ _ => by rw [Matrix.mul_add, Matrix.add_mul]), List.map_map]
  refine sum_congr' fun l _ => ?_
  simp only [Function.comp_apply, carryLink, transpose_mul]
  have e1 : (turnSys (ι := ι) Q)ᵀ * (l.Jvᵀ * Qᵀ) * (Q * l.Jv * turnSys Q)
      = (turnSys (ι := ι) Q)ᵀ * (l.Jvᵀ * (Qᵀ * Q) * l.Jv) * turnSys Q := by simp only [Matrix.mul_assoc]
  have e2 : (turnSys (ι := ι) Q)ᵀ * (l.Jwᵀ * Qᵀ) * (Q * l.I * Qᵀ) * (Q * l.Jw * turnSys Q)
      = (turnSys (ι := ι) Q)ᵀ * (l.Jwᵀ * (Qᵀ * Q) * l.I * (Qᵀ * Q) * l.Jw) * turnSys Q := by simp only [Matrix.mul_assoc]
  rw [e1, e2, h.orth, Matrix.mul_one, Matrix.mul_one, Matrix.mul_one, Matrix.mul_add, Matrix.add_mul, Matrix.mul_smul, Matrix.smul_mul]

theorem carry_gravity {Q : Mat3} {g : Vec3} (hg : Qᵀ *ᵥ g = g) (d : Vec3) (L : List (MovingLink (Sys ι))) :
    Spec.gravityForce g (L.map (carryLink Q d)) = (turnSys Q)ᵀ *ᵥ Spec.gravityForce g L := by
  unfold Spec.gravityForce
  rw [linMap_sum (fun v : Sys ι → ℝ => (turnSys Q)ᵀ *ᵥ v) (by simp) (fun _ _ => mulVec_add _ _ _), List.map_map]
  refine sum_congr' fun l _ => ?_
  simp only [Function.comp_apply, carryLink, transpose_mul]
  rw [← mulVec_mulVec, ← mulVec_mulVec, mulVec_smul, hg]

theorem carry_jac (Q : Mat3) (d : Vec3) (L : List (MovingLink (Sys ι))) :
    ((L.map (carryLink Q d)).map fun l => l.m • l.Jv).sum = Q * (L.map fun l => l.m • l.Jv).sum * turnSys Q := by
  rw [linMap_sum (fun A : Matrix (Fin 3) (Sys ι) ℝ => Q * A * turnSys Q) (by simp)
    (fun _ _ => by rw [Matrix.mul_add, Matrix.add_mul]), List.map_map]
  refine sum_congr' fun l _ => ?_
  simp [carryLink, Matrix.mul_smul, Matrix.smul_mul]

theorem carry_com {Q : Mat3} {d : Vec3} {L : List (MovingLink (Sys ι))} {c : Vec3} (h : IsCOM L c) :
    IsCOM (L.map (carryLink Q d)) (Q *ᵥ c + d) := by
  unfold IsCOM at h ⊢
  rw [carry_mass, smul_add, ← mulVec_smul, h, linMap_sum (fun v : Vec3 => Q *ᵥ v) (by simp) (fun _ _ => mulVec_add _ _ _),
    List.map_map]
  have : mass L • d = (L.map fun l => l.m • d).sum := by
    unfold mass
    rw [linMap_sum (fun a : ℝ => a • d) (by simp) (fun _ _ => add_smul _ _ _)]
  rw [this, ← List.sum_map_add]
  refine sum_congr' fun l _ => ?_
  simp [carryLink, mulVec_smul]

theorem com_unique {L : List (MovingLink (Sys ι))} (hM : mass L ≠ 0) {c c' : Vec3} (h : IsCOM L c) (h' : IsCOM L c') : c = c' := by
  have : mass L • c = mass L • c' := h.trans h'.symm
  have e := congrArg ((mass L)⁻¹ • ·) this
  simpa only [smul_smul, inv_mul_cancel₀ hM, one_smul] using e

theorem pointInertia_turn {Q : Mat3} (h : IsRot Q) (r : Vec3) : pointInertia (Q *ᵥ r) = Q * pointInertia r * Qᵀ := by
  unfold pointInertia
  have e1 : (Q *ᵥ r) ⬝ᵥ (Q *ᵥ r) = r ⬝ᵥ r := by rw [dotProduct_mulVec, vecMul_mulVec, h.orth, vecMul_one]
  have e2 : vecMulVec (Q *ᵥ r) (Q *ᵥ r) = Q * vecMulVec r r * Qᵀ := by
    rw [mul_vecMulVec, vecMulVec_mul, vecMul_transpose]
  rw [e1, e2, Matrix.mul_sub, Matrix.sub_mul, Matrix.mul_smul, Matrix.smul_mul, Matrix.mul_one, IsRot.orth' h]

theorem carry_inertia {Q : Mat3} (h : IsRot Q) (d c : Vec3) (L : List (MovingLink (Sys ι))) :
    compositeInertia (Q *ᵥ c + d) (L.map (carryLink Q d)) = Q * compositeInertia c L * Qᵀ := by
  unfold compositeInertia
  rw [linMap_sum (fun A : Mat3 => Q * A * Qᵀ) (by simp) (fun _ _ => by rw [Matrix.mul_add, Matrix.add_mul]), List.map_map]
  refine sum_congr' fun l _ => ?_
  simp only [Function.comp_apply, carryLink]
  have e : Q *ᵥ l.x + d - (Q *ᵥ c + d) = Q *ᵥ (l.x - c) := by rw [mulVec_sub]; abel
  rw [e, pointInertia_turn h, Matrix.mul_add, Matrix.add_mul, Matrix.mul_smul, Matrix.smul_mul]

theorem carry_momentum {Q : Mat3} (h : IsRot Q) (d c : Vec3) (L : List (MovingLink (Sys ι))) (qd : Sys ι → ℝ) :
    angularMomentum (Q *ᵥ c + d) (L.map (carryLink Q d)) qd = Q *ᵥ angularMomentum c L (turnSys Q *ᵥ qd) := by
  unfold angularMomentum
  rw [linMap_sum (fun v : Vec3 => Q *ᵥ v) (by simp) (fun _ _ => mulVec_add _ _ _), List.map_map]
  refine sum_congr' fun l _ => ?_
  simp only [Function.comp_apply, carryLink]
  have e : Q *ᵥ l.x + d - (Q *ᵥ c + d) = Q *ᵥ (l.x - c) := by rw [mulVec_sub]; abel
  rw [e]
  simp only [← mulVec_mulVec]
  rw [cross_turn h, mulVec_mulVec (M := Qᵀ), h.orth, one_mulVec, mulVec_add, mulVec_smul]

theorem carry_posDef {Q : Mat3} (h : IsRot Q) {I : Mat3} (hI : I.PosDef) : (Q * I * Qᵀ).PosDef := by
  have hu : IsUnit Q := (Matrix.isUnit_iff_isUnit_det _).mpr (by rw [h.det]; exact isUnit_one)
  have := (Matrix.IsUnit.posDef_star_right_conjugate_iff (x := I) hu).mpr hI
  simpa [star_eq_conjTranspose] using this

/-- The two ways of writing the change of the base coordinates. -/
theorem baseChange_turnSys (Q : Mat3) :
    (baseChange (ι := ι) (turnBase Q)).submatrix (Sum.map finSumFinEquiv id) (Sum.map finSumFinEquiv id) = turnSys Q := by
  ext i j
  rcases i with (i | i) | i <;> rcases j with (j | j) | j <;>
    simp [baseChange, turnBase, turnSys, Matrix.one_apply, Fin.ext_iff, finSumFinEquiv]
  all_goals omega

end Verif
