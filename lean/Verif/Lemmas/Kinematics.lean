import Verif.Model.Kinematics
import Verif.Spec.Momentum
import Verif.Lemmas.Body
import Mathlib.LinearAlgebra.Matrix.PosDef
import Mathlib.Algebra.Order.Star.Real

set_option linter.unusedSectionVars false

namespace Verif
open Matrix Verif.Model Verif.Spec

variable {ι : Type*} [Fintype ι] [DecidableEq ι]

/-- base translation and rotation columns -/
abbrev iT (i : Fin 3) : Sys ι := Sum.inl (Sum.inl i)
abbrev iR (i : Fin 3) : Sys ι := Sum.inl (Sum.inr i)

theorem mulVec_baseVelocity (J : Matrix (Fin 3) (Sys ι) ℝ) (v ω : Vec3) :
    J *ᵥ baseVelocity v ω = J.submatrix id iT *ᵥ v + J.submatrix id iR *ᵥ ω := by
  ext i
  simp [mulVec, dotProduct, baseVelocity, Fintype.sum_sum_type]

theorem Spec.FloatingBase.jvT {x0 R0} {l : MovingLink (Sys ι)} (h : FloatingBase x0 R0 l) : l.Jv.submatrix id iT = 1 := by
  refine Matrix.ext_of_mulVec_single fun i => ?_
  have := h.lin (Pi.single i 1) 0
  rw [mulVec_baseVelocity] at this
  simp only [mulVec_zero, map_zero, LinearMap.zero_apply, add_zero, zero_add] at this
  rw [this, one_mulVec]

theorem Spec.FloatingBase.jvR {x0 R0} {l : MovingLink (Sys ι)} (h : FloatingBase x0 R0 l) :
    l.Jv.submatrix id iR = -skew (l.x - x0) * R0 := by
  refine Matrix.ext_of_mulVec_single fun i => ?_
  have := h.lin 0 (Pi.single i 1)
  rw [mulVec_baseVelocity, mulVec_zero, zero_add, zero_add] at this
  rw [this, ← mulVec_mulVec, neg_mulVec, skew_mulVec, cross_anticomm]

theorem Spec.FloatingBase.jwT {x0 R0} {l : MovingLink (Sys ι)} (h : FloatingBase x0 R0 l) : l.Jw.submatrix id iT = 0 := by
  refine Matrix.ext_of_mulVec_single fun i => ?_
  have := h.ang (Pi.single i 1) 0
  rw [mulVec_baseVelocity] at this
  simp only [mulVec_zero, map_zero, LinearMap.zero_apply, add_zero, zero_add] at this
  rw [this, zero_mulVec]

theorem Spec.FloatingBase.jwR {x0 R0} {l : MovingLink (Sys ι)} (h : FloatingBase x0 R0 l) : l.Jw.submatrix id iR = R0 := by
  refine Matrix.ext_of_mulVec_single fun i => ?_
  have := h.ang 0 (Pi.single i 1)
  rw [mulVec_baseVelocity] at this
  simp only [mulVec_zero, map_zero, LinearMap.zero_apply, add_zero, zero_add] at this
  rw [this]

theorem linMap_sum {α β γ : Type*} [AddCommMonoid β] [AddCommMonoid γ] (f : β → γ) (h0 : f 0 = 0)
    (ha : ∀ x y, f (x + y) = f x + f y) (g : α → β) (L : List α) : f (L.map g).sum = (L.map fun a => f (g a)).sum := by
  induction L with
  | nil => simpa using h0
  | cons a L ih => simp [ha, ih]

theorem sum_congr' {α β : Type*} [AddCommMonoid β] {L : List α} {f g : α → β} (h : ∀ a ∈ L, f a = g a) :
    (L.map f).sum = (L.map g).sum := by rw [List.map_congr_left h]

variable {x0 : Vec3} {R0 : Mat3} {L : List (MovingLink (Sys ι))}

theorem rowsT (h : ∀ l ∈ L, FloatingBase x0 R0 l) :
    (massMatrix L).submatrix iT id = (L.map fun l => l.m • l.Jv).sum := by
  unfold massMatrix
  rw [linMap_sum (fun A : Matrix (Sys ι) (Sys ι) ℝ => A.submatrix iT id) rfl (fun _ _ => rfl)]
  refine sum_congr' fun l hl => ?_
  have e : (l.m • (l.Jvᵀ * l.Jv) + l.Jwᵀ * l.I * l.Jw).submatrix iT id =
      l.m • ((l.Jv.submatrix id iT)ᵀ * l.Jv) + (l.Jw.submatrix id iT)ᵀ * l.I * l.Jw := rfl
  rw [e, (h l hl).jvT, (h l hl).jwT]
  simp

theorem rowsR (h : ∀ l ∈ L, FloatingBase x0 R0 l) :
    (massMatrix L).submatrix iR id = (L.map fun l => R0ᵀ * (l.m • (skew (l.x - x0) * l.Jv) + l.I * l.Jw)).sum := by
  unfold massMatrix
  rw [linMap_sum (fun A : Matrix (Sys ι) (Sys ι) ℝ => A.submatrix iR id) rfl (fun _ _ => rfl)]
  refine sum_congr' fun l hl => ?_
  have e : (l.m • (l.Jvᵀ * l.Jv) + l.Jwᵀ * l.I * l.Jw).submatrix iR id =
      l.m • ((l.Jv.submatrix id iR)ᵀ * l.Jv) + (l.Jw.submatrix id iR)ᵀ * l.I * l.Jw := rfl
  rw [e, (h l hl).jvR, (h l hl).jwR, transpose_mul, transpose_neg, skew_transpose, neg_neg, Matrix.mul_add,
    Matrix.mul_smul, Matrix.mul_assoc, Matrix.mul_assoc]

theorem block30 (hR : IsRot R0) (h : ∀ l ∈ L, FloatingBase x0 R0 l) :
    R0 * (massMatrix L).submatrix iR iT = skew ((L.map fun l => l.m • (l.x - x0)).sum) := by
  have e : (massMatrix L).submatrix iR iT = ((massMatrix L).submatrix iR id).submatrix id iT := rfl
  rw [e, rowsR h, linMap_sum skew skew_zero skew_add,
    linMap_sum (fun A : Matrix (Fin 3) (Sys ι) ℝ => R0 * A.submatrix id iT) (by simp) (fun _ _ => by
      rw [← Matrix.mul_add]; rfl)]
  refine sum_congr' fun l hl => ?_
  have e : (R0ᵀ * (l.m • (skew (l.x - x0) * l.Jv) + l.I * l.Jw)).submatrix id iT =
      R0ᵀ * (l.m • (skew (l.x - x0) * l.Jv.submatrix id iT) + l.I * l.Jw.submatrix id iT) := rfl
  rw [e, (h l hl).jvT, (h l hl).jwT, ← Matrix.mul_assoc, IsRot.orth' hR, skew_smul]
  simp

theorem block33 (hR : IsRot R0) (h : ∀ l ∈ L, FloatingBase x0 R0 l) :
    R0 * (massMatrix L).submatrix iR iR * R0ᵀ = compositeInertia x0 L := by
  have e : (massMatrix L).submatrix iR iR = ((massMatrix L).submatrix iR id).submatrix id iR := rfl
  rw [e, rowsR h, compositeInertia,
    linMap_sum (fun A : Matrix (Fin 3) (Sys ι) ℝ => R0 * A.submatrix id iR * R0ᵀ) (by simp) (fun _ _ => by
      rw [← Matrix.add_mul, ← Matrix.mul_add]; rfl)]
  refine sum_congr' fun l hl => ?_
  have e : (R0ᵀ * (l.m • (skew (l.x - x0) * l.Jv) + l.I * l.Jw)).submatrix id iR =
      R0ᵀ * (l.m • (skew (l.x - x0) * l.Jv.submatrix id iR) + l.I * l.Jw.submatrix id iR) := rfl
  rw [e, (h l hl).jvR, (h l hl).jwR, ← Matrix.mul_assoc, IsRot.orth' hR, one_mul, Matrix.add_mul, Matrix.smul_mul,
    Matrix.mul_assoc, Matrix.mul_assoc (-_), Matrix.mul_assoc l.I, IsRot.orth' hR, mul_one, mul_one, ← skew_transpose,
    skew_sq, add_comm]

theorem rowsAng (hR : IsRot R0) (h : ∀ l ∈ L, FloatingBase x0 R0 l) (r : Vec3) :
    (skew r)ᵀ * (massMatrix L).submatrix iT id + R0 * (massMatrix L).submatrix iR id =
      (L.map fun l => (l.m • (skew (l.x - (r + x0)) * l.Jv) + l.I * l.Jw : Matrix (Fin 3) (Sys ι) ℝ)).sum := by
  rw [rowsT h, rowsR h, linMap_sum (fun A : Matrix (Fin 3) (Sys ι) ℝ => R0 * A) (by simp) (fun _ _ => Matrix.mul_add _ _ _),
    linMap_sum (fun A : Matrix (Fin 3) (Sys ι) ℝ => (skew r)ᵀ * A) (by simp) (fun _ _ => Matrix.mul_add _ _ _),
    ← List.sum_map_add]
  refine sum_congr' fun l hl => ?_
  rw [← Matrix.mul_assoc, IsRot.orth' hR, Matrix.one_mul, Matrix.mul_smul, skew_transpose, Matrix.neg_mul, ← add_assoc]
  congr 1
  have : l.x - (r + x0) = (l.x - x0) - r := by abel
  rw [this, skew_sub (l.x - x0) r, Matrix.sub_mul, smul_sub, smul_neg]
  abel

theorem moment_shift (L : List (MovingLink (Sys ι))) (x0 : Vec3) :
    (L.map fun l => l.m • (l.x - x0)).sum = (L.map fun l => l.m • l.x).sum - mass L • x0 := by
  induction L with
  | nil => simp [mass]
  | cons l L ih => simp only [List.map_cons, List.sum_cons, ih, mass]; module

/-- parallel axis for the composite inertia -/
theorem compositeInertia_shift (L : List (MovingLink (Sys ι))) (x0 r : Vec3) :
    compositeInertia (r + x0) L = compositeInertia x0 L + mass L • pointInertia r
      - mixInertia ((L.map fun l => l.m • (l.x - x0)).sum) r := by
  induction L with
  | nil => ext i j; simp [compositeInertia, mass, mixInertia, dotProduct, vecMulVec_apply]
  | cons l L ih =>
    have e1 : ∀ c, compositeInertia c (l :: L) = l.I + l.m • pointInertia (l.x - c) + compositeInertia c L :=
      fun c => by simp [compositeInertia]
    have e3 : mass (l :: L) = l.m + mass L := by simp [mass]
    rw [e1, e1, ih, e3, List.map_cons, List.sum_cons, mixInertia_add, mixInertia_smul]
    have : l.x - (r + x0) = (l.x - x0) - r := by abel
    rw [this, pointInertia_sub (l.x - x0) r]
    unfold mixInertia
    module

theorem pointInertia_posSemidef (v : Vec3) : (pointInertia v).PosSemidef := by
  rw [← skew_sq]
  have := posSemidef_self_mul_conjTranspose (skew v)
  rwa [conjTranspose_eq_transpose_of_trivial] at this

theorem compositeInertia_posDef (hm : ∀ l ∈ L, 0 < l.m) (hI : ∀ l ∈ L, l.I.PosDef) (hL : L ≠ []) (c : Vec3) :
    (compositeInertia c L).PosDef := by
  induction L with
  | nil => exact absurd rfl hL
  | cons l L ih =>
    have e1 : compositeInertia c (l :: L) = l.I + l.m • pointInertia (l.x - c) + compositeInertia c L := by
      simp [compositeInertia]
    have h1 : (l.I + l.m • pointInertia (l.x - c)).PosDef :=
      (hI l (by simp)).add_posSemidef ((pointInertia_posSemidef _).smul (hm l (by simp)).le)
    rw [e1]
    by_cases hL' : L = []
    · subst hL'
      have : compositeInertia c ([] : List (MovingLink (Sys ι))) = 0 := by simp [compositeInertia]
      rw [this, add_zero]; exact h1
    · exact h1.add (ih (fun l hl => hm l (by simp [hl])) (fun l hl => hI l (by simp [hl])) hL')

theorem mass_pos (hm : ∀ l ∈ L, 0 < l.m) (hL : L ≠ []) : 0 < mass L := by
  induction L with
  | nil => exact absurd rfl hL
  | cons l L ih =>
    have e3 : mass (l :: L) = l.m + mass L := by simp [mass]
    have := hm l (by simp)
    by_cases hL' : L = []
    · subst hL'; rw [e3]; simpa [mass] using this
    · have := ih (fun l hl => hm l (by simp [hl])) hL'
      rw [e3]; linarith

theorem eigenInverse_diag {M : ℝ} (hM : M ≠ 0) {I : Mat3} (hI : I.PosDef) :
    eigenInverse (fromBlocks (M • 1) 0 0 I : Mat6) = some (fromBlocks (M⁻¹ • 1) 0 0 I⁻¹) := by
  have hu : IsUnit I.det := (Matrix.isUnit_iff_isUnit_det _).mp hI.isUnit
  have h1 : (fromBlocks (M • 1) 0 0 I : Mat6) * fromBlocks (M⁻¹ • 1) 0 0 I⁻¹ = 1 := by
    rw [fromBlocks_multiply, ← fromBlocks_one]
    simp [smul_smul, inv_mul_cancel₀ hM, mul_nonsing_inv I hu, hM]
  have h2 := Matrix.inv_eq_right_inv h1
  unfold eigenInverse
  rw [if_pos ((Matrix.isUnit_iff_isUnit_det _).mp (IsUnit.of_mul_eq_one _ h1)), h2]

end Verif
