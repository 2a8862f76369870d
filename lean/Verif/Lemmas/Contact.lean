import Verif.Model.Contact
import Verif.Lemmas.Spd

set_option linter.unusedSectionVars false

namespace Verif
open Matrix Verif.Spec Verif.Model

variable {ι : Type*} [Fintype ι] [DecidableEq ι] {c : ℕ}

/-- Joint selection matrix `[0 1]`. -/
def Sel (ι : Type*) [DecidableEq ι] : Matrix ι (Fin 6 ⊕ ι) ℝ :=
  Matrix.of fun i s => Sum.elim (fun _ => 0) (fun j => if i = j then 1 else 0) s

theorem mul_selT {m : Type*} (M : Matrix m (Fin 6 ⊕ ι) ℝ) :
    M * (Sel ι)ᵀ = M.submatrix id Sum.inr := by
  ext i j
  simp [Matrix.mul_apply, Sel, Fintype.sum_sum_type, Matrix.one_apply]

theorem sel_mul {m : Type*} (M : Matrix (Fin 6 ⊕ ι) m ℝ) :
    Sel ι * M = M.submatrix Sum.inr id := by
  ext i j
  simp [Matrix.mul_apply, Sel, Fintype.sum_sum_type, Matrix.one_apply]

theorem sel_mul_selT (M : Matrix (Fin 6 ⊕ ι) (Fin 6 ⊕ ι) ℝ) :
    Sel ι * M * (Sel ι)ᵀ = M.submatrix Sum.inr Sum.inr := by
  rw [sel_mul, mul_selT]; rfl

theorem actuate_eq (τ : ι → ℝ) : actuate τ = (Sel ι)ᵀ *ᵥ τ := by
  ext i
  rcases i with i | i <;>
    simp [actuate, Matrix.mulVec, dotProduct, Sel, Matrix.one_apply]

theorem sel_mulVec (v : Fin 6 ⊕ ι → ℝ) : Sel ι *ᵥ v = fun i => v (Sum.inr i) := by
  ext i
  simp [Matrix.mulVec, dotProduct, Sel, Fintype.sum_sum_type, Matrix.one_apply]

section
variable {A : Matrix (Fin 6 ⊕ ι) (Fin 6 ⊕ ι) ℝ} {J : Matrix (Fin c) (Fin 6 ⊕ ι) ℝ}
  {S : ContactSpace c ι}

theorem contactSpace_eq_some :
    contactSpace J A⁻¹ = some S ↔
      IsUnit (J * A⁻¹ * Jᵀ).det ∧ S = contactSpaceOf J A⁻¹ (J * A⁻¹ * Jᵀ)⁻¹ := by
  unfold contactSpace
  rw [Option.map_eq_some_iff]
  constructor
  · rintro ⟨Λ, h1, h2⟩
    obtain ⟨h3, rfl⟩ := eigenInverse_eq_some.mp h1
    exact ⟨h3, h2.symm⟩
  · rintro ⟨h1, h2⟩
    exact ⟨_, eigenInverse_eq_some.mpr ⟨h1, rfl⟩, h2.symm⟩

variable (hA : IsSPD A) (hS : contactSpace J A⁻¹ = some S)

include hS in
theorem cs_unit : IsUnit (J * A⁻¹ * Jᵀ).det := (contactSpace_eq_some.mp hS).1

include hS in
theorem cs_lambda : S.lambda = (J * A⁻¹ * Jᵀ)⁻¹ := by
  rw [(contactSpace_eq_some.mp hS).2]; rfl

include hS in
theorem cs_JcInvT : S.JcInvT = S.lambda * J * A⁻¹ := by
  rw [(contactSpace_eq_some.mp hS).2]; rfl

include hS in
theorem cs_Nc : S.Nc = 1 - Jᵀ * S.JcInvT := by
  rw [(contactSpace_eq_some.mp hS).2]; rfl

include hS in
theorem cs_P : S.AinvNc = A⁻¹ * S.Nc := by
  rw [(contactSpace_eq_some.mp hS).2]; rfl

include hS in
theorem cs_W : S.W = Sel ι * S.AinvNc * (Sel ι)ᵀ := by
  rw [sel_mul_selT, (contactSpace_eq_some.mp hS).2]; rfl

include hS in
theorem cs_Winv : S.Winv = pinv S.W := by
  rw [(contactSpace_eq_some.mp hS).2]; rfl

include hS in
theorem cs_lambda_mul : S.lambda * (J * A⁻¹ * Jᵀ) = 1 := by
  rw [cs_lambda hS]; exact nonsing_inv_mul _ (cs_unit hS)

include hS in
theorem cs_mul_lambda : (J * A⁻¹ * Jᵀ) * S.lambda = 1 := by
  rw [cs_lambda hS]; exact mul_nonsing_inv _ (cs_unit hS)

include hA hS in
theorem cs_lambda_symm : S.lambdaᵀ = S.lambda := by
  rw [cs_lambda hS, transpose_nonsing_inv]
  congr 1
  simp [transpose_mul, hA.inv_symm, Matrix.mul_assoc]

include hS in
theorem cs_JcInvT_JT : S.JcInvT * Jᵀ = 1 := by
  rw [cs_JcInvT hS, ← cs_lambda_mul hS]; simp only [Matrix.mul_assoc]

include hS in
theorem cs_Nc_JT : S.Nc * Jᵀ = 0 := by
  rw [cs_Nc hS, Matrix.sub_mul, Matrix.mul_assoc, cs_JcInvT_JT hS]; simp

include hS in
theorem cs_JcInvT_Nc : S.JcInvT * S.Nc = 0 := by
  rw [cs_Nc hS, Matrix.mul_sub, ← Matrix.mul_assoc, cs_JcInvT_JT hS]; simp

include hS in
theorem cs_Nc_idem : S.Nc * S.Nc = S.Nc := by
  have h : (1 - Jᵀ * S.JcInvT) * S.Nc = S.Nc := by
    rw [Matrix.sub_mul, Matrix.mul_assoc, cs_JcInvT_Nc hS]; simp
  rwa [← cs_Nc hS] at h

include hS in
theorem cs_J_P : J * S.AinvNc = 0 := by
  rw [cs_P hS, cs_Nc hS, cs_JcInvT hS]
  calc J * (A⁻¹ * (1 - Jᵀ * (S.lambda * J * A⁻¹)))
      = J * A⁻¹ - (J * A⁻¹ * Jᵀ) * S.lambda * (J * A⁻¹) := by
        simp only [Matrix.mul_sub, Matrix.mul_one, Matrix.mul_assoc]
    _ = 0 := by rw [cs_mul_lambda hS, Matrix.one_mul, sub_self]

include hA hS in
theorem cs_P_symm : S.AinvNcᵀ = S.AinvNc := by
  rw [cs_P hS, cs_Nc hS, cs_JcInvT hS]
  simp only [transpose_mul, transpose_sub, transpose_one, transpose_transpose, hA.inv_symm,
    cs_lambda_symm hA hS, Matrix.mul_sub, Matrix.sub_mul, Matrix.mul_one, Matrix.one_mul,
    Matrix.mul_assoc]

include hS in
theorem cs_P_JT : S.AinvNc * Jᵀ = 0 := by
  rw [cs_P hS, Matrix.mul_assoc, cs_Nc_JT hS, Matrix.mul_zero]

include hA hS in
theorem cs_A_P : A * S.AinvNc = S.Nc := by
  rw [cs_P hS, ← Matrix.mul_assoc, hA.mul_inv, Matrix.one_mul]

include hA hS in
theorem cs_PAP : S.AinvNc * A * S.AinvNc = S.AinvNc := by
  rw [Matrix.mul_assoc, cs_A_P hA hS]
  conv_rhs => rw [cs_P hS, ← cs_Nc_idem hS, ← Matrix.mul_assoc, ← cs_P hS]

include hA hS in
theorem cs_W_symm : S.Wᵀ = S.W := by
  rw [cs_W hS]; simp [transpose_mul, cs_P_symm hA hS, Matrix.mul_assoc]

include hA hS in
theorem cs_Winv_symm : S.Winvᵀ = S.Winv := by
  rw [cs_Winv hS]; exact pinv_symm (cs_W_symm hA hS)

include hS in
theorem cs_W_Winv_W : S.W * S.Winv * S.W = S.W := by
  rw [cs_Winv hS]; exact (pinv_spec _).aba

include hA hS in
/-- If `X` annihilates `W`, it annihilates the whole projected inverse inertia. -/
theorem annihilate {m : Type*} [Fintype m] [DecidableEq m] {X : Matrix m ι ℝ} (h : X * S.W = 0) :
    X * (Sel ι * S.AinvNc) = 0 := by
  apply Spec.IsSPD.sandwich_zero hA
  calc X * (Sel ι * S.AinvNc) * A * (X * (Sel ι * S.AinvNc))ᵀ
      = X * (Sel ι * (S.AinvNc * A * S.AinvNc) * (Sel ι)ᵀ) * Xᵀ := by
        simp only [transpose_mul, cs_P_symm hA hS, Matrix.mul_assoc]
    _ = X * S.W * Xᵀ := by rw [cs_PAP hA hS, ← cs_W hS]
    _ = 0 := by rw [h, Matrix.zero_mul]

include hA hS in
theorem cs_range : S.W * S.Winv * (Sel ι * S.AinvNc) = Sel ι * S.AinvNc := by
  have h : (1 - S.W * S.Winv) * S.W = 0 := by
    rw [Matrix.sub_mul, Matrix.one_mul, cs_W_Winv_W hS, sub_self]
  have := annihilate hA hS h
  rw [Matrix.sub_mul, Matrix.one_mul, sub_eq_zero] at this
  exact this.symm

include hA hS in
/-- The unique motion for given torques. -/
theorem motion_iff (G : Fin 6 ⊕ ι → ℝ) (τ : ι → ℝ) (qdd : Fin 6 ⊕ ι → ℝ) (F : Fin c → ℝ) :
    Motion A J G τ qdd F ↔
      qdd = S.AinvNc *ᵥ (actuate τ - G) ∧ F = S.JcInvT *ᵥ (actuate τ - G) := by
  unfold Motion Dynamics ContactsFixed
  constructor
  · rintro ⟨h1, h2⟩
    have e : actuate τ - G = A *ᵥ qdd + Jᵀ *ᵥ F := by rw [← h1]; abel
    constructor
    · rw [e, mulVec_add, mulVec_mulVec, mulVec_mulVec, cs_P_JT hS, zero_mulVec, add_zero]
      have hPA : S.AinvNc * A = 1 - A⁻¹ * Jᵀ * S.lambda * J := by
        rw [cs_P hS, cs_Nc hS, cs_JcInvT hS]
        simp only [Matrix.mul_sub, Matrix.sub_mul, Matrix.mul_one, Matrix.mul_assoc, hA.inv_mul]
      rw [hPA, sub_mulVec, one_mulVec, ← mulVec_mulVec, h2, mulVec_zero, sub_zero]
    · rw [e, mulVec_add, mulVec_mulVec, mulVec_mulVec, cs_JcInvT_JT hS, one_mulVec]
      have : S.JcInvT * A = S.lambda * J := by
        rw [cs_JcInvT hS, Matrix.mul_assoc, hA.inv_mul, Matrix.mul_one]
      rw [this, ← mulVec_mulVec, h2, mulVec_zero, zero_add]
  · rintro ⟨rfl, rfl⟩
    constructor
    · rw [mulVec_mulVec, mulVec_mulVec, cs_A_P hA hS, cs_Nc hS, sub_mulVec, one_mulVec]
      abel
    · rw [mulVec_mulVec, cs_J_P hS, zero_mulVec]

include hA hS in
/-- With the base determined by the contacts, motions are determined by the joints. -/
theorem sel_injective (hB : BaseDetermined J) {m : Type*} {X : Matrix (Fin 6 ⊕ ι) m ℝ}
    (hJ : J * X = 0) (hX : Sel ι * X = 0) : X = 0 := by
  ext i j
  have h1 : J *ᵥ (X.col j) = 0 := by
    ext a; have := congrFun (congrFun hJ a) j; simpa [Matrix.mul_apply, mulVec, dotProduct, col] using this
  have h2 : ∀ a : ι, X (Sum.inr a) j = 0 := by
    intro a; have := congrFun (congrFun hX a) j; rw [sel_mul] at this; simpa using this
  have h3 : X.col j = Sum.elim (fun a => X (Sum.inl a) j) 0 := by
    ext a; rcases a with a | a
    · rfl
    · simpa [col] using h2 a
  rw [h3] at h1
  have h4 := hB _ h1
  rcases i with i | i
  · exact congrFun h4 i
  · exact h2 i

include hA hS in
theorem cs_P_factor (hB : BaseDetermined J) :
    S.AinvNc * (Sel ι)ᵀ * S.Winv * (Sel ι * S.AinvNc) = S.AinvNc := by
  have : S.AinvNc * (Sel ι)ᵀ * S.Winv * (Sel ι * S.AinvNc) - S.AinvNc = 0 := by
    apply sel_injective hA hS hB
    · rw [Matrix.mul_sub, cs_J_P hS]
      simp only [← Matrix.mul_assoc, cs_J_P hS, Matrix.zero_mul, sub_zero]
    · rw [Matrix.mul_sub, sub_eq_zero]
      conv_rhs => rw [← cs_range hA hS, cs_W hS]
      simp only [Matrix.mul_assoc]
  exact sub_eq_zero.mp this

end
end Verif
