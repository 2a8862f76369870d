import Verif.Model.Reduced
import Verif.Lemmas.ContactRank
import Verif.Lemmas.Body

/-! # Helper lemmas for the reduced model -/

set_option linter.unusedSectionVars false

namespace Verif
open Matrix Verif.Spec Verif.Model

variable {κ ν σ σ' σ'' : Type*} [Fintype κ] [DecidableEq κ] [Fintype ν] [DecidableEq ν] [Fintype σ] [DecidableEq σ]
  [Fintype σ'] [DecidableEq σ'] [Fintype σ''] [DecidableEq σ''] {c : ℕ}

/-! ### block matrices -/

theorem blk_mul (P : Matrix (Fin 6 ⊕ κ) (Fin 6 ⊕ κ) ℝ) (Q : Matrix (Fin 6 ⊕ κ) σ' ℝ) (R : Matrix σ (Fin 6 ⊕ κ) ℝ)
    (S : Matrix σ σ' ℝ) (P' : Matrix (Fin 6 ⊕ κ) (Fin 6 ⊕ κ) ℝ) (Q' : Matrix (Fin 6 ⊕ κ) σ'' ℝ)
    (R' : Matrix σ' (Fin 6 ⊕ κ) ℝ) (S' : Matrix σ' σ'' ℝ) :
    blk P Q R S * blk P' Q' R' S' = blk (P * P' + Q * R') (P * Q' + Q * S') (R * P' + S * R') (R * Q' + S * S') := by
  unfold blk
  rw [submatrix_mul_equiv, fromBlocks_multiply]

theorem blk_transpose (P : Matrix (Fin 6 ⊕ κ) (Fin 6 ⊕ κ) ℝ) (Q : Matrix (Fin 6 ⊕ κ) σ' ℝ)
    (R : Matrix σ (Fin 6 ⊕ κ) ℝ) (S : Matrix σ σ' ℝ) : (blk P Q R S)ᵀ = blk Pᵀ Rᵀ Qᵀ Sᵀ := by
  unfold blk
  rw [transpose_submatrix, fromBlocks_transpose]

theorem blk_one : blk (κ := κ) (1 : Matrix (Fin 6 ⊕ κ) (Fin 6 ⊕ κ) ℝ) 0 0 (1 : Matrix σ σ ℝ) = 1 := by
  unfold blk
  rw [fromBlocks_one, submatrix_one_equiv]

theorem eq_blk (M : Matrix (RSys κ σ) (RSys κ σ') ℝ) :
    M = blk (M.submatrix vcOf vcOf) (M.submatrix vcOf ncOf) (M.submatrix ncOf vcOf) (M.submatrix ncOf ncOf) := by
  ext a b
  rcases a with a | a | a <;> rcases b with b | b | b <;> rfl

theorem blk_vv (P : Matrix (Fin 6 ⊕ κ) (Fin 6 ⊕ κ) ℝ) (Q : Matrix (Fin 6 ⊕ κ) σ' ℝ)
    (R : Matrix σ (Fin 6 ⊕ κ) ℝ) (S : Matrix σ σ' ℝ) : (blk P Q R S).submatrix vcOf vcOf = P := by
  ext a b; rcases a with a | a <;> rcases b with b | b <;> rfl

theorem blk_vn (P : Matrix (Fin 6 ⊕ κ) (Fin 6 ⊕ κ) ℝ) (Q : Matrix (Fin 6 ⊕ κ) σ' ℝ)
    (R : Matrix σ (Fin 6 ⊕ κ) ℝ) (S : Matrix σ σ' ℝ) : (blk P Q R S).submatrix vcOf ncOf = Q := by
  ext a b; rcases a with a | a <;> rfl

theorem blk_nv (P : Matrix (Fin 6 ⊕ κ) (Fin 6 ⊕ κ) ℝ) (Q : Matrix (Fin 6 ⊕ κ) σ' ℝ)
    (R : Matrix σ (Fin 6 ⊕ κ) ℝ) (S : Matrix σ σ' ℝ) : (blk P Q R S).submatrix ncOf vcOf = R := by
  ext a b; rcases b with b | b <;> rfl

theorem blk_nn (P : Matrix (Fin 6 ⊕ κ) (Fin 6 ⊕ κ) ℝ) (Q : Matrix (Fin 6 ⊕ κ) σ' ℝ)
    (R : Matrix σ (Fin 6 ⊕ κ) ℝ) (S : Matrix σ σ' ℝ) : (blk P Q R S).submatrix ncOf ncOf = S := by
  ext a b; rfl

theorem blk_inj {P P' : Matrix (Fin 6 ⊕ κ) (Fin 6 ⊕ κ) ℝ} {Q Q' : Matrix (Fin 6 ⊕ κ) σ' ℝ}
    {R R' : Matrix σ (Fin 6 ⊕ κ) ℝ} {S S' : Matrix σ σ' ℝ} (h : blk P Q R S = blk P' Q' R' S') :
    P = P' ∧ Q = Q' ∧ R = R' ∧ S = S' := by
  refine ⟨?_, ?_, ?_, ?_⟩
  · rw [← blk_vv P Q R S, h, blk_vv]
  · rw [← blk_vn P Q R S, h, blk_vn]
  · rw [← blk_nv P Q R S, h, blk_nv]
  · rw [← blk_nn P Q R S, h, blk_nn]

/-! ### `J_R` and `A_R_inv` when the non-contact joints are stored last -/

theorem jR_eq (J : Matrix (Fin 6) ν ℝ) : jR (κ := κ) vcOf ncOf J = blk 1 0 0 J := by
  ext a b
  rcases a with a | a | a <;> rcases b with b | b | b <;>
    simp [jR, blk, vcOf, ncOf, Matrix.one_apply, Finset.sum_ite_eq']

theorem aRInv_eq {Ainv : Matrix (RSys κ ν) (RSys κ ν) ℝ} (hs : Ainvᵀ = Ainv) (J : Matrix (Fin 6) ν ℝ) :
    aRInv vcOf ncOf Ainv J = jR vcOf ncOf J * Ainv * (jR vcOf ncOf J)ᵀ := by
  have h21 : Ainv.submatrix (ncOf (κ := κ)) vcOf = (Ainv.submatrix vcOf ncOf)ᵀ := by
    rw [transpose_submatrix, hs]
  have hb : (jR (κ := κ) vcOf ncOf J).submatrix ncOf id * Ainv * ((jR (κ := κ) vcOf ncOf J).submatrix ncOf id)ᵀ
      = (jR vcOf ncOf J * Ainv * (jR vcOf ncOf J)ᵀ).submatrix ncOf ncOf := by
    rfl
  have hE : jR (κ := κ) vcOf ncOf J * Ainv * (jR vcOf ncOf J)ᵀ
      = blk (Ainv.submatrix vcOf vcOf) (Ainv.submatrix vcOf ncOf * Jᵀ) (Ainv.submatrix vcOf ncOf * Jᵀ)ᵀ
        (J * Ainv.submatrix ncOf ncOf * Jᵀ) := by
    conv_lhs => rw [jR_eq, eq_blk Ainv, blk_transpose, blk_mul, blk_mul, h21]
    simp [transpose_mul]
  unfold aRInv
  simp only
  rw [hb, hE, blk_nn]

/-- extension of a vector on the non-contact joints by zero -/
def ncExt (x : ν → ℝ) : RSys κ ν → ℝ := Sum.elim 0 (Sum.elim 0 x)

theorem isSPD_nn {A : Matrix (RSys κ ν) (RSys κ ν) ℝ} (hA : IsSPD A) : IsSPD (A.submatrix (ncOf (κ := κ)) ncOf) := by
  refine ⟨?_, fun x hx => ?_⟩
  · rw [transpose_submatrix, hA.symm]
  · have hne : ncExt (κ := κ) x ≠ 0 := by
      intro h; apply hx; ext i; exact congrFun h (ncOf i)
    have := hA.pos _ hne
    have e : ncExt (κ := κ) x ⬝ᵥ (A *ᵥ ncExt x) = x ⬝ᵥ (A.submatrix (ncOf (κ := κ)) ncOf *ᵥ x) := by
      simp [ncExt, dotProduct, mulVec, Fintype.sum_sum_type, ncOf]
    rwa [e] at this

/-- `J_R_INV_T`: the block formula is the dynamically consistent inverse if the coupling of the non-contact joints with
the others factors through `J_I_nc_`. -/
theorem consistent_inverse {A : Matrix (RSys κ ν) (RSys κ ν) ℝ} (hA : IsSPD A) {J : Matrix (Fin 6) ν ℝ}
    {K : Matrix (Fin 6 ⊕ κ) (Fin 6) ℝ} (hK : A.submatrix vcOf ncOf = K * J)
    {AR : Matrix (RSys κ (Fin 6)) (RSys κ (Fin 6)) ℝ} (hAR : AR * aRInv vcOf ncOf A⁻¹ J = 1) :
    blk 1 0 0 (AR.submatrix (ncOf (κ := κ)) vcOf * A⁻¹.submatrix vcOf (ncOf (κ := κ))
        + AR.submatrix (ncOf (κ := κ)) ncOf * J * A⁻¹.submatrix (ncOf (κ := κ)) ncOf)
      = AR * jR vcOf ncOf J * A⁻¹ := by
  set T : Matrix (RSys κ (Fin 6)) (RSys κ ν) ℝ := AR * jR vcOf ncOf J * A⁻¹ with hT
  rw [aRInv_eq hA.inv_symm] at hAR
  have h1 : T * (jR (κ := κ) vcOf ncOf J)ᵀ = 1 := by rw [← hAR, hT]; simp only [Matrix.mul_assoc]
  have h2 : T * A = AR * jR (κ := κ) vcOf ncOf J := by
    rw [hT, Matrix.mul_assoc, hA.inv_mul, Matrix.mul_one]
  rw [jR_eq, blk_transpose, eq_blk T, blk_mul, ← blk_one] at h1
  obtain ⟨e1, e2, e3, -⟩ := blk_inj h1
  simp only [transpose_one, Matrix.mul_one, transpose_zero, Matrix.mul_zero, add_zero, zero_add] at e1 e2 e3
  have e4 : T.submatrix ncOf ncOf = AR.submatrix ncOf vcOf * A⁻¹.submatrix vcOf ncOf
      + AR.submatrix ncOf ncOf * J * A⁻¹.submatrix ncOf ncOf := by
    conv_lhs => rw [hT, jR_eq, eq_blk AR, eq_blk A⁻¹, blk_mul, blk_mul, blk_nn]
    simp
  have e5 : T.submatrix vcOf ncOf = 0 := by
    rw [eq_blk T, eq_blk A, blk_mul, eq_blk AR, jR_eq, blk_mul] at h2
    obtain ⟨-, h3, -, -⟩ := blk_inj h2
    rw [e1, Matrix.one_mul, Matrix.mul_zero, zero_add] at h3
    rw [hK] at h3
    have h4 : T.submatrix vcOf ncOf * A.submatrix (ncOf (κ := κ)) ncOf
        = (AR.submatrix vcOf ncOf - K) * J := by
      rw [Matrix.sub_mul, ← h3]; abel
    apply (isSPD_nn hA).sandwich_zero
    rw [h4, Matrix.mul_assoc]
    have h5 : J * (T.submatrix vcOf ncOf)ᵀ = (T.submatrix vcOf ncOf * Jᵀ)ᵀ := by rw [transpose_mul, transpose_transpose]
    rw [h5, e2, transpose_zero, Matrix.mul_zero]
  rw [← e4, eq_blk T, e1, e3, e5, blk_nn]

/-- The base rows factor through `J_I_nc_`. -/
theorem jInc_factor {SI : Mat6} {R : Mat3} (hR : R * Rᵀ = 1) {B : Matrix (Fin 3 ⊕ Fin 3) ν ℝ}
    {J : Matrix (Fin 6) ν ℝ} (h : jInc SI R B = some J) :
    ∃ K : Matrix (Fin 3 ⊕ Fin 3) (Fin 6) ℝ, B = K * J := by
  unfold jInc at h
  split at h
  · cases h
  rename_i b hb
  simp only at h
  split at h
  · cases h
  rename_i X hX
  obtain ⟨hu, rfl⟩ := eigenInverse_eq_some.mp hX
  set M := inertiaMatrix b.inertia b.mass with hM
  obtain rfl := (Option.some.inj h).symm
  refine ⟨(fromBlocks R 0 0 (1 : Mat3) * fromBlocks 1 0 (skew b.com) (1 : Mat3) * M).submatrix id six.symm, ?_⟩
  rw [submatrix_mul_equiv, submatrix_id_id]
  have e1 : M * M⁻¹ = 1 := mul_nonsing_inv _ hu
  have e2 : (fromBlocks 1 0 (skew b.com) (1 : Mat3) : Mat6) * fromBlocks 1 0 (skew b.com)ᵀ 1 = 1 := by
    rw [fromBlocks_multiply, skew_transpose]
    simp
  have e3 : (fromBlocks R 0 0 (1 : Mat3) : Mat6) * fromBlocks Rᵀ 0 0 1 = 1 := by
    rw [fromBlocks_multiply]; simp [hR]
  simp only [Matrix.mul_assoc]
  rw [← Matrix.mul_assoc M, e1, Matrix.one_mul, ← Matrix.mul_assoc (fromBlocks 1 0 (skew b.com) (1 : Mat3)), e2,
    Matrix.one_mul, ← Matrix.mul_assoc, e3, Matrix.one_mul]

theorem coupling_factor {A : Matrix (RSys κ ν) (RSys κ ν) ℝ} {SI : Mat6} {R : Mat3} (hR : R * Rᵀ = 1)
    {J : Matrix (Fin 6) ν ℝ} (h : jInc SI R (baseNc A) = some J)
    (h0 : ∀ (i : κ) (j : ν), A (.inr (.inl i)) (.inr (.inr j)) = 0) :
    ∃ K : Matrix (Fin 6 ⊕ κ) (Fin 6) ℝ, A.submatrix vcOf ncOf = K * J := by
  obtain ⟨K, hK⟩ := jInc_factor hR h
  refine ⟨Matrix.of fun r s => Sum.elim (fun a => K (six.symm a) s) (fun _ => 0) r, ?_⟩
  ext r j
  rcases r with r | r
  · have := congrFun (congrFun hK (six.symm r)) j
    rw [Matrix.mul_apply] at this ⊢
    simpa [baseNc, vcOf] using this
  · rw [Matrix.mul_apply]
    simp [vcOf, ncOf, h0]

theorem reduce_eq_some {Ainv : Matrix (RSys κ ν) (RSys κ ν) ℝ} {J : Matrix (Fin 6) ν ℝ} {G : RSys κ ν → ℝ}
    {vcIdx : Fin 6 ⊕ κ → RSys κ ν} {ncIdx : ν → RSys κ ν} {D : Reduced κ ν}
    (h : reduce vcIdx ncIdx Ainv J G = some D) :
    IsSPD (aRInv vcIdx ncIdx Ainv J) ∧ D.JR = jR vcIdx ncIdx J ∧ D.ARinv = aRInv vcIdx ncIdx Ainv J ∧ D.J = J ∧
      D.AR = (aRInv vcIdx ncIdx Ainv J)⁻¹ ∧
      D.JinvT = D.AR.submatrix ncOf vcOf * Ainv.submatrix vcOf ncOf + D.AR.submatrix ncOf ncOf * J * Ainv.submatrix ncOf ncOf ∧
      D.JRinvT = blk 1 0 0 D.JinvT ∧
      D.GR = Sum.elim (fun i => G (vcOf i)) (D.JinvT *ᵥ fun j => G (ncOf j)) ∘ (Equiv.sumAssoc _ _ _).symm ∧
      (∀ j, D.GNC j = G (ncOf j)) ∧ D.N = 1 - Jᵀ * D.JinvT := by
  unfold reduce at h
  simp only at h
  split at h
  · rename_i hs
    cases h
    exact ⟨hs, rfl, rfl, rfl, rfl, rfl, rfl, rfl, fun _ => rfl, rfl⟩
  · cases h

theorem blk_mulVec (X : Matrix σ σ' ℝ) (G : RSys κ σ' → ℝ) :
    blk (κ := κ) 1 0 0 X *ᵥ G
      = Sum.elim (fun i => G (vcOf i)) (X *ᵥ fun j => G (ncOf j)) ∘ (Equiv.sumAssoc _ _ _).symm := by
  ext a
  rcases a with a | a | a <;>
    simp [blk, mulVec, dotProduct, Fintype.sum_sum_type, Matrix.one_apply, vcOf, ncOf]

/-! ### contacts -/

theorem jCR_mul_jR {Jc : Matrix (Fin c) (RSys κ ν) ℝ} (h0 : ∀ r j, Jc r (ncOf j) = 0) (J : Matrix (Fin 6) ν ℝ) :
    jCR Jc * jR vcOf ncOf J = Jc := by
  ext r a
  rcases a with a | a | a
  · simp [jCR, jR, Matrix.mul_apply, Fintype.sum_sum_type, vcOf, ncOf]
  · simp [jCR, jR, Matrix.mul_apply, Fintype.sum_sum_type, vcOf, ncOf]
  · have := h0 r a
    simp only [ncOf] at this
    simp [jCR, jR, Matrix.mul_apply, Fintype.sum_sum_type, vcOf, ncOf, this]

theorem leftCols_eq {k : ℕ} {Jc : Matrix (Fin c) (RSys (Fin k) ν) ℝ} (hk : k ≤ c) :
    leftCols (c + 6) (jCR Jc) = jCR Jc := by
  ext r a
  unfold leftCols
  split
  · rfl
  · rename_i h
    rcases a with a | a | a
    · exact absurd (show (a : ℕ) < c + 6 by omega) h
    · exact absurd (show 6 + (a : ℕ) < c + 6 by omega) h
    · rfl

/-- The reduced contact computation is the full algorithm applied to `J_CR`, `A_R_inv`. -/
theorem reducedContactOf_eq {Ainv : Matrix (RSys κ ν) (RSys κ ν) ℝ} (hs : Ainvᵀ = Ainv) {D : Reduced κ ν}
    (hD : D.ARinv = aRInv vcOf ncOf Ainv D.J) {Jc : Matrix (Fin c) (RSys κ ν) ℝ}
    (h0 : ∀ r j, Jc r (ncOf j) = 0) (Λ : Matrix (Fin c) (Fin c) ℝ) :
    let C := reducedContactOf D Jc Ainv Λ
    let S := contactSpaceOf (jCR Jc) D.ARinv Λ
    C.JCRinvT = S.JcInvT ∧ C.NCR = S.Nc ∧ C.ARinvNCR = S.AinvNc ∧ C.W = S.W ∧ C.Winv = S.Winv := by
  intro C S
  have h1 : C.JCRinvT = S.JcInvT := by
    have e : S.JcInvT = (Λ * Jc * Ainv) * (jR vcOf ncOf D.J)ᵀ := by
      change Λ * jCR Jc * D.ARinv = _
      rw [hD, aRInv_eq hs]
      conv_rhs => rw [← jCR_mul_jR h0 D.J]
      simp only [Matrix.mul_assoc]
    rw [e, jR_eq, blk_transpose]
    ext r a
    rcases a with a | a | a <;>
      simp [C, reducedContactOf, blk, Matrix.mul_apply, Fintype.sum_sum_type, vcOf, ncOf, Matrix.one_apply]
  have h2 : C.NCR = S.Nc := by
    change 1 - (jCR Jc)ᵀ * C.JCRinvT = 1 - (jCR Jc)ᵀ * S.JcInvT
    rw [h1]
  have h3 : C.ARinvNCR = S.AinvNc := by
    change D.ARinv * C.NCR = D.ARinv * S.Nc
    rw [h2]
  have h4 : C.W = S.W := by
    change C.ARinvNCR.submatrix Sum.inr Sum.inr = S.AinvNc.submatrix Sum.inr Sum.inr
    rw [h3]
  refine ⟨h1, h2, h3, h4, ?_⟩
  change pinv C.W = pinv S.W
  rw [h4]

end Verif
