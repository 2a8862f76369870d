import Verif.Lemmas.Contact
import Mathlib.LinearAlgebra.Matrix.Rank
import Mathlib.Analysis.InnerProductSpace.PiL2

set_option linter.unusedSectionVars false

namespace Verif
open Matrix Verif.Spec Verif.Model Module

variable {ι : Type*} [Fintype ι] [DecidableEq ι] {c : ℕ}

/-- Base columns of the contact Jacobian. -/
def baseCols (J : Matrix (Fin c) (Fin 6 ⊕ ι) ℝ) : Matrix (Fin c) (Fin 6) ℝ := J.submatrix id Sum.inl
/-- Joint columns of the contact Jacobian. -/
def jointCols (J : Matrix (Fin c) (Fin 6 ⊕ ι) ℝ) : Matrix (Fin c) ι ℝ := J.submatrix id Sum.inr

theorem transpose_mulVec_split (J : Matrix (Fin c) (Fin 6 ⊕ ι) ℝ) (y : Fin c → ℝ) :
    Jᵀ *ᵥ y = Sum.elim ((baseCols J)ᵀ *ᵥ y) ((jointCols J)ᵀ *ᵥ y) := by
  ext i; rcases i with i | i <;> rfl

theorem mulVec_elim_zero (J : Matrix (Fin c) (Fin 6 ⊕ ι) ℝ) (v : Fin 6 → ℝ) :
    J *ᵥ (Sum.elim v 0) = baseCols J *ᵥ v := by
  ext i
  simp [mulVec, dotProduct, Fintype.sum_sum_type, baseCols]

theorem baseDetermined_iff_rank (J : Matrix (Fin c) (Fin 6 ⊕ ι) ℝ) :
    BaseDetermined J ↔ (baseCols J).rank = 6 := by
  have h1 : BaseDetermined J ↔ LinearMap.ker (baseCols J).mulVecLin = ⊥ := by
    rw [LinearMap.ker_eq_bot']
    unfold BaseDetermined
    simp only [mulVec_elim_zero, mulVecLin_apply]
  rw [h1]
  have h2 := LinearMap.finrank_range_add_finrank_ker (baseCols J).mulVecLin
  rw [finrank_fintype_fun_eq_card, Fintype.card_fin] at h2
  rw [← Submodule.finrank_eq_zero (R := ℝ)]
  unfold Matrix.rank
  omega

section
variable {A : Matrix (Fin 6 ⊕ ι) (Fin 6 ⊕ ι) ℝ} {J : Matrix (Fin c) (Fin 6 ⊕ ι) ℝ}
  {S : ContactSpace c ι}
variable (hA : IsSPD A) (hS : contactSpace J A⁻¹ = some S)

include hA hS in
theorem independent_of_some : IndependentRows J :=
  hA.inv.conj_isUnit_iff.mp (cs_unit hS)

include hA hS in
/-- Torques in the kernel of `W` are exactly those balanced by contact forces alone. -/
theorem W_mulVec_eq_zero_iff (τ : ι → ℝ) :
    S.W *ᵥ τ = 0 ↔ ∃ y : Fin c → ℝ, Jᵀ *ᵥ y = actuate τ := by
  constructor
  · intro h
    have h1 : S.AinvNc *ᵥ (actuate τ) = 0 := by
      apply hA.vec_zero
      have e1 : A *ᵥ (S.AinvNc *ᵥ actuate τ) = S.Nc *ᵥ actuate τ := by
        rw [mulVec_mulVec, cs_A_P hA hS]
      have e2 : S.AinvNc *ᵥ actuate τ ⬝ᵥ (S.Nc *ᵥ actuate τ)
          = actuate τ ⬝ᵥ (S.AinvNc *ᵥ (S.Nc *ᵥ actuate τ)) := by
        rw [dot_transpose_mulVec S.AinvNc, cs_P_symm hA hS]
      rw [e1, e2, mulVec_mulVec]
      have e3 : S.AinvNc * S.Nc = S.AinvNc := by
        rw [cs_P hS, Matrix.mul_assoc, cs_Nc_idem hS]
      rw [e3, actuate_eq, ← dot_transpose_mulVec, mulVec_mulVec, mulVec_mulVec,
        ← cs_W hS, h, dotProduct_zero]
    refine ⟨S.JcInvT *ᵥ actuate τ, ?_⟩
    have h2 : S.Nc *ᵥ actuate τ = 0 := by
      rw [← cs_A_P hA hS, ← mulVec_mulVec, h1, mulVec_zero]
    rw [cs_Nc hS, sub_mulVec, one_mulVec, sub_eq_zero] at h2
    rw [mulVec_mulVec]; exact h2.symm
  · rintro ⟨y, hy⟩
    rw [cs_W hS, ← mulVec_mulVec, ← actuate_eq, ← hy, mulVec_mulVec, Matrix.mul_assoc, cs_P_JT hS,
      Matrix.mul_zero, zero_mulVec]

include hA hS in
theorem finrank_ker_W : finrank ℝ (LinearMap.ker S.W.mulVecLin) + (baseCols J).rank = c := by
  have hind := independent_of_some hA hS
  have e : finrank ℝ (LinearMap.ker (baseCols J)ᵀ.mulVecLin)
      = finrank ℝ (LinearMap.ker S.W.mulVecLin) := by
    let f : LinearMap.ker (baseCols J)ᵀ.mulVecLin →ₗ[ℝ] LinearMap.ker S.W.mulVecLin :=
      LinearMap.codRestrict _ ((jointCols J)ᵀ.mulVecLin.comp (Submodule.subtype _)) (by
        rintro ⟨y, hy⟩
        rw [LinearMap.mem_ker, mulVecLin_apply] at hy
        rw [LinearMap.mem_ker, mulVecLin_apply, W_mulVec_eq_zero_iff hA hS]
        refine ⟨y, ?_⟩
        rw [transpose_mulVec_split, hy]; rfl)
    apply LinearEquiv.finrank_eq
    refine LinearEquiv.ofBijective f ⟨?_, ?_⟩
    · rw [← LinearMap.ker_eq_bot, LinearMap.ker_eq_bot']
      rintro ⟨y, hy⟩ h0
      rw [LinearMap.mem_ker, mulVecLin_apply] at hy
      have h1 : (jointCols J)ᵀ *ᵥ y = 0 := congrArg Subtype.val h0
      have : y = 0 := hind y (by rw [transpose_mulVec_split, hy, h1]; ext i; rcases i with i | i <;> rfl)
      exact Subtype.ext this
    · rintro ⟨τ, hτ⟩
      rw [LinearMap.mem_ker, mulVecLin_apply, W_mulVec_eq_zero_iff hA hS] at hτ
      obtain ⟨y, hy⟩ := hτ
      rw [transpose_mulVec_split] at hy
      have hy1 : (baseCols J)ᵀ *ᵥ y = 0 := by
        ext i; exact congrFun hy (Sum.inl i)
      have hy2 : (jointCols J)ᵀ *ᵥ y = τ := by
        ext i; exact congrFun hy (Sum.inr i)
      exact ⟨⟨y, by rw [LinearMap.mem_ker, mulVecLin_apply, hy1]⟩, Subtype.ext hy2⟩
  rw [← e]
  have h2 := LinearMap.finrank_range_add_finrank_ker (baseCols J)ᵀ.mulVecLin
  rw [finrank_fintype_fun_eq_card, Fintype.card_fin] at h2
  have h3 : finrank ℝ (LinearMap.range (baseCols J)ᵀ.mulVecLin) = (baseCols J).rank := by
    rw [← rank_transpose]; rfl
  omega

include hA hS in
theorem cod_k (f : CodNull S.W) : f.k = finrank ℝ (LinearMap.ker S.W.mulVecLin) := by
  have h := LinearMap.finrank_range_add_finrank_ker S.W.mulVecLin
  rw [finrank_fintype_fun_eq_card] at h
  have h2 := f.rank
  unfold Matrix.rank at h2
  omega

include hA hS in
theorem W_V2T (f : CodNull S.W) : S.W * f.V2ᵀ = 0 := by
  have := congrArg transpose f.ann
  rwa [transpose_mul, cs_W_symm hA hS, transpose_zero] at this

theorem V2T_injective {W : Matrix ι ι ℝ} (f : CodNull W) {z : Fin f.k → ℝ}
    (h : f.V2ᵀ *ᵥ z = 0) : z = 0 := by
  have : f.V2 *ᵥ (f.V2ᵀ *ᵥ z) = 0 := by rw [h, mulVec_zero]
  rwa [mulVec_mulVec, f.orth, one_mulVec] at this

include hA hS in
/-- The rows of `V2` span the kernel of `W`. -/
theorem V2_span (f : CodNull S.W) {τ : ι → ℝ} (h : S.W *ᵥ τ = 0) : ∃ z, f.V2ᵀ *ᵥ z = τ := by
  have hle : LinearMap.range f.V2ᵀ.mulVecLin ≤ LinearMap.ker S.W.mulVecLin := by
    rintro _ ⟨z, rfl⟩
    rw [LinearMap.mem_ker, mulVecLin_apply, mulVecLin_apply, mulVec_mulVec, W_V2T hA hS f, zero_mulVec]
  have hr : finrank ℝ (LinearMap.range f.V2ᵀ.mulVecLin) = f.k := by
    have h1 := LinearMap.finrank_range_add_finrank_ker f.V2ᵀ.mulVecLin
    rw [finrank_fintype_fun_eq_card, Fintype.card_fin] at h1
    have h2 : LinearMap.ker f.V2ᵀ.mulVecLin = ⊥ := by
      rw [LinearMap.ker_eq_bot']; intro z hz; exact V2T_injective f hz
    rw [h2, finrank_bot] at h1; omega
  have heq := Submodule.eq_of_le_of_finrank_eq hle (by rw [hr, cod_k hA hS f])
  have : τ ∈ LinearMap.ker S.W.mulVecLin := by rw [LinearMap.mem_ker, mulVecLin_apply, h]
  rw [← heq] at this
  obtain ⟨z, hz⟩ := this
  exact ⟨z, hz⟩

include hA hS in
/-- Internal-force torques cause no acceleration at all. -/
theorem P_V2T (f : CodNull S.W) : S.AinvNc * (Sel ι)ᵀ * f.V2ᵀ = 0 := by
  have := annihilate hA hS f.ann
  have h := congrArg transpose this
  simpa [transpose_mul, cs_P_symm hA hS, Matrix.mul_assoc] using h

theorem sum_split (hc : 6 < c) (f : Fin c → ℝ) :
    ∑ i, f i = ∑ i : Fin (c - 6), f (Fin.castLE (Nat.sub_le c 6) i)
      + ∑ i : Fin 6, f ⟨c - 6 + i, by omega⟩ := by
  obtain ⟨d, rfl⟩ : ∃ d, c = d + 6 := ⟨c - 6, by omega⟩
  exact Fin.sum_univ_add f

theorem baseColsT_split (hc : 6 < c) (J : Matrix (Fin c) (Fin 6 ⊕ ι) ℝ) (y : Fin c → ℝ)
    (hy : ∀ i : Fin (c - 6), y (Fin.castLE (Nat.sub_le c 6) i) = 0) :
    (baseCols J)ᵀ *ᵥ y = (lastSixBase hc J)ᵀ *ᵥ (fun i : Fin 6 => y ⟨c - 6 + i, by omega⟩) := by
  ext j
  simp only [mulVec, dotProduct]
  rw [sum_split hc]
  simp only [hy, mul_zero, Finset.sum_const_zero, zero_add]
  rfl

include hA hS in
/-- The matrix inverted for the redistribution map is nonsingular iff the base columns of the last six rows
are. -/
theorem nullInverse_isUnit_iff (hc : 6 < c) (f : CodNull S.W) (h : c - 6 = f.k) :
    IsUnit ((topRight S.JcInvT * f.V2ᵀ).submatrix id (Fin.cast h)).det ↔
      IsUnit (lastSixBase hc J).det := by
  have hind := independent_of_some hA hS
  have happ : ∀ z : Fin (c - 6) → ℝ, ((topRight S.JcInvT * f.V2ᵀ).submatrix id (Fin.cast h)) *ᵥ z
      = topRight S.JcInvT *ᵥ (f.V2ᵀ *ᵥ (fun i => z (Fin.cast h.symm i))) := by
    intro z
    rw [mulVec_mulVec]
    ext i
    simp only [mulVec, dotProduct]
    exact Fintype.sum_equiv (finCongr h) _ _ (fun a => rfl)
  have htop : ∀ (τ : ι → ℝ) (y : Fin c → ℝ), Jᵀ *ᵥ y = actuate τ →
      ∀ i, (topRight S.JcInvT *ᵥ τ) i = y (Fin.castLE (Nat.sub_le c 6) i) := by
    intro τ y hy i
    have e1 : S.JcInvT *ᵥ (actuate τ) = y := by
      rw [← hy, mulVec_mulVec, cs_JcInvT_JT hS, one_mulVec]
    rw [actuate_eq, mulVec_mulVec, mul_selT] at e1
    exact congrFun e1 _
  constructor
  · intro hu
    rw [← det_transpose]
    apply mulVec_injective_det
    intro u hu0
    let y : Fin c → ℝ := fun i => if hi : i.val < c - 6 then 0 else u ⟨i.val - (c - 6), by omega⟩
    have hy0 : ∀ i : Fin (c - 6), y (Fin.castLE (Nat.sub_le c 6) i) = 0 := by
      intro i; simp [y]
    have hyu : (fun i : Fin 6 => y ⟨c - 6 + i, by omega⟩) = u := by
      ext i; simp [y]
    have hb : (baseCols J)ᵀ *ᵥ y = 0 := by rw [baseColsT_split hc J y hy0, hyu, hu0]
    have hJy : Jᵀ *ᵥ y = actuate ((jointCols J)ᵀ *ᵥ y) := by
      rw [transpose_mulVec_split, hb]; rfl
    obtain ⟨z, hz⟩ := V2_span hA hS f ((W_mulVec_eq_zero_iff hA hS _).mpr ⟨y, hJy⟩)
    have hz0 : (fun i : Fin (c - 6) => z (Fin.cast h i)) = 0 := by
      apply mulVec_eq_zero_of_isUnit hu
      rw [happ]
      have : (fun i => (fun i : Fin (c - 6) => z (Fin.cast h i)) (Fin.cast h.symm i)) = z := by
        ext i; simp
      rw [this, hz]
      ext i
      rw [htop _ y hJy, hy0]; rfl
    have hz1 : z = 0 := by
      ext i; have := congrFun hz0 (Fin.cast h.symm i); simpa using this
    rw [hz1, mulVec_zero] at hz
    have hy : y = 0 := hind y (by rw [hJy, ← hz]; ext i; rcases i with i | i <;> rfl)
    rw [← hyu, hy]; rfl
  · intro hu
    apply mulVec_injective_det
    intro z hz
    rw [happ] at hz
    set z' : Fin f.k → ℝ := fun i => z (Fin.cast h.symm i) with hz'
    have hW : S.W *ᵥ (f.V2ᵀ *ᵥ z') = 0 := by rw [mulVec_mulVec, W_V2T hA hS f, zero_mulVec]
    obtain ⟨y, hy⟩ := (W_mulVec_eq_zero_iff hA hS _).mp hW
    have hy0 : ∀ i : Fin (c - 6), y (Fin.castLE (Nat.sub_le c 6) i) = 0 := by
      intro i; rw [← htop _ y hy i, hz]; rfl
    have hb : (baseCols J)ᵀ *ᵥ y = 0 := by
      rw [transpose_mulVec_split] at hy
      ext i; exact congrFun hy (Sum.inl i)
    rw [baseColsT_split hc J y hy0] at hb
    have hl := mulVec_eq_zero_of_isUnit (by rwa [det_transpose]) hb
    have hy1 : y = 0 := by
      ext i
      by_cases hi : i.val < c - 6
      · exact hy0 ⟨i.val, hi⟩
      · have := congrFun hl ⟨i.val - (c - 6), by omega⟩
        simp only [Pi.zero_apply] at this ⊢
        rw [← this]; congr 1; ext; simp; omega
    rw [hy1, mulVec_zero] at hy
    have hτ : f.V2ᵀ *ᵥ z' = 0 := by
      ext i; exact (congrFun hy (Sum.inr i)).symm
    have := V2T_injective f hτ
    ext i
    have h2 := congrFun this (Fin.cast h i)
    simpa [hz'] using h2

end

/-- A COD null block exists for every matrix. -/
theorem exists_codNull (W : Matrix ι ι ℝ) : Nonempty (CodNull W) := by
  let K : Submodule ℝ (EuclideanSpace ℝ ι) :=
    LinearMap.ker (Wᵀ.mulVecLin.comp (WithLp.linearEquiv 2 ℝ (ι → ℝ)).toLinearMap)
  let b := stdOrthonormalBasis ℝ K
  have hK : finrank ℝ K + W.rank = Fintype.card ι := by
    have h1 := LinearMap.finrank_range_add_finrank_ker
      (Wᵀ.mulVecLin.comp (WithLp.linearEquiv 2 ℝ (ι → ℝ)).toLinearMap)
    have h2 : finrank ℝ (LinearMap.range
        (Wᵀ.mulVecLin.comp (WithLp.linearEquiv 2 ℝ (ι → ℝ)).toLinearMap)) = W.rank := by
      rw [LinearMap.range_comp_of_range_eq_top _ (LinearEquiv.range _), ← rank_transpose]; rfl
    rw [finrank_euclideanSpace] at h1
    have : finrank ℝ K = finrank ℝ (LinearMap.ker
        (Wᵀ.mulVecLin.comp (WithLp.linearEquiv 2 ℝ (ι → ℝ)).toLinearMap)) := rfl
    omega
  refine ⟨{ k := finrank ℝ K, V2 := Matrix.of fun i j => (b i : EuclideanSpace ℝ ι) j,
            orth := ?_, ann := ?_, rank := hK }⟩
  · ext i j
    have h := orthonormal_iff_ite.mp b.orthonormal i j
    rw [Submodule.coe_inner, EuclideanSpace.inner_eq_star_dotProduct] at h
    simp only [Matrix.mul_apply, transpose_apply, Matrix.one_apply, of_apply]
    rw [← h]
    unfold dotProduct
    refine Finset.sum_congr rfl fun a _ => ?_
    simp only [Pi.star_apply, star_trivial]
    exact mul_comm _ _
  · ext i j
    have h : (b i : EuclideanSpace ℝ ι) ∈ K := (b i).2
    rw [LinearMap.mem_ker] at h
    have h2 := congrFun h j
    simp only [LinearMap.comp_apply, mulVecLin_apply] at h2
    simp only [Matrix.mul_apply, of_apply, Matrix.zero_apply]
    refine Eq.trans ?_ h2
    unfold mulVec dotProduct
    refine Finset.sum_congr rfl fun a _ => ?_
    exact mul_comm _ _

end Verif
