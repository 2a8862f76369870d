import Verif.Lemmas.Reduced

/-!
# C40, C41: the reduced model

The non-contact joints must be stored behind the contact-chain joints (`vcIdx = vcOf`, `ncIdx = ncOf`); otherwise the blocks
of `A_R_inv` are taken from the wrong columns (`C40_order_wrong`).
-/

set_option linter.unusedSectionVars false

namespace Verif.Props
open Matrix Verif Verif.Spec Verif.Model

section C40

variable {κ ν : Type*} [Fintype κ] [DecidableEq κ] [Fintype ν] [DecidableEq ν]
variable {A : Matrix (RSys κ ν) (RSys κ ν) ℝ} {J : Matrix (Fin 6) ν ℝ} {G : RSys κ ν → ℝ} {D : Reduced κ ν}

/-- What `J_R` does: base and contact-chain velocities are kept, the other joints enter by `J_I_nc_`. -/
theorem C40_reduction_jacobian (h : reduce vcOf ncOf A⁻¹ J G = some D) (qd : RSys κ ν → ℝ) :
    (∀ i, (D.JR *ᵥ qd) (vcOf i) = qd (vcOf i)) ∧
    (∀ s, (D.JR *ᵥ qd) (ncOf s) = (J *ᵥ fun j => qd (ncOf j)) s) := by
  rw [(reduce_eq_some h).2.1, jR_eq, blk_mulVec]
  refine ⟨fun i => ?_, fun s => rfl⟩
  rcases i with i | i <;> rfl

/-- C40 (projection).  The blockwise reduced inverse inertia is `J_R A⁻¹ J_Rᵀ`, and `A_R` is its inverse. -/
theorem C40_projection (hA : IsSPD A) (h : reduce vcOf ncOf A⁻¹ J G = some D) :
    D.ARinv = D.JR * A⁻¹ * D.JRᵀ ∧ D.AR * (D.JR * A⁻¹ * D.JRᵀ) = 1 ∧ IsSPD D.AR := by
  obtain ⟨hs, e1, e2, -, e4, -⟩ := reduce_eq_some h
  have e : aRInv vcOf ncOf A⁻¹ J = D.JR * A⁻¹ * D.JRᵀ := by rw [e1, aRInv_eq hA.inv_symm]
  refine ⟨e2.trans e, ?_, ?_⟩
  · rw [← e, e4]; exact hs.inv_mul
  · rw [e4]; exact hs.inv

/-- The Cholesky factorisation of `A_R_inv` succeeds exactly if the rows of `J_I_nc_` are independent. -/
theorem C40_finite_iff (hA : IsSPD A) :
    (reduce (κ := κ) vcOf ncOf A⁻¹ J G).isSome ↔ ∀ f : Fin 6 → ℝ, Jᵀ *ᵥ f = 0 → f = 0 := by
  have key : (∀ y, (jR (κ := κ) vcOf ncOf J)ᵀ *ᵥ y = 0 → y = 0) ↔ ∀ f : Fin 6 → ℝ, Jᵀ *ᵥ f = 0 → f = 0 := by
    rw [jR_eq, blk_transpose]
    simp only [transpose_one, transpose_zero, blk_mulVec]
    constructor
    · intro h f hf
      have := h (Sum.elim 0 (Sum.elim 0 f)) (by
        ext a
        rcases a with a | a | a
        · rfl
        · rfl
        · exact congrFun hf a)
      ext s
      exact congrFun this (.inr (.inr s))
    · intro h y hy
      have h3 := h (fun s => y (ncOf s)) (by ext s; exact congrFun hy (.inr (.inr s)))
      ext a
      rcases a with a | a | a
      · exact congrFun hy (.inl a)
      · exact congrFun hy (.inr (.inl a))
      · exact congrFun h3 a
  rw [← key]
  unfold reduce
  simp only
  rw [aRInv_eq hA.inv_symm]
  constructor
  · intro h
    split at h
    · rename_i hs
      exact hA.inv.conj_isUnit_iff.mp hs.isUnit
    · cases h
  · intro h
    rw [if_pos (hA.inv.conj h)]
    rfl

/-- With fewer than six non-contact joints the reduced inertia does not exist: the factorisation always fails. -/
theorem C40_needs_six_joints (hA : IsSPD A) (hν : Fintype.card ν < 6) : reduce (κ := κ) vcOf ncOf A⁻¹ J G = none := by
  by_contra hne
  have hs : (reduce (κ := κ) vcOf ncOf A⁻¹ J G).isSome := by
    rw [Option.isSome_iff_ne_none]; exact hne
  rw [C40_finite_iff hA] at hs
  have hinj : Function.Injective (Jᵀ.mulVecLin) := by
    rw [← LinearMap.ker_eq_bot, LinearMap.ker_eq_bot']
    exact hs
  have := LinearMap.finrank_le_finrank_of_injective hinj
  simp at this
  omega

/-- C40 (dynamically consistent inverse).  `R` is the base rotation and `SI` any composite inertia of the non-contact part;
`J_I_nc_` is computed from the base rows of the mass matrix.  If the coupling goes through the base only (no coupling between
contact-chain joints and the others), the block formula for `J_R_INV_T` is `A_R J_R A⁻¹`.  With it `G_R` is the projected gravity
vector. -/
theorem C40_consistent_inverse (hA : IsSPD A) {SI : Mat6} {R : Mat3} (hR : R * Rᵀ = 1)
    (hJ : jInc SI R (baseNc A) = some J) (h0 : ∀ (i : κ) (j : ν), A (.inr (.inl i)) (.inr (.inr j)) = 0)
    (h : reduce vcOf ncOf A⁻¹ J G = some D) :
    D.JRinvT = D.AR * D.JR * A⁻¹ ∧ D.JRinvT * D.JRᵀ = 1 ∧ D.GR = D.AR *ᵥ (D.JR *ᵥ (A⁻¹ *ᵥ G)) ∧
      D.N * D.Jᵀ = 0 := by
  obtain ⟨K, hK⟩ := coupling_factor hR hJ h0
  obtain ⟨hs, e1, e2, e3, e4, e5, e6, e7, -, hN⟩ := reduce_eq_some h
  have hc : D.JRinvT = D.AR * D.JR * A⁻¹ := by
    rw [e6, e5, e1]
    refine consistent_inverse hA hK ?_
    rw [e4]; exact hs.inv_mul
  have hr : D.JRinvT * D.JRᵀ = 1 := by
    rw [hc, Matrix.mul_assoc, Matrix.mul_assoc, ← Matrix.mul_assoc D.JR]
    exact (C40_projection hA h).2.1
  refine ⟨hc, hr, ?_, ?_⟩
  · rw [mulVec_mulVec, mulVec_mulVec, ← hc, e6, blk_mulVec, e7]
  · rw [e6, e1, jR_eq, blk_transpose, blk_mul, ← blk_one] at hr
    obtain ⟨-, -, -, h4⟩ := blk_inj hr
    have h5 : D.JinvT * D.Jᵀ = 1 := by rw [e3]; simpa using h4
    rw [hN, ← e3, Matrix.sub_mul, Matrix.one_mul, Matrix.mul_assoc, h5, Matrix.mul_one, sub_self]

/-- The coupling hypothesis holds for every robot in which no link is moved both by a contact-chain joint and by another
joint: the mass matrix is the sum over the links of `Jᵀ M J`. -/
theorem C40_base_coupling {links : Type*} [Fintype links] (Jl : links → Matrix (Fin 6) (RSys κ ν) ℝ)
    (M : links → Matrix (Fin 6) (Fin 6) ℝ)
    (hsep : ∀ l, (∀ r i, Jl l r (.inr (.inl i)) = 0) ∨ (∀ r j, Jl l r (.inr (.inr j)) = 0)) (i : κ) (j : ν) :
    (∑ l, (Jl l)ᵀ * M l * Jl l) (.inr (.inl i)) (.inr (.inr j)) = 0 := by
  rw [Matrix.sum_apply]
  refine Finset.sum_eq_zero fun l _ => ?_
  rw [Matrix.mul_apply]
  refine Finset.sum_eq_zero fun r _ => ?_
  rcases hsep l with h | h
  · rw [Matrix.mul_apply]
    simp [h]
  · simp [h]

end C40

/-- C40 fails for other storage orders.  One contact-chain joint stored behind six non-contact ones, say: the blockwise result is
not `J_R A⁻¹ J_Rᵀ`.  Here `A = 1`; the only contact-chain joint is in place 7, the non-contact joint 0 in place 6. -/
theorem C40_order_wrong :
    ∃ (vcIdx : Fin 6 ⊕ Fin 1 → RSys (Fin 1) (Fin 6)) (ncIdx : Fin 6 → RSys (Fin 1) (Fin 6)),
      Function.Injective (Sum.elim vcIdx ncIdx) ∧
      aRInv vcIdx ncIdx (1 : Matrix (RSys (Fin 1) (Fin 6)) (RSys (Fin 1) (Fin 6)) ℝ) 1
        ≠ jR vcIdx ncIdx 1 * 1 * (jR vcIdx ncIdx 1)ᵀ := by
  refine ⟨Sum.elim Sum.inl fun _ => .inr (.inr 0), fun j => if j = 0 then .inr (.inl 0) else .inr (.inr j), ?_, ?_⟩
  · decide
  · intro h
    have := congrFun (congrFun h (.inr (.inl 0))) (.inr (.inr 0))
    simp [aRInv, jR, blk, Matrix.mul_apply, ncOf, Fintype.sum_sum_type, Matrix.one_apply, Fin.sum_univ_succ] at this

section C41

variable {k c : ℕ} {ν : Type*} [Fintype ν] [DecidableEq ν]
variable {A : Matrix (RSys (Fin k) ν) (RSys (Fin k) ν) ℝ} {J : Matrix (Fin 6) ν ℝ} {G : RSys (Fin k) ν → ℝ}
  {D : Reduced (Fin k) ν} {Jc : Matrix (Fin c) (RSys (Fin k) ν) ℝ} {S : ContactSpace c (Fin k ⊕ ν)}

/-- independent contact rows on `6 + k` columns -/
theorem rows_le (h0 : ∀ r j, Jc r (ncOf j) = 0) (hi : IndependentRows Jc) : c ≤ k + 6 := by
  have hinj : Function.Injective ((Jc.submatrix id (vcOf (σ := ν)))ᵀ.mulVecLin) := by
    rw [← LinearMap.ker_eq_bot, LinearMap.ker_eq_bot']
    intro f hf
    apply hi
    ext a
    rcases a with a | a | a
    · exact congrFun hf (.inl a)
    · exact congrFun hf (.inr a)
    · simp only [mulVec, dotProduct, transpose_apply]
      exact Finset.sum_eq_zero fun r _ => by rw [show Jc r (.inr (.inr a)) = 0 from h0 r a, zero_mul]
  have := LinearMap.finrank_le_finrank_of_injective hinj
  simp at this
  omega

/-- C41 (contact inertia).  If the contacts involve contact-chain joints only and there are not more contact-chain joints than
contact rows, the reduced computation yields the same contact inertia and contact projection as the full one, and its
projected inverse inertia is that of the full model seen through `J_R`. -/
theorem C41_contact_partial (hA : IsSPD A) (h : reduce vcOf ncOf A⁻¹ J G = some D) (h0 : ∀ r j, Jc r (ncOf j) = 0)
    (hk : k ≤ c) (hS : contactSpace Jc A⁻¹ = some S) :
    ∃ C, reducedContact D Jc A⁻¹ = some C ∧ C.lambda = S.lambda ∧ C.JcInvT = S.JcInvT ∧ C.Nc = S.Nc ∧
      C.JCRinvT = S.JcInvT * D.JRᵀ ∧ C.ARinvNCR = D.JR * S.AinvNc * D.JRᵀ ∧
      contactSpace (jCR Jc) D.AR⁻¹ = some
        { lambda := C.lambda, JcInvT := C.JCRinvT, Nc := C.NCR, AinvNc := C.ARinvNCR, W := C.W, Winv := C.Winv } := by
  obtain ⟨hs, e1, e2, e3, e4, -⟩ := reduce_eq_some h
  have hD : D.ARinv = aRInv vcOf ncOf A⁻¹ D.J := by rw [e2, e3]
  have hproj := (C40_projection hA h).1
  have hcr : jCR Jc * D.JR = Jc := by rw [e1]; exact jCR_mul_jR h0 J
  have hL : jCR Jc * D.ARinv * (jCR Jc)ᵀ = Jc * A⁻¹ * Jcᵀ := by
    rw [hproj]
    conv_rhs => rw [← hcr, transpose_mul]
    simp only [Matrix.mul_assoc]
  have hle := rows_le h0 (independent_of_some hA hS)
  have hu := cs_unit hS
  have hCeq : reducedContact D Jc A⁻¹ = some (reducedContactOf D Jc A⁻¹ (Jc * A⁻¹ * Jcᵀ)⁻¹) := by
    unfold reducedContact
    simp only
    rw [if_pos (by omega), leftCols_eq hk, hL, eigenInverse_eq_some.mpr ⟨hu, rfl⟩]
    rfl
  have hSeq : S = contactSpaceOf Jc A⁻¹ (Jc * A⁻¹ * Jcᵀ)⁻¹ := (contactSpace_eq_some.mp hS).2
  obtain ⟨f1, f2, f3, f4, f5⟩ := reducedContactOf_eq hA.inv_symm hD h0 (Jc * A⁻¹ * Jcᵀ)⁻¹
  refine ⟨_, hCeq, by rw [hSeq]; rfl, by rw [hSeq]; rfl, by rw [hSeq]; rfl, ?_, ?_, ?_⟩
  · rw [f1, hSeq]
    generalize (Jc * A⁻¹ * Jcᵀ)⁻¹ = Λ
    change Λ * jCR Jc * D.ARinv = (Λ * Jc * A⁻¹) * D.JRᵀ
    rw [hproj]
    conv_rhs => rw [← hcr]
    simp only [Matrix.mul_assoc]
  · rw [f3, hSeq]
    generalize (Jc * A⁻¹ * Jcᵀ)⁻¹ = Λ
    change D.ARinv * (1 - (jCR Jc)ᵀ * (Λ * jCR Jc * D.ARinv)) = D.JR * (A⁻¹ * (1 - Jcᵀ * (Λ * Jc * A⁻¹))) * D.JRᵀ
    rw [hproj]
    conv_rhs => rw [← hcr, transpose_mul]
    simp only [Matrix.mul_sub, Matrix.sub_mul, Matrix.mul_one, Matrix.mul_assoc]
  · rw [contactSpace_eq_some]
    have hinv : D.AR⁻¹ = D.ARinv := by rw [e4, e2, nonsing_inv_nonsing_inv _ hs.isUnit]
    rw [hinv, hL]
    refine ⟨hu, ?_⟩
    rw [f1, f2, f3, f4, f5]
    rfl

variable {C : ReducedContact c (Fin k) ν}

/-- C41 (contact Jacobian).  If the contacts involve contact-chain joints only, the reduced contact Jacobian applied to the
reduced velocity is the velocity of the contacts. -/
theorem C41_jacobian (h : reduce vcOf ncOf A⁻¹ J G = some D) (h0 : ∀ r j, Jc r (ncOf j) = 0)
    (hC : reducedContact D Jc A⁻¹ = some C) (qd : RSys (Fin k) ν → ℝ) : C.JCR *ᵥ (D.JR *ᵥ qd) = Jc *ᵥ qd := by
  have hJ : C.JCR = jCR Jc := by
    unfold reducedContact at hC
    split at hC
    · obtain ⟨Λ, -, rfl⟩ := Option.map_eq_some_iff.mp hC
      rfl
    · simp at hC
  obtain ⟨-, e1, -⟩ := reduce_eq_some h
  rw [hJ, mulVec_mulVec, e1, jCR_mul_jR h0 J]

/-- C41 (contact forces).  For every generalised force on the full model, its reduction has the same contact force; in
particular the gravity term `P_CR` is the full one, and so is the contact force for every joint torque. -/
theorem C41_forces_partial (hA : IsSPD A) {SI : Mat6} {R : Mat3} (hR : R * Rᵀ = 1)
    (hJ : jInc SI R (baseNc A) = some J) (hcpl : ∀ (i : Fin k) (j : ν), A (.inr (.inl i)) (.inr (.inr j)) = 0)
    (h : reduce vcOf ncOf A⁻¹ J G = some D) (h0 : ∀ r j, Jc r (ncOf j) = 0)
    (hk : k ≤ c) (hS : contactSpace Jc A⁻¹ = some S) (hC : reducedContact D Jc A⁻¹ = some C) :
    (∀ x, C.JCRinvT *ᵥ (D.JRinvT *ᵥ x) = S.JcInvT *ᵥ x) ∧
    reducedGravityForce D C = gravityForce S G ∧
    (∀ τ : Fin k ⊕ ν → ℝ,
      C.JCRinvT *ᵥ actuate (Sum.elim (fun i => τ (.inl i)) (D.JinvT *ᵥ fun j => τ (.inr j))) - reducedGravityForce D C
        = contactForce S (gravityForce S G) τ) := by
  obtain ⟨C', hC', l1, l2, l3, l4, l5, l6⟩ := C41_contact_partial hA h h0 hk hS
  rw [hC] at hC'
  obtain rfl := Option.some.inj hC'
  obtain ⟨hc, hr, hg, -⟩ := C40_consistent_inverse hA hR hJ hcpl h
  obtain ⟨hproj, hARp, -⟩ := C40_projection hA h
  obtain ⟨hs, e1, e2, e3, e4, e5, e6, e7, -⟩ := reduce_eq_some h
  have hcr : jCR Jc * D.JR = Jc := by rw [e1]; exact jCR_mul_jR h0 J
  have key : C.JCRinvT * D.JRinvT = S.JcInvT := by
    have hX : D.JR * A⁻¹ * D.JRᵀ * D.AR = 1 := by
      rw [← hproj, e2, e4]; exact hs.mul_inv
    rw [l4, hc, cs_JcInvT hS]
    conv_lhs => rw [← hcr]
    calc S.lambda * (jCR Jc * D.JR) * A⁻¹ * D.JRᵀ * (D.AR * D.JR * A⁻¹)
        = S.lambda * jCR Jc * (D.JR * A⁻¹ * D.JRᵀ * D.AR) * D.JR * A⁻¹ := by simp only [Matrix.mul_assoc]
      _ = S.lambda * (jCR Jc * D.JR) * A⁻¹ := by rw [hX]; simp only [Matrix.mul_assoc, Matrix.one_mul]
      _ = S.lambda * Jc * A⁻¹ := by rw [hcr]
  have hall : ∀ x, C.JCRinvT *ᵥ (D.JRinvT *ᵥ x) = S.JcInvT *ᵥ x := fun x => by rw [mulVec_mulVec, key]
  have hGR : D.GR = D.JRinvT *ᵥ G := by rw [e6, blk_mulVec, e7]
  have hP : reducedGravityForce D C = gravityForce S G := by
    unfold reducedGravityForce gravityForce
    rw [hGR, hall]
  refine ⟨hall, hP, fun τ => ?_⟩
  rw [hP]
  have e : actuate (Sum.elim (fun i => τ (.inl i)) (D.JinvT *ᵥ fun j => τ (.inr j))) = D.JRinvT *ᵥ actuate τ := by
    rw [e6, blk_mulVec]
    ext a
    rcases a with a | a | a <;> rfl
  rw [e, hall]
  unfold contactForce
  rw [actuate_eq, mulVec_mulVec, mul_selT]

/-- minimum-norm property of the pseudo-inverse of a symmetric matrix -/
theorem pinv_perp {n : Type*} [Fintype n] [DecidableEq n] {W : Matrix n n ℝ} (hW : Wᵀ = W) (y u : n → ℝ) (hu : W *ᵥ u = 0) :
    (pinv W *ᵥ y) ⬝ᵥ u = 0 := by
  have hs := pinv_symm hW
  have hcomm : pinv W * W = W * pinv W := by
    have := (pinv_spec W).symL
    rwa [transpose_mul, hW, hs] at this
  have h1 : pinv W *ᵥ u = 0 := by
    have e : pinv W = pinv W * pinv W * W := by
      conv_lhs => rw [← (pinv_spec W).bab, Matrix.mul_assoc, ← hcomm, ← Matrix.mul_assoc]
    rw [e, ← mulVec_mulVec, hu, mulVec_zero]
  rw [dotProduct_comm, dot_transpose_mulVec, hs, h1, zero_dotProduct]

/-- under gravity torque nothing accelerates, so torque minus gravity is a contact force -/
theorem gravity_is_contact_force {ι : Type*} [Fintype ι] [DecidableEq ι] {A : Matrix (Fin 6 ⊕ ι) (Fin 6 ⊕ ι) ℝ}
    {J : Matrix (Fin c) (Fin 6 ⊕ ι) ℝ} {S : ContactSpace c ι} (hA : IsSPD A) (hS : contactSpace J A⁻¹ = some S)
    (hB : BaseDetermined J) (G : Fin 6 ⊕ ι → ℝ) :
    ∃ F, actuate (gravityTorque S A⁻¹ G) - G = Jᵀ *ᵥ F := by
  refine ⟨S.JcInvT *ᵥ (actuate (gravityTorque S A⁻¹ G) - G), ?_⟩
  have hP : S.AinvNc *ᵥ (actuate (gravityTorque S A⁻¹ G) - G) = 0 := by
    have e : gravityTorque S A⁻¹ G = (S.Winv * (Sel ι * S.AinvNc)) *ᵥ G := by
      unfold gravityTorque
      rw [← sel_mul, mulVec_mulVec, mulVec_mulVec, cs_P hS]
      simp only [Matrix.mul_assoc]
    rw [mulVec_sub, actuate_eq, e, mulVec_mulVec, mulVec_mulVec, ← Matrix.mul_assoc, cs_P_factor hA hS hB, sub_self]
  have hN : S.Nc *ᵥ (actuate (gravityTorque S A⁻¹ G) - G) = 0 := by
    rw [← cs_A_P hA hS, ← mulVec_mulVec, hP, mulVec_zero]
  rw [cs_Nc hS, sub_mulVec, one_mulVec, sub_eq_zero, ← mulVec_mulVec] at hN
  exact hN

/-- C41 (gravity compensation).  The gravity torque assembled from the reduced model is that of the full model, when the
contacts determine the base. -/
theorem C41_gravity_torque_partial (hA : IsSPD A) (h : reduce vcOf ncOf A⁻¹ J G = some D) (h0 : ∀ r j, Jc r (ncOf j) = 0)
    (hk : k ≤ c) (hB : BaseDetermined Jc) (hS : contactSpace Jc A⁻¹ = some S)
    (hC : reducedContact D Jc A⁻¹ = some C) :
    reducedGravityTorque D C = gravityTorque S A⁻¹ G := by
  obtain ⟨C', hC', -, -, -, -, -, l6⟩ := C41_contact_partial hA h h0 hk hS
  rw [hC] at hC'
  obtain rfl := Option.some.inj hC'
  obtain ⟨hs, e1, e2, e3, e4, e5, e6, e7, e8, -⟩ := reduce_eq_some h
  have hAR : IsSPD D.AR := (C40_projection hA h).2.2
  have hinv : D.AR⁻¹ = D.ARinv := by rw [e4, e2, nonsing_inv_nonsing_inv _ hs.isUnit]
  set SR : ContactSpace c (Fin k ⊕ Fin 6) :=
    { lambda := C.lambda, JcInvT := C.JCRinvT, Nc := C.NCR, AinvNc := C.ARinvNCR, W := C.W, Winv := C.Winv } with hSR
  have hτR : reducedGravity D C = gravityTorque SR D.AR⁻¹ D.GR := by
    unfold reducedGravity gravityTorque
    rw [hinv]
  have hBR : BaseDetermined (jCR Jc) := by
    intro v hv
    apply hB
    rw [← hv]
    ext r
    simp [mulVec, dotProduct, Fintype.sum_sum_type, jCR, vcOf]
  obtain ⟨F, hF⟩ := gravity_is_contact_force hAR l6 hBR D.GR
  rw [← hτR] at hF
  have hJct : ∀ y : Fin c → ℝ, (∀ i, (Jcᵀ *ᵥ y) (vcOf i) = ((jCR Jc)ᵀ *ᵥ y) (vcOf i)) ∧
      (∀ j : ν, (Jcᵀ *ᵥ y) (ncOf j) = 0) ∧ (∀ s : Fin 6, ((jCR Jc)ᵀ *ᵥ y) (ncOf s) = 0) := by
    intro y
    refine ⟨fun i => ?_, fun j => ?_, fun s => ?_⟩
    · rcases i with i | i <;> simp [mulVec, dotProduct, jCR, vcOf]
    · simp only [mulVec, dotProduct, transpose_apply, h0, zero_mul, Finset.sum_const_zero]
    · simp [mulVec, dotProduct, jCR, ncOf]
  -- the assembled torque balances gravity in the full model
  have hfull : actuate (reducedGravityTorque D C) - G = Jcᵀ *ᵥ F := by
    ext a
    rcases a with a | a | a
    · have h1 := congrFun hF (.inl a)
      have h2 := (hJct F).1 (.inl a)
      have h3 : D.GR (.inl a) = G (.inl a) := by rw [e7]; rfl
      simp only [Pi.sub_apply, actuate, Sum.elim_inl, Pi.zero_apply, h3] at h1 ⊢
      rw [h1]; exact h2.symm
    · have h1 := congrFun hF (.inr (.inl a))
      have h2 := (hJct F).1 (.inr a)
      have h3 : D.GR (.inr (.inl a)) = G (.inr (.inl a)) := by rw [e7]; rfl
      simp only [Pi.sub_apply, actuate, Sum.elim_inr, h3] at h1 ⊢
      exact h1.trans h2.symm
    · have h2 := (hJct F).2.1 a
      refine Eq.trans ?_ h2.symm
      change D.GNC a - G (ncOf a) = 0
      rw [e8, sub_self]
  obtain ⟨F', hF'⟩ := gravity_is_contact_force hA hS hB G
  -- the difference is in the kernel of W
  set d : Fin k ⊕ ν → ℝ := reducedGravityTorque D C - gravityTorque S A⁻¹ G with hd
  have hact : actuate d = Jcᵀ *ᵥ (F - F') := by
    rw [mulVec_sub, ← hfull, ← hF', hd, actuate_eq, actuate_eq, actuate_eq, mulVec_sub]
    abel
  have hker : S.W *ᵥ d = 0 := (W_mulVec_eq_zero_iff hA hS d).mpr ⟨_, hact.symm⟩
  have hd1 : gravityTorque S A⁻¹ G ⬝ᵥ d = 0 := by
    unfold gravityTorque
    rw [cs_Winv hS]
    exact pinv_perp (cs_W_symm hA hS) _ _ hker
  -- d vanishes on the non-contact joints, and its reduction is in the kernel of W_R
  have hdn : ∀ j : ν, d (.inr j) = 0 := by
    intro j
    have := congrFun hact (ncOf j)
    rw [(hJct _).2.1 j] at this
    exact this
  have hkerR : SR.W *ᵥ (Sum.elim (fun i => d (.inl i)) (0 : Fin 6 → ℝ)) = 0 := by
    refine (W_mulVec_eq_zero_iff hAR l6 _).mpr ⟨F - F', ?_⟩
    ext a
    rcases a with a | a | a
    · have h1 := congrFun hact (.inl a)
      rw [show (Sum.inl a : RSys (Fin k) ν) = vcOf (.inl a) from rfl, (hJct _).1] at h1
      exact h1.symm
    · have h1 := congrFun hact (.inr (.inl a))
      rw [show (Sum.inr (Sum.inl a) : RSys (Fin k) ν) = vcOf (.inr a) from rfl, (hJct _).1] at h1
      exact h1.symm
    · exact (hJct _).2.2 a
  have hd2 : reducedGravityTorque D C ⬝ᵥ d = 0 := by
    have h1 : reducedGravity D C ⬝ᵥ (Sum.elim (fun i => d (.inl i)) (0 : Fin 6 → ℝ)) = 0 := by
      rw [hτR]
      unfold gravityTorque
      rw [cs_Winv l6]
      exact pinv_perp (cs_W_symm hAR l6) _ _ hkerR
    rw [← h1]
    simp [dotProduct, Fintype.sum_sum_type, reducedGravityTorque, hdn]
  have hdd : d ⬝ᵥ d = 0 := by
    conv_lhs => lhs; rw [hd]
    rw [sub_dotProduct, hd1, hd2, sub_zero]
  have hz : d = 0 := dotProduct_self_eq_zero.mp hdd
  rw [hd] at hz
  exact sub_eq_zero.mp hz

/-- A contact Jacobian on the contact-chain joints with the columns of the joints from number `c` on left out. -/
def cutAt (Jc : Matrix (Fin c) (RSys (Fin k) ν) ℝ) : Matrix (Fin c) (RSys (Fin k) ν) ℝ := fun r a =>
  match a with
  | .inl b => Jc r (.inl b)
  | .inr (.inl j) => if (j : ℕ) < c then Jc r (.inr (.inl j)) else 0
  | .inr (.inr _) => 0

theorem reducedContact_cut (hA : IsSPD A) (h : reduce vcOf ncOf A⁻¹ J G = some D) (hc : c ≤ k + 6) :
    reducedContact D Jc A⁻¹ = (eigenInverse (cutAt Jc * A⁻¹ * (cutAt Jc)ᵀ)).map (reducedContactOf D Jc A⁻¹) := by
  obtain ⟨hs, e1, -⟩ := reduce_eq_some h
  have hcut : leftCols (c + 6) (jCR Jc) = jCR (cutAt Jc) := by
    ext r a
    rcases a with a | a | a
    · exact if_pos (show (a : ℕ) < c + 6 by omega)
    · by_cases ha : (a : ℕ) < c
      · exact (if_pos (show 6 + (a : ℕ) < c + 6 by omega)).trans (if_pos ha).symm
      · exact (if_neg (show ¬ 6 + (a : ℕ) < c + 6 by omega)).trans (if_neg ha).symm
    · simp [leftCols, jCR]
  have hc0 : ∀ r (j : ν), cutAt Jc r (ncOf j) = 0 := fun _ _ => rfl
  have hL : jCR (cutAt Jc) * D.ARinv * (jCR (cutAt Jc))ᵀ = cutAt Jc * A⁻¹ * (cutAt Jc)ᵀ := by
    rw [(C40_projection hA h).1]
    have hr : jCR (cutAt Jc) * D.JR = cutAt Jc := by rw [e1]; exact jCR_mul_jR hc0 J
    generalize jCR (cutAt Jc) = X at hr ⊢
    conv_rhs => rw [← hr, transpose_mul]
    simp only [Matrix.mul_assoc]
  unfold reducedContact
  simp only
  rw [if_pos (by omega), hcut, hL]

/-- C41 (which contact inertia is computed).  In general `Lambda_CR` is the contact inertia of the contact Jacobian cut
after `contact_dof + 6` columns; it is the right one exactly if the cut does not matter. -/
theorem C41_contact_iff (hA : IsSPD A) (h : reduce vcOf ncOf A⁻¹ J G = some D) (h0 : ∀ r j, Jc r (ncOf j) = 0)
    (hS : contactSpace Jc A⁻¹ = some S) (hC : reducedContact D Jc A⁻¹ = some C) :
    C.lambda = (cutAt Jc * A⁻¹ * (cutAt Jc)ᵀ)⁻¹ ∧
    (C.lambda = S.lambda ↔ cutAt Jc * A⁻¹ * (cutAt Jc)ᵀ = Jc * A⁻¹ * Jcᵀ) := by
  rw [reducedContact_cut hA h (rows_le h0 (independent_of_some hA hS))] at hC
  obtain ⟨Λ, hΛ, rfl⟩ := Option.map_eq_some_iff.mp hC
  obtain ⟨hu, rfl⟩ := eigenInverse_eq_some.mp hΛ
  refine ⟨rfl, ?_⟩
  change (cutAt Jc * A⁻¹ * (cutAt Jc)ᵀ)⁻¹ = S.lambda ↔ _
  rw [cs_lambda hS]
  constructor
  · intro e
    rw [← nonsing_inv_nonsing_inv _ hu, e, nonsing_inv_nonsing_inv _ (cs_unit hS)]
  · intro e; rw [e]

end C41

/-! ### A robot: base, `k` leg joints, six arm joints coupled with the base -/

section Example

variable {k : ℕ}

/-- base plus arm -/
def exE (k : ℕ) : Matrix (Fin 6) (RSys (Fin k) (Fin 6)) ℝ := fun s a =>
  match a with
  | .inl b => if s = b then 1 else 0
  | .inr (.inl _) => 0
  | .inr (.inr b) => if s = b then 1 else 0

/-- mass matrix -/
def exRed (k : ℕ) : Matrix (RSys (Fin k) (Fin 6)) (RSys (Fin k) (Fin 6)) ℝ := 1 + (exE k)ᵀ * exE k

theorem exE_mul : exE k * (exE k)ᵀ = (2 : ℝ) • 1 := by
  ext a b
  by_cases h : a = b
  · subst h
    simp [exE, Matrix.mul_apply, Fintype.sum_sum_type, one_add_one_eq_two]
  · simp [exE, Matrix.mul_apply, Fintype.sum_sum_type, h, Ne.symm h]

theorem exRed_spd : IsSPD (exRed k) := by
  refine ⟨by simp [exRed, transpose_mul], fun x hx => ?_⟩
  rw [exRed, add_mulVec, one_mulVec, dotProduct_add, ← mulVec_mulVec, dot_transpose_mulVec, transpose_transpose]
  have h1 : 0 < x ⬝ᵥ x := by
    have := dotProduct_self_eq_zero (v := x)
    exact lt_of_le_of_ne (Finset.sum_nonneg fun i _ => mul_self_nonneg _) (fun e => hx (this.mp e.symm))
  have h2 : 0 ≤ (exE k *ᵥ x) ⬝ᵥ (exE k *ᵥ x) := Finset.sum_nonneg fun i _ => mul_self_nonneg _
  linarith

theorem exRed_inv : (exRed k)⁻¹ = 1 - (1 / 3 : ℝ) • ((exE k)ᵀ * exE k) := by
  apply inv_eq_right_inv
  have h : (exE k)ᵀ * exE k * ((exE k)ᵀ * exE k) = (2 : ℝ) • ((exE k)ᵀ * exE k) := by
    rw [Matrix.mul_assoc, ← Matrix.mul_assoc (exE k), exE_mul]
    simp
  rw [exRed, Matrix.add_mul, Matrix.one_mul, Matrix.mul_sub, Matrix.mul_one, Matrix.mul_smul, h]
  module

theorem exRed_jInc : jInc 1 1 (baseNc (exRed k)) = some (1 : Matrix (Fin 6) (Fin 6) ℝ) := by
  have hseg : inertiaMatrixSegment 1 = some ⟨1, 0, 1⟩ := by
    unfold inertiaMatrixSegment
    have hz : (![0, 0, 0] : Vec3) = 0 := by ext i; fin_cases i <;> rfl
    have h21 : (1 : Mat6).toBlocks₂₁ = 0 := by ext i j; simp [toBlocks₂₁]
    have h22 : (1 : Mat6).toBlocks₂₂ = 1 := by ext i j; simp [toBlocks₂₂, Matrix.one_apply]
    simp [h21, h22, hz, skew_zero]
  have hB : baseNc (exRed k) = (1 : Matrix (Fin 6) (Fin 6) ℝ).submatrix six id := by
    ext r j
    simp [baseNc, exRed, ncOf, Matrix.mul_apply, exE, Matrix.one_apply, eq_comm]
  unfold jInc
  rw [hseg]
  simp only
  have hI : inertiaMatrix 1 1 = 1 := by simp [inertiaMatrix]
  have hi : eigenInverse (inertiaMatrix 1 1) = some 1 := by
    rw [hI]; exact eigenInverse_eq_some.mpr ⟨by simp, by simp⟩
  rw [hi]
  simp [skew_zero, hB]

theorem exRed_coupling (i : Fin k) (j : Fin 6) : exRed k (.inr (.inl i)) (.inr (.inr j)) = 0 := by
  simp [exRed, Matrix.mul_apply, exE]

theorem exRed_reduce (G : RSys (Fin k) (Fin 6) → ℝ) : ∃ D, reduce vcOf ncOf (exRed k)⁻¹ 1 G = some D := by
  rw [← Option.isSome_iff_exists, C40_finite_iff exRed_spd]
  intro f hf
  simpa using hf

/-- one flat foot: base and first six leg joints move it; a seventh leg joint (if any) moves it along the first axis -/
def exFoot (k : ℕ) : Matrix (Fin 6) (RSys (Fin k) (Fin 6)) ℝ := fun s a =>
  match a with
  | .inl b => if s = b then 1 else 0
  | .inr (.inl j) => if (j : ℕ) = s ∨ ((j : ℕ) = 6 ∧ s = 0) then 1 else 0
  | .inr (.inr _) => 0

theorem exFoot_independent : IndependentRows (exFoot k) := by
  intro F hF
  ext s
  have := congrFun hF (.inl s)
  simpa [mulVec, dotProduct, exFoot] using this

theorem exFoot_base : BaseDetermined (exFoot k) := by
  intro v hv
  ext s
  have := congrFun hv s
  simpa [mulVec, dotProduct, exFoot, Fintype.sum_sum_type] using this

theorem exFoot_contact : ∃ S, contactSpace (exFoot k) (exRed k)⁻¹ = some S :=
  ⟨_, contactSpace_eq_some.mpr ⟨exRed_spd.inv.conj_isUnit_iff.mpr exFoot_independent, rfl⟩⟩

/-- The hypotheses of the C40 and C41 theorems hold for the robot with a six-joint leg. -/
example (G : RSys (Fin 6) (Fin 6) → ℝ) :
    ∃ D S C, reduce vcOf ncOf (exRed 6)⁻¹ 1 G = some D ∧ contactSpace (exFoot 6) (exRed 6)⁻¹ = some S ∧
      reducedContact D (exFoot 6) (exRed 6)⁻¹ = some C ∧ D.JRinvT = D.AR * D.JR * (exRed 6)⁻¹ ∧
      reducedGravityForce D C = gravityForce S G ∧ reducedGravityTorque D C = gravityTorque S (exRed 6)⁻¹ G := by
  obtain ⟨D, hD⟩ := exRed_reduce (k := 6) G
  obtain ⟨S, hS⟩ := exFoot_contact (k := 6)
  have h0 : ∀ r j, exFoot 6 r (ncOf j) = 0 := fun _ _ => rfl
  obtain ⟨C, hC, -⟩ := C41_contact_partial exRed_spd hD h0 le_rfl hS
  exact ⟨D, S, C, hD, hS, hC,
    (C40_consistent_inverse exRed_spd (by simp) exRed_jInc exRed_coupling hD).1,
    (C41_forces_partial exRed_spd (by simp) exRed_jInc exRed_coupling hD h0 le_rfl hS hC).2.1,
    C41_gravity_torque_partial exRed_spd hD h0 le_rfl exFoot_base hS hC⟩

/-- C41 fails when the contact chain has more joints than the contact has rows: for the robot with a seven-joint leg and one flat
foot the contact inertia of the reduced model is not that of the full model. -/
theorem C41_redundant_leg_wrong (G : RSys (Fin 7) (Fin 6) → ℝ) :
    ∃ D S C, jInc 1 1 (baseNc (exRed 7)) = some 1 ∧ reduce vcOf ncOf (exRed 7)⁻¹ 1 G = some D ∧
      contactSpace (exFoot 7) (exRed 7)⁻¹ = some S ∧ reducedContact D (exFoot 7) (exRed 7)⁻¹ = some C ∧
      C.lambda ≠ S.lambda := by
  obtain ⟨D, hD⟩ := exRed_reduce (k := 7) G
  obtain ⟨S, hS⟩ := exFoot_contact (k := 7)
  have h0 : ∀ r j, exFoot 7 r (ncOf j) = 0 := fun _ _ => rfl
  have hcut : IndependentRows (cutAt (exFoot 7)) := by
    intro F hF
    ext s
    have := congrFun hF (.inl s)
    simpa [mulVec, dotProduct, exFoot, cutAt] using this
  obtain ⟨C, hC⟩ : ∃ C, reducedContact D (exFoot 7) (exRed 7)⁻¹ = some C := by
    rw [reducedContact_cut exRed_spd hD (by norm_num),
      eigenInverse_eq_some.mpr ⟨exRed_spd.inv.conj_isUnit_iff.mpr hcut, rfl⟩]
    exact ⟨_, rfl⟩
  refine ⟨D, S, C, exRed_jInc, hD, hS, hC, fun e => ?_⟩
  rw [(C41_contact_iff exRed_spd hD h0 hS hC).2, exRed_inv] at e
  have hE : exE 7 * (cutAt (exFoot 7))ᵀ = exE 7 * (exFoot 7)ᵀ := by
    ext a b
    simp [Matrix.mul_apply, Fintype.sum_sum_type, exE, cutAt, exFoot]
  have hE' : cutAt (exFoot 7) * (exE 7)ᵀ = exFoot 7 * (exE 7)ᵀ := by
    have := congrArg transpose hE
    simpa [transpose_mul] using this
  have key : cutAt (exFoot 7) * (cutAt (exFoot 7))ᵀ = exFoot 7 * (exFoot 7)ᵀ := by
    simp only [Matrix.mul_sub, Matrix.sub_mul, Matrix.mul_one, Matrix.mul_smul, Matrix.smul_mul] at e
    have h1 : cutAt (exFoot 7) * ((exE 7)ᵀ * exE 7) * (cutAt (exFoot 7))ᵀ
        = exFoot 7 * ((exE 7)ᵀ * exE 7) * (exFoot 7)ᵀ := by
      rw [← Matrix.mul_assoc, hE', Matrix.mul_assoc, hE, ← Matrix.mul_assoc, ← Matrix.mul_assoc]
    rw [h1] at e
    exact sub_left_inj.mp e
  have := congrFun (congrFun key 0) 0
  simp [Matrix.mul_apply, Fintype.sum_sum_type, exFoot, cutAt, Fin.sum_univ_succ] at this

end Example

end Verif.Props
