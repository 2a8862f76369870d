import Verif.Model.ReducedClosed
import Verif.Props.ClosedForm
import Verif.Props.ReducedQP

/-! # Lemmas for C68 -/

set_option linter.unusedSectionVars false

namespace Verif
open Matrix Verif.Spec Verif.Model Verif.Props

section
variable {ι : Type*} [Fintype ι] [DecidableEq ι]
variable {A : Matrix (Fin 6 ⊕ ι) (Fin 6 ⊕ ι) ℝ} {J : Matrix (Fin 12) (Fin 6 ⊕ ι) ℝ} {S : ContactSpace 12 ι}

/-- What the closed form computes: the torque of a contact force whose second wrench is the change of the second wrench. -/
theorem closedFormTorque_spec (hA : IsSPD A) (hS : contactSpace J A⁻¹ = some S) (f : CodNull S.W)
    {P : Fin 12 → ℝ} {s : Fin 4 → Bool} {pos : List Vec3} {com : Vec3} {yaw : ℝ} {τ τc : ι → ℝ}
    (hτ : closedFormTorque S f P s pos com yaw τ = some τc) :
    ∃ fc F, closedFormForce s pos com yaw (contactForce S P τ) = some fc ∧ Jᵀ *ᵥ F = actuate τc ∧
      wrench2 F = wrench2 (fc - contactForce S P τ) := by
  unfold closedFormTorque at hτ
  dsimp only at hτ
  split at hτ
  · cases hτ
  rename_i fc hfc
  split at hτ
  · rename_i hk
    split at hτ
    · cases hτ
    rename_i X hX
    simp only [Option.some.injEq] at hτ
    obtain ⟨hu, rfl⟩ := eigenInverse_eq_some.mp hX
    set F := contactForce S P τ with hF
    set M : Matrix (Fin 6) (Fin 6) ℝ := (bottomRight S * f.V2ᵀ).submatrix id (Fin.cast hk) with hM
    set x : Fin 6 → ℝ := fun i : Fin 6 => -F (⟨6 + i, by omega⟩ : Fin 12) + fc (⟨6 + i, by omega⟩ : Fin 12) with hx
    have hP : S.AinvNc *ᵥ actuate τc = 0 := by
      rw [actuate_eq, ← hτ, mulVec_mulVec, mulVec_mulVec]
      have e : S.AinvNc * (Sel ι)ᵀ * (f.V2ᵀ.submatrix id (Fin.cast hk))
          = (S.AinvNc * (Sel ι)ᵀ * f.V2ᵀ).submatrix id (Fin.cast hk) := rfl
      rw [← Matrix.mul_assoc, e, P_V2T hA hS f]
      simp
    have hN : S.Nc *ᵥ actuate τc = 0 := by rw [← cs_A_P hA hS, ← mulVec_mulVec, hP, mulVec_zero]
    refine ⟨fc, S.JcInvT *ᵥ actuate τc, hfc, ?_, ?_⟩
    · rw [cs_Nc hS, sub_mulVec, one_mulVec, sub_eq_zero, ← mulVec_mulVec] at hN
      exact hN.symm
    · have hd : S.JcInvT *ᵥ actuate τc = S.JcInvT.submatrix id Sum.inr *ᵥ τc := by rw [actuate_eq, mulVec_mulVec, mul_selT]
      have hb : bottomRight S *ᵥ τc = x := by
        rw [← hτ, mulVec_mulVec, ← Matrix.mul_assoc]
        have e : bottomRight S * (f.V2ᵀ.submatrix id (Fin.cast hk)) = M := rfl
        rw [e, mul_nonsing_inv _ hu, one_mulVec]
      have key : ∀ i : Fin 6, (S.JcInvT *ᵥ actuate τc) (⟨6 + i, by omega⟩ : Fin 12)
          = fc (⟨6 + i, by omega⟩ : Fin 12) - F (⟨6 + i, by omega⟩ : Fin 12) := by
        intro i
        have e := congrFun hb i
        have e' : (S.JcInvT.submatrix id Sum.inr *ᵥ τc) (⟨6 + i, by omega⟩ : Fin 12) = (bottomRight S *ᵥ τc) i := rfl
        rw [hd, e', e, hx]
        ring
      ext i
      fin_cases i
      · exact key 0
      · exact key 1
      · exact key 2
      · exact key 3
      · exact key 4
      · exact key 5
  · cases hτ

/-- only the columns of the base matter -/
theorem rigidBase_of_cols {κ : Type*} [Fintype κ] {J' : Matrix (Fin 12) (Fin 6 ⊕ κ) ℝ} {p₁ p₂ : Fin 3 → ℝ}
    (h : ∀ r i, J' r (.inl i) = J r (.inl i)) (hJ : RigidBase J p₁ p₂) : RigidBase J' p₁ p₂ := by
  obtain ⟨o, T, hT, hV⟩ := hJ
  have e : ∀ w : Fin 6 → ℝ, J' *ᵥ Sum.elim w 0 = J *ᵥ Sum.elim w 0 := by
    intro w
    ext r
    simp [mulVec, dotProduct, Fintype.sum_sum_type, h]
  exact ⟨o, T, hT, fun w => by rw [e]; exact hV w⟩

end

section
variable {nc : ℕ}
variable {A : Matrix (RSys (Fin 12) (Fin nc)) (RSys (Fin 12) (Fin nc)) ℝ} {J : Matrix (Fin 6) (Fin nc) ℝ}
  {G : RSys (Fin 12) (Fin nc) → ℝ} {D : Reduced (Fin 12) (Fin nc)} {Jc : Matrix (Fin 12) (RSys (Fin 12) (Fin nc)) ℝ}
  {S : ContactSpace 12 (Fin 12 ⊕ Fin nc)} {C : ReducedContact 12 (Fin 12) (Fin nc)} {SI : Mat6} {R : Mat3}

theorem place_left {m n : ℕ} (i : Fin m) : ((finSumFinEquiv (Sum.inl i : Fin m ⊕ Fin n)).val) = i := by simp

/-- copying twelve places -/
theorem copy_twelve {τc : Fin 12 ⊕ Fin nc → ℝ} {τcR : Fin 12 ⊕ Fin 6 → ℝ} (hlow : ∀ i, τcR (.inl i) = τc (.inl i)) (hhigh : ∀ j, τc (.inr j) = 0) :
    (fun j : Fin 12 ⊕ Fin nc =>
      let p := (finSumFinEquiv j).val
      if h : p < 12 ∧ p < 12 + 6 then τcR (finSumFinEquiv.symm ⟨p, h.2⟩) else 0) = τc := by
  ext j
  rcases j with i | j
  · have hp : ((finSumFinEquiv (Sum.inl i : Fin 12 ⊕ Fin nc)).val) = i := by simp
    have h1 : i.val < 12 ∧ i.val < 12 + 6 := ⟨by omega, by omega⟩
    simp only [hp, dif_pos h1]
    rw [← hlow]
    congr 1
    rw [Equiv.symm_apply_eq]
    ext
    exact (place_left i).symm
  · have hp : ((finSumFinEquiv (Sum.inr j : Fin 12 ⊕ Fin nc)).val) = 12 + j := by simp
    simp only [hp, hhigh]
    rw [dif_neg (by omega)]

theorem jCR_base (r : Fin 12) (i : Fin 6) : jCR Jc r (.inl i) = Jc r (.inl i) := rfl

/-- Two models of one robot that see the same contact force: the closed form gives the same torque, if any. -/
theorem closed_same {B : Matrix (RSys (Fin 12) (Fin 6)) (RSys (Fin 12) (Fin 6)) ℝ} {SR : ContactSpace 12 (Fin 12 ⊕ Fin 6)}
    {GR : RSys (Fin 12) (Fin 6) → ℝ}
    (hA : IsSPD A) (hB : IsSPD B) (h0 : ∀ r j, Jc r (ncOf j) = 0) {p₁ p₂ : Vec3} (hr : RigidBase Jc p₁ p₂)
    (hS : contactSpace Jc A⁻¹ = some S) (hSR : contactSpace (jCR Jc) B⁻¹ = some SR) (f : CodNull SR.W) (f' : CodNull S.W)
    (s : Fin 4 → Bool) (pos : List Vec3) (com : Vec3) (yaw : ℝ) (τR : Fin 12 ⊕ Fin 6 → ℝ) (τ : Fin 12 ⊕ Fin nc → ℝ)
    (hF : contactForce SR (gravityForce SR GR) τR = contactForce S (gravityForce S G) τ) :
    (closedFormTorque SR f (gravityForce SR GR) s pos com yaw τR = none ∧ closedFormTorque S f' (gravityForce S G) s pos com yaw τ = none) ∨
    ∃ τcR τc, closedFormTorque SR f (gravityForce SR GR) s pos com yaw τR = some τcR ∧
      closedFormTorque S f' (gravityForce S G) s pos com yaw τ = some τc ∧ (∀ i, τcR (.inl i) = τc (.inl i)) ∧ ∀ j, τc (.inr j) = 0 := by
  have hBR : RigidBase (jCR Jc) p₁ p₂ := rigidBase_of_cols (J := Jc) (J' := jCR Jc) (fun r i => jCR_base r i) hr
  have hdR := C49_defined (pos := pos) (com := com) (yaw := yaw) (s := s) (τ := τR) (G := GR) hB hSR f hBR
  have hdF := C49_defined (pos := pos) (com := com) (yaw := yaw) (s := s) (τ := τ) (G := G) hA hS f' hr
  rw [hF] at hdR
  rcases hfull : closedFormTorque S f' (gravityForce S G) s pos com yaw τ with _ | τc <;>
    rcases hred : closedFormTorque SR f (gravityForce SR GR) s pos com yaw τR with _ | τcR
  · exact .inl ⟨rfl, rfl⟩
  · rw [hfull] at hdF
    rw [hred] at hdR
    have := hdF.mpr (hdR.mp rfl)
    cases this
  · rw [hfull] at hdF
    rw [hred] at hdR
    have := hdR.mpr (hdF.mp rfl)
    cases this
  · refine .inr ⟨τcR, τc, rfl, rfl, ?_⟩
    obtain ⟨fc, F, a1, a2, a3⟩ := closedFormTorque_spec hA hS f' hfull
    obtain ⟨fcR, FR, b1, b2, b3⟩ := closedFormTorque_spec hB hSR f hred
    rw [hF] at b1 b3
    rw [a1] at b1
    obtain rfl := Option.some.inj b1
    have hFF : FR = F :=
      zeroResultant_unique (zeroResultant_of_base hBR fun i => by rw [b2]; rfl) (zeroResultant_of_base hr fun i => by rw [a2]; rfl)
        (b3.trans a3.symm)
    subst hFF
    refine ⟨fun i => (congrFun b2 (.inr (.inl i))).symm.trans (congrFun a2 (.inr (.inl i))), fun j => ?_⟩
    refine (congrFun a2 (.inr (.inr j))).symm.trans ?_
    simp only [mulVec, dotProduct, transpose_apply]
    exact Finset.sum_eq_zero fun r _ => by rw [show Jc r (.inr (.inr j)) = 0 from h0 r j, zero_mul]

theorem closedFormR_twelve (f : CodNull C.W) (s : Fin 4 → Bool) (pos : List Vec3) (com : Vec3) (yaw : ℝ) (τ : Fin 12 ⊕ Fin 6 → ℝ) :
    closedFormR D C f s pos com yaw τ
      = (closedFormTorque (C.twelve rfl) f (gravityForce (C.twelve rfl) D.GR) s pos com yaw τ).map fun v => (1, v) :=
  (if_pos rfl).trans (dif_pos rfl)

theorem twelve_force (v : Fin 12 ⊕ Fin 6 → ℝ) : contactForce (C.twelve rfl) (gravityForce (C.twelve rfl) D.GR) v = forceR D C v := by
  rw [forceR, actuate_eq, mulVec_mulVec, mul_selT]
  rfl

theorem redistribute_twelve (f : CodNull C.W) (s : Fin 4 → Bool) (pos : List Vec3) (com : Vec3) (yaw : ℝ) (τR : Fin 12 ⊕ Fin 6 → ℝ)
    (old : Fin 12 ⊕ Fin nc → ℝ) (hn : 6 ≤ nc) :
    reducedRedistributeClosed D C f s pos com yaw τR old
      = (closedFormTorque (C.twelve rfl) f (gravityForce (C.twelve rfl) D.GR) s pos com yaw (reducedGravity D C + τR)).map fun τc =>
        (1, fun j : Fin 12 ⊕ Fin nc =>
          let p := (finSumFinEquiv j).val
          if h : p < 12 ∧ p < 12 + 6 then τc (finSumFinEquiv.symm ⟨p, h.2⟩) else 0) := by
  unfold reducedRedistributeClosed
  rw [if_pos (by norm_num), closedFormR_twelve]
  rcases closedFormTorque (C.twelve rfl) f (gravityForce (C.twelve rfl) D.GR) s pos com yaw (reducedGravity D C + τR) with _ | τc
  · rfl
  · exact if_pos ⟨by norm_num, by omega⟩

/-- With twelve joints in the contact chains: torques of the same change of contact force are the same. -/
theorem reducedClosed_eq (hA : IsSPD A) (hR : R * Rᵀ = 1)
    (hJ : jInc SI R (baseNc A) = some J) (hcpl : ∀ (i : Fin 12) (j : Fin nc), A (.inr (.inl i)) (.inr (.inr j)) = 0)
    (h : reduce vcOf ncOf A⁻¹ J G = some D) (h0 : ∀ r j, Jc r (ncOf j) = 0) {p₁ p₂ : Vec3} (hB : RigidBase Jc p₁ p₂)
    (hS : contactSpace Jc A⁻¹ = some S) (hC : reducedContact D Jc A⁻¹ = some C) (f : CodNull C.W) (f' : CodNull S.W)
    (s : Fin 4 → Bool) (pos : List Vec3) (com : Vec3) (yaw : ℝ) (τR : Fin 12 ⊕ Fin 6 → ℝ) (τN : Fin nc → ℝ) (old : Fin 12 ⊕ Fin nc → ℝ) :
    reducedRedistributeClosed D C f s pos com yaw τR old
      = (closedFormTorque S f' (gravityForce S G) s pos com yaw (reducedGravityTorque D C + assembleTorque D τR τN)).map fun v => (1, v) := by
  have hforce := assembled_force hA hR hJ hcpl h h0 le_rfl (rigid_baseDetermined hB) hS hC τR τN
  obtain ⟨C', hC', -, -, -, -, -, hSR⟩ := C41_contact_partial hA h h0 le_rfl hS
  rw [hC] at hC'
  obtain rfl := Option.some.inj hC'
  have hn : 6 ≤ nc := by
    by_contra hlt
    rw [C40_needs_six_joints hA (by simpa using hlt)] at h
    cases h
  have hSR' : contactSpace (jCR Jc) D.AR⁻¹ = some (C.twelve rfl) := hSR
  rw [redistribute_twelve f s pos com yaw τR old hn]
  rcases closed_same (GR := D.GR) (G := G) hA (C40_projection hA h).2.2 h0 hB hS hSR' f f' s pos com yaw (reducedGravity D C + τR)
    (reducedGravityTorque D C + assembleTorque D τR τN) ((twelve_force _).trans hforce.symm) with ⟨e1, e2⟩ | ⟨τcR, τc, e1, e2, e3, e4⟩
  · rw [e1, e2]
    rfl
  · rw [e1, e2, Option.map_some, Option.map_some, copy_twelve e3 e4]

end
end Verif
