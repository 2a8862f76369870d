import Verif.Lemmas.ReducedClosed

/-! # C68: redistribution of contact forces without a QP on the reduced model -/

set_option linter.unusedSectionVars false

namespace Verif.Props
open Matrix Verif Verif.Spec Verif.Model

section
variable {nc : ℕ}
variable {A : Matrix (RSys (Fin 12) (Fin nc)) (RSys (Fin 12) (Fin nc)) ℝ} {J : Matrix (Fin 6) (Fin nc) ℝ}
  {G : RSys (Fin 12) (Fin nc) → ℝ} {D : Reduced (Fin 12) (Fin nc)} {Jc : Matrix (Fin 12) (RSys (Fin 12) (Fin nc)) ℝ}
  {S : ContactSpace 12 (Fin 12 ⊕ Fin nc)} {C : ReducedContact 12 (Fin 12) (Fin nc)} {SI : Mat6} {R : Mat3}

/-- **C68.**  Two six-dimensional contacts whose chains have twelve joints.  Redistribution on the reduced model gives the torque that the
full model gives for the torque assembled from the reduced one (gravity compensation plus task torque `τR`, `τN`), and reports success; if the
full model has no answer, neither has the reduced one.  `f`, `f'` are any two factorisations. -/
theorem C68_same_as_full_partial (hA : IsSPD A) (hR : R * Rᵀ = 1)
    (hJ : jInc SI R (baseNc A) = some J) (hcpl : ∀ (i : Fin 12) (j : Fin nc), A (.inr (.inl i)) (.inr (.inr j)) = 0)
    (h : reduce vcOf ncOf A⁻¹ J G = some D) (h0 : ∀ r j, Jc r (ncOf j) = 0) {p₁ p₂ : Vec3} (hB : RigidBase Jc p₁ p₂)
    (hS : contactSpace Jc A⁻¹ = some S) (hC : reducedContact D Jc A⁻¹ = some C) (f : CodNull C.W) (f' : CodNull S.W)
    (s : Fin 4 → Bool) (pos : List Vec3) (com : Vec3) (yaw : ℝ) (τR : Fin 12 ⊕ Fin 6 → ℝ) (τN : Fin nc → ℝ) (old : Fin 12 ⊕ Fin nc → ℝ) :
    reducedRedistributeClosed D C f s pos com yaw τR old
      = (closedFormTorque S f' (gravityForce S G) s pos com yaw (reducedGravityTorque D C + assembleTorque D τR τN)).map fun τc => (1, τc) :=
  reducedClosed_eq hA hR hJ hcpl h h0 hB hS hC f f' s pos com yaw τR τN old

/-- **C68 (motion).**  In that case, with the feet at the first two registered positions: adding the torque leaves every acceleration of the
full robot unchanged, the wrenches at the feet become the redistributed ones, and their resultant does not change. -/
theorem C68_forces_partial (hA : IsSPD A) (hR : R * Rᵀ = 1)
    (hJ : jInc SI R (baseNc A) = some J) (hcpl : ∀ (i : Fin 12) (j : Fin nc), A (.inr (.inl i)) (.inr (.inr j)) = 0)
    (h : reduce vcOf ncOf A⁻¹ J G = some D) (h0 : ∀ r j, Jc r (ncOf j) = 0) {p₁ p₂ : Vec3} (hB : RigidBase Jc p₁ p₂)
    (hS : contactSpace Jc A⁻¹ = some S) (hC : reducedContact D Jc A⁻¹ = some C) (f : CodNull C.W)
    {s : Fin 4 → Bool} {rest : List Vec3} {com : Vec3} {yaw : ℝ} {τR : Fin 12 ⊕ Fin 6 → ℝ} (τN : Fin nc → ℝ) {old τc : Fin 12 ⊕ Fin nc → ℝ} {v : ℕ}
    (hr : reducedRedistributeClosed D C f s (p₁ :: p₂ :: rest) com yaw τR old = some (v, τc))
    {qdd qdd' : RSys (Fin 12) (Fin nc) → ℝ} {F F' : Fin 12 → ℝ}
    (hm : Motion A Jc G (reducedGravityTorque D C + assembleTorque D τR τN) qdd F)
    (hm' : Motion A Jc G (reducedGravityTorque D C + assembleTorque D τR τN + τc) qdd' F') :
    v = 1 ∧ qdd' = qdd ∧ closedFormForce s (p₁ :: p₂ :: rest) com yaw F = some F' ∧
      SameResultant p₁ p₂ (wrench1 F') (wrench2 F') (wrench1 F) (wrench2 F) := by
  obtain ⟨f'⟩ := exists_codNull S.W
  rw [C68_same_as_full_partial hA hR hJ hcpl h h0 hB hS hC f f' s _ com yaw τR τN old, Option.map_eq_some_iff] at hr
  obtain ⟨τ', hτ', e⟩ := hr
  obtain ⟨rfl, rfl⟩ := Prod.mk.inj e
  exact ⟨rfl, C49_closed_form_partial hA hS f' hB hτ' hm hm'⟩

end

section
variable {k c nc : ℕ}
variable {D : Reduced (Fin k) (Fin nc)} {C : ReducedContact c (Fin k) (Fin nc)}

/-- **C68 (other contacts).**  The chains have twelve joints but the contacts do not have twelve rows (a foot and a point contact, say): the
behaviour is undefined. -/
theorem C68_other_contacts (hk : k = 12) (hc : c ≠ 12) (h6 : 6 < c) (f : CodNull C.W) (s : Fin 4 → Bool) (pos : List Vec3) (com : Vec3) (yaw : ℝ)
    (τR : Fin k ⊕ Fin 6 → ℝ) (old : Fin k ⊕ Fin nc → ℝ) : reducedRedistributeClosed D C f s pos com yaw τR old = none := by
  rw [reducedRedistributeClosed, if_pos h6, closedFormR, if_pos hk, dif_neg hc]

/-- **C68 (negation).**  Two six-dimensional contacts, chains with any other number of joints than twelve (seven-joint legs, say).  The
reduced model reports failure and sets the contact torque to zero, whatever it was; the full model, at any torque with all the vertical load on
the first contact, gives a torque that is not zero. -/
theorem C68_not_twelve_joints {A : Matrix (RSys (Fin k) (Fin nc)) (RSys (Fin k) (Fin nc)) ℝ} {J : Matrix (Fin 6) (Fin nc) ℝ}
    {G : RSys (Fin k) (Fin nc) → ℝ} {D : Reduced (Fin k) (Fin nc)} {C : ReducedContact 12 (Fin k) (Fin nc)}
    {Jc : Matrix (Fin 12) (RSys (Fin k) (Fin nc)) ℝ} {S : ContactSpace 12 (Fin k ⊕ Fin nc)}
    (hA : IsSPD A) (hk : k ≠ 12) (h : reduce vcOf ncOf A⁻¹ J G = some D) (h0 : ∀ r j, Jc r (ncOf j) = 0)
    (hS : contactSpace Jc A⁻¹ = some S) (f : CodNull C.W) (f' : CodNull S.W)
    (s : Fin 4 → Bool) (pos : List Vec3) (com : Vec3) (yaw : ℝ) :
    (∀ τR old, reducedRedistributeClosed D C f s pos com yaw τR old = some (0, 0)) ∧
    ∀ τ qdd F τc, Motion A Jc G τ qdd F → F 2 ≠ 0 → F 8 = 0 →
      closedFormTorque S f' (gravityForce S G) s pos com yaw τ = some τc → τc ≠ 0 := by
  have hn : 6 ≤ nc := by
    by_contra hlt
    rw [C40_needs_six_joints hA (by simpa using hlt)] at h
    cases h
  have hk6 := rows_le h0 (independent_of_some hA hS)
  constructor
  · intro τR old
    rw [reducedRedistributeClosed, if_pos (by norm_num), closedFormR, if_neg hk]
    simp only
    rw [if_pos ⟨hk6, by omega⟩]
    simp only [Pi.zero_apply, dite_eq_ite, ite_self]
    rfl
  · rintro τ qdd F τc hm h2 h8 hτ rfl
    have hF := (C01_contact_force_exact hA hS G τ).2.1 _ _ hm
    obtain ⟨-, fc, hfc, hw⟩ := C49_second_contact hA hS f' hτ hm (by rw [add_zero]; exact hm)
    have hload : fc 8 = 0 := by
      have := congrFun hw 2
      simp [wrench2] at this
      rw [← this, h8]
    simp only [closedFormForce, Option.bind_eq_bind, Option.bind_eq_some_iff, Option.pure_def, Option.some.injEq] at hfc
    obtain ⟨q1, -, q2, -, ⟨eta, F1⟩, hF1, rfl⟩ := hfc
    have hr := C14_ratio hF1
    unfold contactRedistribute at hF1
    split at hF1
    · simp only [Option.some.injEq, Prod.mk.injEq] at hF1
      obtain ⟨rfl, rfl⟩ := hF1
      simp [rotate12, rotateWithZ, splitForce, resultant, mulVec, dotProduct, Fin.sum_univ_three, h2, h8] at hload
      norm_num [dwbcParams] at hr
      rcases hr with hr | hr <;> linarith
    · cases hF1

end

/-! ## Concrete robots -/

/-- Two feet at `p₁`, `p₂`; the first six of `k` chain joints move the second foot; six joints elsewhere. -/
def legsJ (k : ℕ) (p₁ p₂ : Vec3) : Matrix (Fin 12) (RSys (Fin k) (Fin 6)) ℝ := Matrix.of fun r a =>
  match a with
  | .inl i => rigidJ p₁ p₂ r (.inl i)
  | .inr (.inl j) => if r.val = j.val + 6 then 1 else 0
  | .inr (.inr _) => 0

theorem legsJ_rigid (k : ℕ) (p₁ p₂ : Vec3) : RigidBase (legsJ k p₁ p₂) p₁ p₂ :=
  rigidBase_of_cols (J := rigidJ p₁ p₂) (fun _ _ => rfl) (rigidJ_rigid p₁ p₂)

theorem legsJ_ind {k : ℕ} (hk : 6 ≤ k) (p₁ p₂ : Vec3) : IndependentRows (legsJ k p₁ p₂) := by
  intro F h
  apply rigidJ_ind p₁ p₂
  ext a
  rcases a with i | j
  · exact congrFun h (.inl i)
  · exact congrFun h (.inr (.inl ⟨j, by omega⟩))

/-- Feet, chain joints and six further joints for which all hypotheses above hold, with all the load on the first foot; with twelve chain
joints redistribution on the reduced model answers, with fourteen the full model answers and the reduced one reports failure. -/
theorem C68_hypotheses_met {k : ℕ} (hk : k = 12 ∨ k = 14) (s : Fin 4 → Bool) (rest : List Vec3) :
    ∃ (A : Matrix (RSys (Fin k) (Fin 6)) (RSys (Fin k) (Fin 6)) ℝ) (J : Matrix (Fin 6) (Fin 6) ℝ) (Jc : Matrix (Fin 12) (RSys (Fin k) (Fin 6)) ℝ)
      (G : RSys (Fin k) (Fin 6) → ℝ) (D : Reduced (Fin k) (Fin 6)) (S : ContactSpace 12 (Fin k ⊕ Fin 6))
      (f' : CodNull S.W) (τc : Fin k ⊕ Fin 6 → ℝ) (qdd : RSys (Fin k) (Fin 6) → ℝ),
      IsSPD A ∧ jInc 1 1 (baseNc A) = some J ∧ (∀ (i : Fin k) (j : Fin 6), A (.inr (.inl i)) (.inr (.inr j)) = 0) ∧
      reduce vcOf ncOf A⁻¹ J G = some D ∧ (∀ r j, Jc r (ncOf j) = 0) ∧ RigidBase Jc ![0, 1, 0] ![0, -1, 0] ∧
      contactSpace Jc A⁻¹ = some S ∧ (k = 12 → ∃ C, reducedContact D Jc A⁻¹ = some C) ∧
      closedFormTorque S f' (gravityForce S G) s (![0, 1, 0] :: ![0, -1, 0] :: rest) 0 0 0 = some τc ∧
      Motion A Jc G 0 qdd pairForce ∧ pairForce 2 ≠ 0 ∧ pairForce 8 = 0 := by
  set Jc := legsJ k ![0, 1, 0] ![0, -1, 0] with hJc
  have hA := exRed_spd (k := k)
  have h0 : ∀ r j, Jc r (ncOf j) = 0 := fun _ _ => rfl
  obtain ⟨S, hS⟩ := Option.isSome_iff_exists.mp ((C02_finite_iff_independent hA).mpr
    (legsJ_ind (k := k) (by omega) ![0, 1, 0] ![0, -1, 0]))
  obtain ⟨f'⟩ := exists_codNull S.W
  set G : RSys (Fin k) (Fin 6) → ℝ := -(Jcᵀ *ᵥ pairForce) with hG
  obtain ⟨D, hD⟩ := exRed_reduce G
  have hF : contactForce S (gravityForce S G) 0 = pairForce := by
    unfold contactForce gravityForce
    rw [mulVec_zero, hG, mulVec_neg, mulVec_mulVec, cs_JcInvT_JT hS]
    simp
  have hd : (closedFormTorque S f' (gravityForce S G) s (![0, 1, 0] :: ![0, -1, 0] :: rest) 0 0 0).isSome := by
    rw [C49_defined hA hS f' (legsJ_rigid k ![0, 1, 0] ![0, -1, 0]), hF]
    exact pairForce_split s rest
  obtain ⟨τc, hτ⟩ := Option.isSome_iff_exists.mp hd
  obtain ⟨qdd, hm⟩ := (C01_contact_force_exact hA hS G 0).1
  rw [hF] at hm
  refine ⟨exRed k, 1, Jc, G, D, S, f', τc, qdd, hA, exRed_jInc, exRed_coupling, hD, h0, legsJ_rigid k _ _, hS, ?_, hτ, hm, by simp [pairForce],
    by simp [pairForce]⟩
  rintro rfl
  obtain ⟨C, hC, -⟩ := C41_contact_partial hA hD h0 le_rfl hS
  exact ⟨C, hC⟩

end Verif.Props
