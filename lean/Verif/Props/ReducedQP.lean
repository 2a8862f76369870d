import Verif.Lemmas.ReducedQP
import Verif.Props.ReducedTask
import Verif.Props.QPControl

/-!
# C58, C59: QP task control and redistribution with the reduced model
-/

set_option linter.unusedSectionVars false

namespace Verif.Props
open Matrix Verif Verif.Spec Verif.Model

section General

variable {k c : ℕ} {ν : Type*} [Fintype ν] [DecidableEq ν]
variable {A : Matrix (RSys (Fin k) ν) (RSys (Fin k) ν) ℝ} {J : Matrix (Fin 6) ν ℝ} {G : RSys (Fin k) ν → ℝ}
  {D : Reduced (Fin k) ν} {Jc : Matrix (Fin c) (RSys (Fin k) ν) ℝ} {S : ContactSpace c (Fin k ⊕ ν)}
  {C : ReducedContact c (Fin k) ν} {SI : Mat6} {R : Mat3} {Q : RQPRobot k c}

theorem baseDetermined_jCR (hB : BaseDetermined Jc) : BaseDetermined (jCR Jc) := by
  intro v hv
  apply hB
  rw [← hv]
  ext r
  simp [mulVec, dotProduct, Fintype.sum_sum_type, jCR, vcOf]

theorem jCR_transpose_nc (y : Fin c → ℝ) (s : Fin 6) : ((jCR Jc)ᵀ *ᵥ y) (ncOf s) = 0 := by
  simp [mulVec, dotProduct, jCR, ncOf]

/-- the six last values of the gravity torque of the reduced model -/
theorem reducedGravity_low (hA : IsSPD A) (h : reduce vcOf ncOf A⁻¹ J G = some D) (h0 : ∀ r j, Jc r (ncOf j) = 0)
    (hk : k ≤ c) (hB : BaseDetermined Jc) (hS : contactSpace Jc A⁻¹ = some S) (hC : reducedContact D Jc A⁻¹ = some C)
    (s : Fin 6) : reducedGravity D C (.inr s) = (D.JinvT *ᵥ D.GNC) s := by
  obtain ⟨C', hC', -, -, -, -, -, l6⟩ := C41_contact_partial hA h h0 hk hS
  rw [hC] at hC'
  obtain rfl := Option.some.inj hC'
  obtain ⟨hs, e1, e2, e3, e4, e5, e6, e7, e8, -⟩ := reduce_eq_some h
  have hAR : IsSPD D.AR := (C40_projection hA h).2.2
  have hinv : D.AR⁻¹ = D.ARinv := by rw [e4, e2, nonsing_inv_nonsing_inv _ hs.isUnit]
  set SR : ContactSpace c (Fin k ⊕ Fin 6) :=
    { lambda := C.lambda, JcInvT := C.JCRinvT, Nc := C.NCR, AinvNc := C.ARinvNCR, W := C.W, Winv := C.Winv } with hSR
  have hτR : reducedGravity D C = gravityTorque SR D.AR⁻¹ D.GR := by
    unfold reducedGravity gravityTorque
    rw [hinv]
  obtain ⟨F, hF⟩ := gravity_is_contact_force hAR l6 (baseDetermined_jCR hB) D.GR
  rw [← hτR] at hF
  have h1 := congrFun hF (ncOf s)
  rw [jCR_transpose_nc] at h1
  have h3 : D.GR (ncOf s) = (D.JinvT *ᵥ D.GNC) s := by
    rw [show D.GNC = fun j => G (ncOf j) from funext e8, e7]; rfl
  rw [← h3]
  exact sub_eq_zero.mp h1

/-- the contact force of the full robot under a torque assembled from the reduced model -/
theorem assembled_force (hA : IsSPD A) (hR : R * Rᵀ = 1)
    (hJ : jInc SI R (baseNc A) = some J) (hcpl : ∀ (i : Fin k) (j : ν), A (.inr (.inl i)) (.inr (.inr j)) = 0)
    (h : reduce vcOf ncOf A⁻¹ J G = some D) (h0 : ∀ r j, Jc r (ncOf j) = 0)
    (hk : k ≤ c) (hB : BaseDetermined Jc) (hS : contactSpace Jc A⁻¹ = some S) (hC : reducedContact D Jc A⁻¹ = some C)
    (τR : Fin k ⊕ Fin 6 → ℝ) (τN : ν → ℝ) :
    contactForce S (gravityForce S G) (reducedGravityTorque D C + assembleTorque D τR τN)
      = forceR D C (reducedGravity D C + τR) := by
  obtain ⟨hF, -⟩ := rFacts hA hR hJ hcpl h h0 hk hB hS hC
  rw [← (C41_forces_partial hA hR hJ hcpl h h0 hk hS hC).2.2, forceR]
  congr 3
  ext j
  rcases j with i | s
  · rfl
  · have hz : D.JinvT *ᵥ (D.N *ᵥ τN) = 0 := by
      rw [mulVec_mulVec, hF.n, Matrix.mul_sub, Matrix.mul_one, ← Matrix.mul_assoc, hF.inv, Matrix.one_mul, sub_self, zero_mulVec]
    have e : (fun j => (reducedGravityTorque D C + assembleTorque D τR τN) (.inr j))
        = D.GNC + (D.Jᵀ *ᵥ (fun s => τR (.inr s)) + D.N *ᵥ τN) := rfl
    rw [Sum.elim_inr, e, Pi.add_apply, mulVec_add, mulVec_add, hz, add_zero, mulVec_mulVec, hF.inv, one_mulVec, Pi.add_apply,
      reducedGravity_low hA h h0 hk hB hS hC]

/-- the redistribution torques of the reduced model move nothing -/
theorem nwjwR_still (hA : IsSPD A) (hR : R * Rᵀ = 1)
    (hJ : jInc SI R (baseNc A) = some J) (hcpl : ∀ (i : Fin k) (j : ν), A (.inr (.inl i)) (.inr (.inr j)) = 0)
    (h : reduce vcOf ncOf A⁻¹ J G = some D) (h0 : ∀ r j, Jc r (ncOf j) = 0)
    (hk : k ≤ c) (hB : BaseDetermined Jc) (hS : contactSpace Jc A⁻¹ = some S) (hC : reducedContact D Jc A⁻¹ = some C)
    {f : CodNull C.W} {N : Matrix (Fin k ⊕ Fin 6) (Fin (c - 6)) ℝ} (hN : reducedNwJw C f = some N) (x : Fin (c - 6) → ℝ) :
    accR D S.AinvNc *ᵥ (N *ᵥ x) = 0 ∧ ∀ s, (N *ᵥ x) (.inr s) = 0 := by
  obtain ⟨hF, -⟩ := rFacts hA hR hJ hcpl h h0 hk hB hS hC
  obtain ⟨C', hC', -, -, -, -, -, l6⟩ := C41_contact_partial hA h h0 hk hS
  rw [hC] at hC'
  obtain rfl := Option.some.inj hC'
  have hAR : IsSPD D.AR := (C40_projection hA h).2.2
  have hsym : C.Wᵀ = C.W := cs_W_symm hAR l6
  have hW : C.W *ᵥ (N *ᵥ x) = 0 := by
    unfold reducedNwJw at hN
    split_ifs at hN with h1 h2
    obtain ⟨X, -, rfl⟩ := Option.map_eq_some_iff.mp hN
    have ha : C.W * f.V2ᵀ = 0 := by
      have := congrArg transpose f.ann
      rwa [transpose_mul, hsym, transpose_zero] at this
    have e : C.W * f.V2ᵀ.submatrix id (Fin.cast h2) = 0 := by
      have := congrArg (fun M => M.submatrix id (Fin.cast h2)) ha
      ext i j
      exact congrFun (congrFun this i) j
    rw [← mulVec_mulVec, mulVec_mulVec, e, zero_mulVec]
  obtain ⟨y, hy⟩ := (W_mulVec_eq_zero_iff hAR l6 _).mp hW
  obtain ⟨-, e1, -⟩ := reduce_eq_some h
  have hcr : jCR Jc * D.JR = Jc := by rw [e1]; exact jCR_mul_jR h0 J
  constructor
  · rw [accR, ← mulVec_mulVec, ← actuate_eq, ← hy, ← mulVec_mulVec, mulVec_mulVec y, ← transpose_mul, hcr, mulVec_mulVec,
      cs_P_JT hS, zero_mulVec]
  · intro s
    have := congrFun hy (ncOf s)
    rw [jCR_transpose_nc] at this
    exact this.symm

/-- the outcome of `CalculateContactConstraint` on the reduced model -/
theorem nwjwR_iff (hc6 : 6 < c) {D : Reduced (Fin k) ν} {C : ReducedContact c (Fin k) ν}
    (l6 : contactSpace (jCR Jc) D.AR⁻¹ = some
        { lambda := C.lambda, JcInvT := C.JCRinvT, Nc := C.NCR, AinvNc := C.ARinvNCR, W := C.W, Winv := C.Winv })
    (cod : (W : Matrix (Fin k ⊕ Fin 6) (Fin k ⊕ Fin 6) ℝ) → CodNull W) :
    (∃ N, reducedNwJw C (cod C.W) = some N) ↔
      ∃ S out, calculateContactConstraint (jCR Jc) D.AR⁻¹ cod = .ret 1 S (some out) := by
  unfold reducedNwJw calculateContactConstraint
  rw [l6]
  simp only [gt_iff_lt, hc6, if_true]
  by_cases hk : c - 6 = (cod C.W).k
  · simp only [dif_pos hk]
    rcases eigenInverse ((topRight C.JCRinvT * (cod C.W).V2ᵀ).submatrix id (Fin.cast hk)) with _ | X
    · simp
    · simp
  · simp [dif_neg hk]

theorem nwjwR_top {f : CodNull C.W} {N : Matrix (Fin k ⊕ Fin 6) (Fin (c - 6)) ℝ} (hN : reducedNwJw C f = some N) :
    topRight C.JCRinvT * N = 1 := by
  unfold reducedNwJw at hN
  split_ifs at hN with h1 h2
  obtain ⟨X, hX, rfl⟩ := Option.map_eq_some_iff.mp hN
  obtain ⟨hu, rfl⟩ := eigenInverse_eq_some.mp hX
  rw [← Matrix.mul_assoc]
  exact mul_nonsing_inv _ hu

/-- C59 (when it is computed).  With more than six independent contact rows the redistribution matrix of the reduced model is finite
exactly when that of the full model is (C05): the contacts determine the base and the last six contact rows do so alone. -/
theorem C59_finite_iff_partial (hA : IsSPD A) (h : reduce vcOf ncOf A⁻¹ J G = some D) (h0 : ∀ r j, Jc r (ncOf j) = 0)
    (hk : k ≤ c) (hind : IndependentRows Jc) (hC : reducedContact D Jc A⁻¹ = some C) (hc6 : 6 < c)
    (cod : (W : Matrix (Fin k ⊕ Fin 6) (Fin k ⊕ Fin 6) ℝ) → CodNull W) :
    (∃ N, reducedNwJw C (cod C.W) = some N) ↔ BaseDetermined Jc ∧ IsUnit (lastSixBase hc6 Jc).det := by
  obtain ⟨S, hS⟩ := Option.isSome_iff_exists.mp ((C02_finite_iff_independent hA).mpr hind)
  obtain ⟨C', hC', -, -, -, -, -, l6⟩ := C41_contact_partial hA h h0 hk hS
  rw [hC] at hC'
  obtain rfl := Option.some.inj hC'
  have hAR : IsSPD D.AR := (C40_projection hA h).2.2
  rw [nwjwR_iff hc6 l6, (C05_outcome hAR (independent_of_some hAR l6) hc6 cod).1]
  have hb : BaseDetermined (jCR Jc) ↔ BaseDetermined Jc := by
    refine ⟨fun hb v hv => ?_, baseDetermined_jCR⟩
    apply hb
    rw [← hv]
    ext r
    simp [mulVec, dotProduct, Fintype.sum_sum_type, jCR, vcOf]
  rw [hb]
  exact Iff.rfl

/-- C59 (same torques).  The redistribution torques of the reduced model, spread over the joints of the full robot, are exactly those of
the full model. -/
theorem C59_same_torques_partial (hA : IsSPD A) (hR : R * Rᵀ = 1)
    (hJ : jInc SI R (baseNc A) = some J) (hcpl : ∀ (i : Fin k) (j : ν), A (.inr (.inl i)) (.inr (.inr j)) = 0)
    (h : reduce vcOf ncOf A⁻¹ J G = some D) (h0 : ∀ r j, Jc r (ncOf j) = 0)
    (hk : k ≤ c) (hB : BaseDetermined Jc) (hC : reducedContact D Jc A⁻¹ = some C) (hc6 : 6 < c)
    (cod : (W : Matrix (Fin k ⊕ ν) (Fin k ⊕ ν) ℝ) → CodNull W) {v m : ℕ} {V2 : Matrix (Fin m) (Fin k ⊕ ν) ℝ}
    {NwJw : Matrix (Fin k ⊕ ν) (Fin (c - 6)) ℝ}
    (hfull : calculateContactConstraint Jc A⁻¹ cod = .ret v S (some ⟨m, V2, NwJw⟩))
    {f : CodNull C.W} {N : Matrix (Fin k ⊕ Fin 6) (Fin (c - 6)) ℝ} (hN : reducedNwJw C f = some N) (x : Fin (c - 6) → ℝ) :
    assembleTorque D (N *ᵥ x) 0 = NwJw *ᵥ x := by
  have hS : contactSpace Jc A⁻¹ = some S := by
    unfold calculateContactConstraint at hfull
    split at hfull
    · cases hfull
    rename_i S' hS
    simp only [gt_iff_lt, hc6, if_true] at hfull
    split at hfull
    · split at hfull
      · cases hfull
      · simp only [ContactResult.ret.injEq] at hfull
        rw [hS, hfull.2.1]
    · cases hfull
  obtain ⟨hF, -⟩ := rFacts hA hR hJ hcpl h h0 hk hB hS hC
  obtain ⟨hacc, hlow⟩ := nwjwR_still hA hR hJ hcpl h h0 hk hB hS hC hN x
  set τ : Fin k ⊕ ν → ℝ := reducedGravityTorque D C + assembleTorque D 0 0 with hτ
  have hsum : τ + assembleTorque D (N *ᵥ x) 0 = reducedGravityTorque D C + assembleTorque D (N *ᵥ x) 0 := by
    rw [hτ, add_assoc]
    congr 1
    ext j
    rcases j with j | j
    · simp [assembleTorque]
    · have : (fun _ : Fin 6 => (0:ℝ)) = 0 := rfl
      simp [assembleTorque, this]
  have m1 : Motion A Jc G τ (S.AinvNc *ᵥ (actuate τ - G)) (S.JcInvT *ᵥ (actuate τ - G)) := (motion_iff hA hS _ _ _ _).mpr ⟨rfl, rfl⟩
  have m2 : Motion A Jc G (τ + assembleTorque D (N *ᵥ x) 0) (S.AinvNc *ᵥ (actuate τ - G))
      (S.JcInvT *ᵥ (actuate (τ + assembleTorque D (N *ᵥ x) 0) - G)) := by
    refine (motion_iff hA hS _ _ _ _).mpr ⟨?_, rfl⟩
    have e0 : ncExt (κ := Fin k) (0 : ν → ℝ) = 0 := by ext a; rcases a with a | a | a <;> rfl
    have hz : S.AinvNc *ᵥ actuate (assembleTorque D (N *ᵥ x) 0) = 0 := by
      rw [acc_assemble hF, mulVec_zero, e0, mulVec_zero, add_zero, hacc]
    have e : actuate (τ + assembleTorque D (N *ᵥ x) 0) = actuate τ + actuate (assembleTorque D (N *ᵥ x) 0) := by
      ext a; rcases a with a | a <;> simp [actuate]
    rw [e, add_sub_right_comm, mulVec_add, hz, add_zero]
  rw [C04_every_internal_force hA hc6 cod hfull G τ _ m1 m2]
  congr 1
  funext i
  rw [(C01_contact_force_exact hA hS G _).2.1 _ _ m1, (C01_contact_force_exact hA hS G _).2.1 _ _ m2, hsum, hτ,
    assembled_force hA hR hJ hcpl h h0 hk hB hS hC, assembled_force hA hR hJ hcpl h h0 hk hB hS hC]
  have ht := congrFun (congrArg (· *ᵥ x) (nwjwR_top hN)) i
  simp only [one_mulVec, ← mulVec_mulVec] at ht
  rw [← ht]
  have e : actuate (reducedGravity D C + N *ᵥ x) = actuate (reducedGravity D C) + actuate (N *ᵥ x) := by
    ext a; rcases a with a | a <;> simp [actuate]
  rw [add_zero, forceR, forceR, e, mulVec_add, Pi.sub_apply, Pi.sub_apply, Pi.add_apply]
  rw [show (C.JCRinvT *ᵥ actuate (N *ᵥ x)) (Fin.castLE (Nat.sub_le c 6) i) = (topRight C.JCRinvT *ᵥ (N *ᵥ x)) i by
    simp [topRight, mulVec, dotProduct, Fintype.sum_sum_type, actuate]]
  ring

theorem toIn_of_calc {P : Matrix (RSys (Fin k) ν) (RSys (Fin k) ν) ℝ} {T : RTaskIn (Fin k) ν} {T' : RTask (Fin k) ν}
    (h : calcJKTR D C P T = some T') : T'.toRTaskIn = T := by
  unfold calcJKTR at h
  split_ifs at h <;> (obtain ⟨x, -, rfl⟩ := Option.map_eq_some_iff.mp h; rfl)

theorem noncont_of_calc {P : Matrix (RSys (Fin k) ν) (RSys (Fin k) ν) ℝ} {T : RTaskIn (Fin k) ν} {T' : RTask (Fin k) ν}
    (h : calcJKTR D C P T = some T') : T'.noncont = T.noncont := by
  rw [toIn_of_calc h]

/-- C58 (contacts and limits).  All tasks on the contact chains: when task control with the reduced model and quadratic programmes
reports success, there is a joint torque that does not move the robot such that, under gravity compensation, the task torque and this
torque, every contact holds in every motion of the *full* robot and every joint of the contact chains is within its limit.  With a
single foot on the ground this extra torque is zero. -/
theorem C58_contacts_hold_partial (hA : IsSPD A) (hR : R * Rᵀ = 1)
    (hJ : jInc SI R (baseNc A) = some J) (hcpl : ∀ (i : Fin k) (j : ν), A (.inr (.inl i)) (.inr (.inr j)) = 0)
    (h : reduce vcOf ncOf A⁻¹ J G = some D) (h0 : ∀ r j, Jc r (ncOf j) = 0)
    (hk : k ≤ c) (hB : BaseDetermined Jc) (hS : contactSpace Jc A⁻¹ = some S) (hC : reducedContact D Jc A⁻¹ = some C)
    (h6 : ∀ l ∈ Q.cs, l.type = .c6d) (hp : ∀ l ∈ Q.cs, 0 < l.planeX ∧ 0 < l.planeY) (hc : c = 6 * (active Q.cs).length)
    {f : CodNull C.W} (hN : 6 < c → reducedNwJw C f = some Q.NwJw)
    {solve : Solver} (hs : solve.Sound) {ts : List (RTaskIn (Fin k) ν)} (hne : ts ≠ []) (hts : ∀ T ∈ ts, T.noncont = false)
    {τ : Fin k ⊕ ν → ℝ} {τR : Fin k ⊕ Fin 6 → ℝ} (hr : reducedTaskTorqueQP D C R A⁻¹ Q solve ts = .ret 1 τ τR) :
    ∃ τc : Fin k ⊕ ν → ℝ, (c = 6 → τc = 0) ∧
      (∀ τ' qdd qdd' F F', Motion A Jc G τ' qdd F → Motion A Jc G (τ' + τc) qdd' F' → qdd' = qdd) ∧
      (∀ m (L : Fin m → ℝ), Q.limit = some ⟨m, L⟩ → ∃ hm : m = k + 6, ∀ i : Fin k,
        |(reducedGravityTorque D C + τ + τc) (.inl i)| ≤ L ⟨i, by omega⟩) ∧
      ∀ qdd F, Motion A Jc G (reducedGravityTorque D C + τ + τc) qdd F → ContactsHold Q.cs (F ∘ Fin.cast hc.symm) := by
  simp only [reducedTaskTorqueQP] at hr
  rcases hm : ts.mapM (calcJKTR D C (A⁻¹ * C.Nc)) with _ | rs
  · rw [hm] at hr; simp at hr
  rw [hm] at hr
  simp only at hr
  have hrs : ∀ T ∈ rs, T.noncont = false := by
    intro T hT
    obtain ⟨T', hT', e⟩ := mem_of_mapM hm T hT
    rw [noncont_of_calc e]; exact hts T' hT'
  have hrne : rs ≠ [] := by
    rintro rfl
    exact hne (List.length_eq_zero_iff.mp (length_of_mapM hm).symm)
  obtain ⟨rfl, lim, m, Cm, x, hfit, hst, hlim, hrow⟩ := rqp_chain_success hs rs hrs hrne _ _ _ _ hr
  obtain ⟨Cm', e', h'⟩ := stackC_holds h6 hp hc
  rw [hst] at e'
  simp only [Option.some.injEq, Sigma.mk.injEq] at e'
  obtain ⟨rfl, e'⟩ := e'
  obtain rfl := eq_of_heq e'
  obtain ⟨hF, -⟩ := rFacts hA hR hJ hcpl h h0 hk hB hS hC
  have hasm : ∀ a b : Fin k ⊕ Fin 6 → ℝ, assembleTorque D a 0 + assembleTorque D b 0 = assembleTorque D (a + b) 0 := by
    intro a b
    ext j
    rcases j with j | j
    · rfl
    · simp only [assembleTorque, Pi.add_apply, Sum.elim_inr, mulVec_zero, add_zero]
      rw [← Pi.add_apply (D.Jᵀ *ᵥ _), ← mulVec_add]
      rfl
  refine ⟨assembleTorque D (Q.NwJw *ᵥ x) 0, ?_, ?_, ?_, ?_⟩
  · intro h6'
    have : Q.NwJw *ᵥ x = 0 := by
      have : IsEmpty (Fin (c - 6)) := by rw [h6']; exact Fin.isEmpty
      ext j
      simp [mulVec, dotProduct]
    rw [this]
    ext j
    rcases j with j | j
    · rfl
    · simp only [assembleTorque, Sum.elim_inr, Pi.zero_apply, mulVec_zero, add_zero]
      exact congrFun (mulVec_zero D.Jᵀ) j
  · intro τ' qdd qdd' F F' hm1 hm2
    rw [motion_iff hA hS] at hm1 hm2
    rw [hm1.1, hm2.1]
    have hz : S.AinvNc *ᵥ actuate (assembleTorque D (Q.NwJw *ᵥ x) 0) = 0 := by
      rw [acc_assemble hF, mulVec_zero]
      have e0 : ncExt (κ := Fin k) (0 : ν → ℝ) = 0 := by ext a; rcases a with a | a | a <;> rfl
      rw [e0, mulVec_zero, add_zero]
      by_cases hc6 : 6 < c
      · exact (nwjwR_still hA hR hJ hcpl h h0 hk hB hS hC (hN hc6) x).1
      · have : IsEmpty (Fin (c - 6)) := by rw [show c - 6 = 0 by omega]; exact Fin.isEmpty
        have : Q.NwJw *ᵥ x = 0 := by ext j; simp [mulVec, dotProduct]
        rw [this, mulVec_zero]
    have e : actuate (τ' + assembleTorque D (Q.NwJw *ᵥ x) 0) = actuate τ' + actuate (assembleTorque D (Q.NwJw *ᵥ x) 0) := by
      ext a; rcases a with a | a <;> simp [actuate]
    rw [e, add_sub_right_comm, mulVec_add, hz, add_zero]
  · intro m L hL
    unfold RQPRobot.fit at hfit
    rw [hL] at hfit
    simp only at hfit
    split_ifs at hfit with hm
    refine ⟨hm, fun i => ?_⟩
    have := hlim _ (Option.some.inj hfit).symm (.inl i)
    exact this
  · intro qdd F hM
    rw [(C01_contact_force_exact hA hS G _).2.1 _ _ hM, add_assoc, hasm,
      assembled_force hA hR hJ hcpl h h0 hk hB hS hC, ← add_assoc]
    exact (h' _).mp hrow

theorem mapM_take {α β : Type*} {f : α → Option β} : ∀ {l : List α} {m : List β}, l.mapM f = some m →
    ∀ j, (l.take j).mapM f = some (m.take j)
  | [], m, h, j => by simp at h; subst h; simp
  | a :: l, m, h, 0 => by simp
  | a :: l, m, h, j + 1 => by
    simp only [List.mapM_cons, Option.pure_def, Option.bind_eq_bind, Option.bind_eq_some_iff, Option.some.injEq] at h
    obtain ⟨b, hb, m', hm', rfl⟩ := h
    simp [List.mapM_cons, hb, mapM_take hm' j]

/-- C58 (commands kept).  All tasks on the contact chains, no torque limit, an exact solver: if after every task the torque of task
control without quadratic programmes already keeps the contacts, task control with them returns the same torque. -/
theorem C58_command_kept_partial (hA : IsSPD A) (hR : R * Rᵀ = 1)
    (hJ : jInc SI R (baseNc A) = some J) (hcpl : ∀ (i : Fin k) (j : ν), A (.inr (.inl i)) (.inr (.inr j)) = 0)
    (h : reduce vcOf ncOf A⁻¹ J G = some D) (h0 : ∀ r j, Jc r (ncOf j) = 0)
    (hk : k ≤ c) (hB : BaseDetermined Jc) (hS : contactSpace Jc A⁻¹ = some S) (hC : reducedContact D Jc A⁻¹ = some C)
    (h6 : ∀ l ∈ Q.cs, l.type = .c6d) (hp : ∀ l ∈ Q.cs, 0 < l.planeX ∧ 0 < l.planeY) (hc : c = 6 * (active Q.cs).length)
    (hlim : Q.limit = none) {solve : Solver} (hs : solve.Exact) {ts : List (RTaskIn (Fin k) ν)}
    (hts : ∀ T ∈ ts, T.noncont = false)
    (hok : ∀ j < ts.length, ∀ τj, reducedTaskTorque D C R A⁻¹ (ts.take (j + 1)) = some τj →
      ∀ qdd F, Motion A Jc G (reducedGravityTorque D C + τj) qdd F → ContactsHold Q.cs (F ∘ Fin.cast hc.symm))
    {τ : Fin k ⊕ ν → ℝ} {τR : Fin k ⊕ Fin 6 → ℝ} (hr : reducedTaskTorqueQP D C R A⁻¹ Q solve ts = .ret 1 τ τR) :
    reducedTaskTorque D C R A⁻¹ ts = some τ := by
  simp only [reducedTaskTorqueQP] at hr
  rcases hm : ts.mapM (calcJKTR D C (A⁻¹ * C.Nc)) with _ | rs
  · rw [hm] at hr; simp at hr
  rw [hm] at hr
  simp only at hr
  have hrs : ∀ T ∈ rs, T.noncont = false := by
    intro T hT
    obtain ⟨T', hT', e⟩ := mem_of_mapM hm T hT
    rw [noncont_of_calc e]; exact hts T' hT'
  obtain ⟨Cm, hst, h'⟩ := stackC_holds h6 hp hc
  obtain ⟨rfl, hpl⟩ := rqp_chain_kept hlim hst hs rs hrs 0 none 0 (by
    intro j hj y hy
    rw [length_of_mapM hm] at hj
    obtain ⟨y1, y2⟩ := y
    have ht : reducedTaskTorque D C R A⁻¹ (ts.take (j + 1)) = some (assembleTorque D y1 y2) := by
      simp only [reducedTaskTorque, mapM_take hm (j + 1), hy]
    obtain ⟨qdd, hM⟩ := (C01_contact_force_exact hA hS G (reducedGravityTorque D C + assembleTorque D y1 y2)).1
    have := hok j hj _ ht _ _ hM
    rw [assembled_force hA hR hJ hcpl h h0 hk hB hS hC] at this
    exact (h' _).mpr this) _ hr
  simp only [reducedTaskTorque, hm, hpl]

/-- What the tasks outside the contact chains push with, taken together: the force of the first, and of each further one less what
it would do to the one directly above it. -/
def freeForce (P : Matrix (RSys (Fin k) ν) (RSys (Fin k) ν) ℝ) : List (RTask (Fin k) ν) → RSys (Fin k) ν → ℝ
  | [] => 0
  | T :: rest => T.Jᵀ *ᵥ (T.Λ *ᵥ T.f) + freeForceFrom P T rest

/-- a wrench on the base, brought to the joints of the chains -/
theorem acc_base (h : RFacts D C S.AinvNc) (hR : Rᵀ * R = 1) {Λ Kb} (hKb : jktR C.ARinvNCR C.Winv (jBaseR R) = some (Λ, Kb))
    (y : Fin 6 → ℝ) :
    accR D S.AinvNc *ᵥ (Kb *ᵥ y) = S.AinvNc *ᵥ (Sum.elim ((baseRot R)ᵀ *ᵥ y) 0 : RSys (Fin k) ν → ℝ) ∧
      ∀ s, (Kb *ᵥ y) (.inr s) = 0 := by
  obtain ⟨h1, h2⟩ := accR_push h (jBaseR R) y
  rw [← h.jkt hKb] at h1 h2
  have hb : (jBaseR R)ᵀ *ᵥ y = (Sum.elim ((baseRot R)ᵀ *ᵥ y) 0 : RSys (Fin k) (Fin 6) → ℝ) := by
    ext a
    rcases a with a | a
    · rfl
    · simp [mulVec, dotProduct, jBaseR]
  rw [hb] at h1 h2
  refine ⟨h1.trans ?_, fun s => (h2 s).trans rfl⟩
  congr 1
  rw [h.jr, blk_transpose]
  ext a
  rcases a with a | a | a
  · simp [blk, mulVec, dotProduct, Fintype.sum_sum_type, Matrix.one_apply]
  · simp [blk, mulVec, dotProduct, Fintype.sum_sum_type, Matrix.one_apply]
  · simp [blk, mulVec, dotProduct, Fintype.sum_sum_type]

theorem baseRot_mul_transpose (hR : R * Rᵀ = 1) : baseRot R * (baseRot R)ᵀ = 1 := by
  unfold baseRot
  rw [transpose_submatrix, submatrix_mul_equiv, fromBlocks_transpose, fromBlocks_multiply]
  simp [hR]

theorem assemble_add (a b : Fin k ⊕ Fin 6 → ℝ) (x y : ν → ℝ) :
    assembleTorque D a x + assembleTorque D b y = assembleTorque D (a + b) (x + y) := by
  ext j
  rcases j with j | j
  · rfl
  · have e : D.Jᵀ *ᵥ (fun s => a (.inr s) + b (.inr s)) = D.Jᵀ *ᵥ (fun s => a (.inr s)) + D.Jᵀ *ᵥ fun s : Fin 6 => b (.inr s) := by
      rw [← mulVec_add]; rfl
    simp only [assembleTorque, Pi.add_apply, Sum.elim_inr]
    rw [e, mulVec_add]
    simp only [Pi.add_apply]
    ring

theorem map_of_mapM {α β : Type*} {f : α → Option β} {g : β → α} (hg : ∀ a b, f a = some b → g b = a) :
    ∀ {l : List α} {m : List β}, l.mapM f = some m → m.map g = l
  | [], m, h => by simp at h; subst h; rfl
  | a :: l, m, h => by
    simp only [List.mapM_cons, Option.pure_def, Option.bind_eq_bind, Option.bind_eq_some_iff, Option.some.injEq] at h
    obtain ⟨b, hb, m', hm', rfl⟩ := h
    rw [List.map_cons, hg a b hb, map_of_mapM hg hm']

theorem calcJKTR_lambda (hR : R * Rᵀ = 1) (hJ : jInc SI R (baseNc A) = some J) (hD : RFacts D C S.AinvNc)
    (hDJ : D.J = J) {T : RTaskIn (Fin k) ν} (hT : ChainTask A T ∨ FreeTask T)
    {q : RTask (Fin k) ν} (hq : calcJKTR D C S.AinvNc T = some q) : q.J * S.AinvNc * q.Jᵀ * q.Λ = 1 := by
  rcases hT with hT | hT
  · exact (chainTask_inv hR hJ hD hDJ hT hq).2.2
  · unfold calcJKTR at hq
    rw [if_neg (by simp [hT.1]), if_neg (by simp [hT.2.1]), if_pos (by simp [hT.2.1, hT.2.2.1])] at hq
    obtain ⟨X, hX, rfl⟩ := Option.map_eq_some_iff.mp hq
    obtain ⟨hu, rfl⟩ := eigenInverse_eq_some.mp hX
    exact mul_nonsing_inv _ hu

/-- C58 (tasks outside the contact chains).  Tasks on the chains first, then others.  When task control returns 1, its torque is the
one for the chain tasks alone, plus what the other tasks add without quadratic programmes, plus a torque `τq` of the chain joints that
moves the robot as a wrench `w` on the base would.  The contact conditions and torque limits were checked for another torque: there
the part of the other tasks is replaced by a torque `σ` that moves the robot as their push on the base and `w` would, without
disturbing the chain tasks.  Missing: the torque that is sent need not satisfy them (`C58_free_task_unchecked`). -/
theorem C58_free_tasks_partial (hA : IsSPD A) (hR : R * Rᵀ = 1)
    (hJ : jInc SI R (baseNc A) = some J) (hcpl : ∀ (i : Fin k) (j : ν), A (.inr (.inl i)) (.inr (.inr j)) = 0)
    (h : reduce vcOf ncOf A⁻¹ J G = some D) (h0 : ∀ r j, Jc r (ncOf j) = 0)
    (hk : k ≤ c) (hB : BaseDetermined Jc) (hS : contactSpace Jc A⁻¹ = some S) (hC : reducedContact D Jc A⁻¹ = some C)
    (h6 : ∀ l ∈ Q.cs, l.type = .c6d) (hp : ∀ l ∈ Q.cs, 0 < l.planeX ∧ 0 < l.planeY) (hc : c = 6 * (active Q.cs).length)
    {f : CodNull C.W} (hN : 6 < c → reducedNwJw C f = some Q.NwJw)
    {solve : Solver} (hs : solve.Sound) {chain : List (RTaskIn (Fin k) ν)} {T0 : RTaskIn (Fin k) ν}
    {free : List (RTaskIn (Fin k) ν)} (hchain : ∀ T ∈ chain, ChainTask A T) (hfree : ∀ T ∈ T0 :: free, FreeTask T)
    (ho0 : T0.ncOrder = 0) (ho : ∀ T ∈ free, T.ncOrder ≠ 0)
    {τ : Fin k ⊕ ν → ℝ} {τR : Fin k ⊕ Fin 6 → ℝ}
    (hr : reducedTaskTorqueQP D C R A⁻¹ Q solve (chain ++ T0 :: free) = .ret 1 τ τR) :
    ∃ (rc rf : List (RTask (Fin k) ν)) (τ0 τ1 τc τq σ τn : Fin k ⊕ ν → ℝ) (τRc : Fin k ⊕ Fin 6 → ℝ) (w : Fin 6 → ℝ),
      rc.map RTask.toRTaskIn = chain ∧ rf.map RTask.toRTaskIn = T0 :: free ∧
      (∀ q ∈ rc ++ rf, q.J * S.AinvNc * q.Jᵀ * q.Λ = 1) ∧
      reducedTaskTorque D C R A⁻¹ chain = some τ0 ∧ reducedTaskTorque D C R A⁻¹ (chain ++ T0 :: free) = some τ1 ∧
      reducedTaskTorqueQP D C R A⁻¹ Q solve chain = .ret 1 τc τRc ∧
      τ = τc + (τ1 - τ0) + τq ∧
      (∀ j, τq (.inr j) = 0) ∧ S.AinvNc *ᵥ actuate τq = S.AinvNc *ᵥ Sum.elim w 0 ∧
      S.AinvNc *ᵥ actuate σ = nullAfter S.AinvNc 1 (rc.map ofR) *ᵥ
        (S.AinvNc *ᵥ Sum.elim (fun a => freeForce S.AinvNc rf (.inl a) + w a) 0) ∧
      (∀ τ' qdd qdd' F F', Motion A Jc G τ' qdd F → Motion A Jc G (τ' + τn) qdd' F' → qdd' = qdd) ∧
      (∀ m (L : Fin m → ℝ), Q.limit = some ⟨m, L⟩ → ∃ hm : m = k + 6, ∀ i : Fin k,
        |(reducedGravityTorque D C + τc + σ + τn) (.inl i)| ≤ L ⟨i, by omega⟩) ∧
      ∀ qdd F, Motion A Jc G (reducedGravityTorque D C + τc + σ + τn) qdd F → ContactsHold Q.cs (F ∘ Fin.cast hc.symm) := by
  obtain ⟨hF, hP⟩ := rFacts hA hR hJ hcpl h h0 hk hB hS hC
  have hDJ : D.J = J := (reduce_eq_some h).2.2.2.1
  have hR' : Rᵀ * R = 1 := mul_eq_one_comm.mp hR
  simp only [reducedTaskTorqueQP, hP] at hr
  rcases hm : (chain ++ T0 :: free).mapM (calcJKTR D C S.AinvNc) with _ | rs
  · rw [hm] at hr; simp at hr
  rw [hm] at hr
  simp only at hr
  have hm' := hm
  simp only [List.mapM_append, List.mapM_cons, Option.bind_eq_bind, Option.pure_def, Option.bind_eq_some_iff,
    Option.some.injEq] at hm'
  obtain ⟨rc, hrc, rf, ⟨q0, hq0, r', hr', rfl⟩, rfl⟩ := hm'
  have hnc : ∀ T ∈ rc, T.noncont = false := by
    intro T hT
    obtain ⟨T', hT', e⟩ := mem_of_mapM hrc T hT
    rw [noncont_of_calc e]; exact (hchain T' hT').1
  have hready : ∀ T ∈ rc, ChainReady D C T := by
    intro T hT
    obtain ⟨T', hT', e⟩ := mem_of_mapM hrc T hT
    exact (chainTask_inv hR hJ hF hDJ (hchain T' hT') e).1
  have hq0n : q0.noncont = true := by rw [noncont_of_calc hq0]; exact (hfree T0 (by simp)).2.2.1
  have hq0o : q0.ncOrder = 0 := by
    have := calcJKTR_toIn hq0
    rw [show q0.ncOrder = q0.toRTaskIn.ncOrder from rfl, this, ho0]
  have hrest : ∀ T ∈ r', T.noncont = true ∧ T.ncOrder ≠ 0 := by
    intro T hT
    obtain ⟨T', hT', e⟩ := mem_of_mapM hr' T hT
    have e' := calcJKTR_toIn e
    refine ⟨?_, ?_⟩
    · rw [noncont_of_calc e]; exact (hfree T' (by simp [hT'])).2.2.1
    · rw [show T.ncOrder = T.toRTaskIn.ncOrder from rfl, e']; exact ho T' hT'
  obtain ⟨τRc, hqc, hqf⟩ := rqp_chain_split rc (q0 :: r') hnc _ _ _ _ hr
  rcases hKb : jktR C.ARinvNCR C.Winv (jBaseR R) with _ | ⟨Λb, Kb⟩
  · rw [hKb] at hqf
    simp only [rqpFrom, hq0n, if_true, Option.map_none] at hqf
    rcases chainEnd C none rc with _ | ⟨U, N⟩ <;> simp at hqf
  rcases hE : chainEnd C none rc with _ | ⟨U, N⟩
  · rw [hKb, hE] at hqf
    simp [rqpFrom, hq0n] at hqf
  rw [hKb, hE] at hqf
  simp only [rqpFrom, hq0n, if_true, Option.map_some] at hqf
  rcases hx : ncTorque D R S.AinvNc Kb U N q0 with _ | x
  · rw [hx] at hqf; simp at hqf
  rw [hx] at hqf
  simp only [if_pos hq0o] at hqf
  obtain ⟨y, hy, hfin⟩ := rqp_free r' hrest _ _ _ _ _ _ hqf
  simp only [rqpFinish] at hfin
  rcases hl : Q.fit with _ | lim
  · rw [hl] at hfin; simp at hfin
  rcases hst : stackC Q.cs c with _ | ⟨m, Cm⟩
  · rw [hl, hst] at hfin; simp at hfin
  rw [hl, hst] at hfin
  simp only at hfin
  have eF : (0 : Fin 6 → ℝ) + ncForce R S.AinvNc U q0 + forceOnNc R (freeForceFrom S.AinvNc q0 r')
      = forceOnNc R (freeForce S.AinvNc (q0 :: r')) := by
    simp only [ncForce, if_pos hq0o, freeForce, forceOnNc, zero_add]
    rw [← mulVec_add]
    rfl
  rw [eF] at hfin
  rcases hz : solve (0 + rc.length) 6 (c - 6) (rQP D C Q lim Cm (N * Kb) (forceOnNc R (freeForce S.AinvNc (q0 :: r')))
      (reducedGravity D C + τRc)) with _ | z
  · rw [hz] at hfin; simp at hfin
  rw [hz] at hfin
  simp only [RCtrlResult.ret.injEq, true_and] at hfin
  obtain ⟨rfl, -⟩ := hfin
  have hfeas := (rQP_feasible D C Q lim Cm _ _ _ z).mp (hs _ _ _ _ _ hz)
  obtain ⟨Cm', e', h'⟩ := stackC_holds h6 hp hc
  rw [hst] at e'
  simp only [Option.some.injEq, Sigma.mk.injEq] at e'
  obtain ⟨rfl, e'⟩ := e'
  obtain rfl := eq_of_heq e'
  set q : Fin 6 → ℝ := fun s => z (.inl s) with hq
  set xn : Fin (c - 6) → ℝ := fun b => z (.inr b) with hxn
  set F0 : Fin 6 → ℝ := forceOnNc R (freeForce S.AinvNc (q0 :: r')) with hF0
  obtain ⟨t0, ht0⟩ := rTaskFrom_split D C R S.AinvNc (some Kb) rc hnc none 0
  have hp0 : reducedTaskTorque D C R A⁻¹ chain = some (assembleTorque D t0 0) := by
    have := ht0 []
    rw [List.append_nil] at this
    simp only [reducedTaskTorque, hP, hrc, hKb, Option.map_some, this]
    rfl
  have hp1 : reducedTaskTorque D C R A⁻¹ (chain ++ T0 :: free)
      = some (assembleTorque D (t0 + (x.1 + y.1)) (x.2 + y.2)) := by
    have e : rTaskFrom D C R S.AinvNc (some Kb) (some (U, N)) t0 0 (q0 :: r') = some (t0 + (x.1 + y.1), x.2 + y.2) := by
      simp only [rTaskFrom, hq0n, if_true, hx]
      rw [rTaskFrom_shift, hy]
      simp [add_assoc]
    simp only [reducedTaskTorque, hP, hm, hKb, Option.map_some, ht0, hE, e]
  have hNacc : accR D S.AinvNc * N = nullAfter S.AinvNc 1 (rc.map ofR) * accR D S.AinvNc := by
    have := chainEnd_null hF rc hready none 1 (by rw [prevNull, Matrix.mul_one, Matrix.one_mul])
    rwa [hE] at this
  have hzero : ∀ v, S.AinvNc *ᵥ actuate (assembleTorque D v 0) = accR D S.AinvNc *ᵥ v := by
    intro v
    rw [acc_assemble hF, mulVec_zero]
    have e0 : ncExt (κ := Fin k) (0 : ν → ℝ) = 0 := by ext a; rcases a with a | a | a <;> rfl
    rw [e0, mulVec_zero, add_zero]
  refine ⟨rc, q0 :: r', assembleTorque D t0 0, assembleTorque D (t0 + (x.1 + y.1)) (x.2 + y.2), assembleTorque D τRc 0,
    Sum.elim (fun i => (Kb *ᵥ q) (.inl i)) 0, assembleTorque D (N *ᵥ (Kb *ᵥ (F0 + q))) 0, assembleTorque D (Q.NwJw *ᵥ xn) 0,
    τRc, (baseRot R)ᵀ *ᵥ q, map_of_mapM (fun _ _ e => calcJKTR_toIn e) hrc, ?_, ?_, hp0, hp1, ?_, ?_, fun _ => rfl, ?_, ?_, ?_, ?_, ?_⟩
  · rw [List.map_cons, calcJKTR_toIn hq0, map_of_mapM (fun _ _ e => calcJKTR_toIn e) hr']
  · intro T hT
    obtain ⟨T', hT', e⟩ := mem_of_mapM hm T hT
    refine calcJKTR_lambda hR hJ hF hDJ ?_ e
    rcases List.mem_append.mp hT' with hT' | hT'
    · exact Or.inl (hchain T' hT')
    · exact Or.inr (hfree T' hT')
  · simp only [reducedTaskTorqueQP, hP, hrc]
    exact hqc
  · have e := assemble_add (D := D) t0 (x.1 + y.1) 0 (x.2 + y.2)
    rw [zero_add] at e
    rw [← e, add_sub_cancel_left, assemble_add, zero_add]
  · obtain ⟨g1, g2⟩ := acc_base hF hR' hKb q
    rw [← g1, ← hzero]
    congr 2
    ext j
    rcases j with j | j
    · rfl
    · simp only [assembleTorque, Sum.elim_inr, mulVec_zero, add_zero]
      rw [show (fun s => (Kb *ᵥ q) (.inr s)) = 0 from funext g2, mulVec_zero]
  · rw [hzero, mulVec_mulVec, hNacc, ← mulVec_mulVec, (acc_base hF hR' hKb _).1]
    congr 3
    rw [mulVec_add, hF0, forceOnNc, mulVec_mulVec, baseRot_transpose_mul hR', one_mulVec]
    rfl
  · intro τ' qdd qdd' F F' hm1 hm2
    rw [motion_iff hA hS] at hm1 hm2
    rw [hm1.1, hm2.1]
    have hz : S.AinvNc *ᵥ actuate (assembleTorque D (Q.NwJw *ᵥ xn) 0) = 0 := by
      rw [hzero]
      by_cases hc6 : 6 < c
      · exact (nwjwR_still hA hR hJ hcpl h h0 hk hB hS hC (hN hc6) xn).1
      · have : IsEmpty (Fin (c - 6)) := by rw [show c - 6 = 0 by omega]; exact Fin.isEmpty
        have : Q.NwJw *ᵥ xn = 0 := by ext j; simp [mulVec, dotProduct]
        rw [this, mulVec_zero]
    have e : actuate (τ' + assembleTorque D (Q.NwJw *ᵥ xn) 0) = actuate τ' + actuate (assembleTorque D (Q.NwJw *ᵥ xn) 0) := by
      ext a; rcases a with a | a <;> simp [actuate]
    rw [e, add_sub_right_comm, mulVec_add, hz, add_zero]
  · intro m L hL
    unfold RQPRobot.fit at hl
    rw [hL] at hl
    simp only at hl
    split_ifs at hl with hm
    refine ⟨hm, fun i => ?_⟩
    have := hfeas.1 _ (Option.some.inj hl).symm (.inl i)
    rw [← mulVec_mulVec] at this
    exact this
  · intro qdd F hM
    rw [(C01_contact_force_exact hA hS G _).2.1 _ _ hM, add_assoc, add_assoc, assemble_add, assemble_add,
      assembled_force hA hR hJ hcpl h h0 hk hB hS hC]
    refine (h' _).mp ?_
    have := hfeas.2
    rw [← mulVec_mulVec] at this
    simpa only [add_assoc] using this

/-- C58 (size of the limits).  Limits whose number is not that of the reduced joints plus six, for instance one per joint of a robot
with other than six joints outside the contact chains: task control is undefined. -/
theorem C58_limit_size_undefined {m : ℕ} {L : Fin m → ℝ} (hL : Q.limit = some ⟨m, L⟩) (hm : m ≠ k + 6)
    {Ainv : Matrix (RSys (Fin k) ν) (RSys (Fin k) ν) ℝ} (solve : Solver) (T : RTaskIn (Fin k) ν) (hT : T.noncont = false)
    (ts : List (RTaskIn (Fin k) ν)) : reducedTaskTorqueQP D C R Ainv Q solve (T :: ts) = .undefined := by
  simp only [reducedTaskTorqueQP]
  rcases hm' : (T :: ts).mapM (calcJKTR D C (Ainv * C.Nc)) with _ | rs
  · rfl
  · simp only [List.mapM_cons, Option.pure_def, Option.bind_eq_bind, Option.bind_eq_some_iff, Option.some.injEq] at hm'
    obtain ⟨T', e, rs', -, rfl⟩ := hm'
    have hfit : Q.fit = none := by rw [RQPRobot.fit, hL]; simp [hm]
    simp only
    rw [rqpFrom_chain D C R _ _ Q solve 0 none 0 0 none (by rw [noncont_of_calc e]; exact hT), hfit]

end General

/-- with zero feasible there is an answer, and it leaves the command alone -/
theorem answer_of_zero {k c : ℕ} {ν : Type*} [Fintype ν] [DecidableEq ν] {D : Reduced (Fin k) ν} {C : ReducedContact c (Fin k) ν}
    {Q : RQPRobot k c} {lim : Option (Fin (k + 6) → ℝ)} {m t : ℕ} {Cm : Matrix (Fin m) (Fin c) ℝ}
    {B : Matrix (Fin k ⊕ Fin 6) (Fin t) ℝ} {f : Fin t → ℝ} {τ : Fin k ⊕ Fin 6 → ℝ} (h0 : (rQP D C Q lim Cm B f τ).Feasible 0)
    {solve : Solver} (hs : solve.Exact) (ha : solve.Complete) (i : ℕ) :
    ∃ x, solve i t (c - 6) (rQP D C Q lim Cm B f τ) = some x ∧ (fun a => x (.inl a)) = (0 : Fin t → ℝ) := by
  have hsol : (rQP D C Q lim Cm B f τ).IsSolution 0 := by
    refine ⟨h0, fun y _ => ?_⟩
    rw [rQP_cost, rQP_cost]
    have : (0 : ℝ) ≤ ∑ a, y (.inl a) * y (.inl a) := Finset.sum_nonneg fun a _ => mul_self_nonneg _
    simp only [Pi.zero_apply, mul_zero, Finset.sum_const_zero]
    linarith
  obtain ⟨x, hx⟩ := Option.isSome_iff_exists.mp (ha i t (c - 6) _ ⟨0, hsol⟩)
  exact ⟨x, hx, funext fun a => rQP_solution_left (fun _ => rfl) h0 (hs _ _ _ _ _ hx) a⟩

/-- one task on the contact chains -/
theorem run_one {k c : ℕ} {ν : Type*} [Fintype ν] [DecidableEq ν] {D : Reduced (Fin k) ν} {C : ReducedContact c (Fin k) ν}
    {Q : RQPRobot k c} {lim : Option (Fin (k + 6) → ℝ)} (hfit : Q.fit = some lim) {m : ℕ} {Cm : Matrix (Fin m) (Fin c) ℝ}
    (hst : stackC Q.cs c = some ⟨m, Cm⟩) {R : Mat3} {Ainv : Matrix (RSys (Fin k) ν) (RSys (Fin k) ν) ℝ} {solve : Solver}
    {T : RTaskIn (Fin k) ν} {q : RTask (Fin k) ν} (hq : calcJKTR D C (Ainv * C.Nc) T = some q) (hn : q.noncont = false)
    {x : Fin q.t ⊕ Fin (c - 6) → ℝ}
    (hx : solve 0 q.t (c - 6) (rQP D C Q lim Cm (q.Jkt * q.Λ) q.f (reducedGravity D C + 0)) = some x) :
    ∃ τ τR, reducedTaskTorqueQP D C R Ainv Q solve [T] = .ret 1 τ τR := by
  have hmm : [T].mapM (calcJKTR D C (Ainv * C.Nc)) = some [q] := by simp [hq]
  have hx' : solve 0 q.t (c - 6) (rQP D C Q lim Cm (prevNull (ν := ν) none * (q.Jkt * q.Λ)) q.f (reducedGravity D C + 0))
    = some x := by
    rw [show prevNull (κ := Fin k) (ν := ν) none = 1 from rfl, Matrix.one_mul, hx]
  simp only [reducedTaskTorqueQP, hmm]
  rw [rqpFrom_chain D C R _ _ Q solve 0 none 0 0 none hn, hfit, hst]
  simp only
  rw [hx']
  exact ⟨_, _, rfl⟩

namespace FreeQP

/-- weight one -/
def G : RSys (Fin 6) (Fin 6) → ℝ := Sum.elim (fun i => if i = 2 then 1 else 0) 0

/-- one foot on the ground, limit ten on each of the twelve joints -/
noncomputable def robot : RQPRobot 6 6 where
  NwJw := 0
  limit := some ⟨12, fun _ => 10⟩
  cs := ArmQP.cs

theorem hold : ContactsHold ArmQP.cs ((fun i => if i = 2 then (-1 : ℝ) else 0) ∘ Fin.cast ArmQP.dof.symm) := by
  have := ArmQP.hold 0
  rwa [ArmQP.force] at this

section

variable {D : Reduced (Fin 6) (Fin 6)} {S : ContactSpace 6 (Fin 6 ⊕ Fin 6)} {C : ReducedContact 6 (Fin 6) (Fin 6)}
  (hD : reduce vcOf ncOf (exRed 6)⁻¹ 1 G = some D) (hS : contactSpace (exFoot 6) (exRed 6)⁻¹ = some S)
  (hC : reducedContact D (exFoot 6) (exRed 6)⁻¹ = some C)

include hD hS hC

theorem gravity (i : Fin 6) : reducedGravity D C (.inl i) = if i = 2 then -1 else 0 := by
  have e : reducedGravity D C (.inl i) = reducedGravityTorque D C (.inl i) := rfl
  rw [e, C41_gravity_torque_partial exRed_spd hD (fun _ _ => rfl) le_rfl exFoot_base hS hC]
  obtain ⟨F, hF⟩ := gravity_is_contact_force exRed_spd hS exFoot_base G
  rw [exFoot_transpose_mulVec] at hF
  have h1 := congrFun hF (.inl i)
  have h2 := congrFun hF (.inr (.inl i))
  simp only [Pi.sub_apply, actuate, Sum.elim_inl, Sum.elim_inr] at h1 h2
  rw [show G (.inr (.inl i)) = 0 from rfl, sub_zero] at h2
  rw [h2, ← h1, show G (.inl i) = if i = 2 then 1 else 0 from rfl]
  split_ifs <;> simp

theorem gravity_low (s : Fin 6) : reducedGravity D C (.inr s) = 0 := by
  rw [reducedGravity_low exRed_spd hD (fun _ _ => rfl) le_rfl exFoot_base hS hC]
  have : D.GNC = 0 := funext fun j => ((reduce_eq_some hD).2.2.2.2.2.2.2.2.1 j).trans rfl
  rw [this, mulVec_zero]; rfl

theorem force : forceR D C (reducedGravity D C + 0) = fun i => if i = 2 then -1 else 0 := by
  rw [← assembled_force exRed_spd (R := 1) (by simp) exRed_jInc exRed_coupling hD (fun _ _ => rfl) le_rfl exFoot_base hS hC 0 0]
  symm
  refine (C01_contact_force_exact exRed_spd hS G _).2.1 0 _ ⟨?_, ?_⟩
  · unfold Dynamics
    rw [mulVec_zero, zero_add, exFoot_transpose_mulVec]
    ext a
    have e0 : (fun _ : Fin 6 => (0 : ℝ)) = 0 := rfl
    rcases a with s | s | s
    · simp only [G, actuate, Pi.add_apply, Sum.elim_inl, Pi.zero_apply]; split_ifs <;> simp
    · have := gravity hD hS hC s
      simp only [G, actuate, Pi.add_apply, Sum.elim_inl, Sum.elim_inr, Pi.zero_apply, reducedGravityTorque, assembleTorque, this]
    · have : D.GNC s = 0 := ((reduce_eq_some hD).2.2.2.2.2.2.2.2.1 s).trans rfl
      simp [G, actuate, reducedGravityTorque, assembleTorque, this, e0]
  · unfold ContactsFixed
    rw [mulVec_zero]

/-- a QP whose command adds nothing to gravity compensation is solved by zero, and every exact answer leaves the command alone -/
theorem answer {m : ℕ} {Cm : Matrix (Fin m) (Fin 6) ℝ} (hst : stackC robot.cs 6 = some ⟨m, Cm⟩) {solve : Solver} (hs : solve.Exact)
    (ha : solve.Complete) (i : ℕ) {t : ℕ} {B : Matrix (Fin 6 ⊕ Fin 6) (Fin t) ℝ} {f : Fin t → ℝ} (hf : B *ᵥ f = 0) :
    ∃ x, solve i t (6 - 6) (rQP D C robot (some fun _ => 10) Cm B f (reducedGravity D C + 0)) = some x ∧
      (fun a => x (.inl a)) = (0 : Fin t → ℝ) := by
  obtain ⟨C', e, h'⟩ := stackC_holds ArmQP.six ArmQP.plane ArmQP.dof
  rw [show robot.cs = ArmQP.cs from rfl, e] at hst
  simp only [Option.some.injEq, Sigma.mk.injEq] at hst
  obtain ⟨rfl, hst⟩ := hst
  obtain rfl := eq_of_heq hst
  have h0 : (rQP D C robot (some fun _ => 10) C' B f (reducedGravity D C + 0)).Feasible 0 := by
    rw [rQP_feasible]
    have z1 : (fun _ : Fin t => (0 : ℝ)) = 0 := rfl
    have z2 : (fun _ : Fin (6 - 6) => (0 : ℝ)) = 0 := rfl
    simp only [Pi.zero_apply, z1, z2, add_zero (f : Fin t → ℝ), hf]
    rw [mulVec_zero, add_zero, add_zero]
    constructor
    · rintro L hL j
      obtain rfl := Option.some.inj hL
      rcases j with j | j
      · rw [add_zero, gravity hD hS hC]
        split_ifs <;> norm_num
      · rw [add_zero, gravity_low hD hS hC]
        norm_num
    · rw [(h' _), force hD hS hC]
      exact hold
  exact answer_of_zero h0 hs ha i

end

theorem hold_of {F : Fin 6 → ℝ} (hF : ∀ i, F i = if i = 2 then -1 else if i = 5 then 15 / 100 else 0) :
    ContactsHold ArmQP.cs (F ∘ Fin.cast ArmQP.dof.symm) := by
  intro i
  have hi : i.val = 0 := by have := i.isLt; have := ArmQP.dof; omega
  have hl : ∀ l ∈ active ArmQP.cs, l = exContact true := by simp [active, ArmQP.cs, exContact]
  have hi' := hl _ (List.getElem_mem i.isLt)
  simp only [Fin.getElem_fin, hi']
  rw [show (exContact true).rotm = 1 from rfl, Stand.inFrame_one]
  generalize hw : wrenchOf (F ∘ Fin.cast ArmQP.dof.symm) i = w
  have hv : ∀ j : Fin 6, w j = if j = 2 then -1 else if j = 5 then 15 / 100 else 0 := by
    intro j
    rw [← hw, ← hF]
    simp only [wrenchOf, Function.comp]
    congr 1
    ext; simp [hi]
  have hx : (exContact true).planeX = 15 / 100 := rfl
  have hy : (exContact true).planeY = 75 / 1000 := rfl
  have hf : (exContact true).friction = 2 / 10 := rfl
  have hz : (exContact true).frictionZ = 2 / 10 := rfl
  rw [hx, hy, hf, hz]
  constructor
  · rw [noTip_iff (by norm_num) (by norm_num)]
    simp [press, hv]
    norm_num
  · simp [NoSlip, press, hv, abs_le]
    norm_num

theorem not_hold {F : Fin 6 → ℝ} (h1 : F 1 = -20) (h2 : F 2 = -1) :
    ¬ ContactsHold ArmQP.cs (F ∘ Fin.cast ArmQP.dof.symm) := by
  intro h
  have hn : 0 < (active ArmQP.cs).length := by have := ArmQP.dof; omega
  have hl : ∀ l ∈ active ArmQP.cs, l = exContact true := by simp [active, ArmQP.cs, exContact]
  have hi := (h ⟨0, hn⟩).2
  have hi' := hl _ (List.getElem_mem hn)
  simp only [Fin.getElem_fin, hi'] at hi
  rw [show (exContact true).rotm = 1 from rfl, Stand.inFrame_one] at hi
  generalize hw : wrenchOf (F ∘ Fin.cast ArmQP.dof.symm) ⟨0, hn⟩ = w at hi
  have w1 : w 1 = -20 := by rw [← hw, ← h1]; rfl
  have w2 : w 2 = -1 := by rw [← hw, ← h2]; rfl
  have := hi.2.1
  rw [press, w1, w2, show (exContact true).friction = 2 / 10 from rfl] at this
  norm_num at this

end FreeQP

/-- C58 is false with a task outside the contact chains: the robot of C40 stands on one foot with limit ten on every joint and is asked
to accelerate one arm joint.  Every exact solver makes task control report success, with a torque under which the foot slips and the
arm joint gets ten times its limit. -/
theorem C58_free_task_unchecked {solve : Solver} (hs : solve.Exact) (ha : solve.Complete) :
    ∃ D C τ τR, reduce vcOf ncOf (exRed 6)⁻¹ 1 FreeQP.G = some D ∧ reducedContact D (exFoot 6) (exRed 6)⁻¹ = some C ∧
      reducedTaskTorqueQP D C 1 (exRed 6)⁻¹ FreeQP.robot solve
        [exRow (legRow 5) 0 true 0, exRow (armRow 1) 60 false 0] = .ret 1 τ τR ∧
      (reducedGravityTorque D C + τ) (.inr 1) = 100 ∧
      (∃ qdd F, Motion (exRed 6) (exFoot 6) FreeQP.G (reducedGravityTorque D C + τ) qdd F) ∧
      ∀ qdd F, Motion (exRed 6) (exFoot 6) FreeQP.G (reducedGravityTorque D C + τ) qdd F →
        ¬ ContactsHold FreeQP.robot.cs (F ∘ Fin.cast ArmQP.dof.symm) := by
  obtain ⟨D, S, C, hD, hS, hC, hb⟩ := exC55 FreeQP.G
  obtain ⟨Q0, hQ0, o0⟩ := exRow_ready hS (legRow_exP 5) 0 true 0
  obtain ⟨Q1, hQ1, o1⟩ := exRow_ready hS (armRow_exP 1) 60 false 0
  obtain ⟨hF, hP⟩ := rFacts exRed_spd (by simp) exRed_jInc exRed_coupling hD (fun _ _ => rfl) le_rfl exFoot_base hS hC
  obtain ⟨Λb, Kb, hKb⟩ := base_ready (R := 1) exRed_spd (by simp) hD (fun _ _ => rfl) le_rfl hS hC hb
  have hDJ := (reduce_eq_some hD).2.2.2.1
  obtain ⟨q0, c0, r0, p0⟩ := chainTask_ready (R := 1) (by simp) exRed_jInc hF hDJ hS (exRow_chain (by simp [ncOf]) 0 0) hQ0
  have hT1 := exRow_free (w := armRow 1) (by simp) 60 0
  obtain ⟨q1, c1, e1, -, p1⟩ := freeTask_ready (D := D) (C := C) hS hT1 hQ1
  obtain ⟨Cm, hst, -⟩ := stackC_holds ArmQP.six ArmQP.plane ArmQP.dof
  have hfit : FreeQP.robot.fit = some (some fun _ => 10) := rfl
  have hf0 : q0.f = 0 := by
    have : ∀ T : RTaskIn (Fin 6) (Fin 6), T = exRow (legRow 5) 0 true 0 → T.f = 0 := by rintro _ rfl; rfl
    exact this _ (toIn_of_calc c0)
  have hg : q1.Jᵀ *ᵥ (q1.Λ *ᵥ q1.f) = (5 / 3 * 60 : ℝ) • armRow 1 := by
    change (ofR q1).Jᵀ *ᵥ ((ofR q1).Λ *ᵥ (ofR q1).f) = _
    rw [p1, o1, exRow_force]
  have hN0 := accR_null hF r0 (N := 1) (M := 1) (by rw [Matrix.mul_one, Matrix.one_mul])
  obtain ⟨x, hx, hacc⟩ := nc_first_torque (R := 1) hF (by simp) hKb hN0 (fun y => by
    rw [Matrix.one_mul, gNull_decouple hF r0]) q0 (T := q1) (by rw [e1]; rfl) (by rw [e1]; exact hT1.2.2.2)
  have hacc' : S.AinvNc *ᵥ actuate (assembleTorque D x.1 x.2) = exP ((5 / 3 * 60 : ℝ) • armRow 1) := by
    rw [acc_assemble hF, hacc, hg, exP_eq hS, Matrix.one_mul, p0, o0, exRow_gNull hS]
    have : legRow 5 ⬝ᵥ exP ((5 / 3 * 60 : ℝ) • armRow 1) = 0 := by simp [exP]
    rw [this, mul_zero, zero_smul, sub_zero]
  have hmot : ∀ qdd F, Motion (exRed 6) (exFoot 6) FreeQP.G (reducedGravityTorque D C + assembleTorque D x.1 x.2) qdd F →
      F 1 = -20 ∧ F 2 = -1 ∧ (reducedGravityTorque D C + assembleTorque D x.1 x.2) (.inr 1) = 100 := by
    intro qdd F hm
    have hd := hm.1
    rw [C41_gravity_torque_partial exRed_spd hD (fun _ _ => rfl) le_rfl exFoot_base hS hC] at hm
    have hq := acc_of_motion exRed_spd hS exFoot_base hm
    rw [hacc'] at hq
    subst hq
    unfold Dynamics at hd
    rw [exRed, add_mulVec, one_mulVec, ← mulVec_mulVec, exE_mulVec, exE_transpose_mulVec, exFoot_transpose_mulVec] at hd
    have h1 := congrFun hd (.inl 1)
    have h2 := congrFun hd (.inl 2)
    have h3 := congrFun hd (.inr (.inr 1))
    simp [actuate, exP, FreeQP.G] at h1 h2 h3
    refine ⟨by linarith, by linarith, ?_⟩
    rw [Pi.add_apply, ← h3]
    norm_num
  obtain ⟨qdd, hqdd⟩ := (C01_contact_force_exact exRed_spd hS FreeQP.G
    (reducedGravityTorque D C + assembleTorque D x.1 x.2)).1
  refine ⟨D, C, assembleTorque D x.1 x.2, x.1, hD, hC, ?_, (hmot _ _ hqdd).2.2, ⟨_, _, hqdd⟩, fun qdd F hm =>
    FreeQP.not_hold (hmot _ _ hm).1 (hmot _ _ hm).2.1⟩
  have hmm : [exRow (legRow 5) 0 true 0, exRow (armRow 1) 60 false 0].mapM (calcJKTR D C S.AinvNc) = some [q0, q1] := by
    simp [c0, c1]
  have hst' : stackC FreeQP.robot.cs 6 = some ⟨_, Cm⟩ := hst
  obtain ⟨y0, hy0, hz0⟩ := FreeQP.answer hD hS hC hst' hs ha 0 (B := prevNull (ν := Fin 6) none * (q0.Jkt * q0.Λ)) (f := q0.f) (by
    rw [hf0, mulVec_zero])
  have hnc : (0 : Fin 6 → ℝ) + ncForce 1 S.AinvNc q0 q1 = 0 := by
    unfold ncForce
    simp only
    rw [if_pos (by rw [e1]; rfl), hg, forceOnNc]
    have : (fun a => ((5 / 3 * 60 : ℝ) • armRow 1) (.inl a)) = (0 : Fin 6 → ℝ) := by ext a; simp
    rw [this, mulVec_zero, add_zero]
  obtain ⟨y1, hy1, hz1⟩ := FreeQP.answer hD hS hC hst' hs ha 1 (B := nullR C q0 1 * Kb) (f := 0) (by rw [mulVec_zero])
  simp only [reducedTaskTorqueQP, hP, hmm, hKb, Option.map_some]
  rw [rqpFrom_chain D C 1 _ _ FreeQP.robot solve 0 none 0 0 none r0.kind, hfit, hst']
  simp only
  rw [hy0]
  simp only
  rw [hz0, hf0, add_zero, mulVec_zero, mulVec_zero, mulVec_zero, add_zero]
  have hn1 : q1.noncont = true := by rw [e1]; exact hT1.2.2.1
  have ho1 : q1.ncOrder = 0 := by rw [e1]; rfl
  have hx' : ncTorque D 1 S.AinvNc Kb q0 (nullR C q0 (prevNull (ν := Fin 6) none)) q1 = some x := hx
  rw [rqpFrom, if_pos hn1]
  simp only [hx', hnc, ho1, if_true]
  simp only [rqpFrom, rqpFinish, hfit, hst']
  have hy1' : solve (0 + 1) 6 (6 - 6) (rQP D C FreeQP.robot (some fun _ => 10) Cm (nullR C q0 (prevNull (ν := Fin 6) none) * Kb) 0
      (reducedGravity D C + 0)) = some y1 := hy1
  rw [hy1']
  simp only
  rw [hz1, mulVec_zero, zero_add]
  congr 1
  ext j
  rcases j with j | j <;> simp

/-- The robot of `C58_free_task_unchecked` meets the hypotheses of `C58_free_tasks_partial`. -/
example : ∃ (D : Reduced (Fin 6) (Fin 6)) (C : ReducedContact 6 (Fin 6) (Fin 6)) (τ τ0 τ1 τc τq : Fin 6 ⊕ Fin 6 → ℝ)
    (τR τRc : Fin 6 ⊕ Fin 6 → ℝ),
    reducedTaskTorqueQP D C 1 (exRed 6)⁻¹ FreeQP.robot Stand.solver
      [exRow (legRow 5) 0 true 0, exRow (armRow 1) 60 false 0] = .ret 1 τ τR ∧
    reducedTaskTorqueQP D C 1 (exRed 6)⁻¹ FreeQP.robot Stand.solver [exRow (legRow 5) 0 true 0] = .ret 1 τc τRc ∧
    τ = τc + (τ1 - τ0) + τq := by
  obtain ⟨D, C, τ, τR, hD, hC, hr, -⟩ := C58_free_task_unchecked Stand.solver_exact Stand.solver_complete
  obtain ⟨D', S, C', hD', hS, hC', hb⟩ := exC55 FreeQP.G
  rw [hD] at hD'
  obtain rfl := Option.some.inj hD'
  obtain ⟨f⟩ := exists_codNull C.W
  obtain ⟨rc, rf, τ0, τ1, τc, τq, σ, τn, τRc, w, -, -, -, -, -, g, e, -⟩ :=
    C58_free_tasks_partial (chain := [exRow (legRow 5) 0 true 0]) (T0 := exRow (armRow 1) 60 false 0) (free := [])
      (R := 1) (f := f) exRed_spd (by simp) exRed_jInc exRed_coupling hD (fun _ _ => rfl) le_rfl exFoot_base hS hC
      ArmQP.six ArmQP.plane ArmQP.dof (fun h => absurd h (lt_irrefl 6)) (fun i t k d x h => (Stand.solver_exact i t k d x h).1)
      (by simpa using exRow_chain (by simp [ncOf]) 0 0) (by simpa using exRow_free (by simp) 60 0) rfl (by simp) hr
  exact ⟨D, C, τ, τ0, τ1, τc, τq, τR, τRc, hr, g, e⟩

/-- Success with limits and a task on the contact chain: the hypotheses of C58 are met. -/
example : ∃ D C τ τR, reduce vcOf ncOf (exRed 6)⁻¹ 1 FreeQP.G = some D ∧ reducedContact D (exFoot 6) (exRed 6)⁻¹ = some C ∧
    reducedTaskTorqueQP D C 1 (exRed 6)⁻¹ FreeQP.robot Stand.solver [exRow (legRow 5) 0 true 0] = .ret 1 τ τR := by
  obtain ⟨D, S, C, hD, hS, hC, hb⟩ := exC55 FreeQP.G
  obtain ⟨Q0, hQ0, o0⟩ := exRow_ready hS (legRow_exP 5) 0 true 0
  obtain ⟨hF, hP⟩ := rFacts exRed_spd (by simp) exRed_jInc exRed_coupling hD (fun _ _ => rfl) le_rfl exFoot_base hS hC
  obtain ⟨q0, c0, r0, p0⟩ := chainTask_ready (R := 1) (by simp) exRed_jInc hF (reduce_eq_some hD).2.2.2.1 hS
    (exRow_chain (by simp [ncOf]) 0 0) hQ0
  obtain ⟨Cm, hst, -⟩ := stackC_holds ArmQP.six ArmQP.plane ArmQP.dof
  have hfit : FreeQP.robot.fit = some (some fun _ => 10) := rfl
  have hf0 : q0.f = 0 := by
    have : ∀ T : RTaskIn (Fin 6) (Fin 6), T = exRow (legRow 5) 0 true 0 → T.f = 0 := by rintro _ rfl; rfl
    exact this _ (toIn_of_calc c0)
  have hst' : stackC FreeQP.robot.cs 6 = some ⟨_, Cm⟩ := hst
  obtain ⟨y0, hy0, -⟩ := FreeQP.answer hD hS hC hst' Stand.solver_exact Stand.solver_complete 0
    (B := q0.Jkt * q0.Λ) (f := q0.f) (by rw [hf0, mulVec_zero])
  obtain ⟨τ, τR, h⟩ := run_one (R := 1) hfit hst' (by rw [hP]; exact c0) r0.kind hy0
  exact ⟨D, C, τ, τR, hD, hC, h⟩

/-- A leg acceleration that one foot can bear, without limits: the hypotheses of `C58_command_kept_partial` are met. -/
example : ∃ D C τ τR, reduce vcOf ncOf (exRed 6)⁻¹ 1 FreeQP.G = some D ∧ reducedContact D (exFoot 6) (exRed 6)⁻¹ = some C ∧
    (∀ j < 1, ∀ τj, reducedTaskTorque D C 1 (exRed 6)⁻¹ (List.take (j + 1) [exRow (legRow 5) (1 / 10) true 0]) = some τj →
      ∀ qdd F, Motion (exRed 6) (exFoot 6) FreeQP.G (reducedGravityTorque D C + τj) qdd F →
        ContactsHold FreeQP.robot.cs (F ∘ Fin.cast ArmQP.dof.symm)) ∧
    reducedTaskTorqueQP D C 1 (exRed 6)⁻¹ { FreeQP.robot with limit := none } Stand.solver
      [exRow (legRow 5) (1 / 10) true 0] = .ret 1 τ τR := by
  obtain ⟨D, S, C, hD, hS, hC, hb⟩ := exC55 FreeQP.G
  obtain ⟨Q0, hQ0, o0⟩ := exRow_ready hS (legRow_exP 5) (1 / 10) true 0
  obtain ⟨hF, hP⟩ := rFacts exRed_spd (by simp) exRed_jInc exRed_coupling hD (fun _ _ => rfl) le_rfl exFoot_base hS hC
  obtain ⟨q0, c0, r0, p0⟩ := chainTask_ready (R := 1) (by simp) exRed_jInc hF (reduce_eq_some hD).2.2.2.1 hS
    (exRow_chain (by simp [ncOf]) (1 / 10) 0) hQ0
  obtain ⟨Cm, hst, h'⟩ := stackC_holds ArmQP.six ArmQP.plane ArmQP.dof
  have hmm : [exRow (legRow 5) (1 / 10) true 0].mapM (calcJKTR D C S.AinvNc) = some [q0] := by
    simp only [List.mapM_cons, List.mapM_nil, c0]; rfl
  have hpl : reducedTaskTorque D C 1 (exRed 6)⁻¹ [exRow (legRow 5) (1 / 10) true 0]
      = some (assembleTorque D (q0.Jkt *ᵥ (q0.Λ *ᵥ q0.f)) 0) := by
    simp only [reducedTaskTorque, hP, hmm]
    rw [rTaskFrom_chain D C 1 _ _ none 0 0 r0.kind]
    simp only [rTaskFrom, prevNull, one_mulVec, zero_add]
  have hhold : ContactsHold ArmQP.cs (forceR D C (reducedGravity D C + q0.Jkt *ᵥ (q0.Λ *ᵥ q0.f)) ∘ Fin.cast ArmQP.dof.symm) := by
    rw [← assembled_force exRed_spd (R := 1) (by simp) exRed_jInc exRed_coupling hD (fun _ _ => rfl) le_rfl exFoot_base hS hC _ 0]
    obtain ⟨qdd, hm⟩ := (C01_contact_force_exact exRed_spd hS FreeQP.G
      (reducedGravityTorque D C + assembleTorque D (q0.Jkt *ᵥ (q0.Λ *ᵥ q0.f)) 0)).1
    generalize hF' : contactForce S (gravityForce S FreeQP.G)
      (reducedGravityTorque D C + assembleTorque D (q0.Jkt *ᵥ (q0.Λ *ᵥ q0.f)) 0) = F at hm
    have hd := hm.1
    rw [C41_gravity_torque_partial exRed_spd hD (fun _ _ => rfl) le_rfl exFoot_base hS hC] at hm
    have hq := acc_of_motion exRed_spd hS exFoot_base hm
    have hg : q0.Jᵀ *ᵥ (q0.Λ *ᵥ q0.f) = (5 / 2 * (1 / 10) : ℝ) • legRow 5 := by
      change (ofR q0).Jᵀ *ᵥ ((ofR q0).Λ *ᵥ (ofR q0).f) = _
      rw [p0, o0, exRow_force]
    have e0 : ncExt (κ := Fin 6) (0 : Fin 6 → ℝ) = 0 := by ext a; rcases a with a | a | a <;> rfl
    rw [acc_assemble hF, accR_Jkt hF r0, hg, mulVec_zero, e0, mulVec_zero, add_zero, exP_eq hS] at hq
    subst hq
    unfold Dynamics at hd
    rw [exRed, add_mulVec, one_mulVec, ← mulVec_mulVec, exE_mulVec, exE_transpose_mulVec, exFoot_transpose_mulVec] at hd
    have hF : ∀ i, F i = if i = 2 then -1 else if i = 5 then 15 / 100 else 0 := by
      intro i
      have h1 := congrFun hd (.inl i)
      simp only [actuate, Pi.add_apply, Sum.elim_inl, Pi.zero_apply, exP, FreeQP.G, Pi.smul_apply, Pi.single_apply, smul_eq_mul] at h1
      fin_cases i <;> simp at h1 ⊢ <;> linarith
    exact FreeQP.hold_of hF
  have hz : (rQP D C { FreeQP.robot with limit := none } none Cm (q0.Jkt * q0.Λ) q0.f (reducedGravity D C + 0)).Feasible 0 := by
    rw [rQP_feasible]
    refine ⟨(fun L hL => absurd hL (by simp)), ?_⟩
    have z1 : (fun _ : Fin q0.t => (0 : ℝ)) = 0 := rfl
    have z2 : (fun _ : Fin (6 - 6) => (0 : ℝ)) = 0 := rfl
    simp only [Pi.zero_apply, z1, z2, add_zero (q0.f), mulVec_zero]
    rw [← mulVec_mulVec, add_zero, add_zero, h']
    exact hhold
  obtain ⟨y0, hy0, -⟩ := answer_of_zero hz Stand.solver_exact Stand.solver_complete 0
  obtain ⟨τ, τR, h⟩ := run_one (R := 1) (Q := { FreeQP.robot with limit := none }) rfl hst (by rw [hP]; exact c0) r0.kind hy0
  refine ⟨D, C, τ, τR, hD, hC, ?_, h⟩
  intro j hj τj hτ qdd F hM
  obtain rfl : j = 0 := by omega
  rw [List.take_succ_cons, List.take_zero, hpl] at hτ
  obtain rfl := Option.some.inj hτ
  rw [(C01_contact_force_exact exRed_spd hS FreeQP.G _).2.1 _ _ hM,
    assembled_force exRed_spd (R := 1) (by simp) exRed_jInc exRed_coupling hD (fun _ _ => rfl) le_rfl exFoot_base hS hC]
  exact hhold

/-- The solvers assumed above exist. -/
example : Stand.solver.Exact ∧ Stand.solver.Complete := ⟨Stand.solver_exact, Stand.solver_complete⟩

section C59

variable {k c nc : ℕ}
variable {A : Matrix (RSys (Fin k) (Fin nc)) (RSys (Fin k) (Fin nc)) ℝ} {J : Matrix (Fin 6) (Fin nc) ℝ}
  {G : RSys (Fin k) (Fin nc) → ℝ}
  {D : Reduced (Fin k) (Fin nc)} {Jc : Matrix (Fin c) (RSys (Fin k) (Fin nc)) ℝ} {S : ContactSpace c (Fin k ⊕ Fin nc)}
  {C : ReducedContact c (Fin k) (Fin nc)} {SI : Mat6} {R : Mat3} {Q : RQPRobot k c}

/-- copying the first `contact_dof_` places loses nothing when the six virtual joints get no torque -/
theorem copy_low {v : Fin k ⊕ Fin 6 → ℝ} (hv : ∀ s, v (.inr s) = 0) (hk : k ≤ c) :
    (fun j : Fin k ⊕ Fin nc =>
      let p := (finSumFinEquiv j).val
      if h : p < c ∧ p < k + 6 then flatV v ⟨p, h.2⟩ else 0) = assembleTorque D v 0 := by
  have hz : (fun s => v (.inr s)) = (0 : Fin 6 → ℝ) := funext hv
  ext j
  rcases j with i | j
  · have hp : ((finSumFinEquiv (Sum.inl i : Fin k ⊕ Fin nc)).val) = i := by simp
    have h1 : i.val < c ∧ i.val < k + 6 := ⟨by omega, by omega⟩
    simp only [hp, dif_pos h1]
    have := flatV_apply v (.inl i)
    rw [assembleTorque, Sum.elim_inl, ← this]
    congr 1
  · simp only [assembleTorque, Sum.elim_inr, hz, mulVec_zero, add_zero, Pi.zero_apply]
    split_ifs with h1
    · have hp : ((finSumFinEquiv (Sum.inr j : Fin k ⊕ Fin nc)).val) = k + j := by simp
      have h2 : j.val < 6 := by omega
      have := flatV_apply v (.inr ⟨j, h2⟩)
      rw [hv] at this
      rw [← this]
      congr 1
    · rfl

theorem flat_force (lim : Option (Fin (k + 6) → ℝ)) (v : Fin k ⊕ Fin 6 → ℝ) :
    contactForce (Q.flat D C lim).S (Q.flat D C lim).P (flatV v) = forceR D C v := by
  rw [forceR, ← rightColsR_mulVec]
  rfl

/-- C59.  Several feet on the ground: when redistribution with the reduced model reports success, the new contact torque does not move
the full robot, every contact holds in every motion under gravity compensation, task torque and contact torque, and the joints of the
contact chains respect the lower limit (the upper limit is not enforced, see C11).  The task torque is one assembled from the torque of the
reduced model, as task control without tasks outside the contact chains or without quadratic programmes leaves it. -/
theorem C59_contacts_hold_partial (hA : IsSPD A) (hR : R * Rᵀ = 1)
    (hJ : jInc SI R (baseNc A) = some J) (hcpl : ∀ (i : Fin k) (j : Fin nc), A (.inr (.inl i)) (.inr (.inr j)) = 0)
    (h : reduce vcOf ncOf A⁻¹ J G = some D) (h0 : ∀ r j, Jc r (ncOf j) = 0)
    (hk : k ≤ c) (hB : BaseDetermined Jc) (hS : contactSpace Jc A⁻¹ = some S) (hC : reducedContact D Jc A⁻¹ = some C)
    (h6 : ∀ l ∈ Q.cs, l.type = .c6d) (hp : ∀ l ∈ Q.cs, 0 < l.planeX ∧ 0 < l.planeY) (hc : c = 6 * (active Q.cs).length)
    (hc6 : 6 < c) {f : CodNull C.W} (hN : reducedNwJw C f = some Q.NwJw) {Wt : Matrix (Fin c) (Fin c) ℝ}
    {solve : RSolver} (hs : solve.Sound) {τR : Fin k ⊕ Fin 6 → ℝ} {old τc : Fin k ⊕ Fin nc → ℝ}
    (hr : reducedRedistribute D C Q Wt solve τR old = some (1, τc)) (τN : Fin nc → ℝ) :
    (∀ τ' qdd qdd' F F', Motion A Jc G τ' qdd F → Motion A Jc G (τ' + τc) qdd' F' → qdd' = qdd) ∧
    (∀ m (L : Fin m → ℝ), Q.limit = some ⟨m, L⟩ → ∃ hm : m = k + 6, ∀ i : Fin k,
      -L ⟨i, by omega⟩ ≤ (reducedGravityTorque D C + assembleTorque D τR τN + τc) (.inl i)) ∧
    ∀ qdd F, Motion A Jc G (reducedGravityTorque D C + assembleTorque D τR τN + τc) qdd F →
      ContactsHold Q.cs (F ∘ Fin.cast hc.symm) := by
  obtain ⟨Cm, e, h'⟩ := stackC_holds h6 hp hc
  obtain ⟨hF, -⟩ := rFacts hA hR hJ hcpl h h0 hk hB hS hC
  unfold reducedRedistribute at hr
  rw [if_pos hc6] at hr
  rcases hfit : Q.fit with _ | lim
  · rw [hfit] at hr; simp at hr
  rw [hfit] at hr
  simp only [redistributeR, gt_iff_lt, hc6, if_true, QPRobot.C, show (Q.flat D C lim).cs = Q.cs from rfl, e] at hr
  rcases hx : solve (c - 6) (redistributeRQP (Q.flat D C lim) Cm Wt (flatV (reducedGravity D C + τR))) with _ | x
  · rw [hx] at hr
    simp only at hr
    split_ifs at hr
    simp at hr
  rw [hx] at hr
  simp only at hr
  split_ifs at hr with hle
  simp only [Option.some.injEq, Prod.mk.injEq, true_and] at hr
  have hflat : (Q.flat D C lim).NwJw *ᵥ x = flatV (Q.NwJw *ᵥ x) := rfl
  obtain ⟨hacc, hlow⟩ := nwjwR_still hA hR hJ hcpl h h0 hk hB hS hC hN x
  have hτc : τc = assembleTorque D (Q.NwJw *ᵥ x) 0 := by
    rw [← hr, hflat]; exact copy_low hlow hk
  have hfe := (redistributeRQP_feasible (Q.flat D C lim) Cm Wt _ x).mp (hs _ _ _ hx)
  rw [hflat, ← flatV_add, flat_force] at hfe
  have hasm : assembleTorque D τR τN + assembleTorque D (Q.NwJw *ᵥ x) 0 = assembleTorque D (τR + Q.NwJw *ᵥ x) τN := by
    ext j
    rcases j with j | j
    · rfl
    · simp only [assembleTorque, Pi.add_apply, Sum.elim_inr, mulVec_zero, add_zero]
      rw [show (fun s : Fin 6 => τR (.inr s) + (Q.NwJw *ᵥ x) (.inr s)) = (fun s => τR (.inr s)) + fun s => (Q.NwJw *ᵥ x) (.inr s)
        from rfl, mulVec_add, Pi.add_apply]
      ring
  subst hτc
  refine ⟨?_, ?_, ?_⟩
  · intro τ' qdd qdd' F F' hm1 hm2
    rw [motion_iff hA hS] at hm1 hm2
    rw [hm1.1, hm2.1]
    have e0 : ncExt (κ := Fin k) (0 : Fin nc → ℝ) = 0 := by ext a; rcases a with a | a | a <;> rfl
    have hz : S.AinvNc *ᵥ actuate (assembleTorque D (Q.NwJw *ᵥ x) 0) = 0 := by
      rw [acc_assemble hF, mulVec_zero, e0, mulVec_zero, add_zero, hacc]
    have e : actuate (τ' + assembleTorque D (Q.NwJw *ᵥ x) 0) = actuate τ' + actuate (assembleTorque D (Q.NwJw *ᵥ x) 0) := by
      ext a; rcases a with a | a <;> simp [actuate]
    rw [e, add_sub_right_comm, mulVec_add, hz, add_zero]
  · intro m L hL
    unfold RQPRobot.fit at hfit
    rw [hL] at hfit
    simp only at hfit
    split_ifs at hfit with hm
    refine ⟨hm, fun i => ?_⟩
    have := hfe.1 _ (Option.some.inj hfit).symm (finSumFinEquiv (.inl i))
    rw [flatV_apply] at this
    exact this
  · intro qdd F hM
    rw [(C01_contact_force_exact hA hS G _).2.1 _ _ hM, add_assoc, hasm,
      assembled_force hA hR hJ hcpl h h0 hk hB hS hC, ← add_assoc]
    exact (h' _).mp hfe.2

/-- What a redistribution torque `τi` of the full robot is for: it moves nothing, and added to gravity compensation and task torque it
holds every contact and respects the lower limit of the joints of the contact chains.  The last conjunct concerns the six virtual joints
of the reduced model, whose torque no redistribution changes. -/
def RGood (A : Matrix (RSys (Fin k) (Fin nc)) (RSys (Fin k) (Fin nc)) ℝ) (Jc : Matrix (Fin c) (RSys (Fin k) (Fin nc)) ℝ)
    (G : RSys (Fin k) (Fin nc) → ℝ) (D : Reduced (Fin k) (Fin nc)) (C : ReducedContact c (Fin k) (Fin nc)) (Q : RQPRobot k c)
    (hc : c = 6 * (active Q.cs).length) (τR : Fin k ⊕ Fin 6 → ℝ) (τN : Fin nc → ℝ) (τi : Fin k ⊕ Fin nc → ℝ) : Prop :=
  (∀ τ' qdd qdd' F F', Motion A Jc G τ' qdd F → Motion A Jc G (τ' + τi) qdd' F' → qdd' = qdd) ∧
  (∀ qdd F, Motion A Jc G (reducedGravityTorque D C + assembleTorque D τR τN + τi) qdd F →
    ContactsHold Q.cs (F ∘ Fin.cast hc.symm)) ∧
  ∀ m (L : Fin m → ℝ), Q.limit = some ⟨m, L⟩ → ∃ hm : m = k + 6,
    (∀ i : Fin k, -L ⟨i, by omega⟩ ≤ (reducedGravityTorque D C + assembleTorque D τR τN + τi) (.inl i)) ∧
    ∀ s : Fin 6, -L ⟨k + s, by omega⟩ ≤ (reducedGravity D C + τR) (.inr s)

/-- C59.  Several feet on the ground, a solver that is exact and answers every solvable problem: redistribution with the reduced model
reports success exactly when some torque of the full robot does what redistribution is for, and then its answer is such a torque, the one
with the least weighted contact force. -/
theorem C59_succeeds_iff_partial (hA : IsSPD A) (hR : R * Rᵀ = 1)
    (hJ : jInc SI R (baseNc A) = some J) (hcpl : ∀ (i : Fin k) (j : Fin nc), A (.inr (.inl i)) (.inr (.inr j)) = 0)
    (h : reduce vcOf ncOf A⁻¹ J G = some D) (h0 : ∀ r j, Jc r (ncOf j) = 0)
    (hk : k ≤ c) (hB : BaseDetermined Jc) (hS : contactSpace Jc A⁻¹ = some S) (hC : reducedContact D Jc A⁻¹ = some C)
    (h6 : ∀ l ∈ Q.cs, l.type = .c6d) (hp : ∀ l ∈ Q.cs, 0 < l.planeX ∧ 0 < l.planeY) (hc : c = 6 * (active Q.cs).length)
    (hc6 : 6 < c) {f : CodNull C.W} (hN : reducedNwJw C f = some Q.NwJw) {Wt : Matrix (Fin c) (Fin c) ℝ}
    {solve : RSolver} (hs : solve.Exact) (hcomp : solve.Complete) (τR : Fin k ⊕ Fin 6 → ℝ) (τN : Fin nc → ℝ)
    (old : Fin k ⊕ Fin nc → ℝ) :
    ((∃ τc, reducedRedistribute D C Q Wt solve τR old = some (1, τc)) ↔ ∃ τi, RGood A Jc G D C Q hc τR τN τi) ∧
    ∀ τc, reducedRedistribute D C Q Wt solve τR old = some (1, τc) → RGood A Jc G D C Q hc τR τN τc ∧
      ∀ τi, RGood A Jc G D C Q hc τR τN τi → ∀ qdd F qdd' F',
        Motion A Jc G (reducedGravityTorque D C + assembleTorque D τR τN + τc) qdd F →
        Motion A Jc G (reducedGravityTorque D C + assembleTorque D τR τN + τi) qdd' F' →
        (Wt *ᵥ F) ⬝ᵥ (Wt *ᵥ F) ≤ (Wt *ᵥ F') ⬝ᵥ (Wt *ᵥ F') := by
  classical
  obtain ⟨Cm, e, h'⟩ := stackC_holds h6 hp hc
  obtain ⟨hF, -⟩ := rFacts hA hR hJ hcpl h h0 hk hB hS hC
  have hind := independent_of_some hA hS
  have hck : c ≤ k + 6 := rows_le h0 hind
  have hnc : 6 ≤ nc := by
    by_contra hlt
    rw [C40_needs_six_joints hA (by rw [Fintype.card_fin]; omega)] at h
    cases h
  -- the full model has the same redistribution torques
  have hlast : IsUnit (lastSixBase hc6 Jc).det :=
    ((C59_finite_iff_partial hA h h0 hk hind hC hc6
      (fun W => if hW : W = C.W then hW ▸ f else (exists_codNull W).some)).mp ⟨Q.NwJw, by simpa using hN⟩).2
  obtain ⟨S', ⟨m', V2, NwJw⟩, hfull⟩ := (C05_outcome hA hind hc6 fun W => (exists_codNull W).some).1.mpr ⟨hB, hlast⟩
  have hsame := C59_same_torques_partial hA hR hJ hcpl h h0 hk hB hC hc6 _ hfull hN
  have hasm : ∀ x, assembleTorque D τR τN + assembleTorque D (Q.NwJw *ᵥ x) 0 = assembleTorque D (τR + Q.NwJw *ᵥ x) τN := by
    intro x
    ext j
    rcases j with j | j
    · rfl
    · simp only [assembleTorque, Pi.add_apply, Sum.elim_inr, mulVec_zero, add_zero]
      rw [show (fun s : Fin 6 => τR (.inr s) + (Q.NwJw *ᵥ x) (.inr s)) = (fun s => τR (.inr s)) + fun s => (Q.NwJw *ᵥ x) (.inr s)
        from rfl, mulVec_add, Pi.add_apply]
      ring
  have hforce : ∀ x qdd F, Motion A Jc G (reducedGravityTorque D C + assembleTorque D τR τN + assembleTorque D (Q.NwJw *ᵥ x) 0) qdd F →
      F = forceR D C (reducedGravity D C + τR + Q.NwJw *ᵥ x) := by
    intro x qdd F hM
    rw [(C01_contact_force_exact hA hS G _).2.1 _ _ hM, add_assoc, hasm,
      assembled_force hA hR hJ hcpl h h0 hk hB hS hC, ← add_assoc]
  -- the limits
  rcases hfit : Q.fit with _ | lim
  · have hno : ∀ τi, ¬ RGood A Jc G D C Q hc τR τN τi := by
      rintro τi ⟨-, -, hl⟩
      unfold RQPRobot.fit at hfit
      rcases hlim : Q.limit with _ | ⟨m, L⟩
      · rw [hlim] at hfit; cases hfit
      · obtain ⟨hm, -⟩ := hl m L hlim
        rw [hlim] at hfit
        simp only [dif_pos hm] at hfit
        cases hfit
    have hnone : reducedRedistribute D C Q Wt solve τR old = none := by
      unfold reducedRedistribute
      rw [if_pos hc6, hfit]
    rw [hnone]
    exact ⟨⟨(fun ⟨_, hx⟩ => nomatch hx), (fun ⟨τi, hx⟩ => (hno τi hx).elim)⟩, (fun _ hx => nomatch hx)⟩
  have hlim : (∀ m (L : Fin m → ℝ), Q.limit = some ⟨m, L⟩ → m = k + 6) ∧
      ∀ L, lim = some L ↔ ∃ m, ∃ L' : Fin m → ℝ, ∃ hm : m = k + 6, Q.limit = some ⟨m, L'⟩ ∧ L = L' ∘ Fin.cast hm.symm := by
    unfold RQPRobot.fit at hfit
    rcases hq : Q.limit with _ | ⟨m, L⟩
    · rw [hq] at hfit
      obtain rfl := Option.some.inj hfit
      simp
    · rw [hq] at hfit
      simp only at hfit
      split_ifs at hfit with hm
      obtain rfl := Option.some.inj hfit
      subst hm
      constructor
      · rintro m' L' hh
        simp only [Option.some.injEq, Sigma.mk.injEq] at hh
        exact hh.1.symm
      · intro L2
        constructor
        · intro hh
          exact ⟨_, L, rfl, rfl, (Option.some.inj hh).symm⟩
        · rintro ⟨m', L', rfl, hh, rfl⟩
          simp only [Option.some.injEq, Sigma.mk.injEq, heq_eq_eq, true_and] at hh
          rw [hh]
  have hfe : ∀ x, (redistributeRQP (Q.flat D C lim) Cm Wt (flatV (reducedGravity D C + τR))).Feasible x ↔
      RGood A Jc G D C Q hc τR τN (assembleTorque D (Q.NwJw *ᵥ x) 0) := by
    intro x
    obtain ⟨hacc, hlow⟩ := nwjwR_still hA hR hJ hcpl h h0 hk hB hS hC hN x
    rw [redistributeRQP_feasible]
    rw [show (Q.flat D C lim).NwJw *ᵥ x = flatV (Q.NwJw *ᵥ x) from rfl, ← flatV_add, flat_force]
    have hhold : (∀ r, 0 ≤ (Cm *ᵥ forceR D C (reducedGravity D C + τR + Q.NwJw *ᵥ x)) r) ↔
        ∀ qdd F, Motion A Jc G (reducedGravityTorque D C + assembleTorque D τR τN + assembleTorque D (Q.NwJw *ᵥ x) 0) qdd F →
          ContactsHold Q.cs (F ∘ Fin.cast hc.symm) := by
      rw [h']
      constructor
      · intro hh qdd F hM
        rw [hforce _ _ _ hM]; exact hh
      · intro hh
        obtain ⟨qdd, hM⟩ := (C01_contact_force_exact hA hS G
          (reducedGravityTorque D C + assembleTorque D τR τN + assembleTorque D (Q.NwJw *ᵥ x) 0)).1
        have := hh _ _ hM
        rwa [hforce _ _ _ hM] at this
    have hstill : ∀ τ' qdd qdd' F F', Motion A Jc G τ' qdd F → Motion A Jc G (τ' + assembleTorque D (Q.NwJw *ᵥ x) 0) qdd' F' →
        qdd' = qdd := by
      intro τ' qdd qdd' F F' hm1 hm2
      rw [hsame] at hm2
      exact (C04_internal_force hA hc6 _ hfull G τ' x hm1 hm2).1
    have hlims : (∀ L, (Q.flat D C lim).limit = some L → ∀ j, -L j ≤ flatV (reducedGravity D C + τR + Q.NwJw *ᵥ x) j) ↔
        ∀ m (L : Fin m → ℝ), Q.limit = some ⟨m, L⟩ → ∃ hm : m = k + 6,
          (∀ i : Fin k, -L ⟨i, by omega⟩ ≤
            (reducedGravityTorque D C + assembleTorque D τR τN + assembleTorque D (Q.NwJw *ᵥ x) 0) (.inl i)) ∧
          ∀ s : Fin 6, -L ⟨k + s, by omega⟩ ≤ (reducedGravity D C + τR) (.inr s) := by
      rw [show (Q.flat D C lim).limit = lim from rfl]
      constructor
      · intro hh m L hL
        have hm := hlim.1 m L hL
        have h2 := hh _ ((hlim.2 _).mpr ⟨m, L, hm, hL, rfl⟩)
        refine ⟨hm, fun i => ?_, fun s => ?_⟩
        · have := h2 (finSumFinEquiv (.inl i))
          rw [flatV_apply] at this
          exact this
        · have := h2 (finSumFinEquiv (.inr s))
          rw [flatV_apply, Pi.add_apply, hlow, add_zero] at this
          exact this
      · intro hh L hL j
        obtain ⟨m, L', hm, hq, rfl⟩ := (hlim.2 L).mp hL
        obtain ⟨hm', h23⟩ := hh m L' hq
        obtain ⟨j, rfl⟩ := finSumFinEquiv.surjective j
        rw [flatV_apply]
        rcases j with i | s
        · exact h23.1 i
        · rw [Pi.add_apply, hlow, add_zero]
          exact h23.2 s
    rw [hhold, hlims]
    exact ⟨fun ⟨a, b⟩ => ⟨hstill, b, a⟩, fun ⟨_, b, a⟩ => ⟨a, b⟩⟩
  have hgood : ∀ τi, RGood A Jc G D C Q hc τR τN τi → ∃ x, τi = assembleTorque D (Q.NwJw *ᵥ x) 0 := by
    rintro τi ⟨hst, -, -⟩
    obtain ⟨qdd, hM⟩ := (C01_contact_force_exact hA hS G 0).1
    obtain ⟨qdd', hM'⟩ := (C01_contact_force_exact hA hS G (0 + τi)).1
    obtain rfl := hst _ _ _ _ _ hM hM'
    exact ⟨_, (C04_every_internal_force hA hc6 _ hfull G 0 τi hM hM').trans (hsame _).symm⟩
  have hval : ∀ τc, reducedRedistribute D C Q Wt solve τR old = some (1, τc) ↔
      ∃ q, solve (c - 6) (redistributeRQP (Q.flat D C lim) Cm Wt (flatV (reducedGravity D C + τR))) = some q ∧
        τc = assembleTorque D (Q.NwJw *ᵥ q) 0 := by
    intro τc
    unfold reducedRedistribute
    rw [if_pos hc6, hfit]
    simp only [redistributeR, gt_iff_lt, hc6, if_true, QPRobot.C, show (Q.flat D C lim).cs = Q.cs from rfl, e]
    rcases hx : solve (c - 6) (redistributeRQP (Q.flat D C lim) Cm Wt (flatV (reducedGravity D C + τR))) with _ | x
    · simp only
      split_ifs <;> simp
    · simp only
      rw [if_pos ⟨hck, by omega⟩]
      have hflat : (Q.flat D C lim).NwJw *ᵥ x = flatV (Q.NwJw *ᵥ x) := rfl
      obtain ⟨hacc, hlow⟩ := nwjwR_still hA hR hJ hcpl h h0 hk hB hS hC hN x
      rw [hflat, copy_low (D := D) hlow hk]
      simp [eq_comm]
  refine ⟨⟨?_, ?_⟩, ?_⟩
  · rintro ⟨τc, hr⟩
    obtain ⟨q, hq, rfl⟩ := (hval τc).mp hr
    exact ⟨_, (hfe q).mp (hs _ _ _ hq).1⟩
  · rintro ⟨τi, hi⟩
    obtain ⟨x, rfl⟩ := hgood τi hi
    obtain ⟨q, hq⟩ := Option.isSome_iff_exists.mp (hcomp _ _ (redistributeRQP_exists _ Cm Wt _ ((hfe x).mpr hi)))
    exact ⟨_, (hval _).mpr ⟨q, hq, rfl⟩⟩
  · intro τc hr
    obtain ⟨q, hq, rfl⟩ := (hval τc).mp hr
    have hsol := hs _ _ _ hq
    refine ⟨(hfe q).mp hsol.1, fun τi hi qdd F qdd' F' hM hM' => ?_⟩
    obtain ⟨x, rfl⟩ := hgood τi hi
    have := hsol.2 x ((hfe x).mpr hi)
    rw [redistributeRQP_cost, redistributeRQP_cost, show (Q.flat D C lim).NwJw *ᵥ x = flatV (Q.NwJw *ᵥ x) from rfl,
      show (Q.flat D C lim).NwJw *ᵥ q = flatV (Q.NwJw *ᵥ q) from rfl, ← flatV_add, ← flatV_add, flat_force, flat_force, flat_force,
      ← hforce _ _ _ hM, ← hforce _ _ _ hM'] at this
    linarith

/-- With at most six contact rows redistribution returns 0 and keeps the contact torque of the time before. -/
theorem C59_single_support_stale (hc6 : c ≤ 6) (Wt : Matrix (Fin c) (Fin c) ℝ) (solve : RSolver)
    (τR : Fin k ⊕ Fin 6 → ℝ) (old : Fin k ⊕ Fin nc → ℝ) : reducedRedistribute D C Q Wt solve τR old = some (0, old) := by
  unfold reducedRedistribute
  rw [if_neg (by omega)]

end C59

namespace TwoFeet

/-- the robot of C40 with two feet: the first is fixed to the base, the second is at the end of the six-joint leg -/
def Jc : Matrix (Fin 12) (RSys (Fin 6) (Fin 6)) ℝ := Matrix.of fun i a => Sum.elim (fun j => Ex.J i (.inl j))
  (Sum.elim (fun j => Ex.J i (.inr j)) fun _ => 0) a

theorem zero (r : Fin 12) (j : Fin 6) : Jc r (ncOf j) = 0 := rfl

theorem transpose_mulVec (F : Fin 12 → ℝ) : Jcᵀ *ᵥ F = Sum.elim (fun j => (Ex.Jᵀ *ᵥ F) (.inl j))
    (Sum.elim (fun j => (Ex.Jᵀ *ᵥ F) (.inr j)) 0) := by
  ext a
  rcases a with a | a | a
  · rfl
  · rfl
  · simp [mulVec, dotProduct, Jc]

theorem independent : IndependentRows Jc := by
  intro F hF
  apply Ex.J_ind
  rw [transpose_mulVec] at hF
  ext a
  rcases a with a | a
  · exact congrFun hF (.inl a)
  · exact congrFun hF (.inr (.inl a))

theorem base : BaseDetermined Jc := by
  intro v hv
  apply Ex.J_base
  rw [← hv]
  ext r
  simp [mulVec, dotProduct, Jc, Fintype.sum_sum_type]

theorem last : IsUnit (lastSixBase (by norm_num) Jc).det := by
  have : lastSixBase (by norm_num) Jc = 1 := by
    ext i j
    simp only [lastSixBase, Jc, Ex.J, of_apply, Sum.elim_inl, submatrix_apply, Matrix.one_apply]
    fin_cases i <;> fin_cases j <;> rfl
  rw [this]; simp

/-- weight two -/
def G : RSys (Fin 6) (Fin 6) → ℝ := Sum.elim (fun i => if i = 2 then 2 else 0) 0

/-- two feet on the ground, limit ten on each of the twelve joints -/
noncomputable def robot (N : Matrix (Fin 6 ⊕ Fin 6) (Fin (12 - 6)) ℝ) : RQPRobot 6 12 where
  NwJw := N
  limit := some ⟨12, fun _ => 10⟩
  cs := Stand.cs

/-- the torque under which both feet carry the same weight -/
def τ : Fin 6 ⊕ Fin 6 → ℝ := Sum.elim (fun j => Stand.F ⟨j + 6, by omega⟩) 0

theorem motion : Motion (exRed 6) Jc G τ 0 Stand.F := by
  constructor
  · unfold Dynamics
    rw [mulVec_zero, zero_add, transpose_mulVec]
    ext a
    rcases a with a | a | a
    · fin_cases a <;> simp [G, actuate, mulVec, dotProduct, Ex.J, Stand.F, Fin.sum_univ_succ] <;> norm_num
    · fin_cases a <;> simp [G, actuate, mulVec, dotProduct, Ex.J, Stand.F, Fin.sum_univ_succ, τ]
    · simp [G, actuate, τ]
  · unfold ContactsFixed; rw [mulVec_zero]

/-- The hypotheses of the C59 theorems hold for this robot, and redistribution succeeds. -/
theorem met_of (Wt : Matrix (Fin 12) (Fin 12) ℝ) (cod : (W : Matrix (Fin 6 ⊕ Fin 6) (Fin 6 ⊕ Fin 6) ℝ) → CodNull W) :
    ∃ (D : Reduced (Fin 6) (Fin 6)) (S : ContactSpace 12 (Fin 6 ⊕ Fin 6)) (C : ReducedContact 12 (Fin 6) (Fin 6))
      (N : Matrix (Fin 6 ⊕ Fin 6) (Fin (12 - 6)) ℝ) (τc : Fin 6 ⊕ Fin 6 → ℝ),
      reduce vcOf ncOf (exRed 6)⁻¹ 1 G = some D ∧ contactSpace Jc (exRed 6)⁻¹ = some S ∧
      reducedContact D Jc (exRed 6)⁻¹ = some C ∧ reducedNwJw C (cod C.W) = some N ∧
      reducedRedistribute D C (robot N) Wt Stand.rsolver 0 0 = some (1, τc) := by
  obtain ⟨D, hD⟩ := exRed_reduce (k := 6) G
  obtain ⟨S, hS⟩ : ∃ S, contactSpace Jc (exRed 6)⁻¹ = some S :=
    ⟨_, contactSpace_eq_some.mpr ⟨exRed_spd.inv.conj_isUnit_iff.mpr independent, rfl⟩⟩
  obtain ⟨C, hC, -⟩ := C41_contact_partial exRed_spd hD zero (by norm_num) hS
  obtain ⟨N, hN⟩ := (C59_finite_iff_partial exRed_spd hD zero (by norm_num) independent hC (by norm_num)
    cod).mpr ⟨base, last⟩
  have h := (C59_succeeds_iff_partial exRed_spd (R := 1) (by simp) exRed_jInc exRed_coupling hD zero (by norm_num) base hS hC
    (Q := robot N) Stand.six Stand.plane Stand.dof (by norm_num) hN (Wt := Wt) Stand.rsolver_exact Stand.rsolver_complete 0 0 0).1.mpr
  obtain ⟨τc, hτ⟩ := h ⟨τ - reducedGravityTorque D C, by
    have hz : assembleTorque D 0 0 = 0 := by
      ext j
      have e0 : (fun _ : Fin 6 => (0 : ℝ)) = 0 := rfl
      rcases j with j | j <;> simp [assembleTorque, e0]
    have hsum : reducedGravityTorque D C + assembleTorque D 0 0 + (τ - reducedGravityTorque D C) = τ := by
      rw [hz]; abel
    refine ⟨?_, ?_, ?_⟩
    · intro τ' qdd qdd' F F' h1 h2
      have h3 := motion
      rw [show τ = reducedGravityTorque D C + (τ - reducedGravityTorque D C) by abel,
        C41_gravity_torque_partial exRed_spd hD zero (by norm_num) base hS hC] at h3
      have h4 := acc_of_motion exRed_spd hS base h3
      rw [C41_gravity_torque_partial exRed_spd hD zero (by norm_num) base hS hC] at h2
      rw [motion_iff exRed_spd hS] at h1 h2
      have e : actuate (τ' + (τ - gravityTorque S (exRed 6)⁻¹ G)) = actuate τ' + actuate (τ - gravityTorque S (exRed 6)⁻¹ G) := by
        ext a; rcases a with a | a <;> simp [actuate]
      rw [h2.1, h1.1, e, add_sub_right_comm, mulVec_add, ← h4, add_zero]
    · intro qdd F hM
      rw [hsum] at hM
      have h1 := (C01_contact_force_exact exRed_spd hS G _).2.1 _ _ hM
      have h2 := (C01_contact_force_exact exRed_spd hS G _).2.1 _ _ motion
      rw [h1, ← h2]
      exact Stand.hold
    · intro m L hL
      simp only [robot, Option.some.injEq, Sigma.mk.injEq] at hL
      obtain ⟨rfl, hL⟩ := hL
      obtain rfl := eq_of_heq hL
      refine ⟨rfl, fun i => ?_, fun s => ?_⟩
      · rw [hsum]
        simp only [τ, Sum.elim_inl, Stand.F]
        split_ifs <;> norm_num
      · rw [Pi.add_apply, reducedGravity_low exRed_spd hD zero (by norm_num) base hS hC]
        have : D.GNC = 0 := funext fun j => ((reduce_eq_some hD).2.2.2.2.2.2.2.2.1 j).trans rfl
        rw [this, mulVec_zero]
        norm_num⟩
  exact ⟨D, S, C, N, τc, hD, hS, hC, hN, hτ⟩

theorem met (Wt : Matrix (Fin 12) (Fin 12) ℝ) :
    ∃ (D : Reduced (Fin 6) (Fin 6)) (S : ContactSpace 12 (Fin 6 ⊕ Fin 6)) (C : ReducedContact 12 (Fin 6) (Fin 6))
      (f : CodNull C.W) (N : Matrix (Fin 6 ⊕ Fin 6) (Fin (12 - 6)) ℝ) (τc : Fin 6 ⊕ Fin 6 → ℝ),
      reduce vcOf ncOf (exRed 6)⁻¹ 1 G = some D ∧ contactSpace Jc (exRed 6)⁻¹ = some S ∧
      reducedContact D Jc (exRed 6)⁻¹ = some C ∧ reducedNwJw C f = some N ∧
      reducedRedistribute D C (robot N) Wt Stand.rsolver 0 0 = some (1, τc) := by
  obtain ⟨D, S, C, N, τc, h⟩ := met_of Wt fun W => (exists_codNull W).some
  exact ⟨D, S, C, _, N, τc, h⟩

end TwoFeet

/-- C59 is false after a change to a single foot: the robot of C40 holds still under gravity compensation, and the contact torque
left over from before moves it. -/
theorem C59_stale_torque_moves (Wt : Matrix (Fin 6) (Fin 6) ℝ) (solve : RSolver) :
    ∃ D C τc, reduce vcOf ncOf (exRed 6)⁻¹ 1 FreeQP.G = some D ∧ reducedContact D (exFoot 6) (exRed 6)⁻¹ = some C ∧
      reducedRedistribute D C FreeQP.robot Wt solve 0 τc = some (0, τc) ∧
      (∀ qdd F, Motion (exRed 6) (exFoot 6) FreeQP.G (reducedGravityTorque D C) qdd F → qdd = 0) ∧
      ∀ qdd F, Motion (exRed 6) (exFoot 6) FreeQP.G (reducedGravityTorque D C + τc) qdd F → qdd ≠ 0 := by
  obtain ⟨D, S, C, hD, hS, hC, hb⟩ := exC55 FreeQP.G
  refine ⟨D, C, Pi.single (.inl 0) 5, hD, hC, C59_single_support_stale le_rfl _ _ _ _, ?_, ?_⟩
  · intro qdd F hm
    rw [C41_gravity_torque_partial exRed_spd hD (fun _ _ => rfl) le_rfl exFoot_base hS hC, ← add_zero (gravityTorque _ _ _)] at hm
    rw [acc_of_motion exRed_spd hS exFoot_base hm, actuate_eq, mulVec_zero, mulVec_zero]
  · intro qdd F hm h
    rw [C41_gravity_torque_partial exRed_spd hD (fun _ _ => rfl) le_rfl exFoot_base hS hC] at hm
    rw [acc_of_motion exRed_spd hS exFoot_base hm, exP_eq hS] at h
    have := congrFun h (.inl 0)
    simp [exP, actuate] at this

end Verif.Props
