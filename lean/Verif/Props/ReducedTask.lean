import Verif.Lemmas.ReducedTask
import Verif.Props.Reduced
import Verif.Props.Task

/-!
# C55: task control with the reduced model
-/

set_option linter.unusedSectionVars false

namespace Verif.Props
open Matrix Verif Verif.Spec Verif.Model

section General

variable {κ ν : Type*} [Fintype κ] [DecidableEq κ] [Fintype ν] [DecidableEq ν]

/-- The task as the full-model functions see it. -/
def fullTask (T : RTaskIn κ ν) : TaskIn (κ ⊕ ν) := ⟨T.t, T.J, T.f⟩

/-- A task on the contact chains (its Jacobian has no entries at other joints), or a task on the centre of mass or momentum: the
entries at the other joints are linear in the base rows of the mass matrix. -/
def ChainTask (A : Matrix (RSys κ ν) (RSys κ ν) ℝ) (T : RTaskIn κ ν) : Prop :=
  T.noncont = false ∧
    ((T.cmm = true ∧ ∃ X : Matrix (Fin T.t) (Fin 3 ⊕ Fin 3) ℝ, T.J.submatrix id ncOf = X * baseNc A) ∨
     (T.cmm = false ∧ T.reduced = true ∧ ∀ r j, T.J r (ncOf j) = 0))

/-- A task on a link outside the contact chains: contact-chain joints do not move it. -/
def FreeTask (T : RTaskIn κ ν) : Prop :=
  T.cmm = false ∧ T.reduced = false ∧ T.noncont = true ∧ ∀ r i, T.J r (.inr (.inl i)) = 0

theorem mem_of_mapM {α β : Type*} {f : α → Option β} : ∀ {l : List α} {m : List β}, l.mapM f = some m →
    ∀ b ∈ m, ∃ a ∈ l, f a = some b
  | [], m, h, b, hb => by simp at h; subst h; simp at hb
  | a :: l, m, h, b, hb => by
    simp only [List.mapM_cons, Option.pure_def, Option.bind_eq_bind, Option.bind_eq_some_iff, Option.some.injEq] at h
    obtain ⟨b', hb', m', hm', rfl⟩ := h
    rcases List.mem_cons.mp hb with rfl | hb
    · exact ⟨a, by simp, hb'⟩
    · obtain ⟨a', ha', h'⟩ := mem_of_mapM hm' b hb
      exact ⟨a', by simp [ha'], h'⟩

theorem length_of_mapM {α β : Type*} {f : α → Option β} : ∀ {l : List α} {m : List β}, l.mapM f = some m → m.length = l.length
  | [], m, h => by simp at h; subst h; rfl
  | a :: l, m, h => by
    simp only [List.mapM_cons, Option.pure_def, Option.bind_eq_bind, Option.bind_eq_some_iff, Option.some.injEq] at h
    obtain ⟨b', -, m', hm', rfl⟩ := h
    rw [List.length_cons, List.length_cons, length_of_mapM hm']

end General

section C55

variable {k c : ℕ} {ν : Type*} [Fintype ν] [DecidableEq ν]
variable {A : Matrix (RSys (Fin k) ν) (RSys (Fin k) ν) ℝ} {J : Matrix (Fin 6) ν ℝ} {G : RSys (Fin k) ν → ℝ}
  {D : Reduced (Fin k) ν} {Jc : Matrix (Fin c) (RSys (Fin k) ν) ℝ} {S : ContactSpace c (Fin k ⊕ ν)}
  {C : ReducedContact c (Fin k) ν} {SI : Mat6} {R : Mat3}

/-- `CalculateJKT_R` on a contact space is `CalculateJKT`. -/
theorem jktR_calc {ι : Type*} [Fintype ι] [DecidableEq ι] {A : Matrix (Fin 6 ⊕ ι) (Fin 6 ⊕ ι) ℝ}
    {Jc : Matrix (Fin c) (Fin 6 ⊕ ι) ℝ} {S : ContactSpace c ι} (hS : contactSpace Jc A⁻¹ = some S) {t : ℕ}
    (J : Matrix (Fin t) (Fin 6 ⊕ ι) ℝ) (f : Fin t → ℝ) (Λ : Matrix (Fin t) (Fin t) ℝ) (K : Matrix ι (Fin t) ℝ) :
    jktR S.AinvNc S.Winv J = some (Λ, K) ↔ calculateJKT S A⁻¹ ⟨t, J, f⟩ = some ⟨⟨t, J, f⟩, Λ, K⟩ := by
  rw [jkt_eq_some hS]
  unfold jktR
  rw [Option.map_eq_some_iff]
  have eq : ∀ X : Matrix (Fin t) (Fin t) ℝ, (X * J * S.AinvNc).submatrix id Sum.inr = X * Tm S J := by
    intro X
    rw [← mul_selT, Tm]; simp only [Matrix.mul_assoc]
  simp only [eq, TaskReady.mk.injEq, heq_eq_eq, true_and, eigenInverse_eq_some, Prod.mk.injEq]
  constructor
  · rintro ⟨X, ⟨h1, rfl⟩, rfl, rfl⟩
    exact ⟨h1, rfl, rfl⟩
  · rintro ⟨h1, rfl, rfl⟩
    exact ⟨_, ⟨h1, rfl⟩, rfl, rfl⟩

/-- closed form of the torque map -/
theorem jktR_torque_map {ι : Type*} [Fintype ι] [DecidableEq ι] {A : Matrix (Fin 6 ⊕ ι) (Fin 6 ⊕ ι) ℝ}
    {Jc : Matrix (Fin c) (Fin 6 ⊕ ι) ℝ} {S : ContactSpace c ι} (hA : IsSPD A) (hS : contactSpace Jc A⁻¹ = some S)
    (hB : BaseDetermined Jc) {t : ℕ} {J : Matrix (Fin t) (Fin 6 ⊕ ι) ℝ} {Λ : Matrix (Fin t) (Fin t) ℝ}
    {K : Matrix ι (Fin t) ℝ} (hK : jktR S.AinvNc S.Winv J = some (Λ, K)) :
    K = S.Winv * (J * S.AinvNc * (Sel ι)ᵀ)ᵀ := by
  have hcalc := (jktR_calc hS J 0 Λ K).mp hK
  obtain ⟨h1, -, h3⟩ := Km_eq hA hS hB hcalc
  obtain ⟨-, h2⟩ := (jkt_eq_some hS).mp hcalc
  simp only [TaskReady.mk.injEq, heq_eq_eq, true_and] at h2
  unfold Km Tm at h1
  simp only at h1 h3
  rw [h2.1] at h1
  have h5 : (J * S.AinvNc * Jᵀ)⁻¹ * (J * S.AinvNc * Jᵀ) = 1 := nonsing_inv_mul _ h3
  generalize (J * S.AinvNc * Jᵀ)⁻¹ = X at h1 h5
  generalize (J * S.AinvNc * (Sel ι)ᵀ)ᵀ = Y at h1 ⊢
  calc K = K * X * (J * S.AinvNc * Jᵀ) := by rw [Matrix.mul_assoc, h5, Matrix.mul_one]
    _ = S.Winv * Y := by rw [h1, Matrix.mul_assoc, h5, Matrix.mul_one]

/-- torques inside the null space of `J_I_nc_` do not move the reduced coordinates -/
theorem inner_decoupled (hA : IsSPD A) (hR : R * Rᵀ = 1)
    (hJ : jInc SI R (baseNc A) = some J) (hcpl : ∀ (i : Fin k) (j : ν), A (.inr (.inl i)) (.inr (.inr j)) = 0)
    (h : reduce vcOf ncOf A⁻¹ J G = some D) (h0 : ∀ r j, Jc r (ncOf j) = 0)
    (hS : contactSpace Jc A⁻¹ = some S) (hn : D.N = 1 - D.Jᵀ * D.JinvT) (hinv : D.JinvT * D.Jᵀ = 1) (y : ν → ℝ) :
    D.JR *ᵥ (S.AinvNc *ᵥ ncExt (D.N *ᵥ y)) = 0 := by
  obtain ⟨hc, -, -, -⟩ := C40_consistent_inverse hA hR hJ hcpl h
  obtain ⟨-, -, hAR⟩ := C40_projection hA h
  obtain ⟨-, e1, -, -, -, -, e6, -⟩ := reduce_eq_some h
  have hcr : jCR Jc * D.JR = Jc := by rw [e1]; exact jCR_mul_jR h0 J
  have hJN : D.JinvT *ᵥ (D.N *ᵥ y) = 0 := by
    rw [mulVec_mulVec, hn, Matrix.mul_sub, Matrix.mul_one, ← Matrix.mul_assoc, hinv, Matrix.one_mul, sub_self, zero_mulVec]
  generalize D.N *ᵥ y = x at hJN ⊢
  have hz : D.JR *ᵥ (A⁻¹ *ᵥ ncExt x) = 0 := by
    have e : D.JRinvT *ᵥ ncExt x = 0 := by
      rw [e6, blk_mulVec]
      ext a
      rcases a with a | a | a
      · simp [ncExt, vcOf]
      · simp [ncExt, vcOf]
      · exact congrFun hJN a
    rw [hc, ← mulVec_mulVec, ← mulVec_mulVec] at e
    have := congrArg (fun v => D.AR⁻¹ *ᵥ v) e
    rwa [mulVec_mulVec, hAR.inv_mul, one_mulVec, mulVec_zero] at this
  have hcz : Jc *ᵥ (A⁻¹ *ᵥ ncExt x) = 0 := by
    rw [← hcr, ← mulVec_mulVec, hz, mulVec_zero]
  rw [cs_P hS, cs_Nc hS, cs_JcInvT hS, ← mulVec_mulVec, sub_mulVec, one_mulVec]
  have e : (Jcᵀ * (S.lambda * Jc * A⁻¹)) *ᵥ ncExt x = 0 := by
    rw [← mulVec_mulVec, ← mulVec_mulVec, ← mulVec_mulVec, hcz, mulVec_zero, mulVec_zero]
  rw [e, sub_zero, hz]

/-- The facts about the reduced model that task control needs. -/
theorem rFacts (hA : IsSPD A) (hR : R * Rᵀ = 1)
    (hJ : jInc SI R (baseNc A) = some J) (hcpl : ∀ (i : Fin k) (j : ν), A (.inr (.inl i)) (.inr (.inr j)) = 0)
    (h : reduce vcOf ncOf A⁻¹ J G = some D) (h0 : ∀ r j, Jc r (ncOf j) = 0)
    (hk : k ≤ c) (hB : BaseDetermined Jc) (hS : contactSpace Jc A⁻¹ = some S) (hC : reducedContact D Jc A⁻¹ = some C) :
    RFacts D C S.AinvNc ∧ A⁻¹ * C.Nc = S.AinvNc := by
  obtain ⟨C', hC', -, -, l3, -, l5, l6⟩ := C41_contact_partial hA h h0 hk hS
  rw [hC] at hC'
  obtain rfl := Option.some.inj hC'
  obtain ⟨hc, hr, -, -⟩ := C40_consistent_inverse hA hR hJ hcpl h
  obtain ⟨hproj, -, hAR⟩ := C40_projection hA h
  obtain ⟨hs, e1, e2, e3, e4, e5, e6, -, -, hN⟩ := reduce_eq_some h
  have hcr : jCR Jc * D.JR = Jc := by rw [e1]; exact jCR_mul_jR h0 J
  have hjr : D.JR = blk 1 0 0 D.J := by rw [e1, jR_eq, e3]
  have hBR : BaseDetermined (jCR Jc) := by
    intro v hv
    apply hB
    rw [← hv]
    ext r
    simp [mulVec, dotProduct, Fintype.sum_sum_type, jCR, vcOf]
  have hinv : D.JinvT * D.Jᵀ = 1 := by
    rw [e6, hjr, blk_transpose, blk_mul, ← blk_one] at hr
    obtain ⟨-, -, -, h4⟩ := blk_inj hr
    simpa using h4
  have hn : D.N = 1 - D.Jᵀ * D.JinvT := by rw [hN, e3]
  obtain ⟨SR, hSR, g1, g2, g3, g4⟩ : ∃ SR, contactSpace (jCR Jc) D.AR⁻¹ = some SR ∧ SR.Winv = C.Winv ∧
      SR.AinvNc = C.ARinvNCR ∧ SR.Nc = C.NCR ∧ SR.JcInvT = C.JCRinvT := ⟨_, l6, rfl, rfl, rfl, rfl⟩
  have f1 := cs_Winv_symm hAR hSR
  have f2 := cs_P_factor hAR hSR hBR
  have f3 := cs_A_P hAR hSR
  have f4 := cs_Nc hSR
  rw [g1] at f1
  rw [g1, g2] at f2
  rw [g2, g3] at f3
  rw [g3, g4] at f4
  have f5 : ∀ {t : ℕ} {J : Matrix (Fin t) (RSys (Fin k) (Fin 6)) ℝ} {Λ K}, jktR C.ARinvNCR C.Winv J = some (Λ, K) →
      K = C.Winv * (J * C.ARinvNCR * (Sel (Fin k ⊕ Fin 6))ᵀ)ᵀ := by
    intro t J Λ K hK
    rw [← g1, ← g2] at hK ⊢
    exact jktR_torque_map hAR hSR hBR hK
  clear l6
  have f6 : ∀ x, C.ARinvNCR *ᵥ x = 0 → S.AinvNc *ᵥ (D.JRᵀ *ᵥ x) = 0 ∧ ∀ s : Fin 6, x (ncOf s) = 0 := by
    intro x hx
    have hF : x = (jCR Jc)ᵀ *ᵥ (C.JCRinvT *ᵥ x) := by
      have hNx : C.NCR *ᵥ x = 0 := by
        rw [← f3, ← mulVec_mulVec, hx, mulVec_zero]
      rw [f4, sub_mulVec, one_mulVec, sub_eq_zero, ← mulVec_mulVec] at hNx
      exact hNx
    generalize C.JCRinvT *ᵥ x = F at hF
    subst hF
    refine ⟨?_, fun s => ?_⟩
    · have e : D.JRᵀ *ᵥ ((jCR Jc)ᵀ *ᵥ F) = Jcᵀ *ᵥ F := by rw [mulVec_mulVec, ← transpose_mul, hcr]
      rw [e, mulVec_mulVec, cs_P_JT hS, zero_mulVec]
    · simp [mulVec, dotProduct, jCR, ncOf]
  exact ⟨⟨cs_P_symm hA hS, l5, f1, f2, f6, hjr, hn, hinv, inner_decoupled hA hR hJ hcpl h h0 hS hn hinv, f5⟩,
    by rw [l3, cs_P hS]⟩

/-- A chain task, seen through `J_R`, is its reduced version. -/
theorem chainTask_factor (hR : R * Rᵀ = 1) (hJ : jInc SI R (baseNc A) = some J) (hD : RFacts D C S.AinvNc)
    (hDJ : D.J = J) {T : RTaskIn (Fin k) ν} (hT : ChainTask A T) :
    (if T.cmm then taskJR D T.J else jCR T.J) * D.JR = T.J := by
  rcases hT.2 with ⟨h1, X, hX⟩ | ⟨h1, -, h0⟩
  · rw [if_pos h1]
    obtain ⟨K, hK⟩ := jInc_factor hR hJ
    have hY : T.J.submatrix id ncOf = X * K * D.J := by rw [hX, hK, hDJ, Matrix.mul_assoc]
    have e : T.J.submatrix id ncOf * D.JinvTᵀ * D.J = T.J.submatrix id ncOf := by
      rw [hY]
      have : D.J * D.JinvTᵀ = 1 := by rw [← transpose_transpose D.J, ← transpose_mul, hD.inv, transpose_one]
      rw [Matrix.mul_assoc _ D.J, this, Matrix.mul_one]
    rw [hD.jr]
    ext r a
    rcases a with a | a | a
    · simp [Matrix.mul_apply, Fintype.sum_sum_type, taskJR, blk, vcOf, Matrix.one_apply]
    · simp [Matrix.mul_apply, Fintype.sum_sum_type, taskJR, blk, vcOf, Matrix.one_apply]
    · have := congrFun (congrFun e r) a
      rw [Matrix.mul_apply] at this
      rw [Matrix.mul_apply, Fintype.sum_sum_type, Fintype.sum_sum_type]
      simpa [taskJR, blk, ncOf] using this
  · rw [if_neg (by simp [h1]), hD.jr, ← jR_eq]
    exact jCR_mul_jR h0 D.J

/-- `CalcJKT_R` of a chain task agrees with the full model. -/
theorem chainTask_ready (hR : R * Rᵀ = 1) (hJ : jInc SI R (baseNc A) = some J) (hD : RFacts D C S.AinvNc)
    (hDJ : D.J = J) (hS : contactSpace Jc A⁻¹ = some S) {T : RTaskIn (Fin k) ν} (hT : ChainTask A T)
    {Q : TaskReady (Fin k ⊕ ν)} (hQ : calculateJKT S A⁻¹ (fullTask T) = some Q) :
    ∃ Q', calcJKTR D C S.AinvNc T = some Q' ∧ ChainReady D C Q' ∧ ofR Q' = ofReady Q := by
  have hf := chainTask_factor hR hJ hD hDJ hT
  obtain ⟨hu, rfl⟩ := (jkt_eq_some hS).mp hQ
  have hL : ∀ JR : Matrix (Fin T.t) (RSys (Fin k) (Fin 6)) ℝ, JR * D.JR = T.J →
      ∃ K, jktR C.ARinvNCR C.Winv JR = some ((T.J * S.AinvNc * T.Jᵀ)⁻¹, K) := by
    intro JR hJR
    have e : JR * C.ARinvNCR * JRᵀ = T.J * S.AinvNc * T.Jᵀ := by
      rw [hD.proj, ← hJR, transpose_mul]
      simp only [Matrix.mul_assoc]
    unfold jktR
    have hi : eigenInverse (T.J * S.AinvNc * T.Jᵀ) = some (T.J * S.AinvNc * T.Jᵀ)⁻¹ := eigenInverse_eq_some.mpr ⟨hu, rfl⟩
    rw [e, hi]
    exact ⟨_, rfl⟩
  unfold calcJKTR
  rcases hT.2 with ⟨h1, -⟩ | ⟨h1, h2, -⟩
  · rw [if_pos h1] at hf ⊢
    obtain ⟨K, hK⟩ := hL _ hf
    rw [hK]
    exact ⟨_, rfl, ⟨hT.1, hf, hD.jkt hK⟩, rfl⟩
  · rw [if_neg (by simp [h1])] at hf ⊢
    obtain ⟨K, hK⟩ := hL _ hf
    rw [if_pos (by simp [h2, hT.1]), hK]
    exact ⟨_, rfl, ⟨hT.1, hf, hD.jkt hK⟩, rfl⟩

/-- what `CalcJKT_R` gives for a chain task, if anything -/
theorem chainTask_inv (hR : R * Rᵀ = 1) (hJ : jInc SI R (baseNc A) = some J) (hD : RFacts D C S.AinvNc)
    (hDJ : D.J = J) {T : RTaskIn (Fin k) ν} (hT : ChainTask A T)
    {q : RTask (Fin k) ν} (hq : calcJKTR D C S.AinvNc T = some q) :
    ChainReady D C q ∧ T = q.toRTaskIn ∧ q.J * S.AinvNc * q.Jᵀ * q.Λ = 1 := by
  have hf := chainTask_factor hR hJ hD hDJ hT
  have hL : ∀ (JR : Matrix (Fin T.t) (RSys (Fin k) (Fin 6)) ℝ) Λ K, JR * D.JR = T.J →
      jktR C.ARinvNCR C.Winv JR = some (Λ, K) → T.J * S.AinvNc * T.Jᵀ * Λ = 1 := by
    intro JR Λ K hJR hK
    have e : JR * C.ARinvNCR * JRᵀ = T.J * S.AinvNc * T.Jᵀ := by
      rw [hD.proj, ← hJR, transpose_mul]
      simp only [Matrix.mul_assoc]
    unfold jktR at hK
    rw [e, Option.map_eq_some_iff] at hK
    obtain ⟨X, hX, hX'⟩ := hK
    obtain ⟨hu, rfl⟩ := eigenInverse_eq_some.mp hX
    rw [← (Prod.mk.inj hX').1]
    exact mul_nonsing_inv _ hu
  unfold calcJKTR at hq
  rcases hT.2 with ⟨h1, -⟩ | ⟨h1, h2, -⟩
  · rw [if_pos h1] at hf hq
    obtain ⟨⟨Λ, K⟩, hK, rfl⟩ := Option.map_eq_some_iff.mp hq
    exact ⟨⟨hT.1, hf, hD.jkt hK⟩, rfl, hL _ _ _ hf hK⟩
  · rw [if_neg (by simp [h1])] at hf hq
    rw [if_pos (by simp [h2, hT.1])] at hq
    obtain ⟨⟨Λ, K⟩, hK, rfl⟩ := Option.map_eq_some_iff.mp hq
    exact ⟨⟨hT.1, hf, hD.jkt hK⟩, rfl, hL _ _ _ hf hK⟩

/-- `CalcJKT_R` of a task outside the contact chains. -/
theorem freeTask_ready (hS : contactSpace Jc A⁻¹ = some S) {T : RTaskIn (Fin k) ν} (hT : FreeTask T)
    {Q : TaskReady (Fin k ⊕ ν)} (hQ : calculateJKT S A⁻¹ (fullTask T) = some Q) :
    ∃ Q', calcJKTR D C S.AinvNc T = some Q' ∧ Q'.toRTaskIn = T ∧ Q'.JNC = some (Q'.J.submatrix id ncOf) ∧
      ofR Q' = ofReady Q := by
  obtain ⟨hu, rfl⟩ := (jkt_eq_some hS).mp hQ
  unfold calcJKTR
  have e : eigenInverse (T.J * S.AinvNc * T.Jᵀ) = some (T.J * S.AinvNc * T.Jᵀ)⁻¹ := eigenInverse_eq_some.mpr ⟨hu, rfl⟩
  rw [if_neg (by simp [hT.1]), if_neg (by simp [hT.2.1]), if_pos (by simp [hT.2.1, hT.2.2.1]), e]
  exact ⟨_, rfl, rfl, rfl, rfl⟩

/-- all chain tasks -/
theorem chainTasks_ready (hR : R * Rᵀ = 1) (hJ : jInc SI R (baseNc A) = some J) (hD : RFacts D C S.AinvNc)
    (hDJ : D.J = J) (hS : contactSpace Jc A⁻¹ = some S) (ts : List (RTaskIn (Fin k) ν)) (hts : ∀ T ∈ ts, ChainTask A T)
    {rs : List (TaskReady (Fin k ⊕ ν))} (hrs : calcTaskSpace S A⁻¹ (ts.map fullTask) = some rs) :
    ∃ qs, ts.mapM (calcJKTR D C S.AinvNc) = some qs ∧ (∀ Q ∈ qs, ChainReady D C Q) ∧ qs.map ofR = rs.map ofReady ∧
      qs.length = ts.length := by
  induction ts generalizing rs with
  | nil =>
    refine ⟨[], rfl, by simp, ?_, rfl⟩
    simp only [List.map_nil, calcTaskSpace, List.mapM_nil, Option.pure_def, Option.some.injEq] at hrs
    rw [← hrs]; rfl
  | cons T ts ih =>
    simp only [List.map_cons, calcTaskSpace, List.mapM_cons, Option.bind_eq_bind, Option.pure_def,
      Option.bind_eq_some_iff, Option.some.injEq] at hrs
    obtain ⟨Q, hQ, rs', hrs', rfl⟩ := hrs
    obtain ⟨Q', h1, h2, h3⟩ := chainTask_ready hR hJ hD hDJ hS (hts T (List.mem_cons_self ..)) hQ
    obtain ⟨qs, h4, h5, h6, h7⟩ := ih (fun T' h => hts T' (List.mem_cons_of_mem _ h)) hrs'
    refine ⟨Q' :: qs, ?_, ?_, ?_, ?_⟩
    · simp [List.mapM_cons, h1, h4]
    · intro X hX
      rcases List.mem_cons.mp hX with rfl | hX
      · exact h2
      · exact h5 X hX
    · simp [h3, h6]
    · simp [h7]

/-- acceleration of tasks outside the contact chains below a null-space matrix `M`: each respects only the one directly above it -/
def accSeq {ι : Type*} [Fintype ι] [DecidableEq ι] (P M : Matrix (Fin 6 ⊕ ι) (Fin 6 ⊕ ι) ℝ) :
    (Fin 6 ⊕ ι → ℝ) → Option (GTask ι) → List (GTask ι) → Fin 6 ⊕ ι → ℝ
  | a, _, [] => a
  | a, prev, T :: rest =>
    accSeq P M (a + (match prev with | none => M | some Q => M * gNull P Q) *ᵥ (P *ᵥ (T.Jᵀ *ᵥ (T.Λ *ᵥ T.f)))) (some T) rest

/-- the loop over tasks outside the contact chains, after the first of them -/
theorem free_run {P M : Matrix (RSys (Fin k) ν) (RSys (Fin k) ν) ℝ} (hP : P = S.AinvNc) (hD : RFacts D C P)
    (hR' : Rᵀ * R = 1) (hS : contactSpace Jc A⁻¹ = some S) {Λb Kb}
    (hKb : jktR C.ARinvNCR C.Winv (jBaseR R) = some (Λb, Kb)) {N : Matrix (Fin k ⊕ Fin 6) (Fin k ⊕ Fin 6) ℝ}
    (hN : accR D P * N = M * accR D P) (hM : ∀ y, M *ᵥ (P *ᵥ ncExt (D.N *ᵥ y)) = P *ᵥ ncExt (D.N *ᵥ y))
    (free : List (RTaskIn (Fin k) ν)) (hfree : ∀ T ∈ free, FreeTask T) (hord : ∀ T ∈ free, T.ncOrder ≠ 0)
    (Q : RTask (Fin k) ν) (hQ : Q.JNC = some (Q.J.submatrix id ncOf)) (hQz : ∀ r i, Q.J r (.inr (.inl i)) = 0)
    {rb : List (TaskReady (Fin k ⊕ ν))} (hrb : calcTaskSpace S A⁻¹ (free.map fullTask) = some rb)
    (τR : Fin k ⊕ Fin 6 → ℝ) (τN : ν → ℝ) :
    ∃ qb x, free.mapM (calcJKTR D C P) = some qb ∧ rTaskFrom D C R P (some Kb) (some (Q, N)) τR τN qb = some x ∧
      P *ᵥ actuate (assembleTorque D x.1 x.2)
        = accSeq P M (P *ᵥ actuate (assembleTorque D τR τN)) (some (ofR Q)) (rb.map ofReady) := by
  induction free generalizing Q rb τR τN with
  | nil =>
    simp only [List.map_nil, calcTaskSpace, List.mapM_nil, Option.pure_def, Option.some.injEq] at hrb
    subst hrb
    exact ⟨[], (τR, τN), rfl, rfl, rfl⟩
  | cons T rest ih =>
    simp only [List.map_cons, calcTaskSpace, List.mapM_cons, Option.bind_eq_bind, Option.pure_def,
      Option.bind_eq_some_iff, Option.some.injEq] at hrb
    obtain ⟨Q1, hQ1, rb', hrb', rfl⟩ := hrb
    have hT := hfree T (by simp)
    obtain ⟨q, h1, e1, n1, o1⟩ := freeTask_ready (D := D) (C := C) hS hT hQ1
    rw [← hP] at h1
    obtain ⟨x, hx1, hx2⟩ := nc_next (N := N) hD hR' hKb hN hM (Q := Q) (T := q) hQ hQz (by rw [e1]; exact hT.2.2.1)
      (by rw [e1]; exact hord T (by simp)) (by rw [e1]; exact hT.2.2.2)
    obtain ⟨qb, y, h3, h4, h5⟩ := ih (fun T' h => hfree T' (List.mem_cons_of_mem _ h))
      (fun T' h => hord T' (List.mem_cons_of_mem _ h)) q n1 (by rw [e1]; exact hT.2.2.2) hrb' (τR + x.1) (τN + x.2)
    refine ⟨q :: qb, y, by simp [List.mapM_cons, h1, h3], ?_, ?_⟩
    · rw [hx1, h4]
    · rw [h5, List.map_cons, accSeq, ← o1]
      congr 1
      change _ = _ + (M * gNull P (ofR Q)) *ᵥ (P *ᵥ (q.Jᵀ *ᵥ (q.Λ *ᵥ q.f)))
      rw [← hx2, acc_assemble hD, acc_assemble hD, mulVec_add]
      have hx : ncExt (κ := Fin k) (D.N *ᵥ (τN + x.2)) = ncExt (D.N *ᵥ τN) + ncExt (D.N *ᵥ x.2) := by
        rw [mulVec_add]
        ext i
        rcases i with i | i | i <;> simp [ncExt]
      rw [hx, mulVec_add]
      abel

/-- accelerations: chain tasks first, then tasks outside the contact chains -/
theorem stack_acc_any (hR : R * Rᵀ = 1) (hJ : jInc SI R (baseNc A) = some J) (hD : RFacts D C S.AinvNc)
    (hDJ : D.J = J) (hS : contactSpace Jc A⁻¹ = some S) {Λb Kb}
    (hKb : jktR C.ARinvNCR C.Winv (jBaseR R) = some (Λb, Kb))
    (chain free : List (RTaskIn (Fin k) ν)) (hne : chain ≠ []) (hchain : ∀ T ∈ chain, ChainTask A T)
    (hfree : ∀ T ∈ free, FreeTask T) (hord : ∀ i (hi : i < free.length), free[i].ncOrder = i)
    {ra rb : List (TaskReady (Fin k ⊕ ν))} (hra : calcTaskSpace S A⁻¹ (chain.map fullTask) = some ra)
    (hrb : calcTaskSpace S A⁻¹ (free.map fullTask) = some rb) :
    ∃ qs x, (chain ++ free).mapM (calcJKTR D C S.AinvNc) = some qs ∧
      rTaskFrom D C R S.AinvNc (some Kb) none 0 0 qs = some x ∧
      S.AinvNc *ᵥ actuate (assembleTorque D x.1 x.2) = accSeq S.AinvNc (nullAfter S.AinvNc 1 (ra.map ofReady))
        (accFrom S.AinvNc 1 0 (ra.map ofReady)) none (rb.map ofReady) := by
  have hR' : Rᵀ * R = 1 := mul_eq_one_comm.mp hR
  obtain ⟨qa, hqa, hready, hmap, hql⟩ := chainTasks_ready hR hJ hD hDJ hS chain hchain hra
  have hqne : qa ≠ [] := by
    intro e; rw [e] at hql; exact hne (List.length_eq_zero_iff.mp hql.symm)
  obtain ⟨P, hP⟩ : ∃ P, P = S.AinvNc := ⟨_, rfl⟩
  rw [← hP] at hD hqa ⊢
  have hrun := fun rest => chain_run hD R (some Kb) qa rest hready none 0 0 1 (by simp [prevNull]) (by simp)
  rw [hmap] at hrun
  generalize hM : nullAfter P 1 (ra.map ofReady) = M at hrun ⊢
  generalize ha : accFrom P 1 0 (ra.map ofReady) = a₀
  have hzero : accR D P *ᵥ (0 : Fin k ⊕ Fin 6 → ℝ) = 0 := mulVec_zero _
  rw [hzero, ha] at hrun
  -- the tasks outside the chains
  have happ : ∀ qb, free.mapM (calcJKTR D C P) = some qb →
      (chain ++ free).mapM (calcJKTR D C P) = some (qa ++ qb) := by
    intro qb hqb
    rw [List.mapM_append, hqa, hqb]; rfl
  match free, hfree, hord, hrb, happ with
  | [], _, _, hrb, happ =>
    simp only [List.map_nil, calcTaskSpace, List.mapM_nil, Option.pure_def, Option.some.injEq] at hrb
    subst hrb
    obtain ⟨prev', τR', h1, h2, -⟩ := hrun []
    refine ⟨qa ++ [], (τR', 0), happ [] rfl, ?_, ?_⟩
    · rw [h1]; rfl
    · rw [acc_assemble hD, h2]
      simp [accSeq, ncExt]
  | T1 :: rest, hfree, hord, hrb, happ =>
    simp only [List.map_cons, calcTaskSpace, List.mapM_cons, Option.bind_eq_bind,
      Option.pure_def, Option.bind_eq_some_iff, Option.some.injEq] at hrb
    obtain ⟨Q1, hQ1, rb', hrb', rfl⟩ := hrb
    have hT1 := hfree T1 (by simp)
    obtain ⟨q1, h1, e1, n1, o1⟩ := freeTask_ready (D := D) (C := C) hS hT1 hQ1
    rw [← hP] at h1
    have hord' : ∀ T ∈ rest, T.ncOrder ≠ 0 := by
      intro T hT
      obtain ⟨i, hi, rfl⟩ := List.getElem_of_mem hT
      have := hord (i + 1) (by simp; omega)
      rw [List.getElem_cons_succ] at this
      omega
    obtain ⟨qb, hqb⟩ : ∃ qb, rest.mapM (calcJKTR D C P) = some qb := by
      obtain ⟨prev', τR', g1, g2, g3, g4, g5⟩ := hrun []
      obtain ⟨⟨Q, N⟩, rfl⟩ := Option.isSome_iff_exists.mp (g5 (Or.inl hqne))
      obtain ⟨qb, -, h, -⟩ := free_run (N := N) hP hD hR' hS hKb g3 g4 rest (fun T h => hfree T (List.mem_cons_of_mem _ h))
        hord' q1 n1 (by rw [e1]; exact hT1.2.2.2) hrb' 0 0
      exact ⟨qb, h⟩
    obtain ⟨prev', τR', g1, g2, g3, g4, g5⟩ := hrun (q1 :: qb)
    obtain ⟨⟨Q, N⟩, rfl⟩ := Option.isSome_iff_exists.mp (g5 (Or.inl hqne))
    obtain ⟨x, hx1, hx2⟩ := nc_first (N := N) hD hR' hKb g3 g4 Q (T := q1) (by rw [e1]; exact hT1.2.2.1)
      (by rw [e1]; exact hord 0 (by simp)) (by rw [e1]; exact hT1.2.2.2)
    obtain ⟨qb', y, k1, k2, k3⟩ := free_run (N := N) hP hD hR' hS hKb g3 g4 rest
      (fun T h => hfree T (List.mem_cons_of_mem _ h)) hord' q1 n1 (by rw [e1]; exact hT1.2.2.2) hrb' (τR' + x.1) (0 + x.2)
    rw [hqb] at k1
    obtain rfl := Option.some.inj k1
    refine ⟨qa ++ q1 :: qb, y, happ (q1 :: qb) (by simp [List.mapM_cons, h1, hqb]), ?_, ?_⟩
    · rw [g1, hx1, k2]
    · rw [k3, List.map_cons, accSeq, ← o1]
      congr 1
      rw [acc_assemble hD, mulVec_add, g2, zero_add, add_assoc, hx2]
      rfl

/-- accelerations: chain tasks first, then at most two tasks outside the contact chains -/
theorem stack_acc (hR : R * Rᵀ = 1) (hJ : jInc SI R (baseNc A) = some J) (hD : RFacts D C S.AinvNc)
    (hDJ : D.J = J) (hS : contactSpace Jc A⁻¹ = some S) {Λb Kb}
    (hKb : jktR C.ARinvNCR C.Winv (jBaseR R) = some (Λb, Kb))
    (chain free : List (RTaskIn (Fin k) ν)) (hne : chain ≠ []) (hchain : ∀ T ∈ chain, ChainTask A T)
    (hfree : ∀ T ∈ free, FreeTask T) (hlen : free.length ≤ 2)
    (hord : ∀ i (hi : i < free.length), free[i].ncOrder = i)
    {rs : List (TaskReady (Fin k ⊕ ν))} (hrs : calcTaskSpace S A⁻¹ ((chain ++ free).map fullTask) = some rs) :
    ∃ qs x, (chain ++ free).mapM (calcJKTR D C S.AinvNc) = some qs ∧
      rTaskFrom D C R S.AinvNc (some Kb) none 0 0 qs = some x ∧
      S.AinvNc *ᵥ actuate (assembleTorque D x.1 x.2) = accFrom S.AinvNc 1 0 (rs.map ofReady) := by
  have hsplit : ∃ ra rb, calcTaskSpace S A⁻¹ (chain.map fullTask) = some ra ∧
      calcTaskSpace S A⁻¹ (free.map fullTask) = some rb ∧ rs = ra ++ rb := by
    simp only [calcTaskSpace, List.map_append, List.mapM_append, Option.bind_eq_bind, Option.pure_def,
      Option.bind_eq_some_iff, Option.some.injEq] at hrs
    obtain ⟨ra, h1, rb, h2, h3⟩ := hrs
    exact ⟨ra, rb, h1, h2, h3.symm⟩
  obtain ⟨ra, rb, hra, hrb, rfl⟩ := hsplit
  obtain ⟨qs, x, h1, h2, h3⟩ := stack_acc_any hR hJ hD hDJ hS hKb chain free hne hchain hfree hord hra hrb
  refine ⟨qs, x, h1, h2, h3.trans ?_⟩
  have hl : rb.length = free.length := by
    have := length_of_mapM hrb
    rwa [List.length_map] at this
  rw [List.map_append, accFrom_append]
  match rb, hl with
  | [], _ => rfl
  | [_], _ => rfl
  | [_, _], _ => rfl
  | _ :: _ :: _ :: _, hl => simp only [List.length_cons] at hl; omega

/-- the base Jacobian is finite if no force on the base is absorbed by the contacts -/
theorem base_ready (hA : IsSPD A) (hR : R * Rᵀ = 1) (h : reduce vcOf ncOf A⁻¹ J G = some D) (h0 : ∀ r j, Jc r (ncOf j) = 0)
    (hk : k ≤ c) (hS : contactSpace Jc A⁻¹ = some S) (hC : reducedContact D Jc A⁻¹ = some C)
    (hbase : ∀ w : Fin 6 → ℝ, (∃ F, Jcᵀ *ᵥ F = (Sum.elim w 0 : RSys (Fin k) ν → ℝ)) → w = 0) :
    ∃ Λ K, jktR C.ARinvNCR C.Winv (jBaseR R) = some (Λ, K) := by
  obtain ⟨C', hC', -, -, -, -, -, l6⟩ := C41_contact_partial hA h h0 hk hS
  rw [hC] at hC'
  obtain rfl := Option.some.inj hC'
  obtain ⟨-, -, hAR⟩ := C40_projection hA h
  obtain ⟨SR, hSR, g1, g2⟩ : ∃ SR, contactSpace (jCR Jc) D.AR⁻¹ = some SR ∧ SR.Winv = C.Winv ∧
      SR.AinvNc = C.ARinvNCR := ⟨_, l6, rfl, rfl⟩
  have hfin := (C06_finite_iff hAR hSR ⟨6, jBaseR R, 0⟩).mpr ?_
  · obtain ⟨Q, hQ⟩ := Option.isSome_iff_exists.mp hfin
    obtain ⟨hu, -⟩ := (jkt_eq_some hSR).mp hQ
    rw [← g1, ← g2]
    have hi : eigenInverse (jBaseR R * SR.AinvNc * (jBaseR R)ᵀ) = some (jBaseR R * SR.AinvNc * (jBaseR R)ᵀ)⁻¹ :=
      eigenInverse_eq_some.mpr ⟨hu, rfl⟩
    unfold jktR
    rw [hi]
    exact ⟨_, _, rfl⟩
  · rintro y ⟨F, hF⟩
    have hw : (baseRot R)ᵀ *ᵥ y = 0 := by
      apply hbase
      refine ⟨F, ?_⟩
      ext a
      rcases a with a | a | a
      · have := congrFun hF (.inl a)
        simpa [mulVec, dotProduct, jCR, vcOf, jBaseR] using this
      · have := congrFun hF (.inr (.inl a))
        simpa [mulVec, dotProduct, jCR, vcOf, jBaseR] using this
      · simp only [mulVec, dotProduct, transpose_apply, Sum.elim_inr, Pi.zero_apply]
        exact Finset.sum_eq_zero fun r _ => by rw [show Jc r (.inr (.inr a)) = 0 from h0 r a, zero_mul]
    have hb : baseRot R * (baseRot R)ᵀ = 1 := mul_eq_one_comm.mp (baseRot_transpose_mul (mul_eq_one_comm.mp hR))
    have := congrArg (fun v => baseRot R *ᵥ v) hw
    beta_reduce at this
    rwa [mulVec_mulVec, hb, one_mulVec, mulVec_zero] at this

/-- C55 (same motion).  For a stack of tasks on the contact chains or the centre of mass, followed by at most two tasks on links
outside the contact chains, control with the reduced model is finite whenever control with the full model is, and the robot moves
exactly as under control with the full model: with gravity compensation from the same model, every joint and the base get the same
acceleration.  (Hypotheses on the robot as for C40 and C41; `hbase`: no force on the base is absorbed by the contacts.) -/
theorem C55_same_motion_partial (hA : IsSPD A) (hR : R * Rᵀ = 1) (hJ : jInc SI R (baseNc A) = some J)
    (hcpl : ∀ (i : Fin k) (j : ν), A (.inr (.inl i)) (.inr (.inr j)) = 0)
    (h : reduce vcOf ncOf A⁻¹ J G = some D) (h0 : ∀ r j, Jc r (ncOf j) = 0) (hk : k ≤ c) (hB : BaseDetermined Jc)
    (hbase : ∀ w : Fin 6 → ℝ, (∃ F, Jcᵀ *ᵥ F = (Sum.elim w 0 : RSys (Fin k) ν → ℝ)) → w = 0)
    (hS : contactSpace Jc A⁻¹ = some S) (hC : reducedContact D Jc A⁻¹ = some C)
    (chain free : List (RTaskIn (Fin k) ν)) (hne : chain ≠ []) (hchain : ∀ T ∈ chain, ChainTask A T)
    (hfree : ∀ T ∈ free, FreeTask T) (hlen : free.length ≤ 2)
    (hord : ∀ i (hi : i < free.length), free[i].ncOrder = i)
    {rs : List (TaskReady (Fin k ⊕ ν))} (hrs : calcTaskSpace S A⁻¹ ((chain ++ free).map fullTask) = some rs) :
    ∃ τ, reducedTaskTorque D C R A⁻¹ (chain ++ free) = some τ ∧
      ∀ qdd qdd' F F', Motion A Jc G (reducedGravityTorque D C + τ) qdd F →
        Motion A Jc G (gravityTorque S A⁻¹ G + taskTorque S rs) qdd' F' → qdd = qdd' := by
  obtain ⟨hD, hP⟩ := rFacts hA hR hJ hcpl h h0 hk hB hS hC
  have hDJ : D.J = J := (reduce_eq_some h).2.2.2.1
  obtain ⟨Λb, Kb, hKb⟩ := base_ready hA hR h h0 hk hS hC hbase
  obtain ⟨qs, x, h1, h2, h3⟩ := stack_acc hR hJ hD hDJ hS hKb chain free hne hchain hfree hlen hord hrs
  refine ⟨assembleTorque D x.1 x.2, ?_, ?_⟩
  · unfold reducedTaskTorque
    simp only [hP, h1, hKb, Option.map_some, h2]
  · intro qdd qdd' F F' hm hm'
    rw [C41_gravity_torque_partial hA h h0 hk hB hS hC] at hm
    rw [motion_iff hA hS] at hm hm'
    rw [hm.1, hm'.1]
    have hall : ∀ Q ∈ rs, ∃ T, calculateJKT S A⁻¹ T = some Q := by
      intro Q hQ
      obtain ⟨T, -, hT⟩ := mem_of_mapM hrs Q hQ
      exact ⟨T, hT⟩
    have hfull := full_acc hA hS hB rs hall 1 0 1 (by simp)
    have hz : S.AinvNc *ᵥ actuate (0 : Fin k ⊕ ν → ℝ) = 0 := by rw [actuate_eq, mulVec_zero, mulVec_zero]
    rw [hz, ← h3] at hfull
    have hadd : ∀ a b : Fin k ⊕ ν → ℝ, actuate (a + b) = actuate a + actuate b := by
      intro a b; rw [actuate_eq, actuate_eq, actuate_eq, mulVec_add]
    rw [hadd, hadd, mulVec_sub, mulVec_sub, mulVec_add, mulVec_add, ← hfull]
    rfl

/-- tasks below a task that is respected by the null-space matrix do not move it -/
theorem first_run {P : Matrix (RSys (Fin k) ν) (RSys (Fin k) ν) ℝ} {t : ℕ} {J0 : Matrix (Fin t) (RSys (Fin k) ν) ℝ}
    (Kb : Option (Matrix (Fin k ⊕ Fin 6) (Fin 6) ℝ)) (ts : List (RTask (Fin k) ν)) (Q : RTask (Fin k) ν)
    (N : Matrix (Fin k ⊕ Fin 6) (Fin k ⊕ Fin 6) ℝ) (hN : J0 * accR D P * N = 0) (τR : Fin k ⊕ Fin 6 → ℝ) (τN : ν → ℝ)
    {x : (Fin k ⊕ Fin 6 → ℝ) × (ν → ℝ)} (hx : rTaskFrom D C R P Kb (some (Q, N)) τR τN ts = some x) :
    J0 *ᵥ (accR D P *ᵥ x.1) = J0 *ᵥ (accR D P *ᵥ τR) := by
  have hz : ∀ v, J0 *ᵥ (accR D P *ᵥ (N *ᵥ v)) = 0 := by
    intro v
    rw [mulVec_mulVec, mulVec_mulVec, hN, zero_mulVec]
  induction ts generalizing Q N τR τN with
  | nil =>
    rw [rTaskFrom, Option.some.injEq] at hx
    rw [← hx]
  | cons T rest ih =>
    by_cases hT : T.noncont = true
    · rcases Kb with _ | K
      · simp [rTaskFrom, hT] at hx
      · rcases hy : ncTorque D R P K Q N T with _ | y
        · simp [rTaskFrom, hT, hy] at hx
        · have hx' : rTaskFrom D C R P (some K) (some (T, N)) (τR + y.1) (τN + y.2) rest = some x := by
            simpa [rTaskFrom, hT, hy] using hx
          rw [ih T N hN _ _ hx' hz, mulVec_add, mulVec_add]
          have : ∃ v, y.1 = N *ᵥ v := by
            unfold ncTorque at hy
            simp only at hy
            split at hy
            · rw [← Option.some.inj hy]; exact ⟨_, rfl⟩
            · split at hy
              · cases hy
              · rw [← Option.some.inj hy]; exact ⟨_, rfl⟩
          obtain ⟨v, hv⟩ := this
          rw [hv, hz, add_zero]
    · have hx' : rTaskFrom D C R P Kb (some (T, nullR C T N)) (τR + N *ᵥ (T.Jkt *ᵥ (T.Λ *ᵥ T.f))) τN rest = some x := by
        simpa [rTaskFrom, hT] using hx
      have hN' : J0 * accR D P * nullR C T N = 0 := by
        unfold nullR
        rw [← Matrix.mul_assoc, hN, Matrix.zero_mul]
      rw [ih T _ hN' _ _ hx' (fun v => by rw [mulVec_mulVec, mulVec_mulVec, hN', zero_mulVec]), mulVec_add, mulVec_add, hz,
        add_zero]

/-- C55 (first task).  Whatever tasks follow, of any type and number: if control with the reduced model gives a command at all, a
first task on the contact chains or the centre of mass gets exactly its commanded acceleration. -/
theorem C55_first_task_partial (hA : IsSPD A) (hR : R * Rᵀ = 1) (hJ : jInc SI R (baseNc A) = some J)
    (hcpl : ∀ (i : Fin k) (j : ν), A (.inr (.inl i)) (.inr (.inr j)) = 0)
    (h : reduce vcOf ncOf A⁻¹ J G = some D) (h0 : ∀ r j, Jc r (ncOf j) = 0) (hk : k ≤ c) (hB : BaseDetermined Jc)
    (hS : contactSpace Jc A⁻¹ = some S) (hC : reducedContact D Jc A⁻¹ = some C)
    {T : RTaskIn (Fin k) ν} (hT : ChainTask A T) (lower : List (RTaskIn (Fin k) ν)) {τ : Fin k ⊕ ν → ℝ}
    (hτ : reducedTaskTorque D C R A⁻¹ (T :: lower) = some τ) {qdd : RSys (Fin k) ν → ℝ} {F : Fin c → ℝ}
    (hm : Motion A Jc G (reducedGravityTorque D C + τ) qdd F) : T.J *ᵥ qdd = T.f := by
  obtain ⟨hD, hP⟩ := rFacts hA hR hJ hcpl h h0 hk hB hS hC
  have hDJ : D.J = J := (reduce_eq_some h).2.2.2.1
  rw [C41_gravity_torque_partial hA h h0 hk hB hS hC] at hm
  have hacc := task_accel hA hS hB hm T.J
  unfold reducedTaskTorque at hτ
  simp only [hP] at hτ
  split at hτ
  · cases hτ
  rename_i rs hrs
  split at hτ
  · cases hτ
  rename_i x hx
  simp only [List.mapM_cons, Option.bind_eq_bind, Option.pure_def, Option.bind_eq_some_iff, Option.some.injEq] at hrs
  obtain ⟨q, hq, qs, hqs, rfl⟩ := hrs
  obtain ⟨hq1, hq2, hq3⟩ := chainTask_inv hR hJ hD hDJ hT hq
  subst hq2
  have hN : q.J * accR D S.AinvNc * nullR C q 1 = 0 := by
    rw [Matrix.mul_assoc, accR_null hD hq1 (M := 1) (by simp), Matrix.one_mul, ← Matrix.mul_assoc]
    change q.J * (1 - S.AinvNc * q.Jᵀ * q.Λ * q.J) * _ = 0
    have : q.J * (1 - S.AinvNc * q.Jᵀ * q.Λ * q.J) = 0 := by
      rw [Matrix.mul_sub, Matrix.mul_one, ← Matrix.mul_assoc, ← Matrix.mul_assoc, ← Matrix.mul_assoc, hq3, Matrix.one_mul,
        sub_self]
    rw [this, Matrix.zero_mul]
  have hx' : rTaskFrom D C R S.AinvNc ((jktR C.ARinvNCR C.Winv (jBaseR R)).map Prod.snd) (some (q, nullR C q 1))
      (0 + (1 : Matrix (Fin k ⊕ Fin 6) (Fin k ⊕ Fin 6) ℝ) *ᵥ (q.Jkt *ᵥ (q.Λ *ᵥ q.f))) 0 qs = some x := by
    simpa [rTaskFrom, hq1.kind] using hx
  have hfr := first_run _ qs q _ hN _ _ hx'
  rw [hacc, ← Option.some.inj hτ]
  have e : Tm S q.J *ᵥ assembleTorque D x.1 x.2 = q.J *ᵥ (S.AinvNc *ᵥ actuate (assembleTorque D x.1 x.2)) := by
    rw [actuate_eq, mulVec_mulVec, mulVec_mulVec]; rfl
  have e2 : q.J *ᵥ (S.AinvNc *ᵥ ncExt (D.N *ᵥ x.2)) = 0 := by
    rw [← hq1.jr, ← mulVec_mulVec, hD.decouple, mulVec_zero]
  rw [e, acc_assemble hD, mulVec_add, hfr, e2, add_zero, zero_add, one_mulVec, accR_Jkt hD hq1, mulVec_mulVec, mulVec_mulVec,
    mulVec_mulVec, hq3, one_mulVec]

end C55

section Undefined

variable {κ ν : Type*} [Fintype κ] [DecidableEq κ] [Fintype ν] [DecidableEq ν] {c : ℕ}
  {D : Reduced κ ν} {C : ReducedContact c κ ν} {R : Mat3} {Ainv : Matrix (RSys κ ν) (RSys κ ν) ℝ}

theorem calcJKTR_toIn {P : Matrix (RSys κ ν) (RSys κ ν) ℝ} {T : RTaskIn κ ν} {q : RTask κ ν}
    (h : calcJKTR D C P T = some q) : q.toRTaskIn = T := by
  unfold calcJKTR at h
  split_ifs at h <;> obtain ⟨_, -, rfl⟩ := Option.map_eq_some_iff.mp h <;> rfl

/-- C55 is false for a stack that begins with a task outside the contact chains: the code reads the task before the first one. -/
theorem C55_free_task_first_undefined {T : RTaskIn κ ν} (hT : T.noncont = true) (lower : List (RTaskIn κ ν)) :
    reducedTaskTorque D C R Ainv (T :: lower) = none := by
  unfold reducedTaskTorque
  simp only
  split
  · rfl
  rename_i rs hrs
  simp only [List.mapM_cons, Option.bind_eq_bind, Option.pure_def, Option.bind_eq_some_iff, Option.some.injEq] at hrs
  obtain ⟨q, hq, qs, hqs, rfl⟩ := hrs
  have : q.noncont = true := by rw [calcJKTR_toIn hq]; exact hT
  simp [rTaskFrom, this]

/-- C55 is false for a stack in which a task outside the contact chains, not the first such task, comes directly after a task on
the chains: the code uses a matrix of that task that is not set. -/
theorem C55_free_after_chain_undefined {T Q : RTaskIn κ ν} (hQ : Q.noncont = false) (hT : T.noncont = true)
    (ho : T.ncOrder ≠ 0) (upper lower : List (RTaskIn κ ν)) :
    reducedTaskTorque D C R Ainv (upper ++ Q :: T :: lower) = none := by
  unfold reducedTaskTorque
  simp only
  split
  · rfl
  rename_i rs hrs
  simp only [List.mapM_append, List.mapM_cons, Option.bind_eq_bind, Option.pure_def, Option.bind_eq_some_iff,
    Option.some.injEq] at hrs
  obtain ⟨us, -, _, ⟨q, hq, _, ⟨t, ht, ls, -, rfl⟩, rfl⟩, rfl⟩ := hrs
  have h1 : q.noncont = false := by rw [calcJKTR_toIn hq]; exact hQ
  have h2 : t.noncont = true := by rw [calcJKTR_toIn ht]; exact hT
  have h3 : t.ncOrder ≠ 0 := by rw [calcJKTR_toIn ht]; exact ho
  have h4 : q.JNC = none := by
    unfold calcJKTR at hq
    split_ifs at hq with g1 g2 g3
    · obtain ⟨_, -, rfl⟩ := Option.map_eq_some_iff.mp hq; rfl
    · obtain ⟨_, -, rfl⟩ := Option.map_eq_some_iff.mp hq; rfl
    · simp [hQ] at g3
  have key : ∀ (P : Matrix (RSys κ ν) (RSys κ ν) ℝ) Kb us prev τR τN,
      rTaskFrom D C R P Kb prev τR τN (us ++ q :: t :: ls) = none := by
    intro P Kb us
    induction us with
    | nil =>
      intro prev τR τN
      rw [List.nil_append]
      rcases Kb with _ | K
      · rcases prev with _ | ⟨Q', N⟩ <;> simp [rTaskFrom, h1, h2]
      · rcases prev with _ | ⟨Q', N⟩ <;> simp [rTaskFrom, h1, h2, ncTorque, h3, h4]
    | cons u us ih =>
      intro prev τR τN
      rw [List.cons_append]
      by_cases hu : u.noncont = true
      · rcases prev with _ | ⟨Q', N⟩
        · simp [rTaskFrom, hu]
        rcases Kb with _ | K
        · simp [rTaskFrom, hu]
        rcases hn : ncTorque D R P K Q' N u with _ | y
        · simp [rTaskFrom, hu, hn]
        · simpa [rTaskFrom, hu, hn] using ih _ _ _
      · rcases prev with _ | ⟨Q', N⟩
        · simpa [rTaskFrom, hu] using ih _ _ _
        · simpa [rTaskFrom, hu] using ih _ _ _
  rw [key]

end Undefined

/-! ### The robot of C40 with a six-joint leg: two ways in which the reduced model moves it differently -/

section Example

/-- response of the robot to a generalised force -/
noncomputable def exP (x : RSys (Fin 6) (Fin 6) → ℝ) : RSys (Fin 6) (Fin 6) → ℝ
  | .inl s => (2 * x (.inl s) - 2 * x (.inr (.inl s)) - x (.inr (.inr s))) / 5
  | .inr (.inl s) => (2 * x (.inr (.inl s)) + x (.inr (.inr s)) - 2 * x (.inl s)) / 5
  | .inr (.inr s) => (x (.inr (.inl s)) + 3 * x (.inr (.inr s)) - x (.inl s)) / 5

theorem exE_mulVec (v : RSys (Fin 6) (Fin 6) → ℝ) : exE 6 *ᵥ v = fun s => v (.inl s) + v (.inr (.inr s)) := by
  ext s; simp [mulVec, dotProduct, exE, Fintype.sum_sum_type]

theorem exE_transpose_mulVec (w : Fin 6 → ℝ) : (exE 6)ᵀ *ᵥ w = Sum.elim w (Sum.elim 0 w) := by
  ext a; rcases a with s | s | s <;> simp [mulVec, dotProduct, exE]

theorem exFoot_mulVec (v : RSys (Fin 6) (Fin 6) → ℝ) : exFoot 6 *ᵥ v = fun s => v (.inl s) + v (.inr (.inl s)) := by
  ext s
  have : ∀ j : Fin 6, ((j : ℕ) = s ∨ ((j : ℕ) = 6 ∧ s = 0)) ↔ j = s := by intro j; rw [Fin.ext_iff]; omega
  simp [mulVec, dotProduct, exFoot, Fintype.sum_sum_type, this]

theorem exFoot_transpose_mulVec (w : Fin 6 → ℝ) : (exFoot 6)ᵀ *ᵥ w = Sum.elim w (Sum.elim w 0) := by
  have : ∀ s j : Fin 6, ((j : ℕ) = s ∨ ((j : ℕ) = 6 ∧ s = 0)) ↔ j = s := by intro s j; rw [Fin.ext_iff]; omega
  ext a; rcases a with s | s | s <;> simp [mulVec, dotProduct, exFoot, this]

theorem exP_eq {S : ContactSpace 6 (Fin 6 ⊕ Fin 6)} (hS : contactSpace (exFoot 6) (exRed 6)⁻¹ = some S)
    (x : RSys (Fin 6) (Fin 6) → ℝ) : S.AinvNc *ᵥ x = exP x := by
  have hm : Motion (exRed 6) (exFoot 6) (-x) 0 (exP x)
      (fun s => (2 * x (.inl s) + 3 * x (.inr (.inl s)) - x (.inr (.inr s))) / 5) := by
    constructor
    · unfold Dynamics
      rw [exRed, add_mulVec, one_mulVec, ← mulVec_mulVec, exE_mulVec, exE_transpose_mulVec, exFoot_transpose_mulVec]
      ext a
      rcases a with s | s | s
      · simp [actuate, exP]; ring
      · simp [actuate, exP]; ring
      · simp [actuate, exP]; ring
    · unfold ContactsFixed
      rw [exFoot_mulVec]
      ext s
      simp [exP]; ring
  have := ((motion_iff exRed_spd hS _ _ _ _).mp hm).1
  rw [this, actuate_eq, mulVec_zero, zero_sub, neg_neg]

/-- matrix with one row -/
def rowM (w : RSys (Fin 6) (Fin 6) → ℝ) : Matrix (Fin 1) (RSys (Fin 6) (Fin 6)) ℝ := Matrix.of fun _ => w

def conM (l : ℝ) : Matrix (Fin 1) (Fin 1) ℝ := Matrix.of fun _ _ => l

@[simp] theorem conM_apply (l : ℝ) (i j) : conM l i j = l := rfl

@[simp] theorem rowM_apply (w : RSys (Fin 6) (Fin 6) → ℝ) (i a) : rowM w i a = w a := rfl

/-- a task with one row -/
noncomputable def exRow (w : RSys (Fin 6) (Fin 6) → ℝ) (f : ℝ) (reduced : Bool) (order : ℕ) : RTaskIn (Fin 6) (Fin 6) :=
  ⟨1, rowM w, fun _ => f, false, reduced, !reduced, order⟩

theorem exRow_ready {S : ContactSpace 6 (Fin 6 ⊕ Fin 6)} (hS : contactSpace (exFoot 6) (exRed 6)⁻¹ = some S)
    {w : RSys (Fin 6) (Fin 6) → ℝ} {l : ℝ} (hl : l * (w ⬝ᵥ exP w) = 1) (f : ℝ) (reduced : Bool) (order : ℕ) :
    ∃ Q, calculateJKT S (exRed 6)⁻¹ (fullTask (exRow w f reduced order)) = some Q ∧
      ofReady Q = ⟨1, rowM w, fun _ => f, conM l⟩ := by
  have e : (rowM w) * S.AinvNc * (rowM w)ᵀ = conM (w ⬝ᵥ exP w) := by
    rw [← exP_eq hS, Matrix.mul_assoc]
    ext i j
    rw [Matrix.mul_apply, conM_apply, dotProduct]
    refine Finset.sum_congr rfl fun a _ => ?_
    rw [Matrix.mul_apply]
    rfl
  have hne : w ⬝ᵥ exP w ≠ 0 := by
    intro h; rw [h, mul_zero] at hl; exact one_ne_zero hl.symm
  have hu : IsUnit ((rowM w) * S.AinvNc * (rowM w)ᵀ).det := by
    rw [e, Matrix.det_unique]
    exact isUnit_iff_ne_zero.mpr hne
  have hinv : ((rowM w) * S.AinvNc * (rowM w)ᵀ)⁻¹ = conM l := by
    rw [e]
    apply inv_eq_left_inv
    ext i j
    rw [Matrix.mul_apply, Subsingleton.elim i j]
    simp [hl]
  refine ⟨_, (jkt_eq_some hS).mpr ⟨hu, rfl⟩, ?_⟩
  exact congrArg (fun Λ => (⟨1, rowM w, fun _ => f, Λ⟩ : GTask (Fin 6 ⊕ Fin 6))) hinv

theorem exRow_gNull {S : ContactSpace 6 (Fin 6 ⊕ Fin 6)} (hS : contactSpace (exFoot 6) (exRed 6)⁻¹ = some S)
    (w : RSys (Fin 6) (Fin 6) → ℝ) (f l : ℝ) (v : RSys (Fin 6) (Fin 6) → ℝ) :
    gNull S.AinvNc ⟨1, rowM w, fun _ => f, conM l⟩ *ᵥ v = v - (l * (w ⬝ᵥ v)) • exP w := by
  unfold gNull
  rw [sub_mulVec, one_mulVec, ← mulVec_mulVec, ← mulVec_mulVec, ← mulVec_mulVec, exP_eq hS]
  have e : ((rowM w)ᵀ *ᵥ (conM l *ᵥ
      ((rowM w) *ᵥ v))) = (l * (w ⬝ᵥ v)) • w := by
    ext a
    simp [mulVec, dotProduct, mul_comm]
  rw [e]
  congr 1
  ext a
  rcases a with s | s | s <;> simp [exP] <;> ring

theorem exRow_force (w : RSys (Fin 6) (Fin 6) → ℝ) (f l : ℝ) :
    (rowM w)ᵀ *ᵥ (conM l *ᵥ (fun _ => f : Fin 1 → ℝ)) = (l * f) • w := by
  ext a
  simp [mulVec, dotProduct, mul_comm]

/-- unit row at a leg joint, unit row at an arm joint -/
noncomputable abbrev legRow (s : Fin 6) : RSys (Fin 6) (Fin 6) → ℝ := Pi.single (.inr (.inl s)) 1
noncomputable abbrev armRow (s : Fin 6) : RSys (Fin 6) (Fin 6) → ℝ := Pi.single (.inr (.inr s)) 1

theorem acc_of_motion {ι : Type*} [Fintype ι] [DecidableEq ι] {c : ℕ} {A : Matrix (Fin 6 ⊕ ι) (Fin 6 ⊕ ι) ℝ}
    {J : Matrix (Fin c) (Fin 6 ⊕ ι) ℝ} {S : ContactSpace c ι} (hA : IsSPD A) (hS : contactSpace J A⁻¹ = some S)
    (hB : BaseDetermined J) {G : Fin 6 ⊕ ι → ℝ} {τ : ι → ℝ} {qdd : Fin 6 ⊕ ι → ℝ} {F : Fin c → ℝ}
    (h : Motion A J G (gravityTorque S A⁻¹ G + τ) qdd F) : qdd = S.AinvNc *ᵥ actuate τ := by
  rw [motion_iff hA hS] at h
  rw [h.1, actuate_eq, mulVec_add, ← actuate_eq, add_sub_right_comm, mulVec_add, mulVec_sub,
    P_gravity hA hS hB, sub_self, zero_add, actuate_eq]

/-- The hypotheses of the C55 theorems about the robot hold. -/
theorem exC55 (G : RSys (Fin 6) (Fin 6) → ℝ) :
    ∃ D S C, reduce vcOf ncOf (exRed 6)⁻¹ 1 G = some D ∧ contactSpace (exFoot 6) (exRed 6)⁻¹ = some S ∧
      reducedContact D (exFoot 6) (exRed 6)⁻¹ = some C ∧
      (∀ w : Fin 6 → ℝ, (∃ F, (exFoot 6)ᵀ *ᵥ F = (Sum.elim w 0 : RSys (Fin 6) (Fin 6) → ℝ)) → w = 0) := by
  obtain ⟨D, hD⟩ := exRed_reduce (k := 6) G
  obtain ⟨S, hS⟩ := exFoot_contact (k := 6)
  obtain ⟨C, hC, -⟩ := C41_contact_partial exRed_spd hD (fun _ _ => rfl) le_rfl hS
  refine ⟨D, S, C, hD, hS, hC, ?_⟩
  rintro w ⟨F, hF⟩
  rw [exFoot_transpose_mulVec] at hF
  ext s
  have h1 := congrFun hF (.inl s)
  have h2 := congrFun hF (.inr (.inl s))
  simp only [Sum.elim_inl, Sum.elim_inr, Pi.zero_apply] at h1 h2
  rw [← h1, h2]; rfl

theorem exRow_chain {w : RSys (Fin 6) (Fin 6) → ℝ} (hw : ∀ j, w (ncOf j) = 0) (f : ℝ) (o : ℕ) :
    ChainTask (exRed 6) (exRow w f true o) :=
  ⟨rfl, .inr ⟨rfl, rfl, fun _ j => hw j⟩⟩

theorem exRow_free {w : RSys (Fin 6) (Fin 6) → ℝ} (hw : ∀ i, w (.inr (.inl i)) = 0) (f : ℝ) (o : ℕ) :
    FreeTask (exRow w f false o) :=
  ⟨rfl, rfl, rfl, fun _ i => hw i⟩

theorem legRow_exP (s : Fin 6) : (5 / 2 : ℝ) * (legRow s ⬝ᵥ exP (legRow s)) = 1 := by
  simp [exP]

theorem armRow_exP (s : Fin 6) : (5 / 3 : ℝ) * (armRow s ⬝ᵥ exP (armRow s)) = 1 := by
  simp [exP]

theorem armRow_exP_sum : (5 / 6 : ℝ) * ((armRow 0 + armRow 1) ⬝ᵥ exP (armRow 0 + armRow 1)) = 1 := by
  simp [exP, add_dotProduct]; norm_num

/-- Leg task, then two arm tasks: the hypotheses of C55 are met. -/
example (G : RSys (Fin 6) (Fin 6) → ℝ) (f0 f1 f2 : ℝ) :
    ∃ D C τ, reduce vcOf ncOf (exRed 6)⁻¹ 1 G = some D ∧ reducedContact D (exFoot 6) (exRed 6)⁻¹ = some C ∧
      reducedTaskTorque D C 1 (exRed 6)⁻¹ [exRow (legRow 5) f0 true 0, exRow (armRow 0) f1 false 0,
        exRow (armRow 0 + armRow 1) f2 false 1] = some τ := by
  obtain ⟨D, S, C, hD, hS, hC, hb⟩ := exC55 G
  obtain ⟨Q0, hQ0, -⟩ := exRow_ready hS (legRow_exP 5) f0 true 0
  obtain ⟨Q1, hQ1, -⟩ := exRow_ready hS (armRow_exP 0) f1 false 0
  obtain ⟨Q2, hQ2, -⟩ := exRow_ready hS armRow_exP_sum f2 false 1
  obtain ⟨τ, hτ, -⟩ := C55_same_motion_partial exRed_spd (by simp) exRed_jInc exRed_coupling hD (fun _ _ => rfl) le_rfl
    exFoot_base hb hS hC [exRow (legRow 5) f0 true 0] [exRow (armRow 0) f1 false 0, exRow (armRow 0 + armRow 1) f2 false 1]
    (by simp) (by simpa using exRow_chain (by simp [ncOf]) f0 0)
    (by simpa using ⟨exRow_free (by simp) f1 0, exRow_free (by simp) f2 1⟩) (by simp)
    (by rintro (_ | _ | _ | i) hi <;> first | rfl | (simp only [List.length_cons, List.length_nil] at hi; omega))
    (rs := [Q0, Q1, Q2]) (by simp [calcTaskSpace, hQ0, hQ1, hQ2])
  exact ⟨D, C, τ, hD, hC, hτ⟩

/-- C55 is false from the third task outside the contact chains on: a third arm task disturbs the first one, which control with the
full model keeps. -/
theorem C55_third_free_task_disturbs (G : RSys (Fin 6) (Fin 6) → ℝ) :
    ∃ D S C τ rs, reduce vcOf ncOf (exRed 6)⁻¹ 1 G = some D ∧ contactSpace (exFoot 6) (exRed 6)⁻¹ = some S ∧
      reducedContact D (exFoot 6) (exRed 6)⁻¹ = some C ∧
      reducedTaskTorque D C 1 (exRed 6)⁻¹ [exRow (legRow 5) 0 true 0, exRow (armRow 0) 0 false 0,
        exRow (armRow 0 + armRow 1) 0 false 1, exRow (armRow 1) 1 false 2] = some τ ∧
      calcTaskSpace S (exRed 6)⁻¹ (List.map fullTask [exRow (legRow 5) 0 true 0, exRow (armRow 0) 0 false 0,
        exRow (armRow 0 + armRow 1) 0 false 1, exRow (armRow 1) 1 false 2]) = some rs ∧
      (∀ qdd F, Motion (exRed 6) (exFoot 6) G (reducedGravityTorque D C + τ) qdd F → armRow 0 ⬝ᵥ qdd = -1 / 2) ∧
      (∀ qdd F, Motion (exRed 6) (exFoot 6) G (gravityTorque S (exRed 6)⁻¹ G + taskTorque S rs) qdd F →
        armRow 0 ⬝ᵥ qdd = 0) := by
  obtain ⟨D, S, C, hD, hS, hC, hb⟩ := exC55 G
  obtain ⟨Q0, hQ0, o0⟩ := exRow_ready hS (legRow_exP 5) 0 true 0
  obtain ⟨Q1, hQ1, o1⟩ := exRow_ready hS (armRow_exP 0) 0 false 0
  obtain ⟨Q2, hQ2, o2⟩ := exRow_ready hS armRow_exP_sum 0 false 1
  obtain ⟨Q3, hQ3, o3⟩ := exRow_ready hS (armRow_exP 1) 1 false 2
  obtain ⟨hF, hP⟩ := rFacts exRed_spd (by simp) exRed_jInc exRed_coupling hD (fun _ _ => rfl) le_rfl exFoot_base hS hC
  obtain ⟨Λb, Kb, hKb⟩ := base_ready (R := 1) exRed_spd (by simp) hD (fun _ _ => rfl) le_rfl hS hC hb
  obtain ⟨qs, x, h1, h2, h3⟩ := stack_acc_any (R := 1) (by simp) exRed_jInc hF (reduce_eq_some hD).2.2.2.1 hS hKb
    [exRow (legRow 5) 0 true 0] [exRow (armRow 0) 0 false 0, exRow (armRow 0 + armRow 1) 0 false 1, exRow (armRow 1) 1 false 2]
    (by simp) (by simpa using exRow_chain (by simp [ncOf]) 0 0)
    (by simpa using ⟨exRow_free (by simp) 0 0, exRow_free (by simp) 0 1, exRow_free (by simp) 1 2⟩)
    (by rintro (_ | _ | _ | i) hi <;> first | rfl | (simp only [List.length_cons, List.length_nil] at hi; omega))
    (ra := [Q0]) (rb := [Q1, Q2, Q3]) (by simp [calcTaskSpace, hQ0]) (by simp [calcTaskSpace, hQ1, hQ2, hQ3])
  have hrs : calcTaskSpace S (exRed 6)⁻¹ (List.map fullTask [exRow (legRow 5) 0 true 0, exRow (armRow 0) 0 false 0,
      exRow (armRow 0 + armRow 1) 0 false 1, exRow (armRow 1) 1 false 2]) = some [Q0, Q1, Q2, Q3] := by
    simp [calcTaskSpace, hQ0, hQ1, hQ2, hQ3]
  refine ⟨D, S, C, assembleTorque D x.1 x.2, [Q0, Q1, Q2, Q3], hD, hS, hC, ?_, hrs, ?_, ?_⟩
  · unfold reducedTaskTorque
    rw [List.singleton_append] at h1
    simp only [hP, h1, hKb, Option.map_some, h2]
  · intro qdd F hm
    rw [C41_gravity_torque_partial exRed_spd hD (fun _ _ => rfl) le_rfl exFoot_base hS hC] at hm
    rw [acc_of_motion exRed_spd hS exFoot_base hm, h3]
    simp only [List.map_cons, List.map_nil, o0, o1, o2, o3, accSeq, nullAfter, accFrom, exRow_force]
    simp only [mul_zero, zero_smul, mulVec_zero, add_zero, zero_add, mul_one, ← mulVec_mulVec, one_mulVec, exP_eq hS,
      exRow_gNull hS]
    simp [exP]
    norm_num
  · intro qdd F hm
    rw [acc_of_motion exRed_spd hS exFoot_base hm]
    have hfull := full_acc exRed_spd hS exFoot_base [Q0, Q1, Q2, Q3] (by
      simpa using ⟨⟨_, hQ0⟩, ⟨_, hQ1⟩, ⟨_, hQ2⟩, ⟨_, hQ3⟩⟩) 1 0 1 (by simp)
    have hz : S.AinvNc *ᵥ actuate (0 : Fin 6 ⊕ Fin 6 → ℝ) = 0 := by rw [actuate_eq, mulVec_zero, mulVec_zero]
    rw [hz] at hfull
    change armRow 0 ⬝ᵥ (S.AinvNc *ᵥ actuate (taskTorqueFrom S 1 0 [Q0, Q1, Q2, Q3])) = 0
    rw [hfull]
    simp only [List.map_cons, List.map_nil, o0, o1, o2, o3, accFrom, exRow_force]
    simp only [mul_zero, zero_smul, mulVec_zero, add_zero, zero_add, mul_one, ← mulVec_mulVec, one_mulVec, exP_eq hS,
      exRow_gNull hS]
    simp [exP]
    norm_num

/-- C55 is false for a task on the contact chains below one outside them: the leg task disturbs the arm task above it, which control
with the full model keeps. -/
theorem C55_chain_below_free_disturbs (G : RSys (Fin 6) (Fin 6) → ℝ) :
    ∃ D S C τ rs, reduce vcOf ncOf (exRed 6)⁻¹ 1 G = some D ∧ contactSpace (exFoot 6) (exRed 6)⁻¹ = some S ∧
      reducedContact D (exFoot 6) (exRed 6)⁻¹ = some C ∧
      reducedTaskTorque D C 1 (exRed 6)⁻¹ [exRow (legRow 5) 0 true 0, exRow (armRow 0) 0 false 0, exRow (legRow 0) 1 true 0]
        = some τ ∧
      calcTaskSpace S (exRed 6)⁻¹ (List.map fullTask [exRow (legRow 5) 0 true 0, exRow (armRow 0) 0 false 0,
        exRow (legRow 0) 1 true 0]) = some rs ∧
      (∀ qdd F, Motion (exRed 6) (exFoot 6) G (reducedGravityTorque D C + τ) qdd F → armRow 0 ⬝ᵥ qdd = 1 / 2) ∧
      (∀ qdd F, Motion (exRed 6) (exFoot 6) G (gravityTorque S (exRed 6)⁻¹ G + taskTorque S rs) qdd F →
        armRow 0 ⬝ᵥ qdd = 0) := by
  obtain ⟨D, S, C, hD, hS, hC, hb⟩ := exC55 G
  obtain ⟨Q0, hQ0, o0⟩ := exRow_ready hS (legRow_exP 5) 0 true 0
  obtain ⟨Q1, hQ1, o1⟩ := exRow_ready hS (armRow_exP 0) 0 false 0
  obtain ⟨Q2, hQ2, o2⟩ := exRow_ready hS (legRow_exP 0) 1 true 0
  obtain ⟨hF, hP⟩ := rFacts exRed_spd (by simp) exRed_jInc exRed_coupling hD (fun _ _ => rfl) le_rfl exFoot_base hS hC
  obtain ⟨Λb, Kb, hKb⟩ := base_ready (R := 1) exRed_spd (by simp) hD (fun _ _ => rfl) le_rfl hS hC hb
  have hDJ := (reduce_eq_some hD).2.2.2.1
  obtain ⟨q0, c0, r0, p0⟩ := chainTask_ready (R := 1) (by simp) exRed_jInc hF hDJ hS (exRow_chain (by simp [ncOf]) 0 0) hQ0
  obtain ⟨q2, c2, r2, p2⟩ := chainTask_ready (R := 1) (by simp) exRed_jInc hF hDJ hS (exRow_chain (by simp [ncOf]) 1 0) hQ2
  have hT1 := exRow_free (w := armRow 0) (by simp) 0 0
  obtain ⟨q1, c1, e1, -, p1⟩ := freeTask_ready (D := D) (C := C) hS hT1 hQ1
  obtain ⟨prev, τ0, g1, g2, g3, g4, g5⟩ := chain_run hF 1 (some Kb) [q0] [q1, q2] (by simpa using r0) none 0 0 1
    (by simp [prevNull]) (by simp)
  obtain ⟨⟨Q, N⟩, rfl⟩ := Option.isSome_iff_exists.mp (g5 (Or.inl (by simp)))
  obtain ⟨x, hx1, hx2⟩ := nc_first (N := N) (R := 1) hF (by simp) hKb g3 g4 Q (T := q1) (by rw [e1]; exact hT1.2.2.1)
    (by rw [e1]; rfl) (by rw [e1]; exact hT1.2.2.2)
  obtain ⟨prev', τ1, k1, k2, -⟩ := chain_run hF 1 (some Kb) [q2] [] (by simpa using r2) (some (q1, N)) (τ0 + x.1) (0 + x.2) _
    g3 g4
  have hrs : calcTaskSpace S (exRed 6)⁻¹ (List.map fullTask [exRow (legRow 5) 0 true 0, exRow (armRow 0) 0 false 0,
      exRow (legRow 0) 1 true 0]) = some [Q0, Q1, Q2] := by
    simp [calcTaskSpace, hQ0, hQ1, hQ2]
  refine ⟨D, S, C, assembleTorque D τ1 (0 + x.2), [Q0, Q1, Q2], hD, hS, hC, ?_, hrs, ?_, ?_⟩
  · unfold reducedTaskTorque
    have hm : [exRow (legRow 5) 0 true 0, exRow (armRow 0) 0 false 0, exRow (legRow 0) 1 true 0].mapM
        (calcJKTR D C S.AinvNc) = some [q0, q1, q2] := by simp [c0, c1, c2]
    have hl : rTaskFrom D C 1 S.AinvNc (some Kb) none 0 0 [q0, q1, q2] = some (τ1, 0 + x.2) := by
      have := g1.trans ((hx1 _ _ _).trans (k1.trans rfl))
      exact this
    simp only [hP, hm, hKb, Option.map_some, hl]
  · intro qdd F hm
    rw [C41_gravity_torque_partial exRed_spd hD (fun _ _ => rfl) le_rfl exFoot_base hS hC] at hm
    have p1' : S.AinvNc *ᵥ (q1.Jᵀ *ᵥ (q1.Λ *ᵥ q1.f)) = 0 := by
      change S.AinvNc *ᵥ ((ofR q1).Jᵀ *ᵥ ((ofR q1).Λ *ᵥ (ofR q1).f)) = 0
      rw [p1, o1, exRow_force, mul_zero, zero_smul, mulVec_zero]
    rw [p1', mulVec_zero] at hx2
    rw [acc_of_motion exRed_spd hS exFoot_base hm, acc_assemble hF, k2, mulVec_add, g2, zero_add]
    simp only [List.map_cons, List.map_nil, p0, p2, o0, o2, accFrom, nullAfter, exRow_force]
    have e : ∀ a b c d : RSys (Fin 6) (Fin 6) → ℝ, b + d = 0 → a + b + c + d = a + c := by
      intro a b c d h
      rw [add_right_comm a b c, add_assoc, h, add_zero]
    rw [e _ _ _ _ hx2]
    simp only [mul_zero, zero_smul, mulVec_zero, add_zero, zero_add, mul_one, ← mulVec_mulVec, one_mulVec, exP_eq hS,
      exRow_gNull hS]
    simp [exP]
    norm_num
  · intro qdd F hm
    rw [acc_of_motion exRed_spd hS exFoot_base hm]
    have hfull := full_acc exRed_spd hS exFoot_base [Q0, Q1, Q2] (by
      simpa using ⟨⟨_, hQ0⟩, ⟨_, hQ1⟩, ⟨_, hQ2⟩⟩) 1 0 1 (by simp)
    have hz : S.AinvNc *ᵥ actuate (0 : Fin 6 ⊕ Fin 6 → ℝ) = 0 := by rw [actuate_eq, mulVec_zero, mulVec_zero]
    rw [hz] at hfull
    change armRow 0 ⬝ᵥ (S.AinvNc *ᵥ actuate (taskTorqueFrom S 1 0 [Q0, Q1, Q2])) = 0
    rw [hfull]
    simp only [List.map_cons, List.map_nil, o0, o1, o2, accFrom, exRow_force]
    simp only [mul_zero, zero_smul, mulVec_zero, add_zero, zero_add, mul_one, ← mulVec_mulVec, one_mulVec, exP_eq hS,
      exRow_gNull hS]
    simp [exP]
    norm_num

end Example

end Verif.Props
