import Verif.Model.ReducedTask
import Verif.Lemmas.Reduced
import Verif.Lemmas.Task

/-! # Helper lemmas for task control with the reduced model -/

set_option linter.unusedSectionVars false

namespace Verif
open Matrix Verif.Spec Verif.Model

/-! ### Accelerations of a stack -/

section Stack

variable {ι : Type*} [Fintype ι] [DecidableEq ι] {c : ℕ}

/-- data of a task that decide the acceleration it causes -/
structure GTask (ι : Type*) where
  t : ℕ
  J : Matrix (Fin t) (Fin 6 ⊕ ι) ℝ
  f : Fin t → ℝ
  Λ : Matrix (Fin t) (Fin t) ℝ

/-- projection of an acceleration onto the null space of a task -/
def gNull (P : Matrix (Fin 6 ⊕ ι) (Fin 6 ⊕ ι) ℝ) (T : GTask ι) : Matrix (Fin 6 ⊕ ι) (Fin 6 ⊕ ι) ℝ :=
  1 - P * T.Jᵀ * T.Λ * T.J

/-- acceleration of a stack, from a level on -/
def accFrom (P : Matrix (Fin 6 ⊕ ι) (Fin 6 ⊕ ι) ℝ) :
    Matrix (Fin 6 ⊕ ι) (Fin 6 ⊕ ι) ℝ → (Fin 6 ⊕ ι → ℝ) → List (GTask ι) → Fin 6 ⊕ ι → ℝ
  | _, a, [] => a
  | M, a, T :: rest => accFrom P (M * gNull P T) (a + M *ᵥ (P *ᵥ (T.Jᵀ *ᵥ (T.Λ *ᵥ T.f)))) rest

/-- null-space matrix below a stack -/
def nullAfter (P : Matrix (Fin 6 ⊕ ι) (Fin 6 ⊕ ι) ℝ) :
    Matrix (Fin 6 ⊕ ι) (Fin 6 ⊕ ι) ℝ → List (GTask ι) → Matrix (Fin 6 ⊕ ι) (Fin 6 ⊕ ι) ℝ
  | M, [] => M
  | M, T :: rest => nullAfter P (M * gNull P T) rest

theorem accFrom_append (P M : Matrix (Fin 6 ⊕ ι) (Fin 6 ⊕ ι) ℝ) (a : Fin 6 ⊕ ι → ℝ) (l r : List (GTask ι)) :
    accFrom P M a (l ++ r) = accFrom P (nullAfter P M l) (accFrom P M a l) r := by
  induction l generalizing M a with
  | nil => rfl
  | cons T l ih => exact ih _ _

/-- the part of a full-model task that matters -/
def ofReady (R : TaskReady ι) : GTask ι := ⟨R.t, R.J, R.f, R.Λ⟩

variable {A : Matrix (Fin 6 ⊕ ι) (Fin 6 ⊕ ι) ℝ} {J : Matrix (Fin c) (Fin 6 ⊕ ι) ℝ} {S : ContactSpace c ι}

/-- acceleration of the full-model stack -/
theorem full_acc (hA : IsSPD A) (hS : contactSpace J A⁻¹ = some S) (hB : BaseDetermined J)
    (rs : List (TaskReady ι)) (hrs : ∀ R ∈ rs, ∃ T, calculateJKT S A⁻¹ T = some R) (N : Matrix ι ι ℝ) (τ : ι → ℝ)
    (M : Matrix (Fin 6 ⊕ ι) (Fin 6 ⊕ ι) ℝ)
    (hN : S.AinvNc * (Sel ι)ᵀ * N = M * (S.AinvNc * (Sel ι)ᵀ)) :
    S.AinvNc *ᵥ actuate (taskTorqueFrom S N τ rs) = accFrom S.AinvNc M (S.AinvNc *ᵥ actuate τ) (rs.map ofReady) := by
  induction rs generalizing N τ M with
  | nil => rfl
  | cons R rest ih =>
    obtain ⟨T, hT⟩ := hrs R (List.mem_cons_self ..)
    have hK : S.AinvNc * (Sel ι)ᵀ * Km R = S.AinvNc * R.Jᵀ * R.Λ := by
      obtain ⟨h1, -, -⟩ := Km_eq hA hS hB hT
      have hΛ : R.Λ = (R.J * S.AinvNc * R.Jᵀ)⁻¹ := by
        obtain ⟨-, rfl⟩ := (jkt_eq_some hS).mp hT; rfl
      rw [h1, ← hΛ]
      calc S.AinvNc * (Sel ι)ᵀ * (S.Winv * (Tm S R.J)ᵀ * R.Λ)
          = (S.AinvNc * (Sel ι)ᵀ * S.Winv * (Sel ι * S.AinvNc)) * R.Jᵀ * R.Λ := by
            unfold Tm
            simp only [transpose_mul, cs_P_symm hA hS, transpose_transpose, Matrix.mul_assoc]
        _ = S.AinvNc * R.Jᵀ * R.Λ := by rw [cs_P_factor hA hS hB]
    have hNull : S.AinvNc * (Sel ι)ᵀ * taskNullSpace S R N = M * gNull S.AinvNc (ofReady R) * (S.AinvNc * (Sel ι)ᵀ) := by
      rw [null_eq, ← Matrix.mul_assoc, hN, Matrix.mul_assoc, Matrix.mul_sub, Matrix.mul_one, ← Matrix.mul_assoc _ (Km R),
        hK]
      unfold gNull ofReady Tm
      simp only [Matrix.mul_sub, Matrix.sub_mul, Matrix.mul_one, Matrix.mul_assoc]
    rw [taskTorqueFrom, ih (fun R' h => hrs R' (List.mem_cons_of_mem _ h)) _ _ _ hNull]
    rw [List.map_cons, accFrom]
    congr 1
    rw [actuate_eq, actuate_eq, mulVec_add, mulVec_add]
    congr 1
    change _ = M *ᵥ (S.AinvNc *ᵥ (R.Jᵀ *ᵥ (R.Λ *ᵥ R.f)))
    rw [mulVec_mulVec, mulVec_mulVec, hN, mulVec_mulVec, mulVec_mulVec, mulVec_mulVec, mulVec_mulVec, mulVec_mulVec]
    congr 1
    have hK' : S.AinvNc * (Sel ι)ᵀ * (R.Jkt * R.Λ) = S.AinvNc * R.Jᵀ * R.Λ := hK
    simp only [Matrix.mul_assoc] at hK' ⊢
    rw [hK']

end Stack

section Red

variable {κ ν : Type*} [Fintype κ] [DecidableEq κ] [Fintype ν] [DecidableEq ν] {c : ℕ}

/-- What the reduced model satisfies (see `Props/Reduced`). -/
structure RFacts (D : Reduced κ ν) (C : ReducedContact c κ ν) (P : Matrix (RSys κ ν) (RSys κ ν) ℝ) : Prop where
  symm : Pᵀ = P
  proj : C.ARinvNCR = D.JR * P * D.JRᵀ
  winv : C.Winvᵀ = C.Winv
  factor : C.ARinvNCR * (Sel (κ ⊕ Fin 6))ᵀ * C.Winv * (Sel (κ ⊕ Fin 6) * C.ARinvNCR) = C.ARinvNCR
  ker : ∀ x, C.ARinvNCR *ᵥ x = 0 → P *ᵥ (D.JRᵀ *ᵥ x) = 0 ∧ ∀ s : Fin 6, x (ncOf s) = 0
  jr : D.JR = blk 1 0 0 D.J
  n : D.N = 1 - D.Jᵀ * D.JinvT
  inv : D.JinvT * D.Jᵀ = 1
  decouple : ∀ y, D.JR *ᵥ (P *ᵥ ncExt (D.N *ᵥ y)) = 0
  jkt : ∀ {t : ℕ} {J : Matrix (Fin t) (RSys κ (Fin 6)) ℝ} {Λ K}, jktR C.ARinvNCR C.Winv J = some (Λ, K) →
    K = C.Winv * (J * C.ARinvNCR * (Sel (κ ⊕ Fin 6))ᵀ)ᵀ

variable {D : Reduced κ ν} {C : ReducedContact c κ ν} {P : Matrix (RSys κ ν) (RSys κ ν) ℝ}

theorem RFacts.symmR (h : RFacts D C P) : C.ARinvNCRᵀ = C.ARinvNCR := by
  rw [h.proj]; simp [transpose_mul, h.symm, Matrix.mul_assoc]

/-- acceleration of the full robot under a torque of the reduced model -/
def accR (D : Reduced κ ν) (P : Matrix (RSys κ ν) (RSys κ ν) ℝ) : Matrix (RSys κ ν) (κ ⊕ Fin 6) ℝ :=
  P * D.JRᵀ * (Sel (κ ⊕ Fin 6))ᵀ

theorem actuate_assemble (h : RFacts D C P) (τR : κ ⊕ Fin 6 → ℝ) (τN : ν → ℝ) :
    actuate (assembleTorque D τR τN) = D.JRᵀ *ᵥ actuate τR + ncExt (D.N *ᵥ τN) := by
  rw [h.jr, blk_transpose]
  unfold blk
  ext a
  rcases a with a | a | a
  · simp [actuate, ncExt, mulVec, dotProduct, Fintype.sum_sum_type, Matrix.one_apply]
  · simp [actuate, ncExt, mulVec, dotProduct, Fintype.sum_sum_type, Matrix.one_apply, assembleTorque]
  · simp [actuate, ncExt, mulVec, dotProduct, Fintype.sum_sum_type, assembleTorque]

theorem acc_assemble (h : RFacts D C P) (τR : κ ⊕ Fin 6 → ℝ) (τN : ν → ℝ) :
    P *ᵥ actuate (assembleTorque D τR τN) = accR D P *ᵥ τR + P *ᵥ ncExt (D.N *ᵥ τN) := by
  rw [actuate_assemble h, mulVec_add, actuate_eq, accR, mulVec_mulVec, mulVec_mulVec]

/-- A task of the reduced model whose torque map is the computed one. -/
structure ChainReady (D : Reduced κ ν) (C : ReducedContact c κ ν) (T : RTask κ ν) : Prop where
  kind : T.noncont = false
  jr : T.JR * D.JR = T.J
  jkt : T.Jkt = C.Winv * (T.JR * C.ARinvNCR * (Sel (κ ⊕ Fin 6))ᵀ)ᵀ

/-- a reduced torque map reaches the generalised force of the task -/
theorem accR_push (h : RFacts D C P) {t : ℕ} (J : Matrix (Fin t) (RSys κ (Fin 6)) ℝ) (y : Fin t → ℝ) :
    accR D P *ᵥ ((C.Winv * (J * C.ARinvNCR * (Sel (κ ⊕ Fin 6))ᵀ)ᵀ) *ᵥ y) = P *ᵥ (D.JRᵀ *ᵥ (Jᵀ *ᵥ y)) ∧
    ∀ s, ((C.Winv * (J * C.ARinvNCR * (Sel (κ ⊕ Fin 6))ᵀ)ᵀ) *ᵥ y) (.inr s) = (Jᵀ *ᵥ y) (ncOf s) := by
  set K := C.Winv * (J * C.ARinvNCR * (Sel (κ ⊕ Fin 6))ᵀ)ᵀ with hK
  have h0 : C.ARinvNCR *ᵥ ((Sel (κ ⊕ Fin 6))ᵀ *ᵥ (K *ᵥ y) - Jᵀ *ᵥ y) = 0 := by
    rw [mulVec_sub, mulVec_mulVec, mulVec_mulVec, mulVec_mulVec, ← sub_mulVec]
    have e : C.ARinvNCR * (Sel (κ ⊕ Fin 6))ᵀ * K = C.ARinvNCR * Jᵀ := by
      rw [hK]
      calc _ = (C.ARinvNCR * (Sel (κ ⊕ Fin 6))ᵀ * C.Winv * (Sel (κ ⊕ Fin 6) * C.ARinvNCR)) * Jᵀ := by
            simp only [transpose_mul, h.symmR, transpose_transpose, Matrix.mul_assoc]
        _ = _ := by rw [h.factor]
    rw [e, sub_self, zero_mulVec]
  obtain ⟨h1, h2⟩ := h.ker _ h0
  refine ⟨?_, fun s => ?_⟩
  · rw [mulVec_sub, mulVec_sub, sub_eq_zero] at h1
    rw [← h1, accR, mulVec_mulVec, mulVec_mulVec, mulVec_mulVec]
    simp only [mulVec_mulVec, Matrix.mul_assoc]
  · have := h2 s
    rw [← actuate_eq] at this
    exact sub_eq_zero.mp this

/-- the part of a reduced-model task that matters -/
def ofR (R : RTask κ ν) : GTask (κ ⊕ ν) := ⟨R.t, R.J, R.f, R.Λ⟩

theorem accR_Jkt (h : RFacts D C P) {T : RTask κ ν} (hT : ChainReady D C T) (y : Fin T.t → ℝ) :
    accR D P *ᵥ (T.Jkt *ᵥ y) = P *ᵥ (T.Jᵀ *ᵥ y) := by
  rw [hT.jkt, (accR_push h T.JR y).1, ← hT.jr, transpose_mul, ← mulVec_mulVec]

theorem accR_null (h : RFacts D C P) {T : RTask κ ν} (hT : ChainReady D C T) {N : Matrix (κ ⊕ Fin 6) (κ ⊕ Fin 6) ℝ}
    {M : Matrix (RSys κ ν) (RSys κ ν) ℝ} (hN : accR D P * N = M * accR D P) :
    accR D P * nullR C T N = M * gNull P (ofR T) * accR D P := by
  have hK : accR D P * T.Jkt = P * T.Jᵀ := by
    apply Matrix.ext_of_mulVec_single
    intro i
    rw [← mulVec_mulVec, ← mulVec_mulVec, accR_Jkt h hT]
  have hJ : T.JR * C.ARinvNCR.submatrix id Sum.inr = T.J * accR D P := by
    rw [← mul_selT, h.proj, accR, ← hT.jr]
    simp only [Matrix.mul_assoc]
  unfold nullR
  rw [← Matrix.mul_assoc, hN, Matrix.mul_assoc, Matrix.mul_sub, Matrix.mul_one]
  have e : accR D P * (T.Jkt * T.Λ * T.JR * C.ARinvNCR.submatrix id Sum.inr) = P * T.Jᵀ * T.Λ * T.J * accR D P := by
    calc _ = (accR D P * T.Jkt) * T.Λ * (T.JR * C.ARinvNCR.submatrix id Sum.inr) := by simp only [Matrix.mul_assoc]
      _ = _ := by rw [hK, hJ]; simp only [Matrix.mul_assoc]
  rw [e]
  unfold gNull ofR
  simp only [Matrix.mul_sub, Matrix.sub_mul, Matrix.mul_one, Matrix.one_mul, Matrix.mul_assoc]

/-- chain tasks do not see the torques inside the null space of `J_I_nc_` -/
theorem gNull_decouple (h : RFacts D C P) {T : RTask κ ν} (hT : ChainReady D C T) (y : ν → ℝ) :
    gNull P (ofR T) *ᵥ (P *ᵥ ncExt (D.N *ᵥ y)) = P *ᵥ ncExt (D.N *ᵥ y) := by
  have e : T.J *ᵥ (P *ᵥ ncExt (D.N *ᵥ y)) = 0 := by
    rw [← hT.jr, ← mulVec_mulVec, h.decouple, mulVec_zero]
  change (1 - P * T.Jᵀ * T.Λ * T.J) *ᵥ _ = _
  rw [sub_mulVec, one_mulVec, ← mulVec_mulVec, e, mulVec_zero, sub_zero]

/-- null-space matrix of the level above -/
def prevNull (prev : Option (RTask κ ν × Matrix (κ ⊕ Fin 6) (κ ⊕ Fin 6) ℝ)) : Matrix (κ ⊕ Fin 6) (κ ⊕ Fin 6) ℝ :=
  match prev with
  | none => 1
  | some (_, N) => N

/-- the loop over a stretch of chain tasks -/
theorem chain_run (h : RFacts D C P) (R : Mat3) (Kb : Option (Matrix (κ ⊕ Fin 6) (Fin 6) ℝ))
    (ts rest : List (RTask κ ν)) (hts : ∀ T ∈ ts, ChainReady D C T)
    (prev : Option (RTask κ ν × Matrix (κ ⊕ Fin 6) (κ ⊕ Fin 6) ℝ)) (τR : κ ⊕ Fin 6 → ℝ) (τN : ν → ℝ)
    (M : Matrix (RSys κ ν) (RSys κ ν) ℝ) (hN : accR D P * prevNull prev = M * accR D P)
    (hM : ∀ y, M *ᵥ (P *ᵥ ncExt (D.N *ᵥ y)) = P *ᵥ ncExt (D.N *ᵥ y)) :
    ∃ prev' τR', rTaskFrom D C R P Kb prev τR τN (ts ++ rest) = rTaskFrom D C R P Kb prev' τR' τN rest ∧
      accR D P *ᵥ τR' = accFrom P M (accR D P *ᵥ τR) (ts.map ofR) ∧
      accR D P * prevNull prev' = nullAfter P M (ts.map ofR) * accR D P ∧
      (∀ y, nullAfter P M (ts.map ofR) *ᵥ (P *ᵥ ncExt (D.N *ᵥ y)) = P *ᵥ ncExt (D.N *ᵥ y)) ∧
      (ts ≠ [] ∨ prev.isSome → prev'.isSome) := by
  induction ts generalizing prev τR M with
  | nil => exact ⟨prev, τR, rfl, rfl, hN, hM, by simp⟩
  | cons T ts ih =>
    have hT := hts T (List.mem_cons_self ..)
    have hstep : ∀ l, rTaskFrom D C R P Kb prev τR τN (T :: l) =
        rTaskFrom D C R P Kb (some (T, nullR C T (prevNull prev)))
          (τR + prevNull prev *ᵥ (T.Jkt *ᵥ (T.Λ *ᵥ T.f))) τN l := by
      intro l
      rcases prev with _ | ⟨Q, N⟩ <;> simp [rTaskFrom, hT.kind, prevNull]
    obtain ⟨prev', τR', h1, h2, h3, h4, h5⟩ := ih (fun T' hT' => hts T' (List.mem_cons_of_mem _ hT'))
      (some (T, nullR C T (prevNull prev))) (τR + prevNull prev *ᵥ (T.Jkt *ᵥ (T.Λ *ᵥ T.f))) (M * gNull P (ofR T))
      (accR_null h hT hN) (fun y => by rw [← mulVec_mulVec, gNull_decouple h hT, hM])
    refine ⟨prev', τR', ?_, ?_, h3, h4, fun _ => h5 (Or.inr rfl)⟩
    · rw [List.cons_append, hstep, h1]
    · rw [h2, List.map_cons, accFrom]
      congr 1
      rw [mulVec_add]
      congr 1
      rw [mulVec_mulVec, hN, ← mulVec_mulVec, accR_Jkt h hT]
      rfl

/-- joint torques of the contact chains for a generalised force on the non-contact part -/
def coTorque (R : Mat3) (Kb : Matrix (κ ⊕ Fin 6) (Fin 6) ℝ) (g : RSys κ ν → ℝ) : κ → ℝ :=
  fun i => (Kb *ᵥ forceOnNc R g) (.inl i)

theorem baseRot_transpose_mul {R : Mat3} (hR : Rᵀ * R = 1) : (baseRot R)ᵀ * baseRot R = 1 := by
  unfold baseRot
  rw [transpose_submatrix, submatrix_mul_equiv, fromBlocks_transpose, fromBlocks_multiply]
  simp [hR]

/-- a generalised force on base and non-contact joints is reproduced by joint torques -/
theorem acc_coTorque (h : RFacts D C P) {R : Mat3} (hR : Rᵀ * R = 1) {Λ Kb}
    (hKb : jktR C.ARinvNCR C.Winv (jBaseR R) = some (Λ, Kb)) (g : RSys κ ν → ℝ) (hg : ∀ i, g (.inr (.inl i)) = 0) :
    accR D P *ᵥ Sum.elim (coTorque R Kb g) (D.JinvT *ᵥ fun j => g (ncOf j))
      + P *ᵥ ncExt (D.N *ᵥ fun j => g (ncOf j)) = P *ᵥ g := by
  obtain ⟨h1, h2⟩ := accR_push h (jBaseR R) (forceOnNc R g)
  rw [← h.jkt hKb] at h1 h2
  have hb : (jBaseR R)ᵀ *ᵥ forceOnNc R g = (Sum.elim (fun a => g (.inl a)) 0 : RSys κ (Fin 6) → ℝ) := by
    ext a
    rcases a with a | a
    · have e : (baseRot R)ᵀ *ᵥ forceOnNc R g = fun a => g (.inl a) := by
        unfold forceOnNc
        rw [mulVec_mulVec, baseRot_transpose_mul hR, one_mulVec]
      exact congrFun e a
    · simp [mulVec, dotProduct, jBaseR]
  rw [hb] at h1 h2
  have hK : Kb *ᵥ forceOnNc R g = Sum.elim (coTorque R Kb g) 0 := by
    ext a
    rcases a with a | a
    · rfl
    · exact (h2 a).trans rfl
  rw [hK] at h1
  have e1 : (Sum.elim (coTorque R Kb g) (D.JinvT *ᵥ fun j => g (ncOf j)) : κ ⊕ Fin 6 → ℝ)
      = Sum.elim (coTorque R Kb g) 0 + Sum.elim (0 : κ → ℝ) (D.JinvT *ᵥ fun j => g (ncOf j)) := by
    ext a; rcases a with a | a <;> simp
  rw [e1, mulVec_add, h1, add_assoc, accR, ← mulVec_mulVec, ← actuate_eq, ← mulVec_mulVec, ← mulVec_add, ← mulVec_add]
  congr 1
  rw [h.jr, blk_transpose]
  have hn : D.Jᵀ *ᵥ (D.JinvT *ᵥ fun j => g (ncOf j)) + D.N *ᵥ (fun j => g (ncOf j)) = fun j => g (ncOf j) := by
    rw [h.n, sub_mulVec, one_mulVec, mulVec_mulVec, add_sub_cancel]
  ext a
  rcases a with a | a | a
  · simp [blk, actuate, ncExt, mulVec, dotProduct, Fintype.sum_sum_type, Matrix.one_apply]
  · simp [blk, actuate, ncExt, mulVec, dotProduct, Fintype.sum_sum_type, Matrix.one_apply, hg]
  · have := congrFun hn a
    simp only [Pi.add_apply, mulVec, dotProduct, transpose_apply] at this
    simpa [blk, actuate, ncExt, mulVec, dotProduct, Fintype.sum_sum_type, ncOf] using this

theorem forceOnNc_sub (R : Mat3) (g h : RSys κ ν → ℝ) : forceOnNc R (g - h) = forceOnNc R g - forceOnNc R h := by
  unfold forceOnNc
  rw [← mulVec_sub]; rfl

theorem coTorque_sub (R : Mat3) (Kb : Matrix (κ ⊕ Fin 6) (Fin 6) ℝ) (g h : RSys κ ν → ℝ) :
    coTorque R Kb (g - h) = coTorque R Kb g - coTorque R Kb h := by
  ext i
  simp only [coTorque, forceOnNc_sub, mulVec_sub, Pi.sub_apply]

/-- acceleration caused by a generalised force that goes through the null space of the chain tasks -/
theorem acc_nc (h : RFacts D C P) {R : Mat3} (hR : Rᵀ * R = 1) {Λ Kb}
    (hKb : jktR C.ARinvNCR C.Winv (jBaseR R) = some (Λ, Kb)) {N : Matrix (κ ⊕ Fin 6) (κ ⊕ Fin 6) ℝ}
    {M : Matrix (RSys κ ν) (RSys κ ν) ℝ} (hN : accR D P * N = M * accR D P)
    (hM : ∀ y, M *ᵥ (P *ᵥ ncExt (D.N *ᵥ y)) = P *ᵥ ncExt (D.N *ᵥ y))
    (g : RSys κ ν → ℝ) (hg : ∀ i, g (.inr (.inl i)) = 0) :
    accR D P *ᵥ (N *ᵥ Sum.elim (coTorque R Kb g) (D.JinvT *ᵥ fun j => g (ncOf j)))
      + P *ᵥ ncExt (D.N *ᵥ fun j => g (ncOf j)) = M *ᵥ (P *ᵥ g) := by
  rw [mulVec_mulVec, hN, ← mulVec_mulVec, ← acc_coTorque h hR hKb g hg, mulVec_add, hM]

theorem gForce_chain_zero {T : RTask κ ν} (hz : ∀ r i, T.J r (.inr (.inl i)) = 0) (y : Fin T.t → ℝ) (i : κ) :
    (T.Jᵀ *ᵥ y) (.inr (.inl i)) = 0 := by
  simp [mulVec, dotProduct, hz]

/-- torque of the first task outside the contact chains -/
theorem nc_first_torque (h : RFacts D C P) {R : Mat3} (hR : Rᵀ * R = 1) {Λ Kb}
    (hKb : jktR C.ARinvNCR C.Winv (jBaseR R) = some (Λ, Kb)) {N : Matrix (κ ⊕ Fin 6) (κ ⊕ Fin 6) ℝ}
    {M : Matrix (RSys κ ν) (RSys κ ν) ℝ} (hN : accR D P * N = M * accR D P)
    (hM : ∀ y, M *ᵥ (P *ᵥ ncExt (D.N *ᵥ y)) = P *ᵥ ncExt (D.N *ᵥ y)) (Q : RTask κ ν) {T : RTask κ ν}
    (ho : T.ncOrder = 0) (hz : ∀ r i, T.J r (.inr (.inl i)) = 0) :
    ∃ x : (κ ⊕ Fin 6 → ℝ) × (ν → ℝ), ncTorque D R P Kb Q N T = some x ∧
      accR D P *ᵥ x.1 + P *ᵥ ncExt (D.N *ᵥ x.2) = M *ᵥ (P *ᵥ (T.Jᵀ *ᵥ (T.Λ *ᵥ T.f))) := by
  obtain ⟨g, hg⟩ : ∃ g, g = T.Jᵀ *ᵥ (T.Λ *ᵥ T.f) := ⟨_, rfl⟩
  have hacc := acc_nc h hR hKb hN hM g (fun i => by rw [hg]; exact gForce_chain_zero hz _ i)
  have e : ncTorque D R P Kb Q N T
      = some (N *ᵥ Sum.elim (coTorque R Kb g) (D.JinvT *ᵥ fun j => g (ncOf j)), fun j => g (ncOf j)) := by
    unfold ncTorque
    simp only
    rw [if_pos ho, ← hg]
    rfl
  generalize N *ᵥ Sum.elim (coTorque R Kb g) (D.JinvT *ᵥ fun j => g (ncOf j)) = x1 at hacc e
  rw [← hg]
  exact ⟨(x1, fun j => g (ncOf j)), e, hacc⟩

/-- the first task outside the contact chains -/
theorem nc_first (h : RFacts D C P) {R : Mat3} (hR : Rᵀ * R = 1) {Λ Kb}
    (hKb : jktR C.ARinvNCR C.Winv (jBaseR R) = some (Λ, Kb)) {N : Matrix (κ ⊕ Fin 6) (κ ⊕ Fin 6) ℝ}
    {M : Matrix (RSys κ ν) (RSys κ ν) ℝ} (hN : accR D P * N = M * accR D P)
    (hM : ∀ y, M *ᵥ (P *ᵥ ncExt (D.N *ᵥ y)) = P *ᵥ ncExt (D.N *ᵥ y)) (Q : RTask κ ν) {T : RTask κ ν}
    (hT : T.noncont = true) (ho : T.ncOrder = 0) (hz : ∀ r i, T.J r (.inr (.inl i)) = 0) :
    ∃ x : (κ ⊕ Fin 6 → ℝ) × (ν → ℝ), (∀ τR τN rest, rTaskFrom D C R P (some Kb) (some (Q, N)) τR τN (T :: rest)
        = rTaskFrom D C R P (some Kb) (some (T, N)) (τR + x.1) (τN + x.2) rest) ∧
      accR D P *ᵥ x.1 + P *ᵥ ncExt (D.N *ᵥ x.2) = M *ᵥ (P *ᵥ (T.Jᵀ *ᵥ (T.Λ *ᵥ T.f))) := by
  obtain ⟨x, e, hx⟩ := nc_first_torque h hR hKb hN hM Q ho hz
  refine ⟨x, fun τR τN rest => ?_, hx⟩
  rw [rTaskFrom, if_pos hT, e]

/-- a task outside the contact chains directly below another one -/
theorem nc_next (h : RFacts D C P) {R : Mat3} (hR : Rᵀ * R = 1) {Λ Kb}
    (hKb : jktR C.ARinvNCR C.Winv (jBaseR R) = some (Λ, Kb)) {N : Matrix (κ ⊕ Fin 6) (κ ⊕ Fin 6) ℝ}
    {M : Matrix (RSys κ ν) (RSys κ ν) ℝ} (hN : accR D P * N = M * accR D P)
    (hM : ∀ y, M *ᵥ (P *ᵥ ncExt (D.N *ᵥ y)) = P *ᵥ ncExt (D.N *ᵥ y)) {Q T : RTask κ ν}
    (hQ : Q.JNC = some (Q.J.submatrix id ncOf)) (hQz : ∀ r i, Q.J r (.inr (.inl i)) = 0)
    (hT : T.noncont = true) (ho : T.ncOrder ≠ 0) (hz : ∀ r i, T.J r (.inr (.inl i)) = 0) :
    ∃ x : (κ ⊕ Fin 6 → ℝ) × (ν → ℝ), (∀ τR τN rest, rTaskFrom D C R P (some Kb) (some (Q, N)) τR τN (T :: rest)
        = rTaskFrom D C R P (some Kb) (some (T, N)) (τR + x.1) (τN + x.2) rest) ∧
      accR D P *ᵥ x.1 + P *ᵥ ncExt (D.N *ᵥ x.2)
        = (M * gNull P (ofR Q)) *ᵥ (P *ᵥ (T.Jᵀ *ᵥ (T.Λ *ᵥ T.f))) := by
  obtain ⟨g, hg⟩ : ∃ g, g = T.Jᵀ *ᵥ (T.Λ *ᵥ T.f) := ⟨_, rfl⟩
  obtain ⟨nf, hnf⟩ : ∃ nf, nf = Q.Λ *ᵥ (Q.J *ᵥ (P *ᵥ g)) := ⟨_, rfl⟩
  have hgz : ∀ i, (g - Q.Jᵀ *ᵥ nf) (.inr (.inl i)) = 0 := by
    intro i
    rw [Pi.sub_apply, hg, gForce_chain_zero hz, gForce_chain_zero hQz, sub_zero]
  have hacc := acc_nc h hR hKb hN hM _ hgz
  have e : ncTorque D R P Kb Q N T = some (N *ᵥ Sum.elim (coTorque R Kb (g - Q.Jᵀ *ᵥ nf))
      (D.JinvT *ᵥ fun j => (g - Q.Jᵀ *ᵥ nf) (ncOf j)), fun j => (g - Q.Jᵀ *ᵥ nf) (ncOf j)) := by
    unfold ncTorque
    simp only
    rw [if_neg ho, hQ, coTorque_sub, ← hg, ← hnf]
    rfl
  generalize N *ᵥ Sum.elim (coTorque R Kb (g - Q.Jᵀ *ᵥ nf)) (D.JinvT *ᵥ fun j => (g - Q.Jᵀ *ᵥ nf) (ncOf j)) = x1
    at hacc e
  refine ⟨(x1, fun j => (g - Q.Jᵀ *ᵥ nf) (ncOf j)), fun τR τN rest => ?_, hacc.trans ?_⟩
  · rw [rTaskFrom, if_pos hT, e]
  · rw [← mulVec_mulVec, ← hg]
    congr 1
    change _ = (1 - P * Q.Jᵀ * Q.Λ * Q.J) *ᵥ (P *ᵥ g)
    rw [sub_mulVec, one_mulVec, mulVec_sub, hnf]
    simp only [mulVec_mulVec, Matrix.mul_assoc]

end Red

end Verif
