import Verif.Lemmas.Task
import Verif.Lemmas.QPControl
import Verif.Spec.Turned

set_option linter.unusedSectionVars false

namespace Verif
open Matrix Verif.Spec Verif.Model

variable {ι : Type*} [Fintype ι] [DecidableEq ι] {c : ℕ}

theorem baseChange_mul (U V : Matrix (Fin 6) (Fin 6) ℝ) : (baseChange (ι := ι) U : Matrix (Fin 6 ⊕ ι) _ ℝ) * baseChange (ι := ι) V = baseChange (U * V) := by
  ext r s
  rcases r with r | r <;> rcases s with s | s <;> simp [baseChange, Matrix.mul_apply, Fintype.sum_sum_type]

theorem baseChange_one : (baseChange (ι := ι) 1 : Matrix (Fin 6 ⊕ ι) _ ℝ) = 1 := by
  ext r s
  rcases r with r | r <;> rcases s with s | s <;> simp [baseChange, Matrix.one_apply]

theorem sel_baseChange (U : Matrix (Fin 6) (Fin 6) ℝ) : Sel ι * baseChange (ι := ι) U = Sel ι := by
  rw [sel_mul]
  ext i s
  rcases s with s | s <;> simp [baseChange, Sel]

theorem baseChangeT_selT (U : Matrix (Fin 6) (Fin 6) ℝ) : (baseChange (ι := ι) U)ᵀ * (Sel ι)ᵀ = (Sel ι)ᵀ := by
  rw [← transpose_mul, sel_baseChange]

/-- The pseudo-inverse turns with the matrix. -/
theorem pinv_conj {t : Type*} [Fintype t] [DecidableEq t] {R : Matrix t t ℝ} (h : Rᵀ * R = 1) (M : Matrix t t ℝ) :
    pinv (R * M * Rᵀ) = R * pinv M * Rᵀ := by
  apply pinv_eq
  have H := pinv_spec M
  have e : ∀ {m : Type _} [Fintype m] (X : Matrix m t ℝ) (Y : Matrix t m ℝ), X * Rᵀ * (R * Y) = X * Y := by
    intro m _ X Y
    rw [Matrix.mul_assoc, ← Matrix.mul_assoc Rᵀ, h, Matrix.one_mul]
  have k : ∀ X Y : Matrix t t ℝ, R * X * Rᵀ * (R * Y * Rᵀ) = R * (X * Y) * Rᵀ := by
    intro X Y
    rw [Matrix.mul_assoc R Y, e, ← Matrix.mul_assoc, Matrix.mul_assoc R X]
  constructor
  · rw [k, k, H.aba]
  · rw [k, k, H.bab]
  · rw [k, transpose_mul, transpose_mul, transpose_transpose, H.symL, ← Matrix.mul_assoc]
  · rw [k, transpose_mul, transpose_mul, transpose_transpose, H.symR, ← Matrix.mul_assoc]

theorem isUnit_conj {t : Type*} [Fintype t] [DecidableEq t] {R : Matrix t t ℝ} (h : Rᵀ * R = 1) (M : Matrix t t ℝ) :
    IsUnit (R * M * Rᵀ).det ↔ IsUnit M.det := by
  have hd : R.det * R.det = 1 := by
    have := congrArg det h
    rwa [det_mul, det_transpose, det_one] at this
  rw [det_mul, det_mul, det_transpose, show R.det * M.det * R.det = (R.det * R.det) * M.det by ring, hd, _root_.one_mul]

theorem inv_conj {t : Type*} [Fintype t] [DecidableEq t] {R : Matrix t t ℝ} (h : Rᵀ * R = 1) (M : Matrix t t ℝ) :
    (R * M * Rᵀ)⁻¹ = R * M⁻¹ * Rᵀ := by
  have hi : R⁻¹ = Rᵀ := inv_eq_left_inv h
  have hi' : (Rᵀ)⁻¹ = R := inv_eq_left_inv (mul_eq_one_comm.mp h)
  rw [Matrix.mul_inv_rev, Matrix.mul_inv_rev, hi, hi', Matrix.mul_assoc]

/-- The contact space of the robot seen otherwise. -/
def seenSpace (U V : Matrix (Fin 6) (Fin 6) ℝ) (R : Matrix (Fin c) (Fin c) ℝ) (S : ContactSpace c ι) : ContactSpace c ι :=
  { lambda := R * S.lambda * Rᵀ
    JcInvT := R * S.JcInvT * (baseChange (ι := ι) V)ᵀ
    Nc := (baseChange (ι := ι) U)ᵀ * S.Nc * (baseChange (ι := ι) V)ᵀ
    AinvNc := baseChange (ι := ι) V * S.AinvNc * (baseChange (ι := ι) V)ᵀ
    W := S.W
    Winv := S.Winv }

section
variable {U V : Matrix (Fin 6) (Fin 6) ℝ} {R : Matrix (Fin c) (Fin c) ℝ}
  {A A' : Matrix (Fin 6 ⊕ ι) (Fin 6 ⊕ ι) ℝ} {J J' : Matrix (Fin c) (Fin 6 ⊕ ι) ℝ} {G G' : Fin 6 ⊕ ι → ℝ}

theorem seen_inv (hU : U * V = 1) (h : SeenAs U R A J G A' J' G') : A'⁻¹ = baseChange (ι := ι) V * A⁻¹ * (baseChange (ι := ι) V)ᵀ := by
  have hb : (baseChange (ι := ι) U : Matrix (Fin 6 ⊕ ι) _ ℝ) * baseChange (ι := ι) V = 1 := by rw [baseChange_mul, hU, baseChange_one]
  have h1 : (baseChange (ι := ι) U : Matrix (Fin 6 ⊕ ι) _ ℝ)⁻¹ = baseChange (ι := ι) V := inv_eq_right_inv hb
  rw [h.mass, Matrix.mul_inv_rev, Matrix.mul_inv_rev, ← transpose_nonsing_inv, h1, Matrix.mul_assoc]

theorem seen_UV (hU : U * V = 1) {m : Type*} [Fintype m] (X : Matrix m (Fin 6 ⊕ ι) ℝ) : X * baseChange (ι := ι) U * baseChange (ι := ι) V = X := by
  rw [Matrix.mul_assoc, baseChange_mul, hU, baseChange_one, Matrix.mul_one]

theorem seen_VTUT (hU : U * V = 1) {m : Type*} [Fintype m] (X : Matrix m (Fin 6 ⊕ ι) ℝ) :
    X * (baseChange (ι := ι) V)ᵀ * (baseChange (ι := ι) U)ᵀ = X := by
  rw [Matrix.mul_assoc, ← transpose_mul, baseChange_mul, hU, baseChange_one, transpose_one, Matrix.mul_one]

theorem seen_UTVT (hU : U * V = 1) : (baseChange (ι := ι) U : Matrix (Fin 6 ⊕ ι) _ ℝ)ᵀ * (baseChange (ι := ι) V)ᵀ = 1 := by
  rw [← transpose_mul, baseChange_mul, mul_eq_one_comm.mp hU, baseChange_one, transpose_one]

theorem contactSpace_seen (hU : U * V = 1) (hR : Rᵀ * R = 1) (h : SeenAs U R A J G A' J' G') :
    contactSpace J' A'⁻¹ = (contactSpace J A⁻¹).map (seenSpace U V R) := by
  have hM : J' * A'⁻¹ * J'ᵀ = R * (J * A⁻¹ * Jᵀ) * Rᵀ := by
    rw [seen_inv hU h, h.contact, ← Matrix.mul_assoc, ← Matrix.mul_assoc, seen_UV hU, transpose_mul, transpose_mul,
      ← Matrix.mul_assoc, seen_VTUT hU]
    simp only [Matrix.mul_assoc]
  have hR' : ∀ {m : Type _} [Fintype m] (X : Matrix m (Fin c) ℝ), X * Rᵀ * R = X := by
    intro m _ X; rw [Matrix.mul_assoc, hR, Matrix.mul_one]
  unfold contactSpace
  rw [hM]
  unfold eigenInverse
  by_cases hu : IsUnit (J * A⁻¹ * Jᵀ).det
  · rw [if_pos ((isUnit_conj hR _).mpr hu), if_pos hu]
    simp only [Option.map_some, Option.some.injEq]
    rw [inv_conj hR]
    generalize (J * A⁻¹ * Jᵀ)⁻¹ = Λ
    have e1 : R * Λ * Rᵀ * J' * A'⁻¹ = R * (Λ * J * A⁻¹) * (baseChange (ι := ι) V)ᵀ := by
      rw [seen_inv hU h, h.contact]
      have : R * Λ * Rᵀ * (R * J * baseChange (ι := ι) U) * (baseChange (ι := ι) V * A⁻¹ * (baseChange (ι := ι) V)ᵀ)
          = R * Λ * Rᵀ * R * J * baseChange (ι := ι) U * baseChange (ι := ι) V * A⁻¹ * (baseChange (ι := ι) V)ᵀ := by
        simp only [Matrix.mul_assoc]
      rw [this, hR', seen_UV hU]
      simp only [Matrix.mul_assoc]
    have e2 : 1 - J'ᵀ * (R * (Λ * J * A⁻¹) * (baseChange (ι := ι) V)ᵀ)
        = (baseChange (ι := ι) U)ᵀ * (1 - Jᵀ * (Λ * J * A⁻¹)) * (baseChange (ι := ι) V)ᵀ := by
      rw [Matrix.mul_sub, Matrix.sub_mul, Matrix.mul_one, seen_UTVT hU, h.contact, transpose_mul, transpose_mul]
      congr 1
      have : (baseChange (ι := ι) U)ᵀ * (Jᵀ * Rᵀ) * (R * (Λ * J * A⁻¹) * (baseChange (ι := ι) V)ᵀ)
          = (baseChange (ι := ι) U)ᵀ * Jᵀ * (Rᵀ * R) * (Λ * J * A⁻¹) * (baseChange (ι := ι) V)ᵀ := by
        simp only [Matrix.mul_assoc]
      rw [this, hR, Matrix.mul_one]
      simp only [Matrix.mul_assoc]
    have e3 : A'⁻¹ * ((baseChange (ι := ι) U)ᵀ * (1 - Jᵀ * (Λ * J * A⁻¹)) * (baseChange (ι := ι) V)ᵀ)
        = baseChange (ι := ι) V * (A⁻¹ * (1 - Jᵀ * (Λ * J * A⁻¹))) * (baseChange (ι := ι) V)ᵀ := by
      generalize 1 - Jᵀ * (Λ * J * A⁻¹) = N
      rw [seen_inv hU h]
      have : baseChange (ι := ι) V * A⁻¹ * (baseChange (ι := ι) V)ᵀ * ((baseChange (ι := ι) U)ᵀ * N * (baseChange (ι := ι) V)ᵀ)
          = baseChange (ι := ι) V * A⁻¹ * (baseChange (ι := ι) V)ᵀ * (baseChange (ι := ι) U)ᵀ * N * (baseChange (ι := ι) V)ᵀ := by
        simp only [Matrix.mul_assoc]
      rw [this, seen_VTUT hU]
      simp only [Matrix.mul_assoc]
    have e4 : ∀ P : Matrix (Fin 6 ⊕ ι) (Fin 6 ⊕ ι) ℝ,
        (baseChange (ι := ι) V * P * (baseChange (ι := ι) V)ᵀ).submatrix Sum.inr Sum.inr = P.submatrix Sum.inr Sum.inr := by
      intro P
      rw [← sel_mul_selT, ← sel_mul_selT]
      have : Sel ι * (baseChange (ι := ι) V * P * (baseChange (ι := ι) V)ᵀ) * (Sel ι)ᵀ
          = (Sel ι * baseChange (ι := ι) V) * P * ((baseChange (ι := ι) V)ᵀ * (Sel ι)ᵀ) := by simp only [Matrix.mul_assoc]
      rw [this, sel_baseChange, baseChangeT_selT]
    unfold contactSpaceOf seenSpace
    simp only
    rw [e1, e2, e3, e4]
  · rw [if_neg (fun hc => hu ((isUnit_conj hR _).mp hc)), if_neg hu]
    rfl

variable {S : ContactSpace c ι}

theorem gravityTorque_seen (hU : U * V = 1) (h : SeenAs U R A J G A' J' G') :
    gravityTorque (seenSpace U V R S) A'⁻¹ G' = gravityTorque S A⁻¹ G := by
  unfold gravityTorque
  rw [h.weight, seen_inv hU h]
  simp only [seenSpace]
  congr 1
  rw [← sel_mul, ← sel_mul, mulVec_mulVec, mulVec_mulVec, mulVec_mulVec]
  congr 1
  have : Sel ι * (baseChange (ι := ι) V * A⁻¹ * (baseChange (ι := ι) V)ᵀ) * ((baseChange (ι := ι) U)ᵀ * S.Nc * (baseChange (ι := ι) V)ᵀ) * (baseChange (ι := ι) U)ᵀ
      = Sel ι * baseChange (ι := ι) V * A⁻¹ * (baseChange (ι := ι) V)ᵀ * (baseChange (ι := ι) U)ᵀ * S.Nc * (baseChange (ι := ι) V)ᵀ * (baseChange (ι := ι) U)ᵀ := by
    simp only [Matrix.mul_assoc]
  rw [this, seen_VTUT hU, seen_VTUT hU, sel_baseChange]

theorem gravityForce_seen (hU : U * V = 1) (h : SeenAs U R A J G A' J' G') :
    gravityForce (seenSpace U V R S) G' = R *ᵥ gravityForce S G := by
  unfold gravityForce
  rw [h.weight]
  simp only [seenSpace]
  rw [mulVec_mulVec, seen_VTUT hU, mulVec_mulVec]

theorem rightCols_seen : (seenSpace U V R S).JcInvT.submatrix id Sum.inr = R * S.JcInvT.submatrix id Sum.inr := by
  rw [← mul_selT, ← mul_selT]
  simp only [seenSpace]
  rw [Matrix.mul_assoc, baseChangeT_selT, Matrix.mul_assoc]

theorem contactForce_seen (P : Fin c → ℝ) (τ : ι → ℝ) :
    contactForce (seenSpace U V R S) (R *ᵥ P) τ = R *ᵥ contactForce S P τ := by
  unfold contactForce
  rw [rightCols_seen, mulVec_sub, mulVec_mulVec]

/-! ### tasks -/

/-- The task seen otherwise: rows turned by `Q`, base velocities `U v'`. -/
def seenTask (U : Matrix (Fin 6) (Fin 6) ℝ) (T : TaskIn ι) (Q : Matrix (Fin T.t) (Fin T.t) ℝ) : TaskIn ι :=
  ⟨T.t, Q * T.J * baseChange (ι := ι) U, Q *ᵥ T.f⟩

/-- The same, with the task matrices. -/
def seenReady (U : Matrix (Fin 6) (Fin 6) ℝ) (T : TaskReady ι) (Q : Matrix (Fin T.t) (Fin T.t) ℝ) : TaskReady ι :=
  { seenTask U T.toTaskIn Q with Λ := Q * T.Λ * Qᵀ, Jkt := T.Jkt * Qᵀ }

theorem jkt_mat_seen (hU : U * V = 1) (h : SeenAs U R A J G A' J' G') {t : ℕ} (Jt : Matrix (Fin t) (Fin 6 ⊕ ι) ℝ)
    (Q : Matrix (Fin t) (Fin t) ℝ) :
    (Q * Jt * baseChange (ι := ι) U) * A'⁻¹ * (seenSpace U V R S).Nc * (Q * Jt * baseChange (ι := ι) U)ᵀ
      = Q * (Jt * A⁻¹ * S.Nc * Jtᵀ) * Qᵀ := by
  simp only [seenSpace]
  rw [seen_inv hU h]
  have : Q * Jt * baseChange (ι := ι) U * (baseChange (ι := ι) V * A⁻¹ * (baseChange (ι := ι) V)ᵀ) *
      ((baseChange (ι := ι) U)ᵀ * S.Nc * (baseChange (ι := ι) V)ᵀ) * (Q * Jt * baseChange (ι := ι) U)ᵀ
      = Q * Jt * baseChange (ι := ι) U * baseChange (ι := ι) V * A⁻¹ * (baseChange (ι := ι) V)ᵀ * (baseChange (ι := ι) U)ᵀ * S.Nc *
        (baseChange (ι := ι) V)ᵀ * (baseChange (ι := ι) U)ᵀ * Jtᵀ * Qᵀ := by
    rw [transpose_mul, transpose_mul]; simp only [Matrix.mul_assoc]
  rw [this, seen_UV hU, seen_VTUT hU, seen_VTUT hU]
  simp only [Matrix.mul_assoc]

theorem jkt_Q_seen (hU : U * V = 1) (h : SeenAs U R A J G A' J' G') {t : ℕ} (Jt : Matrix (Fin t) (Fin 6 ⊕ ι) ℝ)
    (Q Λ : Matrix (Fin t) (Fin t) ℝ) (hQ : Qᵀ * Q = 1) :
    (Q * Λ * Qᵀ * (Q * Jt * baseChange (ι := ι) U) * A'⁻¹ * (seenSpace U V R S).Nc).submatrix id Sum.inr
      = Q * (Λ * Jt * A⁻¹ * S.Nc).submatrix id Sum.inr := by
  rw [← mul_selT, ← mul_selT]
  simp only [seenSpace]
  rw [seen_inv hU h]
  have : Q * Λ * Qᵀ * (Q * Jt * baseChange (ι := ι) U) * (baseChange (ι := ι) V * A⁻¹ * (baseChange (ι := ι) V)ᵀ) *
      ((baseChange (ι := ι) U)ᵀ * S.Nc * (baseChange (ι := ι) V)ᵀ) * (Sel ι)ᵀ
      = Q * Λ * (Qᵀ * Q) * Jt * baseChange (ι := ι) U * baseChange (ι := ι) V * A⁻¹ * (baseChange (ι := ι) V)ᵀ *
      (baseChange (ι := ι) U)ᵀ * S.Nc * ((baseChange (ι := ι) V)ᵀ * (Sel ι)ᵀ) := by
    simp only [Matrix.mul_assoc]
  rw [this, seen_UV hU, seen_VTUT hU, baseChangeT_selT, hQ, Matrix.mul_one]
  simp only [Matrix.mul_assoc]

theorem jkt_pinv_seen {t : ℕ} (Winv : Matrix ι ι ℝ) (X : Matrix (Fin t) ι ℝ) (Q : Matrix (Fin t) (Fin t) ℝ) (hQ : Qᵀ * Q = 1) :
    Winv * (Q * X)ᵀ * pinv (Q * X * Winv * (Q * X)ᵀ) = Winv * Xᵀ * pinv (X * Winv * Xᵀ) * Qᵀ := by
  have e : Q * X * Winv * (Q * X)ᵀ = Q * (X * Winv * Xᵀ) * Qᵀ := by
    rw [transpose_mul]; simp only [Matrix.mul_assoc]
  rw [e, pinv_conj hQ, transpose_mul]
  have : Winv * (Xᵀ * Qᵀ) * (Q * pinv (X * Winv * Xᵀ) * Qᵀ) = Winv * Xᵀ * (Qᵀ * Q) * pinv (X * Winv * Xᵀ) * Qᵀ := by
    simp only [Matrix.mul_assoc]
  rw [this, hQ, Matrix.mul_one]

theorem jkt_seen (hU : U * V = 1) (h : SeenAs U R A J G A' J' G') (T : TaskIn ι) (Q : Matrix (Fin T.t) (Fin T.t) ℝ)
    (hQ : Qᵀ * Q = 1) {Y : TaskReady ι} (hY : calculateJKT S A⁻¹ T = some Y) :
    ∃ Q' : Matrix (Fin Y.t) (Fin Y.t) ℝ, Q'ᵀ * Q' = 1 ∧
      calculateJKT (seenSpace U V R S) A'⁻¹ (seenTask U T Q) = some (seenReady U Y Q') := by
  unfold calculateJKT at hY
  rw [Option.map_eq_some_iff] at hY
  obtain ⟨Λ, h1, rfl⟩ := hY
  obtain ⟨hu, hΛ⟩ := eigenInverse_eq_some.mp h1
  refine ⟨Q, hQ, ?_⟩
  unfold calculateJKT
  rw [Option.map_eq_some_iff]
  refine ⟨Q * Λ * Qᵀ, ?_, ?_⟩
  · refine (congrArg eigenInverse (jkt_mat_seen hU h T.J Q)).trans ?_
    exact eigenInverse_eq_some.mpr ⟨(isUnit_conj hQ _).mpr hu, (congrArg (fun X => Q * X * Qᵀ) hΛ).trans (inv_conj hQ _).symm⟩
  · have hq := jkt_Q_seen (S := S) hU h T.J Q Λ hQ
    have hp := jkt_pinv_seen S.Winv ((Λ * T.J * A⁻¹ * S.Nc).submatrix id Sum.inr) Q hQ
    rw [← hq] at hp
    exact congrArg (TaskReady.mk (seenTask U T Q) (Q * Λ * Qᵀ)) hp

theorem taskNull_seen (hU : U * V = 1) (Y : TaskReady ι) {Q : Matrix (Fin Y.t) (Fin Y.t) ℝ} (hQ : Qᵀ * Q = 1) (N : Matrix ι ι ℝ) :
    taskNullSpace (seenSpace U V R S) (seenReady U Y Q) N = taskNullSpace S Y N := by
  unfold taskNullSpace
  congr 2
  rw [← mul_selT, ← mul_selT]
  simp only [seenReady, seenTask, seenSpace]
  have : Y.Jkt * Qᵀ * (Q * Y.Λ * Qᵀ) * (Q * Y.J * baseChange (ι := ι) U) * (baseChange (ι := ι) V * S.AinvNc * (baseChange (ι := ι) V)ᵀ * (Sel ι)ᵀ)
      = Y.Jkt * (Qᵀ * Q) * Y.Λ * (Qᵀ * Q) * Y.J * baseChange (ι := ι) U * baseChange (ι := ι) V * S.AinvNc * ((baseChange (ι := ι) V)ᵀ * (Sel ι)ᵀ) := by
    simp only [Matrix.mul_assoc]
  refine this.trans ?_
  rw [hQ, Matrix.mul_one, Matrix.mul_one, seen_UV hU, baseChangeT_selT]
  simp only [Matrix.mul_assoc]

theorem step_seen (Y : TaskReady ι) {Q : Matrix (Fin Y.t) (Fin Y.t) ℝ} (hQ : Qᵀ * Q = 1) (a : Fin Y.t → ℝ) :
    (Y.Jkt * Qᵀ) *ᵥ ((Q * Y.Λ * Qᵀ) *ᵥ (Q *ᵥ a)) = Y.Jkt *ᵥ (Y.Λ *ᵥ a) := by
  rw [mulVec_mulVec, mulVec_mulVec, mulVec_mulVec]
  congr 1
  have : Y.Jkt * Qᵀ * (Q * Y.Λ * Qᵀ) * Q = Y.Jkt * (Qᵀ * Q) * Y.Λ * (Qᵀ * Q) := by simp only [Matrix.mul_assoc]
  rw [this, hQ, Matrix.mul_one, Matrix.mul_one]

/-- The tasks of the second list are those of the first, seen otherwise. -/
def SeenTasks (U : Matrix (Fin 6) (Fin 6) ℝ) : List (TaskIn ι) → List (TaskIn ι) → Prop :=
  List.Forall₂ fun T T' => ∃ Q : Matrix (Fin T.t) (Fin T.t) ℝ, Qᵀ * Q = 1 ∧ T' = seenTask U T Q

/-- The same for tasks with their matrices. -/
def SeenReadies (U : Matrix (Fin 6) (Fin 6) ℝ) : List (TaskReady ι) → List (TaskReady ι) → Prop :=
  List.Forall₂ fun T T' => ∃ Q : Matrix (Fin T.t) (Fin T.t) ℝ, Qᵀ * Q = 1 ∧ T' = seenReady U T Q

theorem jkt_seen_none (hU : U * V = 1) (h : SeenAs U R A J G A' J' G') (T : TaskIn ι) (Q : Matrix (Fin T.t) (Fin T.t) ℝ)
    (hQ : Qᵀ * Q = 1) (hY : calculateJKT S A⁻¹ T = none) : calculateJKT (seenSpace U V R S) A'⁻¹ (seenTask U T Q) = none := by
  unfold calculateJKT at hY ⊢
  rw [Option.map_eq_none_iff] at hY ⊢
  rw [eigenInverse_eq_none] at hY ⊢
  intro hc
  exact hY ((isUnit_conj hQ _).mp ((congrArg (fun M => IsUnit (det M)) (jkt_mat_seen hU h T.J Q)).mp hc))

theorem calcTaskSpace_seen (hU : U * V = 1) (h : SeenAs U R A J G A' J' G') {ts ts' : List (TaskIn ι)} (ht : SeenTasks U ts ts') :
    (calcTaskSpace S A⁻¹ ts = none ∧ calcTaskSpace (seenSpace U V R S) A'⁻¹ ts' = none) ∨
    ∃ ys ys', calcTaskSpace S A⁻¹ ts = some ys ∧ calcTaskSpace (seenSpace U V R S) A'⁻¹ ts' = some ys' ∧ SeenReadies U ys ys' := by
  unfold calcTaskSpace
  induction ht with
  | nil => exact Or.inr ⟨[], [], rfl, rfl, List.Forall₂.nil⟩
  | @cons T T' l l' hT _ ih =>
    obtain ⟨Q, hQ, rfl⟩ := hT
    rw [List.mapM_cons, List.mapM_cons]
    rcases hy : calculateJKT S A⁻¹ T with _ | Y
    · left
      rw [jkt_seen_none hU h T Q hQ hy]
      exact ⟨rfl, rfl⟩
    · obtain ⟨Q', hQ', e⟩ := jkt_seen hU h T Q hQ hy
      rw [e]
      rcases ih with ⟨h1, h2⟩ | ⟨ys, ys', h1, h2, h3⟩
      · left; rw [h1, h2]; exact ⟨rfl, rfl⟩
      · right; rw [h1, h2]
        exact ⟨Y :: ys, _ :: ys', rfl, rfl, List.Forall₂.cons ⟨Q', hQ', rfl⟩ h3⟩

theorem taskTorque_seen (hU : U * V = 1) {ys ys' : List (TaskReady ι)} (hy : SeenReadies U ys ys') :
    taskTorque (seenSpace U V R S) ys' = taskTorque S ys := by
  unfold taskTorque
  generalize (1 : Matrix ι ι ℝ) = N
  generalize (0 : ι → ℝ) = τ
  induction hy generalizing N τ with
  | nil => rfl
  | @cons T T' l l' hT _ ih =>
    obtain ⟨Q, hQ, rfl⟩ := hT
    simp only [taskTorqueFrom]
    rw [taskNull_seen hU T hQ, ih]
    congr 3
    exact step_seen T hQ T.f

end

end Verif
