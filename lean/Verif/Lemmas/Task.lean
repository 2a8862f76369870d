import Verif.Model.Task
import Verif.Lemmas.ContactRank

set_option linter.unusedSectionVars false

namespace Verif
open Matrix Verif.Spec Verif.Model

variable {ι : Type*} [Fintype ι] [DecidableEq ι] {c : ℕ}
variable {A : Matrix (Fin 6 ⊕ ι) (Fin 6 ⊕ ι) ℝ} {J : Matrix (Fin c) (Fin 6 ⊕ ι) ℝ}
  {S : ContactSpace c ι}

/-- Torque to task acceleration. -/
def Tm (S : ContactSpace c ι) {t : ℕ} (Jt : Matrix (Fin t) (Fin 6 ⊕ ι) ℝ) : Matrix (Fin t) ι ℝ :=
  Jt * S.AinvNc * (Sel ι)ᵀ

/-- Task acceleration to torque. -/
def Km (R : TaskReady ι) : Matrix ι (Fin R.t) ℝ := R.Jkt * R.Λ

theorem jkt_eq_some {T : TaskIn ι} {R : TaskReady ι} (hS : contactSpace J A⁻¹ = some S) :
    calculateJKT S A⁻¹ T = some R ↔
      IsUnit (T.J * S.AinvNc * T.Jᵀ).det ∧
      R = { T with
            Λ := (T.J * S.AinvNc * T.Jᵀ)⁻¹
            Jkt := S.Winv * ((T.J * S.AinvNc * T.Jᵀ)⁻¹ * Tm S T.J)ᵀ *
              pinv (((T.J * S.AinvNc * T.Jᵀ)⁻¹ * Tm S T.J) * S.Winv *
                ((T.J * S.AinvNc * T.Jᵀ)⁻¹ * Tm S T.J)ᵀ) } := by
  have e : T.J * A⁻¹ * S.Nc * T.Jᵀ = T.J * S.AinvNc * T.Jᵀ := by
    rw [cs_P hS]; simp only [Matrix.mul_assoc]
  have eq : ∀ Λ : Matrix (Fin T.t) (Fin T.t) ℝ,
      (Λ * T.J * A⁻¹ * S.Nc).submatrix id Sum.inr = Λ * Tm S T.J := by
    intro Λ
    rw [← mul_selT, Tm, cs_P hS]; simp only [Matrix.mul_assoc]
  unfold calculateJKT
  rw [Option.map_eq_some_iff, e]
  constructor
  · rintro ⟨Λ, h1, h2⟩
    obtain ⟨h3, rfl⟩ := eigenInverse_eq_some.mp h1
    refine ⟨h3, ?_⟩
    rw [← h2]
    simp only [eq]
  · rintro ⟨h1, h2⟩
    refine ⟨_, eigenInverse_eq_some.mpr ⟨h1, rfl⟩, ?_⟩
    rw [h2]
    simp only [eq]

/-- Closed form of the torque map when the contacts determine the base. -/
theorem Km_eq (hA : IsSPD A) (hS : contactSpace J A⁻¹ = some S) (hB : BaseDetermined J)
    {T : TaskIn ι} {R : TaskReady ι} (hR : calculateJKT S A⁻¹ T = some R) :
    Km R = S.Winv * (Tm S R.J)ᵀ * (R.J * S.AinvNc * R.Jᵀ)⁻¹ ∧
    Tm S R.J * S.Winv * (Tm S R.J)ᵀ = R.J * S.AinvNc * R.Jᵀ ∧ IsUnit (R.J * S.AinvNc * R.Jᵀ).det := by
  obtain ⟨hu, rfl⟩ := (jkt_eq_some hS).mp hR
  set L := T.J * S.AinvNc * T.Jᵀ with hL
  have hLs : Lᵀ = L := by
    rw [hL]; simp [transpose_mul, cs_P_symm hA hS, Matrix.mul_assoc]
  have hLis : (L⁻¹)ᵀ = L⁻¹ := by rw [transpose_nonsing_inv, hLs]
  have hTWT : Tm S T.J * S.Winv * (Tm S T.J)ᵀ = L := by
    unfold Tm
    calc T.J * S.AinvNc * (Sel ι)ᵀ * S.Winv * (T.J * S.AinvNc * (Sel ι)ᵀ)ᵀ
        = T.J * (S.AinvNc * (Sel ι)ᵀ * S.Winv * (Sel ι * S.AinvNc)) * T.Jᵀ := by
          simp only [transpose_mul, cs_P_symm hA hS, transpose_transpose, Matrix.mul_assoc]
      _ = L := by rw [cs_P_factor hA hS hB]
  have h1 : L * L⁻¹ = 1 := mul_nonsing_inv _ hu
  have h2 : L⁻¹ * L = 1 := nonsing_inv_mul _ hu
  have hQ : L⁻¹ * Tm S T.J * S.Winv * (L⁻¹ * Tm S T.J)ᵀ = L⁻¹ := by
    calc L⁻¹ * Tm S T.J * S.Winv * (L⁻¹ * Tm S T.J)ᵀ
        = L⁻¹ * (Tm S T.J * S.Winv * (Tm S T.J)ᵀ) * L⁻¹ := by
          simp only [transpose_mul, hLis, Matrix.mul_assoc]
      _ = L⁻¹ := by rw [hTWT, h2, Matrix.one_mul]
  have hp : pinv (L⁻¹) = L := by
    rw [pinv_of_isUnit (isUnit_nonsing_inv_det _ hu), nonsing_inv_nonsing_inv _ hu]
  unfold Km
  simp only
  rw [hQ, hp]
  refine ⟨?_, hTWT, hu⟩
  calc S.Winv * (L⁻¹ * Tm S T.J)ᵀ * L * L⁻¹
      = S.Winv * (Tm S T.J)ᵀ * L⁻¹ * (L * L⁻¹) := by
        simp only [transpose_mul, hLis, Matrix.mul_assoc]
    _ = S.Winv * (Tm S T.J)ᵀ * L⁻¹ := by rw [h1, Matrix.mul_one]

/-- The computed torque map is a right inverse of the task map. -/
theorem task_right_inverse (hA : IsSPD A) (hS : contactSpace J A⁻¹ = some S) (hB : BaseDetermined J)
    {T : TaskIn ι} {R : TaskReady ι} (hR : calculateJKT S A⁻¹ T = some R) :
    Tm S R.J * Km R = 1 := by
  obtain ⟨h1, h2, h3⟩ := Km_eq hA hS hB hR
  rw [h1, ← Matrix.mul_assoc, ← Matrix.mul_assoc, h2]
  exact mul_nonsing_inv _ h3

theorem null_eq (R : TaskReady ι) (N : Matrix ι ι ℝ) :
    taskNullSpace S R N = N * (1 - Km R * Tm S R.J) := by
  unfold taskNullSpace Km Tm
  rw [← mul_selT]; simp only [Matrix.mul_assoc]

/-- Linear form of the stack: torque relative to the start. -/
theorem taskTorqueFrom_add (N : Matrix ι ι ℝ) (τ : ι → ℝ) (ts : List (TaskReady ι)) :
    taskTorqueFrom S N τ ts = τ + taskTorqueFrom S N 0 ts := by
  induction ts generalizing N τ with
  | nil => simp [taskTorqueFrom]
  | cons R rest ih =>
    rw [taskTorqueFrom, taskTorqueFrom, ih, ih _ (0 + _)]
    simp [add_assoc]

theorem taskTorqueFrom_left (N : Matrix ι ι ℝ) (ts : List (TaskReady ι)) :
    taskTorqueFrom S N 0 ts = N *ᵥ taskTorqueFrom S 1 0 ts := by
  induction ts generalizing N with
  | nil => simp [taskTorqueFrom]
  | cons R rest ih =>
    rw [taskTorqueFrom, taskTorqueFrom, taskTorqueFrom_add, taskTorqueFrom_add (N := taskNullSpace S R 1),
      ih, ih (N := taskNullSpace S R 1), mulVec_add, null_eq, null_eq]
    simp [mulVec_mulVec, Matrix.mul_assoc]

/-- Recursive form of the stack torque. -/
theorem taskTorque_cons (R : TaskReady ι) (rest : List (TaskReady ι)) :
    taskTorque S (R :: rest)
      = Km R *ᵥ R.f + (1 - Km R * Tm S R.J) *ᵥ taskTorque S rest := by
  unfold taskTorque
  rw [taskTorqueFrom, taskTorqueFrom_add, taskTorqueFrom_left, null_eq]
  simp [Km, mulVec_mulVec]

theorem taskTorque_nil : taskTorque S ([] : List (TaskReady ι)) = 0 := rfl

/-- Gravity torque cancels gravity in every task when the contacts determine the base. -/
theorem P_gravity (hA : IsSPD A) (hS : contactSpace J A⁻¹ = some S) (hB : BaseDetermined J)
    (G : Fin 6 ⊕ ι → ℝ) :
    S.AinvNc *ᵥ (actuate (gravityTorque S A⁻¹ G)) = S.AinvNc *ᵥ G := by
  have e : gravityTorque S A⁻¹ G = (S.Winv * (Sel ι * S.AinvNc)) *ᵥ G := by
    unfold gravityTorque
    rw [← sel_mul, mulVec_mulVec, mulVec_mulVec, cs_P hS]
    simp only [Matrix.mul_assoc]
  rw [e, actuate_eq, mulVec_mulVec, mulVec_mulVec]
  congr 1
  have := cs_P_factor hA hS hB
  simp only [Matrix.mul_assoc] at this ⊢
  exact this

/-- Task acceleration under gravity torque plus any torque `τ`. -/
theorem task_accel (hA : IsSPD A) (hS : contactSpace J A⁻¹ = some S) (hB : BaseDetermined J)
    {G : Fin 6 ⊕ ι → ℝ} {τ : ι → ℝ} {qdd : Fin 6 ⊕ ι → ℝ} {F : Fin c → ℝ}
    (h : Motion A J G (gravityTorque S A⁻¹ G + τ) qdd F) {t : ℕ} (Jt : Matrix (Fin t) (Fin 6 ⊕ ι) ℝ) :
    Jt *ᵥ qdd = Tm S Jt *ᵥ τ := by
  rw [motion_iff hA hS] at h
  rw [h.1, actuate_eq, mulVec_add, ← actuate_eq, add_sub_right_comm, mulVec_add, mulVec_sub,
    P_gravity hA hS hB, sub_self, zero_add, mulVec_mulVec, mulVec_mulVec]
  rw [Tm]

end Verif
