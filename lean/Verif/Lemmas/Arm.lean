import Verif.Lemmas.Task

/-!
# A two-joint robot with its base held by one 6-D contact, unit inertia (for counterexamples)
-/

namespace Verif.Arm
open Matrix Verif Verif.Spec Verif.Model

def A : Matrix (Fin 6 ⊕ Fin 2) (Fin 6 ⊕ Fin 2) ℝ := 1

/-- contact Jacobian `[1 0]` -/
def J : Matrix (Fin 6) (Fin 6 ⊕ Fin 2) ℝ := Matrix.of fun i s =>
  match s with
  | Sum.inl j => if i = j then 1 else 0
  | Sum.inr _ => 0

theorem hA : IsSPD A := isSPD_one

theorem JJT : J * A⁻¹ * Jᵀ = 1 := by
  ext i j
  simp [J, A, Matrix.mul_apply, Matrix.one_apply, eq_comm]

theorem J_base : BaseDetermined J := by
  intro v h
  ext i
  have := congrFun h i
  simpa [J, mulVec, dotProduct] using this

noncomputable def S : ContactSpace 6 (Fin 2) := contactSpaceOf J A⁻¹ (J * A⁻¹ * Jᵀ)⁻¹

theorem hS : contactSpace J A⁻¹ = some S :=
  contactSpace_eq_some.mpr ⟨by rw [JJT]; simp, rfl⟩

theorem P_apply (s t : Fin 6 ⊕ Fin 2) : S.AinvNc s t =
    match s, t with
    | Sum.inr a, Sum.inr b => if a = b then 1 else 0
    | _, _ => 0 := by
  have e : S.AinvNc = 1 - Jᵀ * J := by
    rw [cs_P hS, cs_Nc hS, cs_JcInvT hS, cs_lambda hS, JJT]
    simp [A]
  rw [e]
  rcases s with s | s <;> rcases t with t | t <;>
    simp [J, Matrix.mul_apply, Matrix.one_apply, Matrix.sub_apply, eq_comm]

theorem W_one : S.W = 1 := by
  rw [cs_W hS, sel_mul_selT]
  ext i j
  simp [P_apply, Matrix.one_apply]

theorem Winv_one : S.Winv = 1 := by
  rw [cs_Winv hS, W_one, pinv_of_isUnit (by simp)]; simp

/-- Row of a one-dimensional joint-space task. -/
def rowJ (a : Fin 2 → ℝ) : Matrix (Fin 1) (Fin 6 ⊕ Fin 2) ℝ :=
  Matrix.of fun _ s => Sum.elim (fun _ => 0) a s

/-- One-dimensional joint-space task with row `a` and command `f`. -/
def task (a : Fin 2 → ℝ) (f : ℝ) : TaskIn (Fin 2) :=
  { t := 1, J := rowJ a, f := fun _ => f }

theorem rowJ_P (a : Fin 2 → ℝ) : rowJ a * S.AinvNc = rowJ a := by
  ext i j
  rcases j with j | j <;> simp [rowJ, Matrix.mul_apply, P_apply]

theorem Tm_row (a : Fin 2 → ℝ) : Tm S (rowJ a) = Matrix.of fun _ => a := by
  unfold Tm
  rw [mul_selT, rowJ_P]
  ext i j
  simp [rowJ]

theorem L_row (a : Fin 2 → ℝ) :
    rowJ a * S.AinvNc * (rowJ a)ᵀ = Matrix.of fun _ _ => a ⬝ᵥ a := by
  rw [rowJ_P]
  ext i j
  simp [rowJ, Matrix.mul_apply, dotProduct]

theorem ready_some (a : Fin 2 → ℝ) (f : ℝ) (h : a ⬝ᵥ a ≠ 0) :
    ∃ R, calculateJKT S A⁻¹ (task a f) = some R := by
  refine ⟨_, (jkt_eq_some hS).mpr ⟨?_, rfl⟩⟩
  change IsUnit (rowJ a * S.AinvNc * (rowJ a)ᵀ).det
  rw [L_row, det_fin_one]
  exact h.isUnit

/-- Torque of a stack in closed form: `K = a / (a·a)`. -/
theorem stack_cons (a : Fin 2 → ℝ) (f : ℝ) (h : a ⬝ᵥ a ≠ 0) {R : TaskReady (Fin 2)}
    (hR : calculateJKT S A⁻¹ (task a f) = some R) (rest : List (TaskReady (Fin 2))) :
    taskTorque S (R :: rest)
      = taskTorque S rest + ((f - a ⬝ᵥ taskTorque S rest) / (a ⬝ᵥ a)) • a := by
  obtain ⟨hK, -, -⟩ := Km_eq hA hS J_base hR
  have hRT : R.toTaskIn = task a f := by rw [((jkt_eq_some hS).mp hR).2]
  rw [taskTorque_cons, hK]
  obtain ⟨T, Λ, Jkt⟩ := R
  simp only at hRT
  subst hRT
  generalize taskTorque S rest = τ
  change (S.Winv * (Tm S (rowJ a))ᵀ * (rowJ a * S.AinvNc * (rowJ a)ᵀ)⁻¹) *ᵥ (fun _ : Fin 1 => f)
    + (1 - (S.Winv * (Tm S (rowJ a))ᵀ * (rowJ a * S.AinvNc * (rowJ a)ᵀ)⁻¹) * Tm S (rowJ a)) *ᵥ τ = _
  have hinv : (Matrix.of fun _ _ : Fin 1 => a ⬝ᵥ a)⁻¹ = Matrix.of fun _ _ : Fin 1 => (a ⬝ᵥ a)⁻¹ := by
    apply inv_eq_right_inv
    ext i j
    fin_cases i; fin_cases j
    rw [Matrix.mul_apply, Fin.sum_univ_one]
    exact mul_inv_cancel₀ h
  rw [Winv_one, L_row, Tm_row, hinv, Matrix.one_mul, sub_mulVec, one_mulVec, ← mulVec_mulVec]
  generalize a ⬝ᵥ a = d
  ext i
  simp [Matrix.mul_apply, mulVec, dotProduct]
  ring

/-- The torque of a task is a multiple of its row. -/
theorem Km_task (a : Fin 2 → ℝ) (f : ℝ) {R : TaskReady (Fin 2)}
    (hR : calculateJKT S A⁻¹ (task a f) = some R) (x : Fin R.t → ℝ) :
    ∃ k : ℝ, R.Jkt *ᵥ (R.Λ *ᵥ x) = k • a := by
  obtain ⟨hK, -, -⟩ := Km_eq hA hS J_base hR
  have hRT : R.toTaskIn = task a f := by rw [((jkt_eq_some hS).mp hR).2]
  have : R.Jkt *ᵥ (R.Λ *ᵥ x) = Km R *ᵥ x := by rw [Km, mulVec_mulVec]
  rw [this, hK]
  obtain ⟨T, Λ, Jkt⟩ := R
  simp only at hRT
  subst hRT
  change Fin 1 → ℝ at x
  change ∃ k : ℝ, (S.Winv * (Tm S (rowJ a))ᵀ * (rowJ a * S.AinvNc * (rowJ a)ᵀ)⁻¹) *ᵥ x = _
  rw [Winv_one, Tm_row, Matrix.one_mul, ← mulVec_mulVec]
  generalize (rowJ a * S.AinvNc * (rowJ a)ᵀ)⁻¹ *ᵥ x = y
  refine ⟨y 0, ?_⟩
  ext i
  simp [mulVec, dotProduct, mul_comm]

end Verif.Arm
