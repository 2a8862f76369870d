import Verif.Lemmas.Turned
import Verif.Spec.Renumbered

set_option linter.unusedSectionVars false

namespace Verif
open Matrix Verif.Spec Verif.Model

variable {ι : Type*} [Fintype ι] [DecidableEq ι] {c : ℕ}

/-- Joint velocities `v = D v'`, base velocities unchanged. -/
def jointChange (D : Matrix ι ι ℝ) : Matrix (Fin 6 ⊕ ι) (Fin 6 ⊕ ι) ℝ := fromBlocks 1 0 0 D

theorem jointChange_mul (D E : Matrix ι ι ℝ) : jointChange D * jointChange E = jointChange (D * E) := by
  simp [jointChange, fromBlocks_multiply]

theorem jointChange_one : jointChange (1 : Matrix ι ι ℝ) = 1 := fromBlocks_one

theorem sel_jointChange (D : Matrix ι ι ℝ) : Sel ι * jointChange D = D * Sel ι := by
  rw [sel_mul]
  ext i s
  rcases s with s | s <;> simp [jointChange, Sel, Matrix.mul_apply]

theorem jointChangeT_selT (D : Matrix ι ι ℝ) : (jointChange D)ᵀ * (Sel ι)ᵀ = (Sel ι)ᵀ * Dᵀ := by
  rw [← transpose_mul, sel_jointChange, transpose_mul]

/-- `(A', J', G')` is the robot `(A, J, G)` with joint velocities `v = D v'`. -/
structure JointSeen (D : Matrix ι ι ℝ) (A : Matrix (Fin 6 ⊕ ι) (Fin 6 ⊕ ι) ℝ) (J : Matrix (Fin c) (Fin 6 ⊕ ι) ℝ) (G : Fin 6 ⊕ ι → ℝ)
    (A' : Matrix (Fin 6 ⊕ ι) (Fin 6 ⊕ ι) ℝ) (J' : Matrix (Fin c) (Fin 6 ⊕ ι) ℝ) (G' : Fin 6 ⊕ ι → ℝ) : Prop where
  mass : A' = (jointChange D)ᵀ * A * jointChange D
  contact : J' = J * jointChange D
  weight : G' = (jointChange D)ᵀ *ᵥ G

/-- The contact space of the robot seen otherwise. -/
def jointSpace (D E : Matrix ι ι ℝ) (S : ContactSpace c ι) : ContactSpace c ι :=
  { lambda := S.lambda
    JcInvT := S.JcInvT * (jointChange E)ᵀ
    Nc := (jointChange D)ᵀ * S.Nc * (jointChange E)ᵀ
    AinvNc := jointChange E * S.AinvNc * (jointChange E)ᵀ
    W := E * S.W * Eᵀ
    Winv := Dᵀ * S.Winv * D }

section
variable {D E : Matrix ι ι ℝ} {A A' : Matrix (Fin 6 ⊕ ι) (Fin 6 ⊕ ι) ℝ} {J J' : Matrix (Fin c) (Fin 6 ⊕ ι) ℝ} {G G' : Fin 6 ⊕ ι → ℝ}

theorem joint_inv (hD : D * E = 1) (h : JointSeen D A J G A' J' G') : A'⁻¹ = jointChange E * A⁻¹ * (jointChange E)ᵀ := by
  have hb : jointChange D * jointChange E = 1 := by rw [jointChange_mul, hD, jointChange_one]
  have h1 : (jointChange D)⁻¹ = jointChange E := inv_eq_right_inv hb
  rw [h.mass, Matrix.mul_inv_rev, Matrix.mul_inv_rev, ← transpose_nonsing_inv, h1, Matrix.mul_assoc]

theorem joint_DE (hD : D * E = 1) {m : Type*} [Fintype m] (X : Matrix m (Fin 6 ⊕ ι) ℝ) : X * jointChange D * jointChange E = X := by
  rw [Matrix.mul_assoc, jointChange_mul, hD, jointChange_one, Matrix.mul_one]

theorem joint_ETDT (hD : D * E = 1) {m : Type*} [Fintype m] (X : Matrix m (Fin 6 ⊕ ι) ℝ) :
    X * (jointChange E)ᵀ * (jointChange D)ᵀ = X := by
  rw [Matrix.mul_assoc, ← transpose_mul, jointChange_mul, hD, jointChange_one, transpose_one, Matrix.mul_one]

theorem joint_DTET (hD : D * E = 1) : (jointChange D)ᵀ * (jointChange E)ᵀ = 1 := by
  rw [← transpose_mul, jointChange_mul, mul_eq_one_comm.mp hD, jointChange_one, transpose_one]

theorem small_DTET (hD : D * E = 1) : Dᵀ * Eᵀ = 1 := by
  rw [← transpose_mul, mul_eq_one_comm.mp hD, transpose_one]

theorem small_ETDT (hD : D * E = 1) : Eᵀ * Dᵀ = 1 := by
  rw [← transpose_mul, hD, transpose_one]

theorem contactSpace_joint_none (hD : D * E = 1) (h : JointSeen D A J G A' J' G') (hS : contactSpace J A⁻¹ = none) :
    contactSpace J' A'⁻¹ = none := by
  have hM : J' * A'⁻¹ * J'ᵀ = J * A⁻¹ * Jᵀ := by
    rw [joint_inv hD h, h.contact, ← Matrix.mul_assoc, ← Matrix.mul_assoc, joint_DE hD, transpose_mul, ← Matrix.mul_assoc, joint_ETDT hD]
  unfold contactSpace at hS ⊢
  rw [Option.map_eq_none_iff] at hS ⊢
  rw [hM, hS]

theorem contactSpace_joint (hD : D * E = 1) (h : JointSeen D A J G A' J' G') {S : ContactSpace c ι} (hS : contactSpace J A⁻¹ = some S)
    (hp : pinv (E * S.W * Eᵀ) = Dᵀ * S.Winv * D) : contactSpace J' A'⁻¹ = some (jointSpace D E S) := by
  have hM : J' * A'⁻¹ * J'ᵀ = J * A⁻¹ * Jᵀ := by
    rw [joint_inv hD h, h.contact, ← Matrix.mul_assoc, ← Matrix.mul_assoc, joint_DE hD, transpose_mul, ← Matrix.mul_assoc, joint_ETDT hD]
  unfold contactSpace at hS ⊢
  rw [hM]
  obtain ⟨Λ, hΛ, rfl⟩ := Option.map_eq_some_iff.mp hS
  rw [hΛ, Option.map_some]
  congr 1
  have e1 : Λ * J' * A'⁻¹ = Λ * J * A⁻¹ * (jointChange E)ᵀ := by
    rw [joint_inv hD h, h.contact]
    have : Λ * (J * jointChange D) * (jointChange E * A⁻¹ * (jointChange E)ᵀ)
        = Λ * J * jointChange D * jointChange E * A⁻¹ * (jointChange E)ᵀ := by simp only [Matrix.mul_assoc]
    rw [this, joint_DE hD]
  have e2 : 1 - J'ᵀ * (Λ * J * A⁻¹ * (jointChange E)ᵀ) = (jointChange D)ᵀ * (1 - Jᵀ * (Λ * J * A⁻¹)) * (jointChange E)ᵀ := by
    rw [Matrix.mul_sub, Matrix.sub_mul, Matrix.mul_one, joint_DTET hD, h.contact, transpose_mul]
    simp only [Matrix.mul_assoc]
  have e3 : A'⁻¹ * ((jointChange D)ᵀ * (1 - Jᵀ * (Λ * J * A⁻¹)) * (jointChange E)ᵀ)
      = jointChange E * (A⁻¹ * (1 - Jᵀ * (Λ * J * A⁻¹))) * (jointChange E)ᵀ := by
    generalize 1 - Jᵀ * (Λ * J * A⁻¹) = N
    rw [joint_inv hD h]
    have : jointChange E * A⁻¹ * (jointChange E)ᵀ * ((jointChange D)ᵀ * N * (jointChange E)ᵀ)
        = jointChange E * A⁻¹ * (jointChange E)ᵀ * (jointChange D)ᵀ * N * (jointChange E)ᵀ := by simp only [Matrix.mul_assoc]
    rw [this, joint_ETDT hD]
    simp only [Matrix.mul_assoc]
  have e4 : ∀ P : Matrix (Fin 6 ⊕ ι) (Fin 6 ⊕ ι) ℝ,
      (jointChange E * P * (jointChange E)ᵀ).submatrix Sum.inr Sum.inr = E * P.submatrix Sum.inr Sum.inr * Eᵀ := by
    intro P
    rw [← sel_mul_selT, ← sel_mul_selT]
    have : Sel ι * (jointChange E * P * (jointChange E)ᵀ) * (Sel ι)ᵀ
        = (Sel ι * jointChange E) * P * ((jointChange E)ᵀ * (Sel ι)ᵀ) := by simp only [Matrix.mul_assoc]
    rw [this, sel_jointChange, jointChangeT_selT]
    simp only [Matrix.mul_assoc]
  unfold contactSpaceOf jointSpace at *
  simp only at hp ⊢
  rw [e1, e2, e3, e4, hp]

variable {S : ContactSpace c ι}

theorem gravityTorque_joint (hD : D * E = 1) (h : JointSeen D A J G A' J' G') :
    gravityTorque (jointSpace D E S) A'⁻¹ G' = Dᵀ *ᵥ gravityTorque S A⁻¹ G := by
  unfold gravityTorque
  rw [h.weight, joint_inv hD h]
  simp only [jointSpace]
  rw [← sel_mul, ← sel_mul]
  simp only [mulVec_mulVec]
  congr 1
  have : Dᵀ * S.Winv * D * (Sel ι * (jointChange E * A⁻¹ * (jointChange E)ᵀ) * ((jointChange D)ᵀ * S.Nc * (jointChange E)ᵀ * (jointChange D)ᵀ))
      = Dᵀ * S.Winv * D * (Sel ι * jointChange E) * A⁻¹ * (jointChange E)ᵀ * (jointChange D)ᵀ * S.Nc * (jointChange E)ᵀ * (jointChange D)ᵀ := by
    simp only [Matrix.mul_assoc]
  rw [this, joint_ETDT hD, joint_ETDT hD, sel_jointChange]
  have : Dᵀ * S.Winv * D * (E * Sel ι) * A⁻¹ * S.Nc = Dᵀ * S.Winv * (D * E) * Sel ι * A⁻¹ * S.Nc := by simp only [Matrix.mul_assoc]
  rw [this, hD, Matrix.mul_one]
  simp only [Matrix.mul_assoc]

theorem gravityForce_joint (hD : D * E = 1) (h : JointSeen D A J G A' J' G') :
    gravityForce (jointSpace D E S) G' = gravityForce S G := by
  unfold gravityForce
  rw [h.weight]
  simp only [jointSpace]
  rw [mulVec_mulVec, joint_ETDT hD]

theorem rightCols_joint : (jointSpace D E S).JcInvT.submatrix id Sum.inr = S.JcInvT.submatrix id Sum.inr * Eᵀ := by
  rw [← mul_selT, ← mul_selT]
  simp only [jointSpace]
  rw [Matrix.mul_assoc, jointChangeT_selT, Matrix.mul_assoc]

theorem contactForce_joint (hD : D * E = 1) (P : Fin c → ℝ) (τ : ι → ℝ) :
    contactForce (jointSpace D E S) P (Dᵀ *ᵥ τ) = contactForce S P τ := by
  unfold contactForce
  rw [rightCols_joint, mulVec_mulVec, Matrix.mul_assoc, small_ETDT hD, Matrix.mul_one]

/-! ### tasks -/

/-- The task seen otherwise. -/
def jointTask (D : Matrix ι ι ℝ) (T : TaskIn ι) : TaskIn ι := ⟨T.t, T.J * jointChange D, T.f⟩

/-- The same, with the task matrices. -/
def jointReady (D : Matrix ι ι ℝ) (T : TaskReady ι) : TaskReady ι :=
  { jointTask D T.toTaskIn with Λ := T.Λ, Jkt := Dᵀ * T.Jkt }

theorem jkt_joint_mat (hD : D * E = 1) (h : JointSeen D A J G A' J' G') {t : ℕ} (Jt : Matrix (Fin t) (Fin 6 ⊕ ι) ℝ) :
    (Jt * jointChange D) * A'⁻¹ * (jointSpace D E S).Nc * (Jt * jointChange D)ᵀ = Jt * A⁻¹ * S.Nc * Jtᵀ := by
  simp only [jointSpace]
  rw [joint_inv hD h]
  have : Jt * jointChange D * (jointChange E * A⁻¹ * (jointChange E)ᵀ) *
      ((jointChange D)ᵀ * S.Nc * (jointChange E)ᵀ) * (Jt * jointChange D)ᵀ
      = Jt * jointChange D * jointChange E * A⁻¹ * (jointChange E)ᵀ * (jointChange D)ᵀ * S.Nc *
        (jointChange E)ᵀ * (jointChange D)ᵀ * Jtᵀ := by
    rw [transpose_mul]; simp only [Matrix.mul_assoc]
  rw [this, joint_DE hD, joint_ETDT hD, joint_ETDT hD]

theorem jkt_joint_Q (hD : D * E = 1) (h : JointSeen D A J G A' J' G') {t : ℕ} (Jt : Matrix (Fin t) (Fin 6 ⊕ ι) ℝ)
    (Λ : Matrix (Fin t) (Fin t) ℝ) :
    (Λ * (Jt * jointChange D) * A'⁻¹ * (jointSpace D E S).Nc).submatrix id Sum.inr
      = (Λ * Jt * A⁻¹ * S.Nc).submatrix id Sum.inr * Eᵀ := by
  rw [← mul_selT, ← mul_selT]
  simp only [jointSpace]
  rw [joint_inv hD h]
  have : Λ * (Jt * jointChange D) * (jointChange E * A⁻¹ * (jointChange E)ᵀ) *
      ((jointChange D)ᵀ * S.Nc * (jointChange E)ᵀ) * (Sel ι)ᵀ
      = Λ * Jt * jointChange D * jointChange E * A⁻¹ * (jointChange E)ᵀ *
      (jointChange D)ᵀ * S.Nc * ((jointChange E)ᵀ * (Sel ι)ᵀ) := by
    simp only [Matrix.mul_assoc]
  rw [this, joint_DE hD, joint_ETDT hD, jointChangeT_selT]
  simp only [Matrix.mul_assoc]

theorem jkt_joint_pinv (hD : D * E = 1) {t : ℕ} (Winv : Matrix ι ι ℝ) (X : Matrix (Fin t) ι ℝ) :
    Dᵀ * Winv * D * (X * Eᵀ)ᵀ * pinv (X * Eᵀ * (Dᵀ * Winv * D) * (X * Eᵀ)ᵀ) = Dᵀ * (Winv * Xᵀ * pinv (X * Winv * Xᵀ)) := by
  have e : X * Eᵀ * (Dᵀ * Winv * D) * (X * Eᵀ)ᵀ = X * (Eᵀ * Dᵀ) * Winv * (D * E) * Xᵀ := by
    rw [transpose_mul, transpose_transpose]; simp only [Matrix.mul_assoc]
  rw [e, small_ETDT hD, hD, Matrix.mul_one, Matrix.mul_one, transpose_mul, transpose_transpose]
  have : Dᵀ * Winv * D * (E * Xᵀ) * pinv (X * Winv * Xᵀ) = Dᵀ * Winv * (D * E) * Xᵀ * pinv (X * Winv * Xᵀ) := by
    simp only [Matrix.mul_assoc]
  rw [this, hD, Matrix.mul_one]
  simp only [Matrix.mul_assoc]

theorem jkt_joint (hD : D * E = 1) (h : JointSeen D A J G A' J' G') (T : TaskIn ι) :
    calculateJKT (jointSpace D E S) A'⁻¹ (jointTask D T) = (calculateJKT S A⁻¹ T).map (jointReady D) := by
  unfold calculateJKT
  rw [Option.map_map]
  have e : (jointTask D T).J * A'⁻¹ * (jointSpace D E S).Nc * (jointTask D T).Jᵀ = T.J * A⁻¹ * S.Nc * T.Jᵀ :=
    jkt_joint_mat hD h T.J
  refine (congrArg (fun M => Option.map _ (eigenInverse M)) e).trans ?_
  refine congrFun (congrArg Option.map ?_) _
  refine funext fun (Λ : Matrix (Fin T.t) (Fin T.t) ℝ) => ?_
  have hq := jkt_joint_Q (S := S) hD h T.J Λ
  have hp := jkt_joint_pinv hD S.Winv ((Λ * T.J * A⁻¹ * S.Nc).submatrix id Sum.inr)
  rw [← hq] at hp
  exact congrArg (TaskReady.mk (jointTask D T) Λ) hp

theorem calcTaskSpace_joint (hD : D * E = 1) (h : JointSeen D A J G A' J' G') (ts : List (TaskIn ι)) :
    calcTaskSpace (jointSpace D E S) A'⁻¹ (ts.map (jointTask D)) = (calcTaskSpace S A⁻¹ ts).map (List.map (jointReady D)) := by
  unfold calcTaskSpace
  induction ts with
  | nil => rfl
  | cons T l ih =>
    rw [List.map_cons, List.mapM_cons, List.mapM_cons, jkt_joint hD h]
    rcases calculateJKT S A⁻¹ T with _ | Y
    · rfl
    simp only [Option.map_some, Option.bind_eq_bind, Option.bind_some]
    rw [ih]
    rcases List.mapM (calculateJKT S A⁻¹) l with _ | ys <;> rfl

theorem taskNull_joint (hD : D * E = 1) (Y : TaskReady ι) (N : Matrix ι ι ℝ) :
    taskNullSpace (jointSpace D E S) (jointReady D Y) (Dᵀ * N * Eᵀ) = Dᵀ * taskNullSpace S Y N * Eᵀ := by
  unfold taskNullSpace
  have e : (jointReady D Y).Jkt * (jointReady D Y).Λ * (jointReady D Y).J * (jointSpace D E S).AinvNc.submatrix id Sum.inr
      = Dᵀ * (Y.Jkt * Y.Λ * Y.J * S.AinvNc.submatrix id Sum.inr) * Eᵀ := by
    rw [← mul_selT, ← mul_selT]
    simp only [jointReady, jointTask, jointSpace]
    have : Dᵀ * Y.Jkt * Y.Λ * (Y.J * jointChange D) * (jointChange E * S.AinvNc * (jointChange E)ᵀ * (Sel ι)ᵀ)
        = Dᵀ * Y.Jkt * Y.Λ * Y.J * jointChange D * jointChange E * S.AinvNc * ((jointChange E)ᵀ * (Sel ι)ᵀ) := by
      simp only [Matrix.mul_assoc]
    refine this.trans ?_
    rw [joint_DE hD, jointChangeT_selT]
    simp only [Matrix.mul_assoc]
  refine (congrArg (fun M => Dᵀ * N * Eᵀ * (1 - M)) e).trans ?_
  generalize Y.Jkt * Y.Λ * Y.J * S.AinvNc.submatrix id Sum.inr = K
  have e1 : (1 : Matrix ι ι ℝ) - Dᵀ * K * Eᵀ = Dᵀ * (1 - K) * Eᵀ := by
    rw [Matrix.mul_sub, Matrix.sub_mul, Matrix.mul_one, small_DTET hD]
  have e2 : Dᵀ * N * Eᵀ * (Dᵀ * (1 - K) * Eᵀ) = Dᵀ * N * (Eᵀ * Dᵀ) * (1 - K) * Eᵀ := by simp only [Matrix.mul_assoc]
  change Dᵀ * N * Eᵀ * (1 - Dᵀ * K * Eᵀ) = _
  rw [e1, e2, small_ETDT hD, Matrix.mul_one]
  simp only [Matrix.mul_assoc]

theorem step_joint (hD : D * E = 1) (Y : TaskReady ι) (N : Matrix ι ι ℝ) (a : Fin Y.t → ℝ) :
    (Dᵀ * N * Eᵀ) *ᵥ ((Dᵀ * Y.Jkt) *ᵥ (Y.Λ *ᵥ a)) = Dᵀ *ᵥ (N *ᵥ (Y.Jkt *ᵥ (Y.Λ *ᵥ a))) := by
  simp only [mulVec_mulVec]
  congr 1
  have : Dᵀ * N * Eᵀ * (Dᵀ * Y.Jkt) * Y.Λ = Dᵀ * N * (Eᵀ * Dᵀ) * Y.Jkt * Y.Λ := by simp only [Matrix.mul_assoc]
  rw [← Matrix.mul_assoc, this, small_ETDT hD, Matrix.mul_one]
  simp only [Matrix.mul_assoc]

theorem taskTorque_joint (hD : D * E = 1) (ys : List (TaskReady ι)) :
    taskTorque (jointSpace D E S) (ys.map (jointReady D)) = Dᵀ *ᵥ taskTorque S ys := by
  have key : ∀ (N : Matrix ι ι ℝ) (τ : ι → ℝ), taskTorqueFrom (jointSpace D E S) (Dᵀ * N * Eᵀ) (Dᵀ *ᵥ τ) (ys.map (jointReady D))
      = Dᵀ *ᵥ taskTorqueFrom S N τ ys := by
    induction ys with
    | nil => intro N τ; rfl
    | cons T l ih =>
      intro N τ
      simp only [List.map_cons, taskTorqueFrom]
      rw [taskNull_joint hD T N, ← ih, mulVec_add]
      congr 2
      exact step_joint hD T N T.f
  have := key 1 0
  rwa [Matrix.mul_one, small_DTET hD, mulVec_zero] at this

/-! ### the pseudo-inverse -/

theorem joint_pinv_orth (hD : Dᵀ * D = 1) (W : Matrix ι ι ℝ) : pinv (Dᵀ * W * Dᵀᵀ) = Dᵀ * pinv W * D := by
  have := pinv_conj (R := Dᵀ) (by rw [transpose_transpose]; exact mul_eq_one_comm.mp hD) W
  rwa [transpose_transpose] at this

theorem joint_pinv_unit (hD : D * E = 1) {W : Matrix ι ι ℝ} (hW : IsUnit W.det) : pinv (E * W * Eᵀ) = Dᵀ * pinv W * D := by
  have h1 : pinv W = W⁻¹ := by
    apply pinv_eq
    constructor <;> simp only [mul_nonsing_inv _ hW, nonsing_inv_mul _ hW, Matrix.one_mul, transpose_one]
  rw [h1]
  have a : E * W * Eᵀ * (Dᵀ * W⁻¹ * D) = 1 := by
    have : E * W * Eᵀ * (Dᵀ * W⁻¹ * D) = E * W * (Eᵀ * Dᵀ) * W⁻¹ * D := by simp only [Matrix.mul_assoc]
    rw [this, small_ETDT hD, Matrix.mul_one, Matrix.mul_assoc E W, mul_nonsing_inv _ hW, Matrix.mul_one, mul_eq_one_comm.mp hD]
  have b := mul_eq_one_comm.mp a
  apply pinv_eq
  constructor
  · rw [a, Matrix.one_mul]
  · rw [b, Matrix.one_mul]
  · rw [a, transpose_one]
  · rw [b, transpose_one]

end

/-! ### counting joints otherwise, other units -/

/-- The matrix of a signed renumbering. -/
def countMatrix (e : Equiv.Perm ι) (s : ι → ℝ) : Matrix ι ι ℝ := Matrix.of fun j i => if j = e i then s i else 0

theorem countMatrix_orth (e : Equiv.Perm ι) {s : ι → ℝ} (hs : Signs s) : (countMatrix e s)ᵀ * countMatrix e s = 1 := by
  ext i j
  simp only [Matrix.mul_apply, transpose_apply, countMatrix, Matrix.of_apply, ite_mul, zero_mul, Finset.sum_ite_eq', Finset.mem_univ,
    if_true, Finset.sum_ite_eq]
  rw [Matrix.one_apply]
  by_cases h : i = j
  · subst h
    rw [if_pos rfl, if_pos rfl]
    rcases hs i with h | h <;> rw [h] <;> norm_num
  · rw [if_neg (fun he => h (e.injective he)), if_neg h, mul_zero]

theorem countMatrixT_mulVec (e : Equiv.Perm ι) (s τ : ι → ℝ) : (countMatrix e s)ᵀ *ᵥ τ = recount e s τ := by
  ext i
  simp [mulVec, dotProduct, countMatrix, recount]

theorem countAll_mulVec (e : Equiv.Perm ι) (s : ι → ℝ) (q : Fin 6 ⊕ ι → ℝ) :
    (jointChange (countMatrix e s))ᵀ *ᵥ q = recountAll e s q := by
  ext r
  rcases r with r | r
  · simp [mulVec, dotProduct, jointChange, recountAll, signed, counted, Matrix.one_apply]
  · simp [mulVec, dotProduct, jointChange, recountAll, signed, counted, countMatrix]

theorem countCols_eq {κ : Type*} (e : Equiv.Perm ι) (s : ι → ℝ) (J : Matrix κ (Fin 6 ⊕ ι) ℝ) :
    recountCols e s J = J * jointChange (countMatrix e s) := by
  ext a r
  have := congrFun (countAll_mulVec e s (J a)) r
  refine this.symm.trans ?_
  simp only [mulVec, dotProduct, transpose_apply, Matrix.mul_apply]
  exact Finset.sum_congr rfl fun i _ => mul_comm _ _

theorem countMass_eq (e : Equiv.Perm ι) (s : ι → ℝ) (A : Matrix (Fin 6 ⊕ ι) (Fin 6 ⊕ ι) ℝ) :
    recountMass e s A = (jointChange (countMatrix e s))ᵀ * A * jointChange (countMatrix e s) := by
  rw [← countCols_eq]
  ext r q
  simp only [recountMass, recountCols, Matrix.of_apply]
  have := congrFun (countAll_mulVec e s (fun x => A x (counted e q))) r
  simp only [mulVec, dotProduct, recountAll] at this
  simp only [Matrix.mul_apply]
  rw [this]
  ring

theorem counted_seen (e : Equiv.Perm ι) (s : ι → ℝ) (A : Matrix (Fin 6 ⊕ ι) (Fin 6 ⊕ ι) ℝ) (J : Matrix (Fin c) (Fin 6 ⊕ ι) ℝ)
    (G : Fin 6 ⊕ ι → ℝ) : JointSeen (countMatrix e s) A J G (recountMass e s A) (recountCols e s J) (recountAll e s G) :=
  ⟨countMass_eq e s A, countCols_eq e s J, (countAll_mulVec e s G).symm⟩

theorem scaled_seen (u : ι → ℝ) (A : Matrix (Fin 6 ⊕ ι) (Fin 6 ⊕ ι) ℝ) (J : Matrix (Fin c) (Fin 6 ⊕ ι) ℝ)
    (G : Fin 6 ⊕ ι → ℝ) : JointSeen (diagonal u) A J G (scaleMass u A) (scaleCols u J) (scaleAll u G) := by
  have hd : (jointChange (diagonal u) : Matrix (Fin 6 ⊕ ι) (Fin 6 ⊕ ι) ℝ) = diagonal (Sum.elim (fun _ => 1) u) := by
    unfold jointChange
    rw [← diagonal_one, fromBlocks_diagonal]
  constructor
  · rw [hd, diagonal_transpose]
    ext r q
    simp only [scaleMass, Matrix.of_apply, diagonal_mul, mul_diagonal]
    ring
  · rw [hd]
    ext a r
    simp only [scaleCols, Matrix.of_apply, mul_diagonal]
    ring
  · rw [hd, diagonal_transpose]
    ext r
    rw [mulVec_diagonal]
    rfl

end Verif
