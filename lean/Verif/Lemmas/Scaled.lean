import Verif.Lemmas.CodRank
import Verif.Lemmas.RenumberedQP

set_option linter.unusedSectionVars false

namespace Verif
open Matrix Verif.Spec Verif.Model

section
variable {ι : Type*} [Fintype ι] [DecidableEq ι] {c : ℕ}

theorem eigenInverse_smul {m : Type*} [Fintype m] [DecidableEq m] {μ : ℝ} (hμ : μ ≠ 0) (M : Matrix m m ℝ) :
    eigenInverse (μ⁻¹ • M) = (eigenInverse M).map (μ • ·) := by
  unfold eigenInverse
  have hd : IsUnit (μ⁻¹ • M).det ↔ IsUnit M.det := by
    rw [det_smul, isUnit_iff_ne_zero, isUnit_iff_ne_zero]
    have : μ⁻¹ ^ Fintype.card m ≠ 0 := pow_ne_zero _ (inv_ne_zero hμ)
    constructor
    · intro h hc; exact h (by rw [hc, mul_zero])
    · intro h; exact mul_ne_zero this h
  by_cases hu : IsUnit M.det
  · rw [if_pos hu, if_pos (hd.mpr hu), Option.map_some]
    congr 1
    have : μ⁻¹ • M = (Units.mk0 μ⁻¹ (inv_ne_zero hμ)) • M := rfl
    apply inv_eq_right_inv
    rw [Matrix.smul_mul, Matrix.mul_smul, smul_smul, inv_mul_cancel₀ hμ, one_smul, mul_nonsing_inv _ hu]
  · rw [if_neg hu, if_neg (fun h => hu (hd.mp h))]; rfl

theorem smul_matrix_inv {m : Type*} [Fintype m] [DecidableEq m] {μ : ℝ} (hμ : μ ≠ 0) (A : Matrix m m ℝ) : (μ • A)⁻¹ = μ⁻¹ • A⁻¹ := by
  by_cases hu : IsUnit A.det
  · apply inv_eq_right_inv
    rw [Matrix.smul_mul, Matrix.mul_smul, smul_smul, mul_inv_cancel₀ hμ, one_smul, mul_nonsing_inv _ hu]
  · have h' : ¬ IsUnit (μ • A).det := by
      rw [det_smul]
      intro h
      exact hu (isUnit_of_mul_isUnit_right h)
    rw [nonsing_inv_apply_not_isUnit _ hu, nonsing_inv_apply_not_isUnit _ h', smul_zero]

/-- The contact space of a robot whose masses are `μ` times as large. -/
noncomputable def heavySpace (μ : ℝ) (S : ContactSpace c ι) : ContactSpace c ι :=
  { lambda := μ • S.lambda, JcInvT := S.JcInvT, Nc := S.Nc, AinvNc := μ⁻¹ • S.AinvNc, W := μ⁻¹ • S.W, Winv := μ • S.Winv }

variable {μ κ : ℝ} {A : Matrix (Fin 6 ⊕ ι) (Fin 6 ⊕ ι) ℝ} {J : Matrix (Fin c) (Fin 6 ⊕ ι) ℝ} {G : Fin 6 ⊕ ι → ℝ}

theorem contactSpace_heavy (hμ : μ ≠ 0) (A : Matrix (Fin 6 ⊕ ι) (Fin 6 ⊕ ι) ℝ) (J : Matrix (Fin c) (Fin 6 ⊕ ι) ℝ) :
    contactSpace J (μ • A)⁻¹ = (contactSpace J A⁻¹).map (heavySpace μ) := by
  unfold contactSpace
  rw [smul_matrix_inv hμ, Matrix.mul_smul, Matrix.smul_mul, eigenInverse_smul hμ, Option.map_map, Option.map_map]
  congr 1
  funext Λ
  have e : μ • Λ * J * (μ⁻¹ • A⁻¹) = Λ * J * A⁻¹ := by
    rw [Matrix.smul_mul, Matrix.smul_mul, Matrix.mul_smul, smul_smul, mul_inv_cancel₀ hμ, one_smul]
  simp only [Function.comp, contactSpaceOf, heavySpace, e]
  have e2 : (μ⁻¹ • A⁻¹ * (1 - Jᵀ * (Λ * J * A⁻¹))) = μ⁻¹ • (A⁻¹ * (1 - Jᵀ * (Λ * J * A⁻¹))) := Matrix.smul_mul _ _ _
  rw [e2]
  have e3 : (μ⁻¹ • (A⁻¹ * (1 - Jᵀ * (Λ * J * A⁻¹)))).submatrix Sum.inr Sum.inr
      = μ⁻¹ • (A⁻¹ * (1 - Jᵀ * (Λ * J * A⁻¹))).submatrix (Sum.inr : ι → Fin 6 ⊕ ι) (Sum.inr : ι → Fin 6 ⊕ ι) := rfl
  rw [e3, pinv_smul, inv_inv]

variable {S : ContactSpace c ι}

theorem gravityTorque_heavy (hμ : μ ≠ 0) (κ : ℝ) :
    gravityTorque (heavySpace μ S) (μ • A)⁻¹ ((μ * κ) • G) = (μ * κ) • gravityTorque S A⁻¹ G := by
  unfold gravityTorque
  rw [smul_matrix_inv hμ]
  simp only [heavySpace]
  have : (μ⁻¹ • A⁻¹).submatrix Sum.inr id = μ⁻¹ • A⁻¹.submatrix (Sum.inr : ι → Fin 6 ⊕ ι) id := rfl
  rw [this]
  simp only [smul_mulVec, mulVec_smul, smul_smul]
  congr 1
  field_simp

theorem gravityForce_heavy (μ κ : ℝ) : gravityForce (heavySpace μ S) ((μ * κ) • G) = (μ * κ) • gravityForce S G := by
  unfold gravityForce
  rw [mulVec_smul]; rfl

theorem contactForce_heavy (μ a : ℝ) (P : Fin c → ℝ) (τ : ι → ℝ) :
    contactForce (heavySpace μ S) (a • P) (a • τ) = a • contactForce S P τ := by
  unfold contactForce
  rw [mulVec_smul, ← smul_sub]; rfl

/-! ### tasks -/

/-- The task with accelerations `κ` times as large. -/
def fastTask (κ : ℝ) (T : TaskIn ι) : TaskIn ι := ⟨T.t, T.J, κ • T.f⟩

/-- The same, with the task matrices of the heavier robot. -/
def heavyReady (μ κ : ℝ) (T : TaskReady ι) : TaskReady ι :=
  { fastTask κ T.toTaskIn with Λ := μ • T.Λ, Jkt := T.Jkt }

theorem jkt_heavy (hμ : μ ≠ 0) (κ : ℝ) (T : TaskIn ι) :
    calculateJKT (heavySpace μ S) (μ • A)⁻¹ (fastTask κ T) = (calculateJKT S A⁻¹ T).map (heavyReady μ κ) := by
  unfold calculateJKT
  rw [Option.map_map]
  have e : eigenInverse (T.J * (μ • A)⁻¹ * S.Nc * T.Jᵀ) = (eigenInverse (T.J * A⁻¹ * S.Nc * T.Jᵀ)).map (μ • ·) := by
    rw [← eigenInverse_smul hμ, smul_matrix_inv hμ, Matrix.mul_smul, Matrix.smul_mul, Matrix.smul_mul]
  refine (congrArg (Option.map _) e).trans ?_
  refine (Option.map_map _ _ _).trans ?_
  refine congrFun (congrArg Option.map ?_) _
  refine funext fun (Λ : Matrix (Fin T.t) (Fin T.t) ℝ) => ?_
  have hq : (μ • Λ * T.J * (μ • A)⁻¹ * S.Nc).submatrix id (Sum.inr : ι → Fin 6 ⊕ ι) = (Λ * T.J * A⁻¹ * S.Nc).submatrix id Sum.inr := by
    rw [smul_matrix_inv hμ, Matrix.smul_mul, Matrix.smul_mul, Matrix.mul_smul, smul_smul, mul_inv_cancel₀ hμ, one_smul]
  have hp : ∀ Q : Matrix (Fin T.t) ι ℝ, (μ • S.Winv) * Qᵀ * pinv (Q * (μ • S.Winv) * Qᵀ) = S.Winv * Qᵀ * pinv (Q * S.Winv * Qᵀ) := by
    intro Q
    rw [show Q * (μ • S.Winv) * Qᵀ = μ • (Q * S.Winv * Qᵀ) by rw [Matrix.mul_smul, Matrix.smul_mul], pinv_smul, Matrix.smul_mul, Matrix.smul_mul,
      Matrix.mul_smul, smul_smul, mul_inv_cancel₀ hμ, one_smul]
  have h2 := hp ((Λ * T.J * A⁻¹ * S.Nc).submatrix id Sum.inr)
  have h3 : (heavySpace μ S).Winv * ((μ • Λ * T.J * (μ • A)⁻¹ * S.Nc).submatrix id (Sum.inr : ι → Fin 6 ⊕ ι))ᵀ *
      pinv ((μ • Λ * T.J * (μ • A)⁻¹ * S.Nc).submatrix id (Sum.inr : ι → Fin 6 ⊕ ι) * (heavySpace μ S).Winv *
        ((μ • Λ * T.J * (μ • A)⁻¹ * S.Nc).submatrix id (Sum.inr : ι → Fin 6 ⊕ ι))ᵀ) =
      S.Winv * ((Λ * T.J * A⁻¹ * S.Nc).submatrix id Sum.inr)ᵀ *
        pinv ((Λ * T.J * A⁻¹ * S.Nc).submatrix id Sum.inr * S.Winv * ((Λ * T.J * A⁻¹ * S.Nc).submatrix id Sum.inr)ᵀ) := by
    rw [hq]; exact h2
  exact congrArg (TaskReady.mk (fastTask κ T) (μ • Λ)) h3

theorem calcTaskSpace_heavy (hμ : μ ≠ 0) (κ : ℝ) (ts : List (TaskIn ι)) :
    calcTaskSpace (heavySpace μ S) (μ • A)⁻¹ (ts.map (fastTask κ)) = (calcTaskSpace S A⁻¹ ts).map (List.map (heavyReady μ κ)) := by
  unfold calcTaskSpace
  induction ts with
  | nil => rfl
  | cons T l ih =>
    rw [List.map_cons, List.mapM_cons, List.mapM_cons, jkt_heavy hμ]
    rcases calculateJKT S A⁻¹ T with _ | Y
    · rfl
    simp only [Option.map_some, Option.bind_eq_bind, Option.bind_some]
    rw [ih]
    rcases List.mapM (calculateJKT S A⁻¹) l with _ | ys <;> rfl

theorem taskNull_heavy (hμ : μ ≠ 0) (κ : ℝ) (Y : TaskReady ι) (N : Matrix ι ι ℝ) :
    taskNullSpace (heavySpace μ S) (heavyReady μ κ Y) N = taskNullSpace S Y N := by
  have e : Y.Jkt * (μ • Y.Λ) * Y.J * (μ⁻¹ • S.AinvNc).submatrix id (Sum.inr : ι → Fin 6 ⊕ ι)
      = Y.Jkt * Y.Λ * Y.J * S.AinvNc.submatrix id Sum.inr := by
    have : (μ⁻¹ • S.AinvNc).submatrix id (Sum.inr : ι → Fin 6 ⊕ ι) = μ⁻¹ • S.AinvNc.submatrix id (Sum.inr : ι → Fin 6 ⊕ ι) := rfl
    rw [this, Matrix.mul_smul, Matrix.mul_smul, Matrix.smul_mul, Matrix.smul_mul, smul_smul, inv_mul_cancel₀ hμ, one_smul]
  exact congrArg (fun K => N * (1 - K)) e

theorem step_heavy (μ κ : ℝ) (Y : TaskReady ι) (N : Matrix ι ι ℝ) (a : Fin Y.t → ℝ) :
    N *ᵥ (Y.Jkt *ᵥ ((μ • Y.Λ) *ᵥ (κ • a))) = (μ * κ) • (N *ᵥ (Y.Jkt *ᵥ (Y.Λ *ᵥ a))) := by
  simp only [smul_mulVec, mulVec_smul, smul_smul]
  rw [mul_comm]

theorem taskTorque_heavy (hμ : μ ≠ 0) (κ : ℝ) (ys : List (TaskReady ι)) :
    taskTorque (heavySpace μ S) (ys.map (heavyReady μ κ)) = (μ * κ) • taskTorque S ys := by
  have key : ∀ (N : Matrix ι ι ℝ) (τ : ι → ℝ), taskTorqueFrom (heavySpace μ S) N ((μ * κ) • τ) (ys.map (heavyReady μ κ))
      = (μ * κ) • taskTorqueFrom S N τ ys := by
    induction ys with
    | nil => intro N τ; rfl
    | cons T l ih =>
      intro N τ
      simp only [List.map_cons, taskTorqueFrom]
      rw [taskNull_heavy hμ κ T N, ← ih, smul_add]
      congr 2
      exact step_heavy μ κ T N T.f
  have := key 1 0
  rwa [smul_zero] at this

/-! ### the null space -/

theorem rank_smul_ne {a : ℝ} (ha : a ≠ 0) (W : Matrix ι ι ℝ) : (a • W).rank = W.rank := by
  have : a • W = (a • (1 : Matrix ι ι ℝ)) * W := by rw [Matrix.smul_mul, Matrix.one_mul]
  rw [this]
  apply rank_mul_eq_right_of_isUnit_det
  rw [det_smul, det_one, mul_one]
  exact (isUnit_iff_ne_zero.mpr ha).pow _

/-- The null space of a multiple. -/
def codUnscale {a : ℝ} (ha : a ≠ 0) {W : Matrix ι ι ℝ} (g : CodNull (a • W)) : CodNull W :=
  { k := g.k, V2 := g.V2, orth := g.orth
    ann := by
      have := g.ann
      rw [Matrix.mul_smul] at this
      exact (smul_eq_zero.mp this).resolve_left ha
    rank := by rw [← rank_smul_ne ha]; exact g.rank }

theorem nullInv_indep {m : ℕ} (B : Matrix (Fin m) ι ℝ) {W : Matrix ι ι ℝ} (f g : CodNull W) : nullInv B g = nullInv B f := by
  have e : W = ((1 : Matrix ι ι ℝ)ᵀ * W * (1 : Matrix ι ι ℝ)ᵀᵀ) := by rw [transpose_one, transpose_one, Matrix.one_mul, Matrix.mul_one]
  have key := nullInv_joint (D := (1 : Matrix ι ι ℝ)) (by rw [transpose_one, Matrix.mul_one]) B f
    { k := g.k, V2 := g.V2, orth := g.orth, ann := by rw [← e]; exact g.ann, rank := by rw [← e]; exact g.rank }
  have h2 : (nullInv B f).map ((1 : Matrix ι ι ℝ)ᵀ * ·) = nullInv B f := by
    rcases nullInv B f with _ | X
    · rfl
    · simp
  rw [h2, Matrix.mul_one] at key
  exact key

theorem nullInv_heavy {a : ℝ} (ha : a ≠ 0) {m : ℕ} (B : Matrix (Fin m) ι ℝ) {W : Matrix ι ι ℝ} (f : CodNull W) (g : CodNull (a • W)) :
    nullInv B g = nullInv B f := nullInv_indep B f (codUnscale ha g)

/-- The answers of `CalculateContactConstraint` for two robots. -/
def HeavyResult (μ : ℝ) : ContactResult c ι → ContactResult c ι → Prop
  | .nonFinite, .nonFinite => True
  | .nonSquareInverse, .nonSquareInverse => True
  | .ret v S o, .ret v' S' o' => v' = v ∧ S' = heavySpace μ S ∧ o'.map (fun x => x.2.2) = o.map (fun x => x.2.2)
  | _, _ => False

theorem cod_k_heavy {a : ℝ} (ha : a ≠ 0) {W : Matrix ι ι ℝ} (f : CodNull W) (g : CodNull (a • W)) : g.k = f.k := by
  have h1 := f.rank
  have h2 := g.rank
  rw [rank_smul_ne ha] at h2
  omega

theorem ccc_heavy (hμ : μ ≠ 0) (A : Matrix (Fin 6 ⊕ ι) (Fin 6 ⊕ ι) ℝ) (J : Matrix (Fin c) (Fin 6 ⊕ ι) ℝ)
    (cod cod' : (W : Matrix ι ι ℝ) → CodNull W) :
    HeavyResult μ (calculateContactConstraint J A⁻¹ cod) (calculateContactConstraint J (μ • A)⁻¹ cod') := by
  unfold calculateContactConstraint
  rw [contactSpace_heavy hμ]
  rcases contactSpace J A⁻¹ with _ | S
  · trivial
  simp only [Option.map_some]
  by_cases hc : c > 6
  swap
  · rw [if_neg hc, if_neg hc]; exact ⟨rfl, rfl, rfl⟩
  rw [if_pos hc, if_pos hc]
  have key := nullInv_heavy (inv_ne_zero hμ) (topRight S.JcInvT) (cod S.W) (cod' (heavySpace μ S).W)
  have hk := cod_k_heavy (inv_ne_zero hμ) (cod S.W) (cod' (heavySpace μ S).W)
  unfold nullInv at key
  by_cases h1 : c - 6 = (cod S.W).k
  swap
  · rw [dif_neg h1, dif_neg (by rw [hk]; exact h1)]; trivial
  have h2 : c - 6 = (cod' (heavySpace μ S).W).k := h1.trans hk.symm
  rw [dif_pos h1, dif_pos h2] at key ⊢
  have e : topRight (heavySpace μ S).JcInvT = topRight S.JcInvT := rfl
  rw [e]
  revert key
  rcases eigenInverse ((topRight S.JcInvT * (cod S.W).V2ᵀ).submatrix id (Fin.cast h1)) with _ | X <;>
    rcases eigenInverse ((topRight S.JcInvT * (cod' (heavySpace μ S).W).V2ᵀ).submatrix id (Fin.cast h2)) with _ | X'
  · intro _; trivial
  · intro key; simp at key
  · intro key; simp at key
  · intro key
    exact ⟨rfl, rfl, key⟩

end

variable {n c : ℕ}

/-- What QP control reads from the heavier robot. -/
structure HeavyRobot (μ κ : ℝ) (X X' : QPRobot n c) : Prop where
  space : X'.S = heavySpace μ X.S
  internal : X'.NwJw = X.NwJw
  force : X'.P = (μ * κ) • X.P
  grav : X'.τg = (μ * κ) • X.τg
  limit : X'.limit = X.limit.map ((μ * κ) • ·)
  cone : X'.C = X.C

section
variable {μ κ : ℝ} {X X' : QPRobot n c}

theorem limit_heavy {a : ℝ} (ha : 0 < a) (limit : Option (Fin n → ℝ)) (τ : Fin n → ℝ) :
    (∀ L, limit.map (a • ·) = some L → ∀ j, |(a • τ) j| ≤ L j) ↔ ∀ L, limit = some L → ∀ j, |τ j| ≤ L j := by
  rcases limit with _ | L
  · simp
  have h : ∀ j, |(a • τ) j| ≤ (a • L) j ↔ |τ j| ≤ L j := by
    intro j
    rw [Pi.smul_apply, Pi.smul_apply, smul_eq_mul, smul_eq_mul, abs_mul, abs_of_pos ha]
    exact mul_le_mul_iff_of_pos_left ha
  constructor
  · intro H L' hL' j
    obtain rfl := Option.some.inj hL'
    exact (h j).mp (H _ rfl j)
  · intro H L' hL' j
    obtain rfl := Option.some.inj hL'
    exact (h j).mpr (H _ rfl j)

theorem cone_heavy {a : ℝ} (ha : 0 < a) {m : ℕ} (C : Matrix (Fin m) (Fin c) ℝ) (F : Fin c → ℝ) :
    (∀ r, 0 ≤ (C *ᵥ (a • F)) r) ↔ ∀ r, 0 ≤ (C *ᵥ F) r := by
  refine forall_congr' fun r => ?_
  rw [mulVec_smul, Pi.smul_apply, smul_eq_mul]
  exact mul_nonneg_iff_of_pos_left ha

/-- The answer to the QP of the heavier robot. -/
def heavyAnswer (μ κ : ℝ) {t k : ℕ} (x : Fin t ⊕ Fin k → ℝ) : Fin t ⊕ Fin k → ℝ :=
  Sum.elim (fun a => κ * x (Sum.inl a)) (fun b => μ * κ * x (Sum.inr b))

theorem heavyAnswer_onto (hμ : 0 < μ) (hκ : 0 < κ) {t k : ℕ} (y : Fin t ⊕ Fin k → ℝ) : ∃ x, y = heavyAnswer μ κ x := by
  refine ⟨Sum.elim (fun a => κ⁻¹ * y (Sum.inl a)) (fun b => (μ * κ)⁻¹ * y (Sum.inr b)), ?_⟩
  have hm : μ * κ ≠ 0 := by positivity
  ext r
  rcases r with r | r
  · simp [heavyAnswer, mul_inv_cancel_left₀ hκ.ne']
  · simp only [heavyAnswer, Sum.elim_inr, mul_inv_cancel_left₀ hm]

theorem taskQP_heavy_feasible (hμ : 0 < μ) (hκ : 0 < κ) (h : HeavyRobot μ κ X X') {m : ℕ} {C : Matrix (Fin m) (Fin c) ℝ} (T : TaskReady (Fin n))
    (N : Matrix (Fin n) (Fin n) ℝ) (τ : Fin n → ℝ) (x : Fin T.t ⊕ Fin (c - 6) → ℝ) :
    (taskQP X' C (heavyReady μ κ T) N ((μ * κ) • τ)).Feasible (heavyAnswer μ κ x) ↔ (taskQP X C T N τ).Feasible x := by
  have hm : 0 < μ * κ := mul_pos hμ hκ
  have e := taskQP_feasible X' C (heavyReady μ κ T) N ((μ * κ) • τ) (heavyAnswer μ κ x)
  have e' := taskQP_feasible X C T N τ x
  set a : Fin T.t → ℝ := fun a => x (Sum.inl a)
  set b : Fin (c - 6) → ℝ := fun b => x (Sum.inr b)
  have hτ : (μ * κ) • τ + N *ᵥ (T.Jkt *ᵥ ((μ • T.Λ) *ᵥ (κ • T.f + κ • a))) + X'.NwJw *ᵥ ((μ * κ) • b)
      = (μ * κ) • (τ + N *ᵥ (T.Jkt *ᵥ (T.Λ *ᵥ (T.f + a))) + X.NwJw *ᵥ b) := by
    rw [← smul_add κ, step_heavy, h.internal, mulVec_smul, ← smul_add, ← smul_add]
  have key : ((∀ L, X'.limit = some L → ∀ j, |((μ * κ) • τ + N *ᵥ (T.Jkt *ᵥ ((μ • T.Λ) *ᵥ (κ • T.f + κ • a))) + X'.NwJw *ᵥ ((μ * κ) • b)) j| ≤ L j) ∧
      ∀ r, 0 ≤ (C *ᵥ contactForce X'.S X'.P ((μ * κ) • τ + N *ᵥ (T.Jkt *ᵥ ((μ • T.Λ) *ᵥ (κ • T.f + κ • a))) + X'.NwJw *ᵥ ((μ * κ) • b))) r) ↔
      ((∀ L, X.limit = some L → ∀ j, |(τ + N *ᵥ (T.Jkt *ᵥ (T.Λ *ᵥ (T.f + a))) + X.NwJw *ᵥ b) j| ≤ L j) ∧
      ∀ r, 0 ≤ (C *ᵥ contactForce X.S X.P (τ + N *ᵥ (T.Jkt *ᵥ (T.Λ *ᵥ (T.f + a))) + X.NwJw *ᵥ b)) r) := by
    rw [hτ, h.limit, limit_heavy hm, h.space, h.force, contactForce_heavy, cone_heavy hm]
  exact e.trans (key.trans e'.symm)

/-- Same outcome, with the task torque multiplied. -/
def SameTaskHeavy (a : ℝ) : CtrlResult n → CtrlResult n → Prop
  | .undefined, .undefined => True
  | .ret v τ _, .ret v' τ' _ => v' = v ∧ τ' = a • τ
  | _, _ => False

theorem taskQP_heavy_solution (hμ : 0 < μ) (hκ : 0 < κ) (h : HeavyRobot μ κ X X') {m : ℕ} {C : Matrix (Fin m) (Fin c) ℝ} (T : TaskReady (Fin n))
    (N : Matrix (Fin n) (Fin n) ℝ) (τ : Fin n → ℝ) (x : Fin T.t ⊕ Fin (c - 6) → ℝ) :
    (taskQP X' C (heavyReady μ κ T) N ((μ * κ) • τ)).IsSolution (heavyAnswer μ κ x) ↔ (taskQP X C T N τ).IsSolution x := by
  have hcost : ∀ y : Fin T.t ⊕ Fin (c - 6) → ℝ,
      (taskQP X' C (heavyReady μ κ T) N ((μ * κ) • τ)).cost (heavyAnswer μ κ y) = κ ^ 2 * (taskQP X C T N τ).cost y := by
    intro y
    have h1 := taskQP_cost X' C (heavyReady μ κ T) N ((μ * κ) • τ) (heavyAnswer μ κ y)
    have h2 : (1 / 2) * ∑ a : Fin T.t, (κ * y (Sum.inl a)) * (κ * y (Sum.inl a)) = κ ^ 2 * (taskQP X C T N τ).cost y := by
      rw [taskQP_cost, Finset.mul_sum, Finset.mul_sum, Finset.mul_sum]
      exact Finset.sum_congr rfl fun a _ => by ring
    exact h1.trans h2
  refine and_congr (taskQP_heavy_feasible hμ hκ h T N τ x) ?_
  have hk : (0 : ℝ) < κ ^ 2 := by positivity
  constructor
  · intro H y hy
    have := H _ ((taskQP_heavy_feasible hμ hκ h T N τ y).mpr hy)
    rw [hcost, hcost] at this
    exact le_of_mul_le_mul_left this hk
  · intro H y' hy'
    obtain ⟨y, rfl⟩ := heavyAnswer_onto hμ hκ y'
    have := H y ((taskQP_heavy_feasible hμ hκ h T N τ y).mp hy')
    exact (hcost x).le.trans ((mul_le_mul_of_nonneg_left this hk.le).trans (hcost y).ge)

theorem qpLoop_heavy (hμ : 0 < μ) (hκ : 0 < κ) (h : HeavyRobot μ κ X X') {solve solve' : Solver} (he : solve.Exact) (hc : solve.Complete)
    (he' : solve'.Exact) (hc' : solve'.Complete) (ys : List (TaskReady (Fin n))) (i : ℕ)
    (N : Matrix (Fin n) (Fin n) ℝ) (τt τc τc' : Fin n → ℝ) :
    SameTaskHeavy (μ * κ) (qpLoop X solve i N τt τc ys) (qpLoop X' solve' i N ((μ * κ) • τt) τc' (ys.map (heavyReady μ κ))) := by
  induction ys generalizing i N τt τc τc' with
  | nil => exact ⟨rfl, rfl⟩
  | cons T l ih =>
    simp only [List.map_cons, qpLoop]
    rw [h.cone, h.grav, ← smul_add]
    rcases X.C with _ | ⟨m, C⟩
    · trivial
    simp only
    have key := taskQP_heavy_solution (C := C) hμ hκ h T N (X.τg + τt)
    have hs := he i T.t (c - 6) (taskQP X C T N (X.τg + τt))
    have hs' := he' i (heavyReady μ κ T).t (c - 6) (taskQP X' C (heavyReady μ κ T) N ((μ * κ) • (X.τg + τt)))
    have hk := hc i T.t (c - 6) (taskQP X C T N (X.τg + τt))
    have hk' := hc' i (heavyReady μ κ T).t (c - 6) (taskQP X' C (heavyReady μ κ T) N ((μ * κ) • (X.τg + τt)))
    rcases hx : solve i T.t (c - 6) (taskQP X C T N (X.τg + τt)) with _ | x
    · rcases hx' : solve' i (heavyReady μ κ T).t (c - 6) (taskQP X' C (heavyReady μ κ T) N ((μ * κ) • (X.τg + τt))) with _ | x'
      · exact ⟨rfl, rfl⟩
      · exfalso
        have h1 := hs' x' hx'
        obtain ⟨y, rfl⟩ : ∃ y : Fin T.t ⊕ Fin (c - 6) → ℝ, x' = heavyAnswer μ κ y := heavyAnswer_onto hμ hκ x'
        have := hk ⟨_, (key y).mp h1⟩
        rw [hx] at this
        cases this
    · have h3 := hs x hx
      rcases hx' : solve' i (heavyReady μ κ T).t (c - 6) (taskQP X' C (heavyReady μ κ T) N ((μ * κ) • (X.τg + τt))) with _ | x'
      · exfalso
        have := hk' ⟨_, (key x).mpr h3⟩
        rw [hx'] at this
        cases this
      · have h1 := hs' x' hx'
        obtain ⟨y, rfl⟩ : ∃ y : Fin T.t ⊕ Fin (c - 6) → ℝ, x' = heavyAnswer μ κ y := heavyAnswer_onto hμ hκ x'
        have e : ∀ a, y (Sum.inl a) = x (Sum.inl a) := fun a => taskQP_left_unique X C T N _ ((key y).mp h1) h3 a
        simp only
        split_ifs with hcn
        · trivial
        · have e2 : (fun a : Fin T.t => κ * T.f a + κ * y (Sum.inl a)) = κ • (T.f + fun a => x (Sum.inl a)) := by
            ext a
            simp only [Pi.add_apply, Pi.smul_apply, smul_eq_mul]
            rw [e a]
            ring
          have ef : (μ * κ) • τt + N *ᵥ (T.Jkt *ᵥ ((μ • T.Λ) *ᵥ fun a : Fin T.t => κ * T.f a + κ * y (Sum.inl a)))
              = (μ * κ) • (τt + N *ᵥ (T.Jkt *ᵥ (T.Λ *ᵥ (T.f + fun a => x (Sum.inl a))))) := by
            rw [smul_add, e2, step_heavy]
          change SameTaskHeavy (μ * κ) _ (qpLoop X' solve' (i + 1) (taskNullSpace X'.S (heavyReady μ κ T) N)
            ((μ * κ) • τt + N *ᵥ (T.Jkt *ᵥ ((μ • T.Λ) *ᵥ fun a : Fin T.t => κ * T.f a + κ * y (Sum.inl a)))) _ _)
          rw [ef, h.space, taskNull_heavy hμ.ne']
          exact ih _ _ _ _ _

end

end Verif
