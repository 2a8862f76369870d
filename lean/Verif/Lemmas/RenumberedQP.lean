import Verif.Lemmas.Renumbered
import Verif.Lemmas.TurnedQP
import Verif.Lemmas.Heading

set_option linter.unusedSectionVars false

namespace Verif
open Matrix Verif.Spec Verif.Model Module

section
variable {ι : Type*} [Fintype ι] [DecidableEq ι] {c : ℕ}

/-- The rows found for the null space span it. -/
theorem cod_span {W : Matrix ι ι ℝ} (f : CodNull W) {τ : ι → ℝ} (h : τ ᵥ* W = 0) : f.V2ᵀ *ᵥ (f.V2 *ᵥ τ) = τ := by
  have hk : ∀ x : ι → ℝ, x ∈ LinearMap.ker Wᵀ.mulVecLin ↔ x ᵥ* W = 0 := by
    intro x; rw [LinearMap.mem_ker, mulVecLin_apply, mulVec_transpose]
  have hle : LinearMap.range f.V2ᵀ.mulVecLin ≤ LinearMap.ker Wᵀ.mulVecLin := by
    rintro _ ⟨z, rfl⟩
    rw [hk, mulVecLin_apply, mulVec_transpose, vecMul_vecMul, f.ann, vecMul_zero]
  have hr : finrank ℝ (LinearMap.range f.V2ᵀ.mulVecLin) = f.k := by
    have h1 := LinearMap.finrank_range_add_finrank_ker f.V2ᵀ.mulVecLin
    rw [finrank_fintype_fun_eq_card, Fintype.card_fin] at h1
    have h2 : LinearMap.ker f.V2ᵀ.mulVecLin = ⊥ := by
      rw [LinearMap.ker_eq_bot']; intro z hz; exact V2T_injective f hz
    rw [h2, finrank_bot] at h1; omega
  have hf : f.k = finrank ℝ (LinearMap.ker Wᵀ.mulVecLin) := by
    have h1 := LinearMap.finrank_range_add_finrank_ker Wᵀ.mulVecLin
    rw [finrank_fintype_fun_eq_card] at h1
    have h2 := f.rank
    rw [← rank_transpose] at h2
    unfold Matrix.rank at h2
    omega
  have heq := Submodule.eq_of_le_of_finrank_eq hle (by rw [hr, hf])
  have : τ ∈ LinearMap.ker Wᵀ.mulVecLin := (hk τ).mpr h
  rw [← heq] at this
  obtain ⟨z, rfl⟩ := this
  rw [mulVecLin_apply, mulVec_mulVec z f.V2, f.orth, one_mulVec]

/-- The matrix that turns forces at the rows `B` into torques in the null space. -/
noncomputable def nullInv {m : ℕ} (B : Matrix (Fin m) ι ℝ) {W : Matrix ι ι ℝ} (f : CodNull W) : Option (Matrix ι (Fin m) ℝ) :=
  if h : m = f.k then
    (eigenInverse ((B * f.V2ᵀ).submatrix id (Fin.cast h))).map fun X => f.V2ᵀ.submatrix id (Fin.cast h) * X
  else none

variable {D : Matrix ι ι ℝ}

theorem cod_k_joint (hD : Dᵀ * D = 1) {W : Matrix ι ι ℝ} (f : CodNull W) (g : CodNull (Dᵀ * W * Dᵀᵀ)) : g.k = f.k := by
  have h1 := f.rank
  have h2 := g.rank
  have hu : IsUnit D.det := isUnit_det_of_left_inverse hD
  have hu' : IsUnit (Dᵀ).det := by rwa [det_transpose]
  have h3 : (Dᵀ * W * Dᵀᵀ).rank = W.rank := by
    rw [transpose_transpose, rank_mul_eq_left_of_isUnit_det _ _ hu, rank_mul_eq_right_of_isUnit_det _ _ hu']
  omega

theorem nullInv_joint (hD : Dᵀ * D = 1) {m : ℕ} (B : Matrix (Fin m) ι ℝ) {W : Matrix ι ι ℝ} (f : CodNull W)
    (g : CodNull (Dᵀ * W * Dᵀᵀ)) : nullInv (B * D) g = (nullInv B f).map (Dᵀ * ·) := by
  have hD' : D * Dᵀ = 1 := mul_eq_one_comm.mp hD
  have hk := cod_k_joint hD f g
  have hspan := @cod_span _ _ _ _ g
  unfold nullInv
  by_cases h : m = f.k
  swap
  · rw [dif_neg h, dif_neg (by rw [hk]; exact h)]; rfl
  have h' : m = g.k := h.trans hk.symm
  rw [dif_pos h, dif_pos h', Option.map_map]
  have hspanf := @cod_span _ _ _ _ f
  set P : Matrix (Fin m) ι ℝ := f.V2.submatrix (Fin.cast h) id with hP
  set Q : Matrix (Fin m) ι ℝ := g.V2.submatrix (Fin.cast h') id with hQ
  have hQo : Q * Qᵀ = 1 := by
    ext i j
    have := congrFun (congrFun g.orth (Fin.cast h' i)) (Fin.cast h' j)
    refine Eq.trans this ?_
    rw [Matrix.one_apply, Matrix.one_apply]
    simp only [Fin.ext_iff, Fin.val_cast]
  have hPo : P * Pᵀ = 1 := by
    ext i j
    have := congrFun (congrFun f.orth (Fin.cast h i)) (Fin.cast h j)
    refine Eq.trans this ?_
    rw [Matrix.one_apply, Matrix.one_apply]
    simp only [Fin.ext_iff, Fin.val_cast]
  have hsumg : Qᵀ * Q = g.V2ᵀ * g.V2 := by
    ext i j
    simp only [Matrix.mul_apply, transpose_apply, hQ, submatrix_apply, id]
    exact (finCongr h').sum_comp (fun l => g.V2 l i * g.V2 l j)
  have hfix : Qᵀ * Q * (Dᵀ * Pᵀ) = Dᵀ * Pᵀ := by
    apply Matrix.ext_of_mulVec_single
    intro j
    rw [hsumg, ← mulVec_mulVec, ← mulVec_mulVec]
    apply hspan
    have h1 : Pᵀ *ᵥ Pi.single j 1 = f.V2 (Fin.cast h j) := by
      rw [mulVec_single_one]; rfl
    have h0 : f.V2 (Fin.cast h j) ᵥ* W = 0 := congrFun f.ann (Fin.cast h j)
    rw [← mulVec_mulVec, h1, mulVec_transpose, vecMul_vecMul, transpose_transpose]
    have : D * (Dᵀ * W * D) = W * D := by
      rw [← Matrix.mul_assoc, ← Matrix.mul_assoc, hD', Matrix.one_mul]
    rw [this, ← vecMul_vecMul, h0, zero_vecMul]
  set O : Matrix (Fin m) (Fin m) ℝ := Q * (Dᵀ * Pᵀ) with hO
  have hOD : Qᵀ * O = Dᵀ * Pᵀ := by rw [hO, ← Matrix.mul_assoc]; exact hfix
  have hOo : Oᵀ * O = 1 := by
    have : Oᵀ * O = P * D * (Qᵀ * O) := by
      conv_lhs => rw [hO, transpose_mul, transpose_mul, transpose_transpose, transpose_transpose]
      rw [Matrix.mul_assoc, Matrix.mul_assoc, ← hO]
    rw [this, hOD]
    have : P * D * (Dᵀ * Pᵀ) = P * (D * Dᵀ) * Pᵀ := by simp only [Matrix.mul_assoc]
    rw [this, hD', Matrix.mul_one, hPo]
  have hOo' : O * Oᵀ = 1 := mul_eq_one_comm.mp hOo
  have hQt : Qᵀ = Dᵀ * Pᵀ * Oᵀ := by rw [← hOD, Matrix.mul_assoc, hOo', Matrix.mul_one]
  have e1 : (B * D * g.V2ᵀ).submatrix id (Fin.cast h') = B * Pᵀ * Oᵀ := by
    have : (B * D * g.V2ᵀ).submatrix id (Fin.cast h') = B * D * Qᵀ := rfl
    rw [this, hQt]
    have : B * D * (Dᵀ * Pᵀ * Oᵀ) = B * (D * Dᵀ) * Pᵀ * Oᵀ := by simp only [Matrix.mul_assoc]
    rw [this, hD', Matrix.mul_one]
  have e2 : (B * f.V2ᵀ).submatrix id (Fin.cast h) = B * Pᵀ := rfl
  have e3 : g.V2ᵀ.submatrix id (Fin.cast h') = Qᵀ := rfl
  have e4 : f.V2ᵀ.submatrix id (Fin.cast h) = Pᵀ := rfl
  rw [e1, e2, e3, e4]
  have hdO : IsUnit (Oᵀ).det := isUnit_det_of_left_inverse hOo'
  unfold eigenInverse
  by_cases hu : IsUnit (B * Pᵀ).det
  · rw [if_pos hu, if_pos (by rw [det_mul]; exact hu.mul hdO)]
    simp only [Option.map_some, Function.comp]
    rw [Matrix.mul_inv_rev, hQt, inv_eq_left_inv hOo']
    have : Dᵀ * Pᵀ * Oᵀ * (O * (B * Pᵀ)⁻¹) = Dᵀ * Pᵀ * (Oᵀ * O) * (B * Pᵀ)⁻¹ := by simp only [Matrix.mul_assoc]
    rw [this, hOo, Matrix.mul_one, Matrix.mul_assoc]
  · rw [if_neg hu, if_neg (by rw [det_mul]; exact fun hc => hu (isUnit_of_mul_isUnit_left hc))]
    rfl

theorem topRight_joint (M : Matrix (Fin c) (Fin 6 ⊕ ι) ℝ) : topRight (M * (jointChange Dᵀ)ᵀ) = topRight M * D := by
  ext i j
  have h := congrFun (congrFun (mul_selT (M * (jointChange Dᵀ)ᵀ)) (Fin.castLE (Nat.sub_le c 6) i)) j
  rw [Matrix.mul_assoc, jointChangeT_selT, transpose_transpose, ← Matrix.mul_assoc, mul_selT] at h
  exact h.symm

/-- The answers of `CalculateContactConstraint` for two descriptions. -/
def JointResult (D : Matrix ι ι ℝ) : ContactResult c ι → ContactResult c ι → Prop
  | .nonFinite, .nonFinite => True
  | .nonSquareInverse, .nonSquareInverse => True
  | .ret v S o, .ret v' S' o' => v' = v ∧ S' = jointSpace D Dᵀ S ∧ o'.map (fun x => x.2.2) = o.map (fun x => Dᵀ * x.2.2)
  | _, _ => False

variable {A A' : Matrix (Fin 6 ⊕ ι) (Fin 6 ⊕ ι) ℝ} {J J' : Matrix (Fin c) (Fin 6 ⊕ ι) ℝ} {G G' : Fin 6 ⊕ ι → ℝ}

theorem ccc_joint (hD : Dᵀ * D = 1) (h : JointSeen D A J G A' J' G') (cod cod' : (W : Matrix ι ι ℝ) → CodNull W) :
    JointResult D (calculateContactConstraint J A⁻¹ cod) (calculateContactConstraint J' A'⁻¹ cod') := by
  have hD' : D * Dᵀ = 1 := mul_eq_one_comm.mp hD
  unfold calculateContactConstraint
  rcases hS : contactSpace J A⁻¹ with _ | S
  · rw [contactSpace_joint_none hD' h hS]; trivial
  have hW : S.Winv = pinv S.W := by
    unfold contactSpace at hS
    obtain ⟨Λ, -, rfl⟩ := Option.map_eq_some_iff.mp hS
    rfl
  rw [contactSpace_joint hD' h hS (by rw [joint_pinv_orth hD, hW])]
  simp only
  by_cases hc : c > 6
  swap
  · rw [if_neg hc, if_neg hc]; exact ⟨rfl, rfl, rfl⟩
  rw [if_pos hc, if_pos hc]
  have key := nullInv_joint hD (topRight S.JcInvT) (cod S.W) (cod' (jointSpace D Dᵀ S).W)
  rw [← topRight_joint] at key
  have hk := cod_k_joint hD (cod S.W) (cod' (jointSpace D Dᵀ S).W)
  unfold nullInv at key
  by_cases h1 : c - 6 = (cod S.W).k
  swap
  · rw [dif_neg h1, dif_neg (by rw [hk]; exact h1)]; trivial
  have h2 : c - 6 = (cod' (jointSpace D Dᵀ S).W).k := h1.trans hk.symm
  rw [dif_pos h1, dif_pos h2] at key ⊢
  have e : topRight (jointSpace D Dᵀ S).JcInvT = topRight (S.JcInvT * (jointChange Dᵀ)ᵀ) := rfl
  rw [e]
  revert key
  rcases eigenInverse ((topRight S.JcInvT * (cod S.W).V2ᵀ).submatrix id (Fin.cast h1)) with _ | X <;>
    rcases eigenInverse ((topRight (S.JcInvT * (jointChange Dᵀ)ᵀ) * (cod' (jointSpace D Dᵀ S).W).V2ᵀ).submatrix id (Fin.cast h2)) with _ | X'
  · intro _; trivial
  · intro key; simp at key
  · intro key; simp at key
  · intro key
    exact ⟨rfl, rfl, key⟩

end

variable {n c : ℕ}

/-- What QP control reads from the robot described otherwise. -/
structure JointRobot (D : Matrix (Fin n) (Fin n) ℝ) (X X' : QPRobot n c) : Prop where
  space : X'.S = jointSpace D Dᵀ X.S
  internal : X'.NwJw = Dᵀ * X.NwJw
  force : X'.P = X.P
  grav : X'.τg = Dᵀ *ᵥ X.τg
  limit : ∀ τ : Fin n → ℝ, (∀ L, X'.limit = some L → ∀ j, |(Dᵀ *ᵥ τ) j| ≤ L j) ↔ ∀ L, X.limit = some L → ∀ j, |τ j| ≤ L j
  cone : X'.C = X.C

section
variable {D : Matrix (Fin n) (Fin n) ℝ} {X X' : QPRobot n c}

theorem taskQP_joint_feasible (hD : Dᵀ * D = 1) (h : JointRobot D X X') {m : ℕ} {C : Matrix (Fin m) (Fin c) ℝ} (T : TaskReady (Fin n))
    (N : Matrix (Fin n) (Fin n) ℝ) (τ : Fin n → ℝ) (x : Fin T.t ⊕ Fin (c - 6) → ℝ) :
    (taskQP X' C (jointReady D T) (Dᵀ * N * Dᵀᵀ) (Dᵀ *ᵥ τ)).Feasible x ↔ (taskQP X C T N τ).Feasible x := by
  have hD' : D * Dᵀ = 1 := mul_eq_one_comm.mp hD
  have hs := step_joint hD' T N
  have e := taskQP_feasible X' C (jointReady D T) (Dᵀ * N * Dᵀᵀ) (Dᵀ *ᵥ τ) x
  have e' := taskQP_feasible X C T N τ x
  set a : Fin T.t → ℝ := fun a => x (Sum.inl a)
  set b : Fin (c - 6) → ℝ := fun b => x (Sum.inr b)
  have hτ : Dᵀ *ᵥ τ + (Dᵀ * N * Dᵀᵀ) *ᵥ ((Dᵀ * T.Jkt) *ᵥ (T.Λ *ᵥ (T.f + a))) + X'.NwJw *ᵥ b
      = Dᵀ *ᵥ (τ + N *ᵥ (T.Jkt *ᵥ (T.Λ *ᵥ (T.f + a))) + X.NwJw *ᵥ b) := by
    rw [hs, h.internal, ← mulVec_mulVec b, ← mulVec_add, ← mulVec_add]
  have key : ((∀ L, X'.limit = some L → ∀ j, |(Dᵀ *ᵥ τ + (Dᵀ * N * Dᵀᵀ) *ᵥ ((Dᵀ * T.Jkt) *ᵥ (T.Λ *ᵥ (T.f + a))) + X'.NwJw *ᵥ b) j| ≤ L j) ∧
      ∀ r, 0 ≤ (C *ᵥ contactForce X'.S X'.P (Dᵀ *ᵥ τ + (Dᵀ * N * Dᵀᵀ) *ᵥ ((Dᵀ * T.Jkt) *ᵥ (T.Λ *ᵥ (T.f + a))) + X'.NwJw *ᵥ b)) r) ↔
      ((∀ L, X.limit = some L → ∀ j, |(τ + N *ᵥ (T.Jkt *ᵥ (T.Λ *ᵥ (T.f + a))) + X.NwJw *ᵥ b) j| ≤ L j) ∧
      ∀ r, 0 ≤ (C *ᵥ contactForce X.S X.P (τ + N *ᵥ (T.Jkt *ᵥ (T.Λ *ᵥ (T.f + a))) + X.NwJw *ᵥ b)) r) := by
    rw [hτ, h.limit, h.space, h.force, contactForce_joint hD']
  exact e.trans (key.trans e'.symm)

/-- Same outcome, with the task torque in the other description. -/
def SameTaskJoint (D : Matrix (Fin n) (Fin n) ℝ) : CtrlResult n → CtrlResult n → Prop
  | .undefined, .undefined => True
  | .ret v τ _, .ret v' τ' _ => v' = v ∧ τ' = Dᵀ *ᵥ τ
  | _, _ => False

theorem taskQP_joint_solution (hD : Dᵀ * D = 1) (h : JointRobot D X X') {m : ℕ} {C : Matrix (Fin m) (Fin c) ℝ} (T : TaskReady (Fin n))
    (N : Matrix (Fin n) (Fin n) ℝ) (τ : Fin n → ℝ) (x : Fin T.t ⊕ Fin (c - 6) → ℝ) :
    (taskQP X' C (jointReady D T) (Dᵀ * N * Dᵀᵀ) (Dᵀ *ᵥ τ)).IsSolution x ↔ (taskQP X C T N τ).IsSolution x := by
  have hcost : ∀ y : Fin T.t ⊕ Fin (c - 6) → ℝ,
      (taskQP X' C (jointReady D T) (Dᵀ * N * Dᵀᵀ) (Dᵀ *ᵥ τ)).cost y = (taskQP X C T N τ).cost y := by
    intro y
    rw [taskQP_cost]
    exact taskQP_cost X' C (jointReady D T) _ _ y
  refine and_congr (taskQP_joint_feasible hD h T N τ x) ?_
  constructor
  · intro H y hy
    have := H y ((taskQP_joint_feasible hD h T N τ y).mpr hy)
    rwa [hcost, hcost] at this
  · intro H y hy
    have := H y ((taskQP_joint_feasible hD h T N τ y).mp hy)
    exact (hcost x).le.trans (this.trans (hcost y).ge)

theorem qpLoop_joint (hD : Dᵀ * D = 1) (h : JointRobot D X X') {solve solve' : Solver} (he : solve.Exact) (hc : solve.Complete)
    (he' : solve'.Exact) (hc' : solve'.Complete) (ys : List (TaskReady (Fin n))) (i : ℕ)
    (N : Matrix (Fin n) (Fin n) ℝ) (τt τc τc' : Fin n → ℝ) :
    SameTaskJoint D (qpLoop X solve i N τt τc ys) (qpLoop X' solve' i (Dᵀ * N * Dᵀᵀ) (Dᵀ *ᵥ τt) τc' (ys.map (jointReady D))) := by
  have hD' : D * Dᵀ = 1 := mul_eq_one_comm.mp hD
  induction ys generalizing i N τt τc τc' with
  | nil => exact ⟨rfl, rfl⟩
  | cons T l ih =>
    simp only [List.map_cons, qpLoop]
    rw [h.cone, h.grav, ← mulVec_add]
    rcases X.C with _ | ⟨m, C⟩
    · trivial
    simp only
    have key := taskQP_joint_solution (C := C) hD h T N (X.τg + τt)
    have hs := he i T.t (c - 6) (taskQP X C T N (X.τg + τt))
    have hs' := he' i (jointReady D T).t (c - 6) (taskQP X' C (jointReady D T) (Dᵀ * N * Dᵀᵀ) (Dᵀ *ᵥ (X.τg + τt)))
    have hk := hc i T.t (c - 6) (taskQP X C T N (X.τg + τt))
    have hk' := hc' i (jointReady D T).t (c - 6) (taskQP X' C (jointReady D T) (Dᵀ * N * Dᵀᵀ) (Dᵀ *ᵥ (X.τg + τt)))
    rcases hx : solve i T.t (c - 6) (taskQP X C T N (X.τg + τt)) with _ | x
    · rcases hx' : solve' i (jointReady D T).t (c - 6) (taskQP X' C (jointReady D T) (Dᵀ * N * Dᵀᵀ) (Dᵀ *ᵥ (X.τg + τt))) with _ | x'
      · exact ⟨rfl, rfl⟩
      · exfalso
        have := hk ⟨_, (key x').mp (hs' x' hx')⟩
        rw [hx] at this
        cases this
    · have h3 := hs x hx
      rcases hx' : solve' i (jointReady D T).t (c - 6) (taskQP X' C (jointReady D T) (Dᵀ * N * Dᵀᵀ) (Dᵀ *ᵥ (X.τg + τt))) with _ | x'
      · exfalso
        have := hk' ⟨_, (key x).mpr h3⟩
        rw [hx'] at this
        cases this
      · have e : (fun a => x' (Sum.inl a)) = fun a => x (Sum.inl a) := by
          ext a
          exact taskQP_left_unique X C T N _ ((key x').mp (hs' x' hx')) h3 a
        simp only
        split_ifs with hcn
        · trivial
        · have ef : Dᵀ *ᵥ τt + (Dᵀ * N * Dᵀᵀ) *ᵥ ((jointReady D T).Jkt *ᵥ ((jointReady D T).Λ *ᵥ ((jointReady D T).f + fun a => x' (Sum.inl a))))
              = Dᵀ *ᵥ (τt + N *ᵥ (T.Jkt *ᵥ (T.Λ *ᵥ (T.f + fun a => x (Sum.inl a))))) := by
            rw [e, mulVec_add]
            congr 1
            exact step_joint hD' T N _
          rw [ef, h.space, taskNull_joint hD']
          exact ih _ _ _ _ _

end

end Verif
