import Verif.Spec.Moving
import Verif.Lemmas.Task
import Mathlib.Tactic.Module
import Mathlib.Tactic.Abel
import Mathlib.Tactic.Linarith
import Mathlib.Algebra.Order.BigOperators.Group.List

set_option linter.unusedSectionVars false

namespace Verif
open Matrix Verif.Spec Verif.Model

section
variable {σ : Type*} [Fintype σ]

theorem inverseDynamics_cons (l : DrivenLink σ) (L : List (DrivenLink σ)) (g : Fin 3 → ℝ) (qd qdd : σ → ℝ) :
    inverseDynamics (l :: L) g qd qdd =
      (l.Jvᵀ *ᵥ l.force g qd qdd + l.Jwᵀ *ᵥ l.moment qd qdd) + inverseDynamics L g qd qdd := by
  simp [inverseDynamics]

/-- Inverse dynamics in closed form: mass matrix, velocity terms, gravity. -/
theorem inverseDynamics_eq (L : List (DrivenLink σ)) (g : Fin 3 → ℝ) (qd qdd : σ → ℝ) :
    inverseDynamics L g qd qdd = massMatrix (links L) *ᵥ qdd + velocityForce L qd - Spec.gravityForce g (links L) := by
  unfold velocityForce
  induction L with
  | nil => simp [inverseDynamics, massMatrix, links, Spec.gravityForce]
  | cons l L ih =>
    rw [inverseDynamics_cons, inverseDynamics_cons, ih]
    have e1 : massMatrix (links (l :: L)) = (l.m • (l.Jvᵀ * l.Jv) + l.Jwᵀ * l.I * l.Jw) + massMatrix (links L) := by
      simp [massMatrix, links]
    have e2 : Spec.gravityForce g (links (l :: L)) = l.Jvᵀ *ᵥ (l.m • g) + Spec.gravityForce g (links L) := by
      simp [Spec.gravityForce, links]
    rw [e1, e2]
    unfold DrivenLink.force DrivenLink.moment
    simp only [mulVec_zero, sub_zero, zero_add, mulVec_add, mulVec_sub, mulVec_smul, add_mulVec, smul_mulVec, smul_add, smul_sub,
      mulVec_mulVec, Matrix.mul_assoc]
    module

/-- The mass matrix applied to a velocity, link by link. -/
theorem massMatrix_mulVec (L : List (MovingLink σ)) (q : σ → ℝ) :
    massMatrix L *ᵥ q = (L.map fun l => l.Jvᵀ *ᵥ (l.m • (l.Jv *ᵥ q)) + l.Jwᵀ *ᵥ (l.I *ᵥ (l.Jw *ᵥ q))).sum := by
  induction L with
  | nil => simp [massMatrix]
  | cons l L ih =>
    have e1 : massMatrix (l :: L) = (l.m • (l.Jvᵀ * l.Jv) + l.Jwᵀ * l.I * l.Jw) + massMatrix L := by
      simp [massMatrix]
    rw [e1, add_mulVec, ih]
    simp only [List.map_cons, List.sum_cons, add_mulVec, smul_mulVec, mulVec_smul, mulVec_mulVec, Matrix.mul_assoc]

/-- Links with mass and inertia that cannot all be at rest while the robot moves: the mass matrix is positive definite. -/
theorem massMatrix_spd {L : List (MovingLink σ)} (h : ∀ l ∈ L, 0 < l.m ∧ IsSPD l.I)
    (hq : ∀ q, (∀ l ∈ L, l.Jv *ᵥ q = 0 ∧ l.Jw *ᵥ q = 0) → q = 0) : IsSPD (massMatrix L) := by
  have hsymm : (massMatrix L)ᵀ = massMatrix L := by
    clear hq
    induction L with
    | nil => simp [massMatrix]
    | cons l L ih =>
      have e1 : massMatrix (l :: L) = (l.m • (l.Jvᵀ * l.Jv) + l.Jwᵀ * l.I * l.Jw) + massMatrix L := by
        simp [massMatrix]
      rw [e1, transpose_add, ih fun x hx => h x (List.mem_cons_of_mem _ hx)]
      simp [transpose_mul, (h l List.mem_cons_self).2.symm, Matrix.mul_assoc]
  have hnn : ∀ (I : Matrix (Fin 3) (Fin 3) ℝ), IsSPD I → ∀ x, 0 ≤ x ⬝ᵥ (I *ᵥ x) := fun I hI x => by
    by_cases hx : x = 0
    · simp [hx]
    · exact (hI.pos x hx).le
  have hform : ∀ q, q ⬝ᵥ (massMatrix L *ᵥ q) =
      (L.map fun l => l.m * ((l.Jv *ᵥ q) ⬝ᵥ (l.Jv *ᵥ q)) + (l.Jw *ᵥ q) ⬝ᵥ (l.I *ᵥ (l.Jw *ᵥ q))).sum := by
    intro q
    rw [massMatrix_mulVec]
    clear h hq hsymm
    induction L with
    | nil => simp
    | cons l L ih =>
      simp only [List.map_cons, List.sum_cons, dotProduct_add, ih]
      congr 1
      rw [dotProduct_mulVec, dotProduct_mulVec q, ← mulVec_transpose, ← mulVec_transpose, transpose_transpose, transpose_transpose,
        dotProduct_smul, smul_eq_mul]
  refine ⟨hsymm, fun q hne => ?_⟩
  rw [hform]
  have hterm : ∀ l ∈ L, 0 ≤ l.m * ((l.Jv *ᵥ q) ⬝ᵥ (l.Jv *ᵥ q)) + (l.Jw *ᵥ q) ⬝ᵥ (l.I *ᵥ (l.Jw *ᵥ q)) := fun l hl =>
    add_nonneg (mul_nonneg (h l hl).1.le (Finset.sum_nonneg fun i _ => mul_self_nonneg _)) (hnn _ (h l hl).2 _)
  by_contra hc
  push Not at hc
  refine hne (hq q fun l hl => ?_)
  have hle : l.m * ((l.Jv *ᵥ q) ⬝ᵥ (l.Jv *ᵥ q)) + (l.Jw *ᵥ q) ⬝ᵥ (l.I *ᵥ (l.Jw *ᵥ q)) ≤ 0 := by
    refine le_trans (List.single_le_sum ?_ _ (List.mem_map.mpr ⟨l, hl, rfl⟩)) hc
    intro x hx
    obtain ⟨l, hl, rfl⟩ := List.mem_map.mp hx
    exact hterm l hl
  obtain ⟨hm, hI⟩ := h l hl
  have hv0 : 0 ≤ (l.Jv *ᵥ q) ⬝ᵥ (l.Jv *ᵥ q) := Finset.sum_nonneg fun i _ => mul_self_nonneg _
  have hw0 := hnn _ hI (l.Jw *ᵥ q)
  have hv : (l.Jv *ᵥ q) ⬝ᵥ (l.Jv *ᵥ q) = 0 := by
    have := mul_nonneg hm.le hv0
    have : l.m * ((l.Jv *ᵥ q) ⬝ᵥ (l.Jv *ᵥ q)) = 0 := by linarith
    exact (mul_eq_zero.mp this).resolve_left hm.ne'
  refine ⟨dotProduct_self_eq_zero.mp hv, ?_⟩
  by_contra hw
  have := hI.pos _ hw
  rw [hv] at hle
  linarith

/-- Velocity terms at `s` times the velocity. -/
theorem velocityForce_scale {L : List (DrivenLink σ)} (h : ∀ l ∈ L, Quadratic l.Hv ∧ Quadratic l.Hw) (s : ℝ) (qd : σ → ℝ) :
    velocityForce L (s • qd) = s ^ 2 • velocityForce L qd := by
  unfold velocityForce
  induction L with
  | nil => simp [inverseDynamics]
  | cons l L ih =>
    rw [inverseDynamics_cons, inverseDynamics_cons, ih fun x hx => h x (List.mem_cons_of_mem _ hx)]
    obtain ⟨h1, h2⟩ := h l List.mem_cons_self
    unfold DrivenLink.force DrivenLink.moment
    rw [h1, h2]
    simp only [mulVec_zero, sub_zero, zero_add, mulVec_add, mulVec_smul, smul_add, map_smul, LinearMap.smul_apply]
    module

end

section
variable {ι : Type*} [Fintype ι] [DecidableEq ι] {c : ℕ} {A : Matrix (Fin 6 ⊕ ι) (Fin 6 ⊕ ι) ℝ}
  {J : Matrix (Fin c) (Fin 6 ⊕ ι) ℝ} {S : ContactSpace c ι}

/-- The response of the robot in contact to a force `b` and an acceleration `γ` of the contacts. -/
theorem response (hA : IsSPD A) (hS : contactSpace J A⁻¹ = some S) (b : Fin 6 ⊕ ι → ℝ) (γ : Fin c → ℝ) (δ : Fin 6 ⊕ ι → ℝ)
    (φ : Fin c → ℝ) :
    (A *ᵥ δ + Jᵀ *ᵥ φ = b ∧ J *ᵥ δ = γ) ↔
      δ = S.AinvNc *ᵥ b + S.JcInvTᵀ *ᵥ γ ∧ φ = S.JcInvT *ᵥ b - S.lambda *ᵥ γ := by
  have hJ : J * S.JcInvTᵀ = 1 := by
    have := congrArg Matrix.transpose (cs_JcInvT_JT hS)
    rwa [transpose_mul, transpose_transpose, transpose_one] at this
  have hAJ : A * S.JcInvTᵀ = Jᵀ * S.lambda := by
    rw [cs_JcInvT hS, transpose_mul, transpose_mul, hA.inv_symm, cs_lambda_symm hA hS, ← Matrix.mul_assoc, hA.mul_inv,
      Matrix.one_mul]
  have hN : S.Nc + Jᵀ * S.JcInvT = 1 := by rw [cs_Nc hS]; simp
  have key : ∀ (δ : Fin 6 ⊕ ι → ℝ) (φ : Fin c → ℝ), A *ᵥ δ + Jᵀ *ᵥ φ = 0 → J *ᵥ δ = 0 → δ = 0 ∧ φ = 0 := by
    intro δ φ h1 h2
    have h0 : actuate (0 : ι → ℝ) = 0 := by ext i; rcases i with i | i <;> rfl
    have := (motion_iff hA hS 0 0 δ φ).mp ⟨by unfold Dynamics; rw [h1, h0, add_zero], h2⟩
    rw [h0, sub_zero, mulVec_zero, mulVec_zero] at this
    exact this
  have good : A *ᵥ (S.AinvNc *ᵥ b + S.JcInvTᵀ *ᵥ γ) + Jᵀ *ᵥ (S.JcInvT *ᵥ b - S.lambda *ᵥ γ) = b ∧
      J *ᵥ (S.AinvNc *ᵥ b + S.JcInvTᵀ *ᵥ γ) = γ := by
    constructor
    · simp only [mulVec_add, mulVec_sub, mulVec_mulVec]
      rw [cs_A_P hA hS, hAJ]
      have : S.Nc *ᵥ b + (Jᵀ * S.JcInvT) *ᵥ b = b := by rw [← add_mulVec, hN, one_mulVec]
      rw [← this]
      simp only [this]
      rw [← add_sub_assoc, add_right_comm, this]
      abel
    · rw [mulVec_add, mulVec_mulVec, mulVec_mulVec, cs_J_P hS, hJ, zero_mulVec, zero_add, one_mulVec]
  constructor
  · rintro ⟨h1, h2⟩
    obtain ⟨k1, k2⟩ := key (δ - (S.AinvNc *ᵥ b + S.JcInvTᵀ *ᵥ γ)) (φ - (S.JcInvT *ᵥ b - S.lambda *ᵥ γ))
      (by
        rw [mulVec_sub, mulVec_sub]
        have := congrArg₂ (· - ·) h1 good.1
        simp only [sub_self] at this
        rw [← this]; abel)
      (by rw [mulVec_sub, h2, good.2, sub_self])
    exact ⟨sub_eq_zero.mp k1, sub_eq_zero.mp k2⟩
  · rintro ⟨rfl, rfl⟩
    exact good

end

end Verif
