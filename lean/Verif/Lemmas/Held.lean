import Verif.Lemmas.CodRank
import Verif.Lemmas.Task
import Verif.Lemmas.Spd
import Mathlib.Tactic.FinCases
import Mathlib.Data.Fin.VecNotation

/-! # Robots with diagonal inertia: base held by one 6-D contact, or standing on two (for counterexamples) -/

set_option linter.unusedSectionVars false

namespace Verif
open Matrix Verif.Spec Verif.Model

variable {ι : Type*} [Fintype ι] [DecidableEq ι] {c : ℕ}

/-- The projected inverse inertia from a solution of the equation of motion. -/
theorem P_mulVec_of {A : Matrix (Fin 6 ⊕ ι) (Fin 6 ⊕ ι) ℝ} {J : Matrix (Fin c) (Fin 6 ⊕ ι) ℝ} {S : ContactSpace c ι}
    (hA : IsSPD A) (hS : contactSpace J A⁻¹ = some S) {q f : Fin 6 ⊕ ι → ℝ} {F : Fin c → ℝ} (h : A *ᵥ q + Jᵀ *ᵥ F = f)
    (hq : J *ᵥ q = 0) : S.AinvNc *ᵥ f = q := by
  have h0 : actuate (0 : ι → ℝ) = 0 := by ext i; rcases i with i | i <;> rfl
  have := (motion_iff hA hS (-f) 0 q F).mp ⟨by unfold Dynamics; rw [h, h0]; simp, hq⟩
  rw [this.1, h0]; simp

/-- `W` column by column. -/
theorem W_mulVec_of {A : Matrix (Fin 6 ⊕ ι) (Fin 6 ⊕ ι) ℝ} {J : Matrix (Fin c) (Fin 6 ⊕ ι) ℝ} {S : ContactSpace c ι}
    (hA : IsSPD A) (hS : contactSpace J A⁻¹ = some S) {q : Fin 6 ⊕ ι → ℝ} {τ : ι → ℝ} {F : Fin c → ℝ}
    (h : A *ᵥ q + Jᵀ *ᵥ F = actuate τ) (hq : J *ᵥ q = 0) : S.W *ᵥ τ = fun i => q (Sum.inr i) := by
  rw [cs_W hS, ← mulVec_mulVec, ← mulVec_mulVec, ← actuate_eq, P_mulVec_of hA hS h hq, sel_mulVec]

namespace Held

/-- base of unit inertia, joint inertias `d` -/
def A (d : ι → ℝ) : Matrix (Fin 6 ⊕ ι) (Fin 6 ⊕ ι) ℝ := diagonal (Sum.elim (fun _ => 1) d)

/-- one 6-D contact at the base: contact Jacobian `[1 0]` -/
def J (ι : Type*) : Matrix (Fin 6) (Fin 6 ⊕ ι) ℝ := Matrix.of fun i => Sum.elim (fun j => if i = j then 1 else 0) fun _ => 0

theorem hA {d : ι → ℝ} (hd : ∀ i, 0 < d i) : IsSPD (A d) :=
  isSPD_diagonal fun i => by rcases i with i | i <;> simp [hd]

theorem J_mulVec (q : Fin 6 ⊕ ι → ℝ) : J ι *ᵥ q = fun i => q (Sum.inl i) := by
  ext i
  simp [J, mulVec, dotProduct]

theorem JT_mulVec (F : Fin 6 → ℝ) : (J ι)ᵀ *ᵥ F = Sum.elim F 0 := by
  ext s
  rcases s with s | s <;> simp [J, mulVec, dotProduct]

theorem J_base : BaseDetermined (J ι) := by
  intro v h
  rw [J_mulVec] at h
  exact h

theorem J_ind : IndependentRows (J ι) := by
  intro F h
  rw [JT_mulVec] at h
  ext i
  exact congrFun h (Sum.inl i)

theorem A_mulVec (d : ι → ℝ) (q : Fin 6 ⊕ ι → ℝ) : A d *ᵥ q = Sum.elim (fun i => q (Sum.inl i)) fun i => d i * q (Sum.inr i) := by
  ext s
  rcases s with s | s <;> simp [A, mulVec_diagonal]

theorem exists_S {d : ι → ℝ} (hd : ∀ i, 0 < d i) : ∃ S, contactSpace (J ι) (A d)⁻¹ = some S :=
  ⟨_, contactSpace_eq_some.mpr ⟨((hA hd).inv.conj_isUnit_iff).mpr J_ind, rfl⟩⟩

variable {d : ι → ℝ} (hd : ∀ i, 0 < d i) {S : ContactSpace 6 ι} (hS : contactSpace (J ι) (A d)⁻¹ = some S)
include hd hS

theorem P_mulVec (f : Fin 6 ⊕ ι → ℝ) : S.AinvNc *ᵥ f = Sum.elim (fun _ => 0) fun i => f (Sum.inr i) / d i := by
  refine P_mulVec_of (hA hd) hS (F := fun i => f (Sum.inl i)) ?_ ?_
  · rw [A_mulVec, JT_mulVec]
    ext s
    rcases s with s | s
    · simp
    · have := (hd s).ne'
      simp; field_simp
  · rw [J_mulVec]; rfl

theorem W_eq : S.W = diagonal fun i => (d i)⁻¹ := by
  apply Matrix.ext_of_mulVec_single
  intro i
  rw [cs_W hS, ← mulVec_mulVec, ← mulVec_mulVec, P_mulVec hd hS, sel_mulVec, ← actuate_eq]
  ext j
  by_cases h : j = i
  · subst h; simp [actuate, mulVec_diagonal]
  · simp [actuate, mulVec_diagonal, h]

end Held

namespace TwoHeld

/-- base, a leg of six joints and further joints with inertias `d` -/
def A (d : ι → ℝ) : Matrix (Fin 6 ⊕ (Fin 6 ⊕ ι)) (Fin 6 ⊕ (Fin 6 ⊕ ι)) ℝ :=
  diagonal (Sum.elim (fun _ => 1) (Sum.elim (fun _ => 1) d))

/-- one 6-D contact at the base and one at the end of the leg -/
def J (ι : Type*) : Matrix (Fin 12) (Fin 6 ⊕ (Fin 6 ⊕ ι)) ℝ := Matrix.of fun i =>
  Sum.elim (fun j => if i.val % 6 = j.val then 1 else 0) (Sum.elim (fun j => if i.val = j.val + 6 then 1 else 0) fun _ => 0)

theorem hA {d : ι → ℝ} (hd : ∀ i, 0 < d i) : IsSPD (A d) :=
  isSPD_diagonal fun i => by rcases i with i | i | i <;> simp [hd]

theorem J_mulVec_of {q : Fin 6 ⊕ (Fin 6 ⊕ ι) → ℝ} (h1 : ∀ j, q (Sum.inl j) = 0) (h2 : ∀ j, q (Sum.inr (Sum.inl j)) = 0) :
    J ι *ᵥ q = 0 := by
  ext i
  simp [J, mulVec, dotProduct, h1, h2]

theorem JT_inl (F : Fin 12 → ℝ) (j : Fin 6) :
    ((J ι)ᵀ *ᵥ F) (Sum.inl j) = F ⟨j, by omega⟩ + F ⟨j + 6, by omega⟩ := by
  fin_cases j <;> simp [J, mulVec, dotProduct, Fin.sum_univ_succ] <;> rfl

theorem JT_leg (F : Fin 12 → ℝ) (j : Fin 6) : ((J ι)ᵀ *ᵥ F) (Sum.inr (Sum.inl j)) = F ⟨j + 6, by omega⟩ := by
  fin_cases j <;> simp [J, mulVec, dotProduct, Fin.sum_univ_succ] <;> rfl

theorem JT_free (F : Fin 12 → ℝ) (j : ι) : ((J ι)ᵀ *ᵥ F) (Sum.inr (Sum.inr j)) = 0 := by
  simp [J, mulVec, dotProduct]

theorem J_ind : IndependentRows (J ι) := by
  intro F h
  have hl : ∀ j : Fin 6, F ⟨j + 6, by omega⟩ = 0 := fun j => (JT_leg (ι := ι) F j).symm.trans (by rw [h]; rfl)
  have hb : ∀ j : Fin 6, F ⟨j, by omega⟩ = 0 := fun j => by
    have := JT_inl (ι := ι) F j
    rw [h, hl j, add_zero] at this
    exact this.symm
  ext i
  by_cases hi : i.val < 6
  · exact hb ⟨i, hi⟩
  · have := hl ⟨i.val - 6, by omega⟩
    have e : (⟨i.val - 6 + 6, by omega⟩ : Fin 12) = i := by ext; simp; omega
    rw [← e]; exact this

theorem J_base : BaseDetermined (J ι) := by
  intro v h
  ext j
  have := congrFun h ⟨j, by omega⟩
  fin_cases j <;> simpa [J, mulVec, dotProduct, Fin.sum_univ_succ] using this

variable {d : ι → ℝ} (hd : ∀ i, 0 < d i)
include hd

theorem W_eq {S : ContactSpace 12 (Fin 6 ⊕ ι)} (hS : contactSpace (J ι) (A d)⁻¹ = some S) :
    S.W = diagonal (Sum.elim (fun _ => 0) fun i => (d i)⁻¹) := by
  apply Matrix.ext_of_mulVec_single
  intro s
  set τ : Fin 6 ⊕ ι → ℝ := Pi.single s 1
  have h := W_mulVec_of (hA hd) hS (τ := τ) (q := Sum.elim 0 (Sum.elim 0 fun i => τ (Sum.inr i) / d i))
    (F := fun i => if h : i.val < 6 then - τ (Sum.inl ⟨i, h⟩) else τ (Sum.inl ⟨i.val - 6, by omega⟩)) (by
      ext a
      rw [Pi.add_apply]
      rcases a with a | a | a
      · rw [JT_inl]
        simp [A, mulVec_diagonal, actuate]
      · rw [JT_leg]
        simp [A, mulVec_diagonal, actuate]
      · rw [JT_free]
        have := (hd a).ne'
        simp [A, mulVec_diagonal, actuate]
        field_simp) (J_mulVec_of (fun _ => rfl) fun _ => rfl)
  rw [h]
  ext a
  rcases a with a | a
  · simp [mulVec_diagonal]
  · simp [mulVec_diagonal]; ring

end TwoHeld
end Verif
