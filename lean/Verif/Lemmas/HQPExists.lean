import Verif.Lemmas.HQP
import Verif.Lemmas.PolyImage
import Mathlib.Analysis.Matrix.Order
import Mathlib.Algebra.Order.Star.Real

/-! # Every level of the hierarchical QP has an exact solution -/

set_option linter.unusedSectionVars false

namespace Verif
open Matrix Verif.Spec Verif.Model

variable {V : Type} [Fintype V] [DecidableEq V]

open scoped MatrixOrder in
theorem Spec.CostOk.factor {H : Matrix V V ℝ} (h : CostOk H) : ∃ L : Matrix V V ℝ, ∀ x, x ⬝ᵥ (H *ᵥ x) = (L *ᵥ x) ⬝ᵥ (L *ᵥ x) := by
  have hp : H.PosSemidef := by
    refine Matrix.PosSemidef.of_dotProduct_mulVec_nonneg ?_ ?_
    · rw [IsHermitian, conjTranspose_eq_transpose_of_trivial]; exact h.1
    · intro x; simpa using h.2 x
  obtain ⟨B, hB⟩ := CStarAlgebra.nonneg_iff_eq_star_mul_self.mp hp.nonneg
  refine ⟨B, fun x => ?_⟩
  rw [hB, star_eq_conjTranspose, conjTranspose_eq_transpose_of_trivial, ← mulVec_mulVec, dotProduct_mulVec, vecMul_transpose]

theorem levelQP_exists {Z : Basis V} {y : V → ℝ} {done : List (LevelAnswer V)} {l : Level V}
    (hH : ∀ H ∈ l.H, CostOk H) (hw : Within done y) : ∃ x, (levelQP Z y done l).IsSolution x := by
  classical
  obtain ⟨L, hL⟩ : ∃ L : Matrix V V ℝ, ∀ x, (l.H.elim 0 fun H => x ⬝ᵥ (H *ᵥ x)) = (L *ᵥ x) ⬝ᵥ (L *ᵥ x) := by
    cases hl : l.H with
    | none => exact ⟨0, fun x => by simp⟩
    | some H => exact (hH H (by simp [hl])).factor
  let G : Matrix (l.E ⊕ (V ⊕ l.I)) (Fin Z.1 ⊕ l.I) ℝ :=
    Matrix.of (Sum.elim (fun e => Sum.elim ((l.B * Z.2) e) 0)
      (Sum.elim (fun v => Sum.elim ((L * Z.2) v) 0) (fun r => Sum.elim 0 (Pi.single r 1))))
  let c : l.E ⊕ (V ⊕ l.I) → ℝ := Sum.elim (l.residual y) (Sum.elim (L *ᵥ y) 0)
  have hfin : Finite (levelQP Z y done l).R :=
    inferInstanceAs (Finite (l.I ⊕ Σ k : Fin done.length, (done.get k).l.I))
  have hG : ∀ x, G *ᵥ x + c = Sum.elim (l.residual (y + Z.2 *ᵥ (x ∘ Sum.inl)))
      (Sum.elim (L *ᵥ (y + Z.2 *ᵥ (x ∘ Sum.inl))) (x ∘ Sum.inr)) := by
    intro x
    have key : ∀ {M : Type} (N : Matrix M V ℝ) (m : M) (f : l.I → ℝ), f = 0 →
        Sum.elim ((N * Z.2) m) f ⬝ᵥ x = (N *ᵥ (Z.2 *ᵥ (x ∘ Sum.inl))) m := by
      intro M N m f hf
      subst hf
      rw [show x = Sum.elim (x ∘ Sum.inl) (x ∘ Sum.inr) from (Sum.elim_comp_inl_inr x).symm, sumElim_dotProduct_sumElim]
      rw [mulVec_mulVec]
      simp [mulVec]
    funext r
    rcases r with e | v | r
    · show Sum.elim ((l.B * Z.2) e) 0 ⬝ᵥ x + l.residual y e = _
      rw [key _ _ _ rfl]
      simp [Spec.Level.residual, mulVec_add]; ring
    · show Sum.elim ((L * Z.2) v) 0 ⬝ᵥ x + (L *ᵥ y) v = _
      rw [key _ _ _ rfl]
      simp [mulVec_add]; ring
    · show Sum.elim 0 (Pi.single r 1) ⬝ᵥ x + 0 = _
      rw [show x = Sum.elim (x ∘ Sum.inl) (x ∘ Sum.inr) from (Sum.elim_comp_inl_inr x).symm, sumElim_dotProduct_sumElim]
      simp
  have hcost : ∀ x, (levelQP Z y done l).cost x = (1 / 2) * ((G *ᵥ x + c) ⬝ᵥ (G *ᵥ x + c)) - eqPart l y := by
    intro x
    rw [levelQP_cost Z y done l (fun H h => (hH H h).1) x, hG, sumElim_dotProduct_sumElim, sumElim_dotProduct_sumElim,
      eqPart, hL]
    have hv : (x ∘ Sum.inr) ⬝ᵥ (x ∘ Sum.inr) = ∑ r, x (Sum.inr r) ^ 2 := by simp [dotProduct, sq]
    rw [hv]
    ring
  obtain ⟨x, hx, hmin⟩ := exists_least_squares (levelQP Z y done l).row (levelQP Z y done l).ub G c
    ⟨_, tightAnswer_feasible (l := l) 0 (by simpa using hw)⟩
  refine ⟨x, hx, fun z hz => ?_⟩
  rw [hcost, hcost]
  have := hmin z hz
  linarith

/-- A solver that is exact answers every level exactly. -/
theorem everyAnswer_exact {osqp : Osqp} (hs : OsqpExact osqp) (N : NullSpaceFn) (ls : List (Level V)) (hH : ∀ l ∈ ls, ∀ H ∈ l.H, CostOk H) :
    ∀ (Z : Basis V) (y : V → ℝ) (done : List (LevelAnswer V)), Within done y →
      EveryAnswer (fun X _ d x => d.IsSolution x) osqp N Z y done ls := by
  induction ls with
  | nil => intros; trivial
  | cons l ls ih =>
    intro Z y done hw
    have hx := hs _ _ (levelQP_exists (Z := Z) (hH l (by simp)) hw)
    refine ⟨hx, ih (fun l hl => hH l (by simp [hl])) _ _ _ ?_⟩
    have h2 := (levelQP_feasible_iff ..).mp hx.1
    intro d hd i
    rcases List.mem_append.mp hd with hd | hd
    · exact h2.2 d hd i
    · obtain rfl := List.mem_singleton.mp hd
      exact h2.1 i

theorem chooseSolution_exact : OsqpExact chooseSolution := fun _ _ _ h => chooseSolution_spec h

/-! ## `solvefirst` with weights -/

/-- What `solvefirst` minimises, apart from the violation: the weighted residual and the cost. -/
noncomputable def eqPartW (l : Level V) (Ww : Matrix l.E l.E ℝ) (y : V → ℝ) : ℝ :=
  (1 / 2) * ((Ww *ᵥ l.residual y) ⬝ᵥ (Ww *ᵥ l.residual y)) + (1 / 2) * ((l.H.elim 0 fun H => y ⬝ᵥ (H *ᵥ y)))

theorem firstQP_costW (l : Level V) (Vw : Matrix l.I l.I ℝ) (Ww : Matrix l.E l.E ℝ) (x : V ⊕ l.I → ℝ) :
    (firstQP l Vw Ww).cost x = eqPartW l Ww (x ∘ Sum.inl) + (1 / 2) * (∑ r, x (Sum.inr r) ^ 2)
      - (1 / 2) * ((Ww *ᵥ l.b) ⬝ᵥ (Ww *ᵥ l.b)) := by
  classical
  have hv : (x ∘ Sum.inr) ⬝ᵥ (x ∘ Sum.inr) = ∑ r, x (Sum.inr r) ^ 2 := by
    simp [dotProduct, sq]
  have hs := sq_residual (Ww * l.B) (Ww *ᵥ l.b) (x ∘ Sum.inl)
  have hr : Ww *ᵥ l.residual (x ∘ Sum.inl) = (Ww * l.B) *ᵥ (x ∘ Sum.inl) + Ww *ᵥ l.b := by
    rw [Spec.Level.residual, mulVec_add, mulVec_mulVec]
  simp only [firstQP, LeQP.cost]
  rw [show x = Sum.elim (x ∘ Sum.inl) (x ∘ Sum.inr) from (Sum.elim_comp_inl_inr x).symm]
  rw [fromBlocks_mulVec, sumElim_dotProduct_sumElim, sumElim_dotProduct_sumElim]
  simp only [Sum.elim_comp_inl, Sum.elim_comp_inr, zero_mulVec, add_zero, zero_add, zero_dotProduct, Sum.elim_inr]
  rw [show ((1 : Matrix l.I l.I ℝ) *ᵥ (x ∘ Sum.inr)) = x ∘ Sum.inr from one_mulVec _]
  simp only [eqPartW, hr, hs, Function.comp_apply, hv]
  cases hl : l.H with
  | none => simp; ring
  | some H => simp only [Option.elim, id, add_mulVec, dotProduct_add]; ring

end Verif
