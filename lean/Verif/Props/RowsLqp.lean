import Verif.Props.Lqp

/-!
# C82: sums of task rows in the hierarchical controller
-/

set_option linter.unusedSectionVars false

namespace Verif.Props
open Matrix Verif Verif.Spec Verif.Model

/-- The one-joint robot with another task. -/
noncomputable abbrev reachFor (T : Σ t : ℕ, Matrix (Fin t) (Fin 6 ⊕ Fin 1) ℝ × (Fin t → ℝ)) : LqpRobot 1 0 0 := { reach with tasks := [T] }

/-- If the miss is `μ` times the squared distance of the joint acceleration from 1, the answer is `μ / (μ + 5/√7)`. -/
theorem reachFor_answer (osqp : Osqp) (hs : OsqpExact osqp) (N : NullSpaceFn) (hN : N.Correct) {μ : ℝ} (hμ : 0 < μ)
    {T : Σ t : ℕ, Matrix (Fin t) (Fin 6 ⊕ Fin 1) ℝ × (Fin t → ℝ)}
    (hT : ∀ y : LqpVar (Fin 1) 0 → ℝ, taskMiss T y = μ * (qddOf y (Sum.inr 0) - 1) ^ 2) :
    ∃ a b r, calcControlTorqueLQP osqp N (reachFor T) = [a, b, r] ∧ qddOf r.y (Sum.inr 0) = μ / (μ + 5 / √7) := by
  have hMM : (reachFor T).M * (reachFor T).Minv = 1 := by simp [reachFor]
  obtain ⟨a, b, rs, hrun, hlen, -, ht⟩ := C57_levels_partial osqp hs N hN (reachFor T) reach_spd hMM
  match rs, hlen with
  | [r], _ =>
    obtain ⟨-, h⟩ := ht 0 r _ rfl rfl
    have h7 : 0 < √(7 : ℝ) := Real.sqrt_pos.mpr (by norm_num)
    have hκ : 0 < 5 / √(7 : ℝ) := by positivity
    set κ := 5 / √(7 : ℝ) with hκd
    set s : ℝ := μ / (μ + κ) with hsd
    have hs0 : 0 < s := by positivity
    have hs1 : s * (μ + κ) = μ := by rw [hsd]; field_simp
    have hs2 : s < 1 := by rw [hsd, div_lt_one (by positivity)]; linarith
    have h' := h (reachY s) (reach_moves (by rw [abs_of_pos hs0]; linarith))
      ⟨by funext r; exact r.elim0, fun r => r.elim0, fun i => by
        rw [Subsingleton.elim i 0]
        simp only [qddOf, reachY, Function.comp_apply, Sum.elim_inl, Pi.single_eq_same, le_max_iff]
        exact ⟨Or.inr (by linarith), Or.inr (by linarith)⟩⟩ (by intro j hj; omega)
    rw [hT, hT, show energy (reachFor T).conf r.y = energy reach.conf r.y from rfl, show energy (reachFor T).conf (reachY s) = energy reach.conf (reachY s) from rfl,
      reach_energy, reach_energy, ← hκd] at h'
    have hge : qddOf r.y (Sum.inr 0) * qddOf r.y (Sum.inr 0) ≤ qddOf r.y ⬝ᵥ qddOf r.y :=
      Finset.single_le_sum (f := fun i => qddOf r.y i * qddOf r.y i) (fun _ _ => mul_self_nonneg _) (Finset.mem_univ _)
    have hq : qddOf (reachY s) (Sum.inr 0) = s := by simp [qddOf, reachY]
    have hqq : qddOf (reachY s) ⬝ᵥ qddOf (reachY s) = s * s := by simp [qddOf, reachY]
    rw [hq, hqq] at h'
    set x := qddOf r.y (Sum.inr 0) with hx
    have hx' : x = s := by
      have h1 : μ * (x - 1) ^ 2 + κ * (x * x) ≤ μ * (s - 1) ^ 2 + κ * (s * s) := by nlinarith
      have h2 : (μ + κ) * (x - s) ^ 2 = μ * (x - 1) ^ 2 + κ * (x * x) - (μ * (s - 1) ^ 2 + κ * (s * s))
          + 2 * (x - s) * (μ - s * (μ + κ)) := by ring
      rw [hs1] at h2
      have h3 : (x - s) ^ 2 ≤ 0 := by
        by_contra h4
        have := mul_pos (add_pos hμ hκ) (not_le.mp h4)
        linarith
      have := pow_eq_zero_iff (two_ne_zero) |>.mp (le_antisymm h3 (sq_nonneg (x - s)))
      linarith
    exact ⟨a, b, r, hrun, hx'⟩

/-- **C82 fails for the hierarchical controller.**  A joint is asked for acceleration 1, beside an equation that asks for nothing.  Adding the first equation
to the second asks for the same, but the joint accelerates by `2 / (2 + 5/√7)` instead of `1 / (1 + 5/√7)`. -/
theorem C82_lqp_sums_differ (osqp : Osqp) (hs : OsqpExact osqp) (N : NullSpaceFn) (hN : N.Correct) :
    ∃ (J : Matrix (Fin 2) (Fin 6 ⊕ Fin 1) ℝ) (f : Fin 2 → ℝ) (Q : Matrix (Fin 2) (Fin 2) ℝ), IsUnit Q.det ∧
    ∃ a b r a' b' r', calcControlTorqueLQP osqp N (reachFor ⟨2, J, f⟩) = [a, b, r] ∧ calcControlTorqueLQP osqp N (reachFor ⟨2, Q * J, Q *ᵥ f⟩) = [a', b', r'] ∧
      qddOf r.y (Sum.inr 0) < qddOf r'.y (Sum.inr 0) := by
  let v : Fin 6 ⊕ Fin 1 → ℝ := Pi.single (Sum.inr 0) 1
  have hv : ∀ q, v ⬝ᵥ q = q (Sum.inr 0) := fun q => by simp [v]
  have hl : rowLen v = 1 := by simp [rowLen, v]
  let J : Matrix (Fin 2) (Fin 6 ⊕ Fin 1) ℝ := Matrix.of ![v, 0]
  let Q : Matrix (Fin 2) (Fin 2) ℝ := !![1, 0; 1, 1]
  have eJ : Q * J = Matrix.of ![v, v] := by
    ext a r
    fin_cases a <;> simp [Q, J, Matrix.mul_apply]
  have ef : Q *ᵥ ![1, 0] = ![1, 1] := by
    ext a
    fin_cases a <;> simp [Q, mulVec, dotProduct]
  obtain ⟨a, b, r, h1, h2⟩ := reachFor_answer osqp hs N hN one_pos (T := ⟨2, J, ![1, 0]⟩) fun y => by
    show ∑ a : Fin 2, ((J *ᵥ qddOf y - (![1, 0] : Fin 2 → ℝ)) a / rowLen (J a)) ^ 2 = _
    rw [Fin.sum_univ_two]
    show ((v ⬝ᵥ qddOf y - 1) / rowLen v) ^ 2 + (((0 : Fin 6 ⊕ Fin 1 → ℝ) ⬝ᵥ qddOf y - 0) / _) ^ 2 = _
    rw [hv, hl, zero_dotProduct]
    simp
  obtain ⟨a', b', r', h1', h2'⟩ := reachFor_answer osqp hs N hN two_pos (T := ⟨2, Q * J, Q *ᵥ ![1, 0]⟩) fun y => by
    rw [eJ, ef]
    show ∑ a : Fin 2, (((Matrix.of ![v, v] : Matrix (Fin 2) (Fin 6 ⊕ Fin 1) ℝ) *ᵥ qddOf y - (![1, 1] : Fin 2 → ℝ)) a / rowLen ((Matrix.of ![v, v] : Matrix (Fin 2) (Fin 6 ⊕ Fin 1) ℝ) a)) ^ 2 = _
    rw [Fin.sum_univ_two]
    show ((v ⬝ᵥ qddOf y - 1) / rowLen v) ^ 2 + ((v ⬝ᵥ qddOf y - 1) / rowLen v) ^ 2 = _
    rw [hv, hl]
    ring
  refine ⟨J, ![1, 0], Q, by simp [Q, Matrix.det_fin_two], a, b, r, a', b', r', h1, h1', ?_⟩
  have hκ : 0 < 5 / √(7 : ℝ) := by
    have : 0 < √(7 : ℝ) := Real.sqrt_pos.mpr (by norm_num)
    positivity
  rw [h2, h2', div_lt_div_iff₀ (by linarith) (by linarith)]
  linarith

end Verif.Props
