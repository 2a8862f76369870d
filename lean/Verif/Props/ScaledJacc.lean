import Verif.Props.JaccQP
import Verif.Props.Scaled
import Verif.Props.RenumberedUnits

/-! # C85 for the joint-acceleration QP: false; and cases that meet the hypotheses of C85 -/

set_option linter.unusedSectionVars false

namespace Verif.Props
open Matrix Verif Verif.Spec Verif.Model

/-- The robot of `exJ` (a floating base with one joint, no gravity, no contact) with `μ` times the masses. -/
def exHeavy (μ : ℝ) : JRobot (Fin 1) 0 := { A := μ • 1, G := 0, Jc := 0, cs := [], limit := none }

variable {μ : ℝ}

theorem exHeavy_effort (hμ : 0 < μ) (a : Fin 6 ⊕ Fin 1 → ℝ) (τ : Fin 1 → ℝ) (F : Fin 0 → ℝ)
    (h : Motion (exHeavy μ).A (exHeavy μ).Jc (exHeavy μ).G τ a F) :
    a = actuate (μ⁻¹ • τ) ∧ jaccEffort (exHeavy μ) exJT a
      = (1 / 2) * (μ * (a (.inr 0) * a (.inr 0))) + 50 * ((a (.inr 0) - 5) * (a (.inr 0) - 5)) := by
  have ha : a = actuate (μ⁻¹ • τ) := by
    have h1 := h.1
    simp only [Dynamics, exHeavy, smul_mulVec, one_mulVec] at h1
    ext r
    have h2 := congrFun h1 r
    simp only [Pi.add_apply, Pi.smul_apply, smul_eq_mul, transpose_zero, zero_mulVec, Pi.zero_apply, add_zero] at h2
    rcases r with r | r
    · simp only [actuate, Sum.elim_inl, Pi.zero_apply] at h2 ⊢
      exact (mul_eq_zero.mp h2).resolve_left hμ.ne'
    · simp only [actuate, Sum.elim_inr, Pi.smul_apply, smul_eq_mul] at h2 ⊢
      rw [← h2, inv_mul_cancel_left₀ hμ.ne']
  refine ⟨ha, ?_⟩
  have h0 : ∀ r : Fin 6, a (.inl r) = 0 := fun r => by rw [ha]; rfl
  unfold jaccEffort
  rw [exJJ_mul]
  simp [exHeavy, dotProduct, Fintype.sum_sum_type, h0, smul_mulVec]
  ring

theorem exHeavy_admissible (hμ : 0 < μ) {x : ℝ} (h1 : |x| ≤ 10) (h2 : |μ * x| ≤ 200) :
    JAdmissible (exHeavy μ) (by simp [exHeavy, active]) (⟨actuate fun _ => x, fun _ => μ * x, 0⟩ : JAnswer (Fin 1) 0) := by
  refine ⟨⟨?_, ?_⟩, ?_, ?_, ?_⟩
  · ext r
    rcases r with r | r <;> simp [exHeavy, actuate, smul_mulVec]
  · simp [ContactsFixed, exHeavy]
  · intro i; exact h2
  · intro i; exact h1
  · intro i; exact absurd i.isLt (by simp [exHeavy, active])

/-- C85 (joint-acceleration QP; false).  The cost adds the mass matrix to the number `100`, so the answer depends on the unit of mass:
the joint of a robot without weight, told to accelerate with 5, is accelerated with `500 / (100 + μ)` if its inertia is `μ`. -/
theorem C85_jacc_wrong (hμ : 0 < μ) (hμ' : μ ≤ 60) {solve : JSolver} (hs : solve.Exact) {ts' : List (JTask (Fin 1) 0)}
    (h : jaccCall (exHeavy μ) solve [exJT] 0 = some (true, ts')) :
    ∃ T' o, ts'[0]? = some T' ∧ T'.out = some o ∧ o.acc (.inr 0) = 500 / (100 + μ) := by
  obtain ⟨T, T', o, hT, hT', ho, hadm, hbest⟩ := C35_best (R := exHeavy μ) (by simp [exHeavy]) (by simp [exHeavy])
    (by simp [exHeavy, active]) hs h
  simp only [List.getElem?_cons_zero, Option.some.injEq] at hT
  subst hT
  refine ⟨T', o, hT', ho, ?_⟩
  have hp : 0 < 100 + μ := by linarith
  have hx : |500 / (100 + μ)| ≤ 10 := by
    rw [abs_of_nonneg (by positivity), div_le_iff₀ hp]; linarith
  have hx2 : |μ * (500 / (100 + μ))| ≤ 200 := by
    rw [abs_of_nonneg (by positivity), ← mul_div_assoc, div_le_iff₀ hp]; linarith
  have hw := exHeavy_admissible hμ hx hx2
  have := hbest _ hw (fun i P q hi => absurd hi (Nat.not_lt_zero _))
  rw [(exHeavy_effort hμ _ _ _ hadm.motion).2, (exHeavy_effort hμ _ _ _ hw.motion).2] at this
  simp only [actuate, Sum.elim_inr] at this
  set x := o.acc (.inr 0)
  have hz : (100 + μ) * (500 / (100 + μ)) = 500 := by field_simp
  set z := 500 / (100 + μ)
  have h2 : (100 + μ) * ((x - z) * (x - z)) ≤ 0 := by
    have e : (100 + μ) * ((x - z) * (x - z)) = 2 * ((1 / 2 * (μ * (x * x)) + 50 * ((x - 5) * (x - 5)))
        - (1 / 2 * (μ * (z * z)) + 50 * ((z - 5) * (z - 5)))) := by linear_combination (-2) * (x - z) * hz
    rw [e]; linarith
  have h3 : (x - z) * (x - z) ≤ 0 := by
    by_contra hc
    push Not at hc
    exact absurd h2 (not_le.mpr (mul_pos hp hc))
  have : x - z = 0 := by
    have := le_antisymm h3 (mul_self_nonneg _)
    exact mul_self_eq_zero.mp this
  linarith

/-- There is such an answer. -/
theorem exHeavy_answer (hμ : 0 < μ) (hμ' : μ ≤ 60) : ∃ ts', jaccCall (exHeavy μ) bestSolver [exJT] 0 = some (true, ts') := by
  obtain ⟨M, hM, -⟩ := jContactRows_six (c := 0) (cs := (exHeavy μ).cs) (by simp [exHeavy]) (by simp [exHeavy]) (by simp [exHeavy, active])
  have hp : 0 < 100 + μ := by linarith
  have hz : (100 + μ) * (500 / (100 + μ)) = 500 := by field_simp
  have hx : |500 / (100 + μ)| ≤ 10 := by
    rw [abs_of_nonneg (by positivity), div_le_iff₀ hp]; linarith
  have hx2 : |μ * (500 / (100 + μ))| ≤ 200 := by
    rw [abs_of_nonneg (by positivity), ← mul_div_assoc, div_le_iff₀ hp]; linarith
  have hex : ∃ x, (jaccQP (fun _ => some 200) (exHeavy μ) M [] 1 exJJ (fun _ => 5)).IsSolution x := by
    set z := 500 / (100 + μ)
    refine ⟨jCols (actuate fun _ => z) (fun _ => μ * z) 0 (fun _ => z - 5), ?_, fun y hy => ?_⟩
    · have hw := exHeavy_admissible hμ hx hx2
      refine (jaccQP_feasible _ (exHeavy μ) M [] _ _ _ _).mpr ⟨hw.motion, fun i => absurd i.isLt (by simp), ?_,
        fun r => absurd r.isLt (by simp [exHeavy, active]), fun j b hb => ?_, fun j => ?_⟩
      · rw [exJJ_mul]
        funext k
        simp [jCols, actuate]
      · simp only [Option.mem_def, Option.some.injEq] at hb
        rw [← hb]; exact hx2
      · exact hx
    · obtain ⟨h1, -, h3, -⟩ := (jaccQP_feasible _ (exHeavy μ) M [] _ _ _ _).mp hy
      obtain ⟨ha, -⟩ := exHeavy_effort hμ _ _ _ h1
      have h3' := congrFun h3 0
      have hs : y (.inr (.inr (.inr 0))) = y (.inl (.inr 0)) - 5 := by
        rw [exJJ_mul] at h3'
        simp only [Pi.add_apply] at h3'
        linarith
      have h0 : ∀ r : Fin 6, y (.inl (.inl r)) = 0 := fun r => congrFun ha (.inl r)
      rw [jaccQP_cost, jaccQP_cost]
      have e2 : ∀ v : Fin 6 ⊕ Fin 1 → ℝ, (∀ r, v (.inl r) = 0) → v ⬝ᵥ ((exHeavy μ).A *ᵥ v) = μ * (v (.inr 0) * v (.inr 0)) := fun v hv => by
        simp [exHeavy, dotProduct, Fintype.sum_sum_type, smul_mulVec, hv]; ring
      have e3 : ∀ v : Fin 1 → ℝ, v ⬝ᵥ v = v 0 * v 0 := fun v => by simp [dotProduct]
      rw [e2 _ (fun r => rfl), e2 _ (fun r => h0 r), e3, e3]
      simp only [jCols, Sum.elim_inr, Sum.elim_inl, actuate]
      erw [hs]
      have h4 := mul_nonneg hp.le (mul_self_nonneg (y (.inl (.inr 0)) - z))
      generalize y (.inl (.inr 0)) = x at h4 ⊢
      have e : (100 + μ) * ((x - z) * (x - z)) = 2 * ((1 / 2 * (μ * (x * x)) + 50 * ((x - 5) * (x - 5)))
          - (1 / 2 * (μ * (z * z)) + 50 * ((z - 5) * (z - 5)))) := by linear_combination (-2) * (x - z) * hz
      linarith
  have hb : ∃ x, bestSolver 0 _ _ (jaccQP (fun _ => some 200) (exHeavy μ) M [] 1 exJJ (fun _ => 5)) = some x := by
    unfold bestSolver
    rw [dif_pos hex]
    exact ⟨_, rfl⟩
  obtain ⟨x, hx⟩ := hb
  refine ⟨[exJT].set 0 (exJT.store x), ?_⟩
  unfold jaccCall jaccCallWith
  simp only [List.getElem?_cons_zero, List.take_zero, jPrevs]
  rw [hM]
  simp only []
  rw [hx]

/-- the same joint in two units of mass: 4.95 and 3.33 instead of the 5 asked for -/
example : ∃ ts₁ ts₂ T₁ T₂ o₁ o₂, jaccCall (exHeavy 1) bestSolver [exJT] 0 = some (true, ts₁) ∧
    jaccCall (exHeavy 50) bestSolver [exJT] 0 = some (true, ts₂) ∧ ts₁[0]? = some T₁ ∧ ts₂[0]? = some T₂ ∧ T₁.out = some o₁ ∧
    T₂.out = some o₂ ∧ o₁.acc (.inr 0) = 500 / 101 ∧ o₂.acc (.inr 0) = 10 / 3 := by
  obtain ⟨ts₁, h1⟩ := exHeavy_answer (μ := 1) (by norm_num) (by norm_num)
  obtain ⟨ts₂, h2⟩ := exHeavy_answer (μ := 50) (by norm_num) (by norm_num)
  obtain ⟨T₁, o₁, a1, b1, c1⟩ := C85_jacc_wrong (by norm_num) (by norm_num) bestSolver_exact h1
  obtain ⟨T₂, o₂, a2, b2, c2⟩ := C85_jacc_wrong (by norm_num) (by norm_num) bestSolver_exact h2
  exact ⟨ts₁, ts₂, T₁, T₂, o₁, o₂, h1, h2, a1, a2, b1, b2, by rw [c1]; norm_num, by rw [c2]; norm_num⟩

/-! ### cases that meet the hypotheses -/

/-- Kilograms and grams: the weight of two arms is held by a thousand times the number, and the command is not zero. -/
example : ∃ τ : Fin 2 → ℝ, τ ≠ 0 ∧ gravityCommand (Held.J (Fin 2)) (Held.A ![1, 2])⁻¹ (Sum.elim (fun _ => 0) ![3, 5]) = some τ ∧
    gravityCommand (Held.J (Fin 2)) ((1000 : ℝ) • Held.A ![1, 2])⁻¹ ((1000 * 1 : ℝ) • Sum.elim (fun _ => 0) ![3, 5])
      = some ((1000 * 1 : ℝ) • τ) := by
  have hd : ∀ i, 0 < (![1, 2] : Fin 2 → ℝ) i := by intro i; fin_cases i <;> simp
  obtain ⟨S, hS⟩ := Held.exists_S (ι := Fin 2) (d := ![1, 2]) hd
  set G : Fin 6 ⊕ Fin 2 → ℝ := Sum.elim (fun _ => 0) ![3, 5] with hG
  have e : gravityCommand (Held.J (Fin 2)) (Held.A ![1, 2])⁻¹ G = some (gravityTorque S (Held.A ![1, 2])⁻¹ G) := by
    unfold gravityCommand; rw [hS]; rfl
  refine ⟨gravityTorque S (Held.A ![1, 2])⁻¹ G, ?_, e, ?_⟩
  · intro h0
    have hm := (motion_iff (Held.hA hd) hS G (gravityTorque S (Held.A ![1, 2])⁻¹ G) _ _).mpr ⟨rfl, rfl⟩
    have hq := (C03_gravity_compensation (Held.hA hd) hS G hm).2 Held.J_base
    rw [hq, h0] at hm
    have := congrFun hm.1 (Sum.inr 0)
    generalize S.JcInvT *ᵥ (actuate 0 - G) = F at this
    simp [Held.J, hG, actuate, mulVec, dotProduct] at this
  · rw [C85_gravity (by norm_num), e]; rfl

/-- Two feet: the hypotheses of `C85_contact_force` and `C85_redistribute_closed` for a robot of twice the mass, with a null space of
six directions. -/
example : ∃ (S S' : ContactSpace 12 Legs.Joint) (f : CodNull S.W) (_ : CodNull S'.W),
    contactSpace Legs.J Legs.A⁻¹ = some S ∧ contactSpace Legs.J ((2 : ℝ) • Legs.A)⁻¹ = some S' ∧ f.k = 6 := by
  obtain ⟨S, hS⟩ := Legs.exists_S (u := 1) one_pos
  have hA := Legs.hA (u := 1) one_pos
  have hB := Legs.J_base (u := 1)
  rw [Legs.one_mass] at hS hA
  rw [Legs.one_cols] at hS hB
  have h := contactSpace_heavy (μ := 2) (by norm_num) Legs.A Legs.J
  rw [hS, Option.map_some] at h
  obtain ⟨f⟩ := exists_codNull S.W
  obtain ⟨f'⟩ := exists_codNull (heavySpace 2 S).W
  refine ⟨S, _, f, f', hS, h, ?_⟩
  have hk := finrank_ker_W hA hS
  rw [(baseDetermined_iff_rank _).mp hB] at hk
  rw [cod_k hA hS f]
  omega

/-- A foot that presses with 500 and presses with 50 (`C85_zmp_partial`). -/
example : Pressing 0 [⟨true, 0⟩] (![0, 0, -500, 10, 20, 0] : Fin 6 → ℝ) ∧
    Pressing 0 [⟨true, 0⟩] ((1 / 10 : ℝ) • (![0, 0, -500, 10, 20, 0] : Fin 6 → ℝ)) := by
  constructor
  · intro k c z hk _ hz
    obtain rfl : k = 0 := by
      by_contra h
      obtain ⟨j, rfl⟩ := Nat.exists_eq_succ_of_ne_zero h
      simp at hk
    simp [vecAt] at hz
    rw [← hz]; norm_num
  · intro k c z hk _ hz
    obtain rfl : k = 0 := by
      by_contra h
      obtain ⟨j, rfl⟩ := Nat.exists_eq_succ_of_ne_zero h
      simp at hk
    simp [vecAt] at hz
    rw [← hz]; norm_num

end Verif.Props
