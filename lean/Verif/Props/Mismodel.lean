import Verif.Props.EnergyMet

/-!
# C90: commands computed from a robot model with wrong masses

`A'`, `G'` are mass matrix and weight as the library computes them from its model, `A`, `G` those of the robot.  The kinematics are right:
both have the contact Jacobian `J` and the task Jacobians.
-/

set_option linter.unusedSectionVars false

namespace Verif.Props
open Matrix Verif Verif.Spec Verif.Model

variable {n c : ℕ}

section
variable {A A' : Matrix (Fin 6 ⊕ Fin n) (Fin 6 ⊕ Fin n) ℝ} {J : Matrix (Fin c) (Fin 6 ⊕ Fin n) ℝ} {S' : ContactSpace c (Fin n)}
  {G G' q q' : Fin 6 ⊕ Fin n → ℝ} {F F' : Fin c → ℝ} {τ : Fin n → ℝ}

/-- The motion `q` of the robot and the planned motion `q'` for the same torque. -/
theorem mismodel (h : Motion A J G τ q F) (h' : Motion A' J G' τ q' F') : A *ᵥ q + Jᵀ *ᵥ (F - F') = A' *ᵥ q' + (G' - G) := by
  have := h.1.trans h'.1.symm
  rw [mulVec_sub]
  linear_combination (exp := 1) this

/-- **C90 (wrong inertia, right weight).**  Gravity compensation holds the robot still, and the contact forces the library reports are the
true ones. -/
theorem C90_stand (hA : IsSPD A) (hA' : IsSPD A') (hS' : contactSpace J A'⁻¹ = some S') (hB : BaseDetermined J) (hJ : IndependentRows J)
    (h : Motion A J G (gravityTorque S' A'⁻¹ G) q F) :
    q = 0 ∧ F = contactForce S' (Model.gravityForce S' G) (gravityTorque S' A'⁻¹ G) := by
  obtain ⟨q', h'⟩ := (C01_contact_force_exact hA' hS' G (gravityTorque S' A'⁻¹ G)).1
  have hq' : q' = 0 := (C03_gravity_compensation hA' hS' G h').2 hB
  subst hq'
  have e := mismodel h h'
  rw [mulVec_zero, sub_self, add_zero] at e
  have hq : q = 0 := by
    by_contra hne
    have h1 := hA.pos q hne
    have h2 := congrArg (q ⬝ᵥ ·) e
    simp only [dotProduct_add, dotProduct_zero] at h2
    rw [dotProduct_mulVec q Jᵀ, vecMul_transpose, h.2, zero_dotProduct] at h2
    linarith
  subst hq
  rw [mulVec_zero, zero_add] at e
  exact ⟨rfl, sub_eq_zero.mp (hJ _ e)⟩

/-- **C90 (wrong weight).**  Under gravity compensation for the weight `G'` the robot stands still exactly when the contacts can carry the
difference; else it accelerates in the direction of the difference. -/
theorem C90_weight (hA : IsSPD A) (hA' : IsSPD A') (hS' : contactSpace J A'⁻¹ = some S') (hB : BaseDetermined J)
    (h : Motion A J G (gravityTorque S' A'⁻¹ G') q F) :
    (q = 0 ↔ ∃ φ, Jᵀ *ᵥ φ = G' - G) ∧ accelEnergy A q = q ⬝ᵥ (G' - G) ∧ (q ≠ 0 → 0 < q ⬝ᵥ (G' - G)) := by
  obtain ⟨q', h'⟩ := (C01_contact_force_exact hA' hS' G' (gravityTorque S' A'⁻¹ G')).1
  have hq' : q' = 0 := (C03_gravity_compensation hA' hS' G' h').2 hB
  subst hq'
  have e := mismodel h h'
  rw [mulVec_zero, zero_add] at e
  have hJ0 : ∀ φ, q ⬝ᵥ (Jᵀ *ᵥ φ) = 0 := fun φ => by rw [dotProduct_mulVec q Jᵀ, vecMul_transpose, h.2, zero_dotProduct]
  have hE : accelEnergy A q = q ⬝ᵥ (G' - G) := by
    rw [← e, dotProduct_add, hJ0, add_zero]; rfl
  refine ⟨⟨?_, ?_⟩, hE, fun hne => hE ▸ hA.pos q hne⟩
  · rintro rfl
    rw [mulVec_zero, zero_add] at e
    exact ⟨_, e⟩
  · rintro ⟨φ, hφ⟩
    by_contra hne
    have := hA.pos q hne
    unfold accelEnergy at hE
    rw [hE, ← hφ, hJ0] at this
    exact lt_irrefl _ this

/-- **C90 (one task, any inertia).**  With the right weight, the task moves so that the task-space force does positive work on it. -/
theorem C90_task_direction (hA : IsSPD A) (hA' : IsSPD A') (hS' : contactSpace J A'⁻¹ = some S') (hB : BaseDetermined J)
    {T : TaskIn (Fin n)} {R : TaskReady (Fin n)} (hR : calculateJKT S' A'⁻¹ T = some R)
    (h : Motion A J G (gravityTorque S' A'⁻¹ G + taskTorque S' [R]) q F) :
    accelEnergy A q = (R.Λ *ᵥ R.f) ⬝ᵥ (R.J *ᵥ q) ∧ (q ≠ 0 → 0 < (R.Λ *ᵥ R.f) ⬝ᵥ (R.J *ᵥ q)) := by
  have hJ0 : ∀ φ, q ⬝ᵥ (Jᵀ *ᵥ φ) = 0 := fun φ => by rw [dotProduct_mulVec q Jᵀ, vecMul_transpose, h.2, zero_dotProduct]
  have hE : accelEnergy A q = (R.Λ *ᵥ R.f) ⬝ᵥ (R.J *ᵥ q) := by
    have h1 := congrArg (q ⬝ᵥ ·) h.1
    simp only [dotProduct_add] at h1
    rw [hJ0, ← jointPower_eq] at h1
    have h2 : jointPower (gravityTorque S' A'⁻¹ G + taskTorque S' [R]) q = jointPower (gravityTorque S' A'⁻¹ G) q + jointPower (taskTorque S' [R]) q := by
      rw [jointPower_sel, jointPower_sel, jointPower_sel, add_dotProduct]
    rw [h2, C89_gravity_power hA' hS' hB h.2, C89_task_power hA' hS' hB hR h.2] at h1
    unfold accelEnergy
    linarith
  exact ⟨hE, fun hne => hE ▸ hA.pos q hne⟩

/-- **C90 (one task of one row, any inertia).**  It accelerates in the commanded direction. -/
theorem C90_one_row (hA : IsSPD A) (hA' : IsSPD A') (hS' : contactSpace J A'⁻¹ = some S') (hB : BaseDetermined J)
    {JT : Matrix (Fin 1) (Fin 6 ⊕ Fin n) ℝ} {f : Fin 1 → ℝ} {R : TaskReady (Fin n)} (hR : calculateJKT S' A'⁻¹ ⟨1, JT, f⟩ = some R)
    (hf : f 0 ≠ 0) (h : Motion A J G (gravityTorque S' A'⁻¹ G + taskTorque S' [R]) q F) : 0 < f 0 * (JT *ᵥ q) 0 := by
  obtain ⟨q', h'⟩ := (C01_contact_force_exact hA' hS' G (gravityTorque S' A'⁻¹ G + taskTorque S' [R])).1
  have ht : JT *ᵥ q' = f := (C06_task_achieved hA' hS' hB hR h').1
  have hq' : q' ≠ 0 := by
    rintro rfl
    rw [mulVec_zero] at ht
    exact hf (congrFun ht 0).symm
  have hq : q ≠ 0 := by
    rintro rfl
    have e := mismodel h h'
    rw [mulVec_zero, zero_add, sub_self, add_zero] at e
    have h1 := hA'.pos q' hq'
    rw [← e, dotProduct_mulVec q' Jᵀ, vecMul_transpose, h'.2, zero_dotProduct] at h1
    exact lt_irrefl _ h1
  obtain ⟨hu, rfl⟩ := (jkt_eq_some hS').mp hR
  have h1 := (C90_task_direction hA hA' hS' hB hR h).2 hq
  have hf0 : f ≠ 0 := fun h0 => hf (congrFun h0 0)
  have h2 := Λ_pos hA' hS' hR (x := f) hf0
  change 0 < ((JT * S'.AinvNc * JTᵀ)⁻¹ *ᵥ f) ⬝ᵥ (JT *ᵥ q) at h1
  change 0 < ((JT * S'.AinvNc * JTᵀ)⁻¹ *ᵥ f) ⬝ᵥ f at h2
  generalize (JT * S'.AinvNc * JTᵀ)⁻¹ = Λ at h1 h2
  simp only [dotProduct, mulVec, Finset.univ_unique, Fin.default_eq_zero, Finset.sum_singleton] at h1 h2 ⊢
  have h3 : 0 < Λ 0 0 := by
    have : 0 < f 0 * f 0 := mul_self_pos.mpr hf
    by_contra hn
    push Not at hn
    nlinarith
  have h4 : 0 < Λ 0 0 * (f 0 * ∑ x, JT 0 x * q x) := by linarith
  exact (mul_pos_iff_of_pos_left h3).mp h4

/-- **C90 (all masses off by a factor, right weight).**  Every motion of the robot is the planned one, slower by the factor. -/
theorem C90_scaled (hA' : IsSPD A') {s : ℝ} (hs : 0 < s) (hJ : IndependentRows J) (h : Motion (s • A') J G τ q F)
    (h' : Motion A' J G τ q' F') : q' = s • q ∧ F = F' := by
  have e := mismodel h h'
  rw [sub_self, add_zero, smul_mulVec] at e
  have e2 : A' *ᵥ (s • q - q') + Jᵀ *ᵥ (F - F') = 0 := by
    rw [mulVec_sub, mulVec_smul]
    linear_combination (exp := 1) e
  have hd : s • q - q' = 0 := by
    by_contra hne
    have h1 := hA'.pos _ hne
    have h2 := congrArg ((s • q - q') ⬝ᵥ ·) e2
    simp only [dotProduct_add, dotProduct_zero] at h2
    have h3 : J *ᵥ (s • q - q') = 0 := by rw [mulVec_sub, mulVec_smul, h.2, h'.2, smul_zero, sub_zero]
    rw [dotProduct_mulVec _ Jᵀ, vecMul_transpose, h3, zero_dotProduct] at h2
    linarith
  rw [hd, mulVec_zero, zero_add] at e2
  exact ⟨(sub_eq_zero.mp hd).symm, sub_eq_zero.mp (hJ _ e2)⟩

/-- **C90 (robot heavier than its model).**  With the right weight, a robot that is heavier than its model in every direction has at most
the planned energy of acceleration. -/
theorem C90_heavier (hA' : IsSPD A') (hle : ∀ x : Fin 6 ⊕ Fin n → ℝ, x ⬝ᵥ (A' *ᵥ x) ≤ x ⬝ᵥ (A *ᵥ x)) (h : Motion A J G τ q F)
    (h' : Motion A' J G τ q' F') : accelEnergy A q ≤ accelEnergy A' q' := by
  have e := mismodel h h'
  rw [sub_self, add_zero] at e
  have h1 : accelEnergy A q = q ⬝ᵥ (A' *ᵥ q') := by
    rw [← e, dotProduct_add, dotProduct_mulVec q Jᵀ, vecMul_transpose, h.2, zero_dotProduct, add_zero]; rfl
  -- `0 ≤ |q − q'|²` in the metric of the model
  have h2 : 0 ≤ (q - q') ⬝ᵥ (A' *ᵥ (q - q')) := by
    by_cases hz : q - q' = 0
    · rw [hz]; simp
    · exact (hA'.pos _ hz).le
  have h3 : q' ⬝ᵥ (A' *ᵥ q) = q ⬝ᵥ (A' *ᵥ q') := by rw [dotProduct_comm, dot_mulVec_left, hA'.symm]
  rw [mulVec_sub, sub_dotProduct, dotProduct_sub, dotProduct_sub, h3, ← h1] at h2
  have h4 := hle q
  unfold accelEnergy at *
  linarith

end

/-! ### an unknown payload -/

/-- **C90 (payload).**  The robot carries a body that is not in its model.  Under gravity compensation either the robot stands still, the
contacts carrying the body, or the body sinks: its acceleration has a part along gravity. -/
theorem C90_payload_sinks {L : List (MovingLink (Fin 6 ⊕ Fin n))} {p : MovingLink (Fin 6 ⊕ Fin n)} (hp : 0 < p.m)
    {J : Matrix (Fin c) (Fin 6 ⊕ Fin n) ℝ} {S' : ContactSpace c (Fin n)} (g : Fin 3 → ℝ) (hA : IsSPD (massMatrix (p :: L)))
    (hA' : IsSPD (massMatrix L)) (hS' : contactSpace J (massMatrix L)⁻¹ = some S') (hB : BaseDetermined J)
    {q : Fin 6 ⊕ Fin n → ℝ} {F : Fin c → ℝ}
    (h : Motion (massMatrix (p :: L)) J (-Spec.gravityForce g (p :: L))
      (gravityTorque S' (massMatrix L)⁻¹ (-Spec.gravityForce g L)) q F) :
    (q = 0 ↔ ∃ φ, Jᵀ *ᵥ φ = p.Jvᵀ *ᵥ (p.m • g)) ∧ (q ≠ 0 → 0 < (p.Jv *ᵥ q) ⬝ᵥ g) := by
  obtain ⟨h1, -, h3⟩ := C90_weight hA hA' hS' hB h
  have e : -Spec.gravityForce g L - -Spec.gravityForce g (p :: L) = p.Jvᵀ *ᵥ (p.m • g) := by
    simp only [Spec.gravityForce, List.map_cons, List.sum_cons]
    abel
  rw [e] at h1 h3
  refine ⟨h1, fun hne => ?_⟩
  have := h3 hne
  rw [dotProduct_mulVec q p.Jvᵀ, vecMul_transpose, dotProduct_smul, smul_eq_mul] at this
  exact (mul_pos_iff_of_pos_left hp).mp this

/-! ### a task is missed -/

/-- **C90 (wrong).**  A wrong inertia of one joint, with the right weight, is enough for the first and only task to be missed: commanded 1,
attained 3/4. -/
theorem C90_task_missed : ∃ (S' : ContactSpace 6 (Fin 2)) (R : TaskReady (Fin 2)),
    IsSPD (Held.A ![1, 2]) ∧ IsSPD (Held.A ![1, 1]) ∧ BaseDetermined (Held.J (Fin 2)) ∧
    contactSpace (Held.J (Fin 2)) (Held.A ![1, 1])⁻¹ = some S' ∧
    calculateJKT S' (Held.A ![1, 1])⁻¹ ⟨1, Matrix.of ![Sum.elim (fun _ => 0) ![1, 1]], ![1]⟩ = some R ∧
    ∃ q F, Motion (Held.A ![1, 2]) (Held.J (Fin 2)) 0 (gravityTorque S' (Held.A ![1, 1])⁻¹ 0 + taskTorque S' [R]) q F ∧
      (R.toTaskIn.t = 1) ∧ q (Sum.inr 0) + q (Sum.inr 1) = 3 / 4 := by
  have hd : ∀ i : Fin 2, (0 : ℝ) < ![1, 1] i := by intro i; fin_cases i <;> simp
  have hd2 : ∀ i : Fin 2, (0 : ℝ) < ![1, 2] i := by intro i; fin_cases i <;> simp
  obtain ⟨S', hS'⟩ := Held.exists_S hd
  have hA' := Held.hA hd
  have hA := Held.hA hd2
  have hfin : (calculateJKT S' (Held.A ![1, 1])⁻¹ ⟨1, Matrix.of ![Sum.elim (fun _ => 0) ![1, 1]], ![1]⟩).isSome := by
    rw [C06_finite_iff hA' hS']
    rintro y ⟨F, hF⟩
    change Fin 1 → ℝ at y
    rw [Held.JT_mulVec] at hF
    have h0 := congrFun hF (Sum.inr 0)
    simp [mulVec, dotProduct] at h0
    ext i
    change Fin 1 at i
    fin_cases i
    exact h0.symm
  obtain ⟨R, hR⟩ := Option.isSome_iff_exists.mp hfin
  obtain ⟨S, hS⟩ := Held.exists_S hd2
  -- the torque
  have hτ : taskTorque S' [R] = ![1 / 2, 1 / 2] := by
    obtain ⟨q', h'⟩ := (C01_contact_force_exact hA' hS' 0 (gravityTorque S' (Held.A ![1, 1])⁻¹ 0 + taskTorque S' [R])).1
    obtain ⟨q2, h2⟩ : ∃ q2, q2 = (Sum.elim (fun _ => 0) ![1 / 2, 1 / 2] : Fin 6 ⊕ Fin 2 → ℝ) := ⟨_, rfl⟩
    have hg : gravityTorque S' (Held.A ![1, 1])⁻¹ 0 = 0 := by simp [gravityTorque]
    have hc := C86_one_task_least hA' hS' Held.J_base hR h' (q' := q2) (by
        unfold ContactsFixed; rw [Held.J_mulVec, h2]; rfl) (by
        rw [h2]
        ext i
        change Fin 1 at i
        fin_cases i
        simp [mulVec, dotProduct, Fin.sum_univ_succ]; norm_num)
    have hq' := ((motion_iff hA' hS' _ _ _ _).mp h').1
    rw [hg, zero_add, sub_zero, Held.P_mulVec hd hS'] at hq'
    obtain ⟨ht, -, hun⟩ := hc
    have e0 : q' (Sum.inr 0) = taskTorque S' [R] 0 := by rw [hq']; simp [actuate]
    have e1 : q' (Sum.inr 1) = taskTorque S' [R] 1 := by rw [hq']; simp [actuate]
    have eb : ∀ j, q' (Sum.inl j) = 0 := fun j => by rw [hq']; rfl
    have hsum : q' (Sum.inr 0) + q' (Sum.inr 1) = 1 := by
      have := congrFun ht (0 : Fin 1)
      simpa [mulVec, dotProduct, Fin.sum_univ_succ] using this
    have hq2 : q2 = q' := by
      refine hun ?_
      rw [h2]
      unfold accelEnergy
      rw [Held.A_mulVec, Held.A_mulVec]
      simp [dotProduct, Fin.sum_univ_succ, eb]
      nlinarith [sq_nonneg (q' (Sum.inr 0) - q' (Sum.inr 1))]
    rw [h2] at hq2
    ext i
    fin_cases i
    · have := congrFun hq2 (Sum.inr 0)
      rw [e0] at this
      exact this.symm
    · have := congrFun hq2 (Sum.inr 1)
      rw [e1] at this
      exact this.symm
  obtain ⟨q, h⟩ := (C01_contact_force_exact hA hS 0 (gravityTorque S' (Held.A ![1, 1])⁻¹ 0 + taskTorque S' [R])).1
  refine ⟨S', R, hA, hA', Held.J_base, hS', hR, q, _, h, by rw [ready_rows hR], ?_⟩
  have hq := ((motion_iff hA hS _ _ _ _).mp h).1
  have hg : gravityTorque S' (Held.A ![1, 1])⁻¹ 0 = 0 := by simp [gravityTorque]
  rw [hg, zero_add, sub_zero, hτ, Held.P_mulVec hd2 hS] at hq
  rw [hq]
  simp [actuate]
  norm_num

/-- Hypotheses of `C90_payload_sinks` met, and the payload does sink: the weight of `Hoist` unknown to the model. -/
example : ∃ (p : MovingLink (Fin 6 ⊕ Fin 1)), 0 < p.m ∧ IsSPD (massMatrix (p :: linksAt (Hoist.robot 1) 0)) ∧
    IsSPD (massMatrix (linksAt (Hoist.robot 1) 0)) ∧ BaseDetermined (Held.J (Fin 1)) ∧
    (∃ S', contactSpace (Held.J (Fin 1)) (massMatrix (linksAt (Hoist.robot 1) 0))⁻¹ = some S') ∧
    ¬ ∃ φ, (Held.J (Fin 1))ᵀ *ᵥ φ = p.Jvᵀ *ᵥ (p.m • Whirl.grav) := by
  refine ⟨(Hoist.lift 0).toMovingLink, one_pos, ?_, Hoist.spd 1 0, Held.J_base, Whirl.foot_space (Hoist.spd 1 0), ?_⟩
  · refine massMatrix_spd ?_ ?_
    · intro l hl
      simp only [linksAt, Hoist.robot, links, List.map_cons, List.map_nil, List.mem_cons, List.not_mem_nil, or_false] at hl
      rcases hl with rfl | rfl | rfl
      · exact ⟨one_pos, isSPD_one⟩
      · exact ⟨one_pos, isSPD_one⟩
      · exact ⟨one_pos, isSPD_one⟩
    · intro q hq
      have h1 := hq _ (List.mem_cons_of_mem _ List.mem_cons_self)
      have hb := Whirl.body_rest (ι := Fin 1) h1.1 h1.2
      have c2 := congrFun (hq _ List.mem_cons_self).1 2
      simp [Hoist.lift, mulVec, dotProduct, Fin.sum_univ_succ] at c2
      ext i
      rcases i with i | i
      · exact hb i
      · have e2 := hb 2
        fin_cases i; simp; linarith
  · rintro ⟨φ, h⟩
    rw [Held.JT_mulVec] at h
    have := congrFun h (Sum.inr 0)
    simp [Hoist.lift, Whirl.grav, mulVec, dotProduct, Fin.sum_univ_succ] at this
    norm_num at this

end Verif.Props
