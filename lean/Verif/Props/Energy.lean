import Verif.Props.Sweep
import Verif.Props.QPFail
import Verif.Props.MovingMet
import Verif.Props.TaskPD
import Verif.Lemmas.Energy
import Mathlib.Analysis.Calculus.MeanValue

/-!
# C89: the energy the controller feeds into the robot

The robot moves, with Newton's and Euler's equations for every link (`Spec.MovingMotion`) and its feet at rest.
-/

set_option linter.unusedSectionVars false

namespace Verif.Props
open Matrix Verif Verif.Spec Verif.Model

variable {n c : ℕ}

section
variable {A : Matrix (Fin 6 ⊕ Fin n) (Fin 6 ⊕ Fin n) ℝ} {J : Matrix (Fin c) (Fin 6 ⊕ Fin n) ℝ} {S : ContactSpace c (Fin n)}
  {G v : Fin 6 ⊕ Fin n → ℝ}

/-- Power on a motion that keeps the contacts, by the acceleration the force causes. -/
theorem power_P (hA : IsSPD A) (hS : contactSpace J A⁻¹ = some S) (hv : J *ᵥ v = 0) (f : Fin 6 ⊕ Fin n → ℝ) :
    v ⬝ᵥ f = (A *ᵥ v) ⬝ᵥ (S.AinvNc *ᵥ f) := by
  conv_lhs => rw [← P_A_mulVec hA hS hv]
  rw [dot_mulVec_left, cs_P_symm hA hS]

/-- **C89 (weight).**  The gravity compensation does exactly the opposite of what the weight does, whatever the velocity. -/
theorem C89_gravity_power (hA : IsSPD A) (hS : contactSpace J A⁻¹ = some S) (hB : BaseDetermined J) (hv : J *ᵥ v = 0) :
    jointPower (gravityTorque S A⁻¹ G) v = v ⬝ᵥ G := by
  rw [jointPower_eq, power_P hA hS hv, P_gravity hA hS hB, ← power_P hA hS hv]

/-- **C89 (contact forces).**  A torque that moves nothing does no work. -/
theorem C89_internal_power (hA : IsSPD A) (hS : contactSpace J A⁻¹ = some S) (hv : J *ᵥ v = 0) {ν : Fin n → ℝ}
    (hν : MovesNothing A J G ν) : jointPower ν v = 0 := by
  obtain ⟨q, hq⟩ := (C01_contact_force_exact hA hS G (0 : Fin n → ℝ)).1
  obtain ⟨q', hq'⟩ := (C01_contact_force_exact hA hS G (0 + ν)).1
  have e := hν _ _ _ _ _ hq hq'
  rw [((motion_iff hA hS _ _ _ _).mp hq).1, ((motion_iff hA hS _ _ _ _).mp hq').1, mulVec_sub, mulVec_sub, sub_left_inj, zero_add,
    actuate_eq (0 : Fin n → ℝ), mulVec_zero, mulVec_zero] at e
  rw [jointPower_eq, power_P hA hS hv, e, dotProduct_zero]

theorem Km_power (hA : IsSPD A) (hS : contactSpace J A⁻¹ = some S) (hB : BaseDetermined J) {T : TaskIn (Fin n)} {R : TaskReady (Fin n)}
    (hR : calculateJKT S A⁻¹ T = some R) (x : Fin R.t → ℝ) (hv : J *ᵥ v = 0) :
    (Km R *ᵥ x) ⬝ᵥ (Sel (Fin n) *ᵥ v) = (R.Λ *ᵥ x) ⬝ᵥ (R.J *ᵥ v) := by
  have hΛ : R.Λ = (R.J * S.AinvNc * R.Jᵀ)⁻¹ := by rw [((jkt_eq_some hS).mp hR).2]
  rw [(Km_eq hA hS hB hR).1, ← mulVec_mulVec, ← mulVec_mulVec, ← hΛ]
  have h1 : ∀ y : Fin R.t → ℝ,
      (S.Winv *ᵥ ((Tm S R.J)ᵀ *ᵥ y)) ⬝ᵥ (Sel (Fin n) *ᵥ v) = y ⬝ᵥ (Tm S R.J *ᵥ (S.Winv *ᵥ (Sel (Fin n) *ᵥ v))) := by
    intro y
    rw [dot_mulVec_left, dot_mulVec_left, transpose_transpose, cs_Winv_symm hA hS]
  rw [h1]
  have h2 : Tm S R.J *ᵥ (S.Winv *ᵥ (Sel (Fin n) *ᵥ v)) = R.J *ᵥ v := by
    conv_lhs => rw [← P_A_mulVec hA hS hv]
    conv_rhs => rw [← P_A_mulVec hA hS hv, ← cs_P_factor hA hS hB]
    unfold Tm
    simp only [mulVec_mulVec, Matrix.mul_assoc]
  rw [h2]

theorem jointPower_sel (τ : Fin n → ℝ) (v : Fin 6 ⊕ Fin n → ℝ) : jointPower τ v = τ ⬝ᵥ (Sel (Fin n) *ᵥ v) := by
  rw [sel_mulVec]; rfl

/-- **C89 (tasks).**  A task at the top of a stack does the work of the force `Λ (f − a)` on the task's velocity, `a` being the task's
acceleration through the tasks below; the stack below does its own work. -/
theorem C89_stack_power (hA : IsSPD A) (hS : contactSpace J A⁻¹ = some S) (hB : BaseDetermined J) {T : TaskIn (Fin n)}
    {R : TaskReady (Fin n)} (hR : calculateJKT S A⁻¹ T = some R) (lower : List (TaskReady (Fin n))) (hv : J *ᵥ v = 0)
    {p : Fin 6 ⊕ Fin n → ℝ} {F : Fin c → ℝ} (hp : Motion A J G (gravityTorque S A⁻¹ G + taskTorque S lower) p F) :
    jointPower (taskTorque S (R :: lower)) v =
      (R.Λ *ᵥ (R.f - R.J *ᵥ p)) ⬝ᵥ (R.J *ᵥ v) + jointPower (taskTorque S lower) v := by
  have e : taskTorque S (R :: lower) = Km R *ᵥ (R.f - R.J *ᵥ p) + taskTorque S lower := by
    rw [task_accel hA hS hB hp R.J, taskTorque_cons, Matrix.sub_mulVec, one_mulVec, ← mulVec_mulVec, mulVec_sub]
    abel
  rw [e, jointPower_sel, jointPower_sel, add_dotProduct, Km_power hA hS hB hR _ hv]

/-- One task. -/
theorem C89_task_power (hA : IsSPD A) (hS : contactSpace J A⁻¹ = some S) (hB : BaseDetermined J) {T : TaskIn (Fin n)}
    {R : TaskReady (Fin n)} (hR : calculateJKT S A⁻¹ T = some R) (hv : J *ᵥ v = 0) :
    jointPower (taskTorque S [R]) v = (R.Λ *ᵥ R.f) ⬝ᵥ (R.J *ᵥ v) := by
  have e : taskTorque S [R] = 0 + 1 *ᵥ (R.Jkt *ᵥ (R.Λ *ᵥ R.f)) := rfl
  rw [jointPower_sel, e, zero_add, one_mulVec, ← Km_power hA hS hB hR _ hv, Km, mulVec_mulVec]

/-- The inertia seen at the task is positive. -/
theorem Λ_pos (hA : IsSPD A) (hS : contactSpace J A⁻¹ = some S) {T : TaskIn (Fin n)} {R : TaskReady (Fin n)}
    (hR : calculateJKT S A⁻¹ T = some R) {x : Fin R.t → ℝ} (hx : x ≠ 0) : 0 < (R.Λ *ᵥ x) ⬝ᵥ x := by
  obtain ⟨hu, rfl⟩ := (jkt_eq_some hS).mp hR
  simp only at x hx ⊢
  obtain ⟨y, hy⟩ : ∃ y, (T.J * S.AinvNc * T.Jᵀ)⁻¹ *ᵥ x = y := ⟨_, rfl⟩
  have hLy : T.J *ᵥ (S.AinvNc *ᵥ (T.Jᵀ *ᵥ y)) = x := by
    rw [mulVec_mulVec, mulVec_mulVec, ← hy, mulVec_mulVec, mul_nonsing_inv _ hu, one_mulVec]
  rw [hy]
  obtain ⟨w, hw⟩ : ∃ w, S.AinvNc *ᵥ (T.Jᵀ *ᵥ y) = w := ⟨_, rfl⟩
  have e : y ⬝ᵥ x = w ⬝ᵥ (A *ᵥ w) := by
    have h1 : S.AinvNc *ᵥ (A *ᵥ w) = w := P_A_mulVec hA hS (by rw [← hw, mulVec_mulVec, cs_J_P hS, zero_mulVec])
    conv_rhs => arg 1; rw [← hw]
    rw [dot_mulVec_left, cs_P_symm hA hS, h1, dot_mulVec_left, transpose_transpose, ← hLy, hw]
  rw [e]
  refine hA.pos _ fun h0 => hx ?_
  rw [← hLy, hw, h0, mulVec_zero]

/-- **C89 (damping, equal gains).**  A task that only damps, with the same gain in all directions, takes energy out of the robot whenever
the task moves. -/
theorem C89_damping (hA : IsSPD A) (hS : contactSpace J A⁻¹ = some S) (hB : BaseDetermined J) {T : TaskIn (Fin n)}
    {R : TaskReady (Fin n)} (hR : calculateJKT S A⁻¹ T = some R) (hv : J *ᵥ v = 0) {d : ℝ} (hd : 0 < d)
    (hf : T.f = -(d • (T.J *ᵥ v))) :
    jointPower (taskTorque S [R]) v ≤ 0 ∧ (T.J *ᵥ v ≠ 0 → jointPower (taskTorque S [R]) v < 0) := by
  obtain rfl := ready_rows hR
  rw [C89_task_power hA hS hB hR hv, hf, mulVec_neg, mulVec_smul, neg_dotProduct, smul_dotProduct, smul_eq_mul]
  have hpos : R.J *ᵥ v ≠ 0 → -(d * ((R.Λ *ᵥ (R.J *ᵥ v)) ⬝ᵥ (R.J *ᵥ v))) < 0 := fun h =>
    neg_neg_of_pos (mul_pos hd (Λ_pos hA hS hR h))
  refine ⟨?_, hpos⟩
  by_cases h : R.J *ᵥ v = 0
  · rw [h]; simp
  · exact (hpos h).le

end

/-! ### along a motion -/

section
variable {L : List (ℝ → DrivenLink (Fin 6 ⊕ Fin n))} {g : Fin 3 → ℝ} {J : ℝ → Matrix (Fin c) (Fin 6 ⊕ Fin n) ℝ}
  {γ : ℝ → (Fin 6 ⊕ Fin n → ℝ) → Fin c → ℝ} {S : ℝ → ContactSpace c (Fin n)} {qd qdd : ℝ → Fin 6 ⊕ Fin n → ℝ} {F : ℝ → Fin c → ℝ}

/-- The robot at time `t`. -/
abbrev linksAt (L : List (ℝ → DrivenLink (Fin 6 ⊕ Fin n))) (t : ℝ) : List (MovingLink (Fin 6 ⊕ Fin n)) := links (L.map (· t))

/-- The generalised weight of the robot at time `t`, as `UpdateKinematics` computes it. -/
noncomputable abbrev weightAt (g : Fin 3 → ℝ) (L : List (ℝ → DrivenLink (Fin 6 ⊕ Fin n))) (t : ℝ) : Fin 6 ⊕ Fin n → ℝ :=
  -Spec.gravityForce g (linksAt L t)

/-- **C89 (energy balance).**  Under gravity compensation, a torque for the contact forces and any further torque, the kinetic energy
changes by the power of the further torque alone. -/
theorem C89_balance (hrun : ∀ l ∈ L, LinkRun l qd qdd) {t : ℝ} (hA : IsSPD (massMatrix (linksAt L t)))
    (hS : contactSpace (J t) (massMatrix (linksAt L t))⁻¹ = some (S t)) (hB : BaseDetermined (J t)) (hstay : J t *ᵥ qd t = 0)
    {ν τ : Fin n → ℝ} (hν : MovesNothing (massMatrix (linksAt L t)) (J t) (weightAt g L t) ν)
    (hm : MovingMotion (L.map (· t)) g (J t) (γ t) (qd t)
      (gravityTorque (S t) (massMatrix (linksAt L t))⁻¹ (weightAt g L t) + τ + ν) (qdd t) (F t)) :
    HasDerivAt (fun s => kineticEnergy (linksAt L s) (qd s)) (jointPower τ (qd t)) t := by
  have h := motion_energy hrun hm hstay
  have e : ∀ a b : Fin n → ℝ, jointPower (a + b) (qd t) = jointPower a (qd t) + jointPower b (qd t) := fun a b => by
    rw [jointPower_sel, jointPower_sel, jointPower_sel, add_dotProduct]
  refine h.congr_deriv ?_
  rw [e, e, C89_internal_power hA hS hstay hν, C89_gravity_power hA hS hB hstay, weightPower_eq, dotProduct_neg]
  ring

/-- **C89 (holding).**  While the command is gravity compensation and torques for the contact forces, the kinetic energy stays the same:
the controller neither drives nor brakes the robot. -/
theorem C89_hold (hrun : ∀ l ∈ L, LinkRun l qd qdd) (hA : ∀ t, IsSPD (massMatrix (linksAt L t)))
    (hS : ∀ t, contactSpace (J t) (massMatrix (linksAt L t))⁻¹ = some (S t)) (hB : ∀ t, BaseDetermined (J t))
    (hstay : ∀ t, J t *ᵥ qd t = 0) {ν : ℝ → Fin n → ℝ}
    (hν : ∀ t, MovesNothing (massMatrix (linksAt L t)) (J t) (weightAt g L t) (ν t))
    (hm : ∀ t, MovingMotion (L.map (· t)) g (J t) (γ t) (qd t)
      (gravityTorque (S t) (massMatrix (linksAt L t))⁻¹ (weightAt g L t) + ν t) (qdd t) (F t)) (s t : ℝ) :
    kineticEnergy (linksAt L s) (qd s) = kineticEnergy (linksAt L t) (qd t) := by
  have hd : ∀ t, HasDerivAt (fun s => kineticEnergy (linksAt L s) (qd s)) 0 t := by
    intro t
    have := C89_balance (τ := 0) hrun (hA t) (hS t) (hB t) (hstay t) (hν t) (by rw [add_zero]; exact hm t)
    refine this.congr_deriv ?_
    simp [jointPower]
  exact is_const_of_deriv_eq_zero (f := fun s => kineticEnergy (linksAt L s) (qd s)) (fun t => (hd t).differentiableAt)
    (fun t => (hd t).deriv) s t

theorem kineticEnergy_eq {σ : Type*} [Fintype σ] (L : List (MovingLink σ)) (q : σ → ℝ) :
    kineticEnergy L q = 1 / 2 * (q ⬝ᵥ (massMatrix L *ᵥ q)) := by
  unfold kineticEnergy massMatrix
  induction L with
  | nil => simp
  | cons l L ih =>
    simp only [List.map_cons, List.sum_cons]
    rw [ih, Matrix.add_mulVec, dotProduct_add, Matrix.add_mulVec, dotProduct_add, Matrix.smul_mulVec, dotProduct_smul, smul_eq_mul]
    have h1 : q ⬝ᵥ ((l.Jvᵀ * l.Jv) *ᵥ q) = (l.Jv *ᵥ q) ⬝ᵥ (l.Jv *ᵥ q) := by
      rw [← mulVec_mulVec, dotProduct_mulVec q, vecMul_transpose]
    have h2 : q ⬝ᵥ ((l.Jwᵀ * l.I * l.Jw) *ᵥ q) = (l.Jw *ᵥ q) ⬝ᵥ (l.I *ᵥ (l.Jw *ᵥ q)) := by
      rw [← mulVec_mulVec, ← mulVec_mulVec, dotProduct_mulVec q, vecMul_transpose]
    rw [h1, h2]
    ring

/-- **C89 (holding does not stop the robot).**  A robot that moves when gravity compensation is switched on moves ever after. -/
theorem C89_keeps_moving (hrun : ∀ l ∈ L, LinkRun l qd qdd) (hA : ∀ t, IsSPD (massMatrix (linksAt L t)))
    (hS : ∀ t, contactSpace (J t) (massMatrix (linksAt L t))⁻¹ = some (S t)) (hB : ∀ t, BaseDetermined (J t))
    (hstay : ∀ t, J t *ᵥ qd t = 0) {ν : ℝ → Fin n → ℝ}
    (hν : ∀ t, MovesNothing (massMatrix (linksAt L t)) (J t) (weightAt g L t) (ν t))
    (hm : ∀ t, MovingMotion (L.map (· t)) g (J t) (γ t) (qd t)
      (gravityTorque (S t) (massMatrix (linksAt L t))⁻¹ (weightAt g L t) + ν t) (qdd t) (F t)) {s : ℝ} (h0 : qd s ≠ 0) (t : ℝ) :
    qd t ≠ 0 := by
  intro h
  have := C89_hold hrun hA hS hB hstay hν hm s t
  rw [kineticEnergy_eq, kineticEnergy_eq, h, mulVec_zero, dotProduct_zero, mul_zero] at this
  have h2 := (hA s).pos _ h0
  linarith

end

end Verif.Props
