import Verif.Lemmas.Moving
import Verif.Props.Task
import Verif.Props.Contact

/-!
# C83: what the commands do while the robot moves
-/

set_option linter.unusedSectionVars false

namespace Verif.Props
open Matrix Verif Verif.Spec Verif.Model

variable {ι : Type*} [Fintype ι] [DecidableEq ι] {c : ℕ} {L : List (DrivenLink (Fin 6 ⊕ ι))} {g : Fin 3 → ℝ}
  {J : Matrix (Fin c) (Fin 6 ⊕ ι) ℝ} {γ : (Fin 6 ⊕ ι → ℝ) → Fin c → ℝ} {S : ContactSpace c ι}

/-- The force and acceleration by which a motion at velocity `qd` falls short of the motion at rest: what the velocity forces and
the drift of the contacts do to the robot held in contact. -/
def Shortfall (L : List (DrivenLink (Fin 6 ⊕ ι))) (J : Matrix (Fin c) (Fin 6 ⊕ ι) ℝ) (γ : (Fin 6 ⊕ ι → ℝ) → Fin c → ℝ)
    (qd δ : Fin 6 ⊕ ι → ℝ) (φ : Fin c → ℝ) : Prop :=
  massMatrix (links L) *ᵥ δ + Jᵀ *ᵥ φ = velocityForce L qd ∧ J *ᵥ δ = γ qd

/-- **C83 (motion).**  For every torque, the robot moving with velocity `qd` accelerates by `δ` less, and presses with `φ` less,
than the controller computes for the robot at rest; `δ` and `φ` do not depend on the torque, and there is exactly one such pair. -/
theorem C83_motion (hA : IsSPD (massMatrix (links L))) (hS : contactSpace J (massMatrix (links L))⁻¹ = some S)
    (qd : Fin 6 ⊕ ι → ℝ) :
    (∃! p : (Fin 6 ⊕ ι → ℝ) × (Fin c → ℝ), Shortfall L J γ qd p.1 p.2) ∧
    ∀ δ φ, Shortfall L J γ qd δ φ → ∀ τ qdd F,
      MovingMotion L g J γ qd τ qdd F ↔
        Motion (massMatrix (links L)) J (-Spec.gravityForce g (links L)) τ (qdd + δ) (F + φ) := by
  constructor
  · refine ⟨⟨_, _⟩, (response hA hS (velocityForce L qd) (γ qd) _ _).mpr ⟨rfl, rfl⟩, ?_⟩
    rintro ⟨δ, φ⟩ h
    obtain ⟨h1, h2⟩ := (response hA hS _ _ _ _).mp h
    exact Prod.ext h1 h2
  · rintro δ φ ⟨h1, h2⟩ τ qdd F
    unfold MovingMotion Motion Dynamics ContactsFixed
    rw [inverseDynamics_eq, mulVec_add, mulVec_add, mulVec_add, h2, ← h1]
    have e : ∀ a b c d G : Fin 6 ⊕ ι → ℝ, a + (b + c) - G + d = a + b + (d + c) + -G := fun _ _ _ _ _ => by abel
    rw [e]

/-- Every torque has a motion. -/
theorem movingMotion_exists (hA : IsSPD (massMatrix (links L))) (hS : contactSpace J (massMatrix (links L))⁻¹ = some S)
    (qd : Fin 6 ⊕ ι → ℝ) (τ : ι → ℝ) : ∃ qdd F, MovingMotion L g J γ qd τ qdd F := by
  obtain ⟨⟨⟨δ, φ⟩, hp, -⟩, h⟩ := C83_motion (g := g) (γ := γ) hA hS qd
  obtain ⟨qdd, hq⟩ := (C01_contact_force_exact hA hS (-Spec.gravityForce g (links L)) τ).1
  refine ⟨qdd - δ, contactForce S (Model.gravityForce S (-Spec.gravityForce g (links L))) τ - φ, (h δ φ hp τ _ _).mpr ?_⟩
  rw [sub_add_cancel, sub_add_cancel]
  exact hq

/-- **C83 (contact force).**  `getContactForce` is off by exactly `φ`. -/
theorem C83_contact_force (hA : IsSPD (massMatrix (links L))) (hS : contactSpace J (massMatrix (links L))⁻¹ = some S)
    {qd δ qdd : Fin 6 ⊕ ι → ℝ} {φ F : Fin c → ℝ} {τ : ι → ℝ} (hs : Shortfall L J γ qd δ φ) (h : MovingMotion L g J γ qd τ qdd F) :
    contactForce S (Model.gravityForce S (-Spec.gravityForce g (links L))) τ - F = φ := by
  have := (C01_contact_force_exact hA hS _ τ).2.1 _ _ (((C83_motion (g := g) hA hS qd).2 δ φ hs τ qdd F).mp h)
  rw [← this, add_sub_cancel_left]

/-- **C83 (one task).**  The acceleration of the task, which is `J q̈` and the drift `γt`, misses the commanded acceleration by
`γt − J δ`. -/
theorem C83_task (hA : IsSPD (massMatrix (links L))) (hS : contactSpace J (massMatrix (links L))⁻¹ = some S)
    (hB : BaseDetermined J) {T : TaskIn ι} {R : TaskReady ι} (hR : calculateJKT S (massMatrix (links L))⁻¹ T = some R)
    {qd δ qdd : Fin 6 ⊕ ι → ℝ} {φ F : Fin c → ℝ} (hs : Shortfall L J γ qd δ φ)
    (h : MovingMotion L g J γ qd
      (gravityTorque S (massMatrix (links L))⁻¹ (-Spec.gravityForce g (links L)) + taskTorque S [R]) qdd F)
    (γt : Fin T.t → ℝ) : T.J *ᵥ qdd + γt = T.f + (γt - T.J *ᵥ δ) := by
  have := (C06_task_achieved hA hS hB hR (((C83_motion (g := g) hA hS qd).2 δ φ hs _ qdd F).mp h)).1
  rw [← this, mulVec_add]
  abel

/-- **C83 (at rest).**  For velocity terms quadratic in the velocity: with `s` times the velocity the errors are `s²` times as
large; a robot at rest moves as computed. -/
theorem C83_speed (hA : IsSPD (massMatrix (links L))) (hS : contactSpace J (massMatrix (links L))⁻¹ = some S)
    (hL : ∀ l ∈ L, Quadratic l.Hv ∧ Quadratic l.Hw) (hγ : Quadratic γ) :
    (∀ (s : ℝ) qd δ φ, Shortfall L J γ qd δ φ → Shortfall L J γ (s • qd) (s ^ 2 • δ) (s ^ 2 • φ)) ∧
    ∀ τ qdd F, MovingMotion L g J γ 0 τ qdd F ↔ Motion (massMatrix (links L)) J (-Spec.gravityForce g (links L)) τ qdd F := by
  have h1 : ∀ (s : ℝ) qd δ φ, Shortfall L J γ qd δ φ → Shortfall L J γ (s • qd) (s ^ 2 • δ) (s ^ 2 • φ) := by
    rintro s qd δ φ ⟨h1, h2⟩
    constructor
    · rw [velocityForce_scale hL, ← h1, mulVec_smul, mulVec_smul, smul_add]
    · rw [hγ, mulVec_smul, h2]
  refine ⟨h1, fun τ qdd F => ?_⟩
  obtain ⟨⟨p, hp, -⟩, h⟩ := C83_motion (g := g) (γ := γ) hA hS 0
  have h0 := h1 0 0 _ _ hp
  rw [zero_smul, zero_pow two_ne_zero, zero_smul, zero_smul] at h0
  rw [h _ _ h0, add_zero, add_zero]

/-- **C83 (what it would take).**  With the forces RBDL's `NonlinearEffects` returns (`B_`, computed in `UpdateKinematics`) in the
place of gravity, contacts that do not drift, and the drift of the task subtracted from the command, the task is attained at
every velocity. -/
theorem C83_compensated (hA : IsSPD (massMatrix (links L))) (hS : contactSpace J (massMatrix (links L))⁻¹ = some S)
    (hB : BaseDetermined J) {T : TaskIn ι} {R : TaskReady ι} {f γt : Fin T.t → ℝ} (hf : T.f = f - γt)
    (hR : calculateJKT S (massMatrix (links L))⁻¹ T = some R) {qd qdd : Fin 6 ⊕ ι → ℝ} {F : Fin c → ℝ} (hγ : γ qd = 0)
    (h : MovingMotion L g J γ qd
      (gravityTorque S (massMatrix (links L))⁻¹ (inverseDynamics L g qd 0) + taskTorque S [R]) qdd F) :
    T.J *ᵥ qdd + γt = f := by
  have hm : Motion (massMatrix (links L)) J (inverseDynamics L g qd 0)
      (gravityTorque S (massMatrix (links L))⁻¹ (inverseDynamics L g qd 0) + taskTorque S [R]) qdd F := by
    obtain ⟨h1, h2⟩ := h
    refine ⟨?_, by rw [hγ, add_zero] at h2; exact h2⟩
    unfold Dynamics
    rw [← h1, inverseDynamics_eq L g qd 0, inverseDynamics_eq L g qd qdd, mulVec_zero, zero_add]
    abel
  rw [(C06_task_achieved hA hS hB hR hm).1, hf, sub_add_cancel]

end Verif.Props
