import Verif.Props.Moving
import Verif.Lemmas.Held
import Verif.Spec.Wrench
import Verif.Spec.TaskPD
import Mathlib.Tactic.Linarith
import Mathlib.Analysis.SpecialFunctions.Trigonometric.Deriv

/-!
# C83: robots that do not move as commanded

A body held to the ground by its foot, with an arm turning about the vertical.
-/

set_option linter.unusedSectionVars false

namespace Verif.Props
open Matrix Verif Verif.Spec Verif.Model

namespace Whirl

variable {ι : Type*} [Fintype ι] [DecidableEq ι]

/-- the body: mass 1, inertia 1, its centre of mass at the foot, which is at the origin -/
def body (ι : Type*) : DrivenLink (Fin 6 ⊕ ι) :=
  { m := 1, I := 1, x := 0
    Jv := Matrix.of ![Sum.elim ![1, 0, 0, 0, 0, 0] fun _ => 0, Sum.elim ![0, 1, 0, 0, 0, 0] fun _ => 0,
      Sum.elim ![0, 0, 1, 0, 0, 0] fun _ => 0]
    Jw := Matrix.of ![Sum.elim ![0, 0, 0, 1, 0, 0] fun _ => 0, Sum.elim ![0, 0, 0, 0, 1, 0] fun _ => 0,
      Sum.elim ![0, 0, 0, 0, 0, 1] fun _ => 0]
    Hv := 0, Hw := 0 }

/-- angular velocity of the body -/
def spin (qd : Fin 6 ⊕ ι → ℝ) : Fin 3 → ℝ := ![qd (Sum.inl 3), qd (Sum.inl 4), qd (Sum.inl 5)]

/-- earth's gravity -/
noncomputable def grav : Fin 3 → ℝ := ![0, 0, -9.81]

/-- the foot, six rows; it does not drift, being fixed to the body whose coordinates are the first six -/
abbrev foot (ι : Type*) : Matrix (Fin 6) (Fin 6 ⊕ ι) ℝ := Held.J ι

/-- Two joints more: the arm can also be drawn in and out and moved up and down.  The arm's mass 1 is at distance 1 from the axis,
pointing along `x`. -/
def crane : DrivenLink (Fin 6 ⊕ Fin 3) :=
  { m := 1, I := 1, x := ![1, 0, 0]
    Jv := Matrix.of ![Sum.elim ![1, 0, 0, 0, 0, 0] ![0, 1, 0], Sum.elim ![0, 1, 0, 0, 0, 1] ![1, 0, 0],
      Sum.elim ![0, 0, 1, 0, -1, 0] ![0, 0, 1]]
    Jw := Matrix.of ![Sum.elim ![0, 0, 0, 1, 0, 0] ![0, 0, 0], Sum.elim ![0, 0, 0, 0, 1, 0] ![0, 0, 0],
      Sum.elim ![0, 0, 0, 0, 0, 1] ![1, 0, 0]]
    Hv := fun qd => crossProduct (spin qd) (crossProduct (spin qd) ![1, 0, 0])
      + (2 : ℝ) • crossProduct (spin qd) ![qd (Sum.inr 1), qd (Sum.inr 0), qd (Sum.inr 2)]
      + ![-qd (Sum.inr 0) ^ 2, 2 * qd (Sum.inr 0) * qd (Sum.inr 1), 0]
    Hw := fun qd => crossProduct (spin qd) ![0, 0, qd (Sum.inr 0)] }

/-- the same arm without the two joints -/
def arm : DrivenLink (Fin 6 ⊕ Fin 1) :=
  { m := 1, I := 1, x := ![1, 0, 0]
    Jv := Matrix.of ![Sum.elim ![1, 0, 0, 0, 0, 0] ![0], Sum.elim ![0, 1, 0, 0, 0, 1] ![1], Sum.elim ![0, 0, 1, 0, -1, 0] ![0]]
    Jw := Matrix.of ![Sum.elim ![0, 0, 0, 1, 0, 0] ![0], Sum.elim ![0, 0, 0, 0, 1, 0] ![0], Sum.elim ![0, 0, 0, 0, 0, 1] ![1]]
    Hv := fun qd => crossProduct (spin qd) (crossProduct (spin qd) ![1, 0, 0])
      + (2 : ℝ) • crossProduct (spin qd) ![0, qd (Sum.inr 0), 0] + ![-qd (Sum.inr 0) ^ 2, 0, 0]
    Hw := fun qd => crossProduct (spin qd) ![0, 0, qd (Sum.inr 0)] }

theorem body_quadratic : Quadratic (body ι).Hv ∧ Quadratic (body ι).Hw := by
  constructor <;> intro s q <;> ext i <;> simp [body]

theorem crane_quadratic : Quadratic crane.Hv ∧ Quadratic crane.Hw := by
  constructor <;> intro s q <;> ext i <;> fin_cases i <;> simp [crane, spin, crossProduct] <;> ring

theorem arm_quadratic : Quadratic arm.Hv ∧ Quadratic arm.Hw := by
  constructor <;> intro s q <;> ext i <;> fin_cases i <;> simp [arm, spin, crossProduct] <;> ring

/-- A point at distance `ρ` from the vertical axis, at angle `θ` and height `z`. -/
theorem polar_acc {θ ρ z θ' ρ' z' θ'' ρ'' z'' : ℝ → ℝ}
    (h1 : ∀ t, HasDerivAt θ (θ' t) t) (h2 : ∀ t, HasDerivAt ρ (ρ' t) t) (h3 : ∀ t, HasDerivAt z (z' t) t)
    (h4 : ∀ t, HasDerivAt θ' (θ'' t) t) (h5 : ∀ t, HasDerivAt ρ' (ρ'' t) t) (h6 : ∀ t, HasDerivAt z' (z'' t) t) :
    ∃ v a : ℝ → Fin 3 → ℝ, (∀ t, Moves (fun t => ![ρ t * Real.cos (θ t), ρ t * Real.sin (θ t), z t]) v a t) ∧
      ∀ t, θ t = 0 → v t = ![ρ' t, ρ t * θ' t, z' t] ∧
        a t = ![ρ'' t - ρ t * θ' t ^ 2, ρ t * θ'' t + 2 * ρ' t * θ' t, z'' t] := by
  refine ⟨fun t => ![ρ' t * Real.cos (θ t) + ρ t * (-Real.sin (θ t) * θ' t), ρ' t * Real.sin (θ t) + ρ t * (Real.cos (θ t) * θ' t), z' t],
    fun t => ![(ρ'' t * Real.cos (θ t) + ρ' t * (-Real.sin (θ t) * θ' t)) +
        (ρ' t * (-Real.sin (θ t) * θ' t) + ρ t * (-(Real.cos (θ t) * θ' t) * θ' t + -Real.sin (θ t) * θ'' t)),
      (ρ'' t * Real.sin (θ t) + ρ' t * (Real.cos (θ t) * θ' t)) +
        (ρ' t * (Real.cos (θ t) * θ' t) + ρ t * ((-Real.sin (θ t) * θ' t) * θ' t + Real.cos (θ t) * θ'' t)), z'' t], ?_, ?_⟩
  · intro t i
    fin_cases i
    · exact ⟨(h2 t).mul (h1 t).cos, ((h5 t).mul (h1 t).cos).add ((h2 t).mul ((h1 t).sin.neg.mul (h4 t)))⟩
    · exact ⟨(h2 t).mul (h1 t).sin, ((h5 t).mul (h1 t).sin).add ((h2 t).mul ((h1 t).cos.mul (h4 t)))⟩
    · exact ⟨h3 t, h6 t⟩
  · intro t e1
    constructor
    · ext i
      fin_cases i <;> simp [e1]
    · ext i
      fin_cases i <;> simp [e1] <;> ring

/-- `crane.Jv` and `crane.Hv` are right: the velocity and acceleration in `polar_acc` for a motion of the three joints with the
body at rest, at the moment the arm points along `x` at distance 1. -/
theorem crane_acc (θ' ρ' z' θ'' ρ'' z'' : ℝ) :
    crane.Jv *ᵥ Sum.elim (fun _ => 0) ![θ', ρ', z'] = ![ρ', 1 * θ', z'] ∧
    crane.Jv *ᵥ Sum.elim (fun _ => 0) ![θ'', ρ'', z''] + crane.Hv (Sum.elim (fun _ => 0) ![θ', ρ', z']) =
      ![ρ'' - 1 * θ' ^ 2, 1 * θ'' + 2 * ρ' * θ', z''] := by
  constructor
  · ext i
    fin_cases i <;> simp [crane, mulVec, dotProduct, Fin.sum_univ_succ]
  · ext i
    fin_cases i <;> simp [crane, mulVec, dotProduct, Fin.sum_univ_succ, spin, crossProduct] <;> ring

/-- The same for the arm without the two joints. -/
theorem arm_acc (θ' θ'' : ℝ) :
    arm.Jv *ᵥ Sum.elim (fun _ => 0) ![θ'] = ![0, 1 * θ', 0] ∧
    arm.Jv *ᵥ Sum.elim (fun _ => 0) ![θ''] + arm.Hv (Sum.elim (fun _ => 0) ![θ']) = ![0 - 1 * θ' ^ 2, 1 * θ'' + 2 * 0 * θ', 0] := by
  constructor
  · ext i
    fin_cases i <;> simp [arm, mulVec, dotProduct, Fin.sum_univ_succ]
  · ext i
    fin_cases i <;> simp [arm, mulVec, dotProduct, Fin.sum_univ_succ, spin, crossProduct]

/-- the tip of the arm, twice as far from the axis as its centre of mass -/
def tipJ : Matrix (Fin 3) (Fin 6 ⊕ Fin 3) ℝ :=
  Matrix.of ![Sum.elim ![1, 0, 0, 0, 0, 0] ![0, 1, 0], Sum.elim ![0, 1, 0, 0, 0, 2] ![2, 0, 0], Sum.elim ![0, 0, 1, 0, -2, 0] ![0, 0, 1]]

/-- its acceleration for `q̈ = 0` and the body at rest -/
def tipDrift (θ' ρ' : ℝ) : Fin 3 → ℝ := ![-2 * θ' ^ 2, 2 * ρ' * θ', 0]

/-- `tipJ` and `tipDrift` are right: `polar_acc` with the tip at distance 2. -/
theorem tip_acc (θ' ρ' z' θ'' ρ'' z'' : ℝ) :
    tipJ *ᵥ Sum.elim (fun _ => 0) ![θ', ρ', z'] = ![ρ', 2 * θ', z'] ∧
    tipJ *ᵥ Sum.elim (fun _ => 0) ![θ'', ρ'', z''] + tipDrift θ' ρ' = ![ρ'' - 2 * θ' ^ 2, 2 * θ'' + 2 * ρ' * θ', z''] := by
  constructor
  · ext i
    fin_cases i <;> simp [tipJ, mulVec, dotProduct, Fin.sum_univ_succ]
  · ext i
    fin_cases i <;> simp [tipJ, tipDrift, mulVec, dotProduct, Fin.sum_univ_succ] <;> ring

theorem body_rest {q : Fin 6 ⊕ ι → ℝ} (h1 : (body ι).Jv *ᵥ q = 0) (h2 : (body ι).Jw *ᵥ q = 0) (j : Fin 6) : q (Sum.inl j) = 0 := by
  have a := fun i => congrFun h1 i
  have b := fun i => congrFun h2 i
  have a0 := a 0; have a1 := a 1; have a2 := a 2; have b0 := b 0; have b1 := b 1; have b2 := b 2
  simp [body, mulVec, dotProduct, Fin.sum_univ_succ] at a0 a1 a2 b0 b1 b2
  fin_cases j
  · exact a0
  · exact a1
  · exact a2
  · exact b0
  · exact b1
  · exact b2

theorem crane_spd : IsSPD (massMatrix (links [body (Fin 3), crane])) := by
  refine massMatrix_spd ?_ ?_
  · intro l hl
    simp only [links, List.map_cons, List.map_nil, List.mem_cons, List.not_mem_nil, or_false] at hl
    rcases hl with rfl | rfl
    · exact ⟨one_pos, isSPD_one⟩
    · exact ⟨one_pos, isSPD_one⟩
  · intro q h
    have hb := body_rest (ι := Fin 3) (h _ (List.mem_cons_self)).1 (h _ (List.mem_cons_self)).2
    have hc := fun i => congrFun (h crane.toMovingLink (by simp [links])).1 i
    have c0 := hc 0; have c1 := hc 1; have c2 := hc 2
    simp [crane, mulVec, dotProduct, Fin.sum_univ_succ] at c0 c1 c2
    ext i
    rcases i with i | i
    · exact hb i
    · have e0 := hb 0; have e1 := hb 1; have e2 := hb 2; have e4 := hb 4; have e5 := hb 5
      fin_cases i <;> simp <;> linarith

theorem arm_spd : IsSPD (massMatrix (links [body (Fin 1), arm])) := by
  refine massMatrix_spd ?_ ?_
  · intro l hl
    simp only [links, List.map_cons, List.map_nil, List.mem_cons, List.not_mem_nil, or_false] at hl
    rcases hl with rfl | rfl
    · exact ⟨one_pos, isSPD_one⟩
    · exact ⟨one_pos, isSPD_one⟩
  · intro q h
    have hb := body_rest (ι := Fin 1) (h _ (List.mem_cons_self)).1 (h _ (List.mem_cons_self)).2
    have hc := fun i => congrFun (h arm.toMovingLink (by simp [links])).1 i
    have c1 := hc 1
    simp [arm, mulVec, dotProduct, Fin.sum_univ_succ] at c1
    ext i
    rcases i with i | i
    · exact hb i
    · have e1 := hb 1; have e5 := hb 5
      fin_cases i; simp; linarith

theorem foot_space {A : Matrix (Fin 6 ⊕ ι) (Fin 6 ⊕ ι) ℝ} (hA : IsSPD A) : ∃ S, contactSpace (foot ι) A⁻¹ = some S :=
  ⟨_, contactSpace_eq_some.mpr ⟨((hA).inv.conj_isUnit_iff).mpr Held.J_ind, rfl⟩⟩

/-- the crane turning with angular velocity `ω` -/
def turning (ω : ℝ) : Fin 6 ⊕ Fin 3 → ℝ := Sum.elim (fun _ => 0) ![ω, 0, 0]

theorem crane_shortfall (ω : ℝ) :
    Shortfall [body (Fin 3), crane] (foot (Fin 3)) 0 (turning ω) (Sum.elim (fun _ => 0) ![0, -ω ^ 2, 0]) 0 := by
  constructor
  · rw [massMatrix_mulVec, mulVec_zero, add_zero]
    unfold velocityForce inverseDynamics
    ext i
    rcases i with i | i <;> fin_cases i <;>
      simp [-Matrix.mulVec_mulVec, links, body, crane, DrivenLink.force, DrivenLink.moment, turning, spin, mulVec, dotProduct, Fin.sum_univ_succ, crossProduct]
  · rw [Held.J_mulVec]; rfl

/-- the arm turning with angular velocity `ω` -/
def whirling (ω : ℝ) : Fin 6 ⊕ Fin 1 → ℝ := Sum.elim (fun _ => 0) ![ω]

theorem arm_shortfall (ω : ℝ) :
    Shortfall [body (Fin 1), arm] (foot (Fin 1)) 0 (whirling ω) 0 ![-ω ^ 2, 0, 0, 0, 0, 0] := by
  constructor
  · rw [mulVec_zero, zero_add, Held.JT_mulVec]
    unfold velocityForce inverseDynamics
    ext i
    rcases i with i | i <;> fin_cases i <;>
      simp [body, arm, DrivenLink.force, DrivenLink.moment, whirling, spin, mulVec, dotProduct, Fin.sum_univ_succ, crossProduct]
  · rw [mulVec_zero]; rfl

/-- the arm at rest under the torque `τ` -/
theorem arm_motion (τ : ℝ) :
    Motion (massMatrix (links [body (Fin 1), arm])) (foot (Fin 1)) (-Spec.gravityForce grav (links [body (Fin 1), arm])) ![τ]
      (Sum.elim (fun _ => 0) ![τ / 2]) ![0, -(τ / 2), -19.62, 0, 9.81, -τ] := by
  constructor
  · unfold Dynamics
    rw [massMatrix_mulVec, Held.JT_mulVec]
    unfold Spec.gravityForce
    ext i
    rcases i with i | i <;> fin_cases i <;>
      simp [-Matrix.mulVec_mulVec, links, body, arm, mulVec, dotProduct, Fin.sum_univ_succ, actuate, grav] <;> ring_nf
  · unfold ContactsFixed
    rw [Held.J_mulVec]; rfl

end Whirl

open Whirl in
/-- **C83 (a task is missed).**  The full property is false.  The crane turns with angular velocity `ω`; the tip of its arm is
commanded the acceleration `f`, any `f`, and attains `f` less `ω²` along the arm, though the command is computed without error. -/
theorem C83_task_missed (ω : ℝ) (f : Fin 3 → ℝ) :
    IsSPD (massMatrix (links [body (Fin 3), crane])) ∧ BaseDetermined (foot (Fin 3)) ∧
    ∃ S R, contactSpace (foot (Fin 3)) (massMatrix (links [body (Fin 3), crane]))⁻¹ = some S ∧
      calculateJKT S (massMatrix (links [body (Fin 3), crane]))⁻¹ ⟨3, tipJ, f⟩ = some R ∧
      (∃ qdd F, MovingMotion [body (Fin 3), crane] grav (foot (Fin 3)) 0 (turning ω)
        (gravityTorque S (massMatrix (links [body (Fin 3), crane]))⁻¹ (-Spec.gravityForce grav (links [body (Fin 3), crane]))
          + taskTorque S [R]) qdd F) ∧
      ∀ qdd F, MovingMotion [body (Fin 3), crane] grav (foot (Fin 3)) 0 (turning ω)
        (gravityTorque S (massMatrix (links [body (Fin 3), crane]))⁻¹ (-Spec.gravityForce grav (links [body (Fin 3), crane]))
          + taskTorque S [R]) qdd F → tipJ *ᵥ qdd + tipDrift ω 0 = f + ![-ω ^ 2, 0, 0] := by
  obtain ⟨S, hS⟩ := foot_space crane_spd
  have hfin : (calculateJKT S (massMatrix (links [body (Fin 3), crane]))⁻¹ ⟨3, tipJ, f⟩).isSome := by
    rw [C06_finite_iff crane_spd hS]
    rintro y ⟨F, hF⟩
    change Fin 3 → ℝ at y
    rw [Held.JT_mulVec] at hF
    have h := fun j : Fin 3 => congrFun hF (Sum.inr j)
    have h0 := h 0; have h1 := h 1; have h2 := h 2
    simp [tipJ, mulVec, dotProduct, Fin.sum_univ_succ] at h0 h1 h2
    ext i
    change Fin 3 at i
    fin_cases i
    · exact h1.symm
    · exact h0
    · exact h2.symm
  obtain ⟨R, hR⟩ := Option.isSome_iff_exists.mp hfin
  have hs := crane_shortfall ω
  refine ⟨crane_spd, Held.J_base, S, R, hS, hR, ?_, ?_⟩
  · exact movingMotion_exists crane_spd hS _ _
  · intro qdd F h
    refine (C83_task crane_spd hS Held.J_base hR hs h (tipDrift ω 0)).trans (congrArg (f + ·) ?_)
    ext i
    fin_cases i <;> simp [tipJ, tipDrift, mulVec, dotProduct, Fin.sum_univ_succ] <;> ring

open Whirl in
/-- **C83 (a foot slips).**  The full property is false.  A body held by its foot whirls an arm with angular velocity `ω`.  At
rest the foot neither tips nor slips under gravity compensation, and so the controller reports at every velocity.  In truth the
foot is pulled sideways by `ω²`, whatever the torque: it slips for every friction coefficient below `ω² / 19.62`. -/
theorem C83_slips (ω : ℝ) :
    IsSPD (massMatrix (links [body (Fin 1), arm])) ∧ BaseDetermined (foot (Fin 1)) ∧
    ∃ S, contactSpace (foot (Fin 1)) (massMatrix (links [body (Fin 1), arm]))⁻¹ = some S ∧
      (let w := contactForce S (Model.gravityForce S (-Spec.gravityForce grav (links [body (Fin 1), arm])))
          (gravityTorque S (massMatrix (links [body (Fin 1), arm]))⁻¹ (-Spec.gravityForce grav (links [body (Fin 1), arm])));
        NoTip 1 1 w ∧ NoSlip 0 0 w) ∧
      ∀ τ : Fin 1 → ℝ,
        (contactForce S (Model.gravityForce S (-Spec.gravityForce grav (links [body (Fin 1), arm]))) τ) 0 = 0 ∧
        (∃ qdd F, MovingMotion [body (Fin 1), arm] grav (foot (Fin 1)) 0 (whirling ω) τ qdd F) ∧
        ∀ qdd F, MovingMotion [body (Fin 1), arm] grav (foot (Fin 1)) 0 (whirling ω) τ qdd F →
          F 0 = ω ^ 2 ∧ press F = 19.62 ∧ ∀ μ μz, μ < ω ^ 2 / 19.62 → ¬ NoSlip μ μz F := by
  obtain ⟨S, hS⟩ := foot_space arm_spd
  have hrep : ∀ τ : Fin 1 → ℝ,
      contactForce S (Model.gravityForce S (-Spec.gravityForce grav (links [body (Fin 1), arm]))) τ =
        ![0, -(τ 0 / 2), -19.62, 0, 9.81, -τ 0] := by
    intro τ
    have e : τ = ![τ 0] := by ext i; rw [Subsingleton.elim i 0]; rfl
    refine ((C01_contact_force_exact arm_spd hS _ τ).2.1 (Sum.elim (fun _ => 0) ![τ 0 / 2]) _ ?_).symm
    have := arm_motion (τ 0)
    rw [← e] at this
    exact this
  refine ⟨arm_spd, Held.J_base, S, hS, ?_, fun τ => ⟨by rw [hrep]; rfl, ?_, fun qdd F h => ?_⟩⟩
  · have h0 : gravityTorque S (massMatrix (links [body (Fin 1), arm]))⁻¹ (-Spec.gravityForce grav (links [body (Fin 1), arm])) 0 = 0 := by
      set τ := gravityTorque S (massMatrix (links [body (Fin 1), arm]))⁻¹ (-Spec.gravityForce grav (links [body (Fin 1), arm]))
      have e : τ = ![τ 0] := by ext i; rw [Subsingleton.elim i 0]; rfl
      have := arm_motion (τ 0)
      rw [← e] at this
      have := (C03_gravity_compensation arm_spd hS _ this).1 0
      simpa using this
    intro w
    have hw : w = ![0, 0, -19.62, 0, 9.81, 0] := by
      show contactForce S _ _ = _
      rw [hrep, h0]; norm_num
    rw [hw]
    refine ⟨Or.inl ⟨by simp [press]; norm_num, 1 / 2, 0, ?_, by norm_num, by norm_num⟩, ?_⟩
    · constructor <;> simp <;> norm_num
    · simp [NoSlip]
  · exact movingMotion_exists arm_spd hS _ _
  · have hF := C83_contact_force (g := grav) (γ := 0) arm_spd hS (arm_shortfall ω) h
    have hF' : F = ![ω ^ 2, -(τ 0 / 2), -19.62, 0, 9.81, -τ 0] := by
      rw [hrep] at hF
      ext i
      have := congrFun hF i
      fin_cases i <;> simp at this ⊢ <;> linarith
    have hp : press F = 19.62 := by rw [hF']; simp [press]
    refine ⟨by rw [hF']; rfl, hp, fun μ μz hμ hns => ?_⟩
    have := hns.1
    rw [hp, hF'] at this
    have h2 : |ω ^ 2| ≤ μ * 19.62 := this
    rw [abs_of_nonneg (sq_nonneg ω)] at h2
    rw [lt_div_iff₀ (by norm_num)] at hμ
    linarith

end Verif.Props
