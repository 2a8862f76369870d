import Verif.Props.Energy
import Verif.Props.Sampled

/-! # C89: damping that drives; a robot that keeps moving -/

set_option linter.unusedSectionVars false

namespace Verif.Props
open Matrix Verif Verif.Spec Verif.Model

namespace Hoist
open Whirl

/-- a weight on the body of `Whirl` that a joint moves up and down, at the height `h` -/
def lift (h : ℝ) : DrivenLink (Fin 6 ⊕ Fin 1) :=
  { m := 1, I := 1, x := ![0, 0, h]
    Jv := Matrix.of ![Sum.elim ![1, 0, 0, 0, h, 0] ![0], Sum.elim ![0, 1, 0, -h, 0, 0] ![0], Sum.elim ![0, 0, 1, 0, 0, 0] ![1]]
    Jw := Matrix.of ![Sum.elim ![0, 0, 0, 1, 0, 0] ![0], Sum.elim ![0, 0, 0, 0, 1, 0] ![0], Sum.elim ![0, 0, 0, 0, 0, 1] ![0]]
    Hv := fun qd => crossProduct (spin qd) (crossProduct (spin qd) ![0, 0, h]) + (2 : ℝ) • crossProduct (spin qd) ![0, 0, qd (Sum.inr 0)]
    Hw := 0 }

/-- the robot while the weight rises with velocity `u` -/
def robot (u : ℝ) : List (ℝ → DrivenLink (Fin 6 ⊕ Fin 1)) := [fun _ => body (Fin 1), fun t => lift (u * t)]

/-- its velocity -/
def rising (u : ℝ) : Fin 6 ⊕ Fin 1 → ℝ := Sum.elim (fun _ => 0) ![u]

theorem spd (u t : ℝ) : IsSPD (massMatrix (linksAt (robot u) t)) := by
  refine massMatrix_spd ?_ ?_
  · intro l hl
    simp only [linksAt, robot, links, List.map_cons, List.map_nil, List.mem_cons, List.not_mem_nil, or_false] at hl
    rcases hl with rfl | rfl
    · exact ⟨one_pos, isSPD_one⟩
    · exact ⟨one_pos, isSPD_one⟩
  · intro q h
    have hb := body_rest (ι := Fin 1) (h _ (List.mem_cons_self)).1 (h _ (List.mem_cons_self)).2
    have hc := fun i => congrFun (h (lift (u * t)).toMovingLink (by simp [linksAt, robot, links])).1 i
    have c2 := hc 2
    simp [lift, mulVec, dotProduct, Fin.sum_univ_succ] at c2
    ext i
    rcases i with i | i
    · exact hb i
    · have e2 := hb 2
      fin_cases i; simp; linarith

theorem run (u : ℝ) : ∀ l ∈ robot u, LinkRun l (fun _ => rising u) fun _ => 0 := by
  have one : ∀ (w : Fin 3 → ℝ) (i j : Fin 3), 0 =
      crossProduct w ((1 : Matrix (Fin 3) (Fin 3) ℝ) *ᵥ Pi.single j 1) i - ((1 : Matrix (Fin 3) (Fin 3) ℝ) *ᵥ crossProduct w (Pi.single j 1)) i := by
    intro w i j
    rw [one_mulVec, one_mulVec, sub_self]
  intro l hl
  simp only [robot, List.mem_cons, List.not_mem_nil, or_false] at hl
  rcases hl with rfl | rfl
  · refine ⟨fun _ _ => rfl, fun _ => transpose_one, fun t i j => ?_, fun t i => ?_, fun t i => ?_⟩
    · exact (hasDerivAt_const t _).congr_deriv (one _ i j)
    · refine (hasDerivAt_const t _).congr_deriv ?_
      simp [body]
    · refine (hasDerivAt_const t _).congr_deriv ?_
      simp [body]
  · have hv : ∀ t, (lift (u * t)).Jv *ᵥ rising u = ![0, 0, u] := by
      intro t
      ext i
      fin_cases i <;> simp [lift, rising, mulVec, dotProduct, Fin.sum_univ_succ]
    have hw : ∀ t, (lift (u * t)).Jw *ᵥ rising u = 0 := by
      intro t
      ext i
      fin_cases i <;> simp [lift, rising, mulVec, dotProduct, Fin.sum_univ_succ]
    refine ⟨fun _ _ => rfl, fun _ => transpose_one, fun t i j => ?_, fun t i => ?_, fun t i => ?_⟩
    · exact (hasDerivAt_const t _).congr_deriv (one _ i j)
    · simp only [hv]
      refine (hasDerivAt_const t _).congr_deriv ?_
      have : spin (rising u) = 0 := by ext j; fin_cases j <;> simp [spin, rising]
      simp [lift, this]
    · simp only [hw]
      refine (hasDerivAt_const t _).congr_deriv ?_
      simp [lift]

theorem shortfall (u t : ℝ) : Shortfall ((robot u).map (· t)) (foot (Fin 1)) 0 (rising u) 0 0 := by
  constructor
  · rw [mulVec_zero, mulVec_zero, add_zero]
    unfold velocityForce inverseDynamics
    ext i
    rcases i with i | i <;> fin_cases i <;>
      simp [robot, body, lift, DrivenLink.force, DrivenLink.moment, rising, spin, mulVec, dotProduct, Fin.sum_univ_succ, crossProduct]
  · rw [mulVec_zero]; rfl

end Hoist

open Hoist Whirl in
/-- Hypotheses of `C89_hold` and `C89_keeps_moving` met: under gravity compensation the weight rises for ever with the velocity `u` it has. -/
theorem C89_met (u : ℝ) :
    ∃ (S : ℝ → ContactSpace 6 (Fin 1)) (F : ℝ → Fin 6 → ℝ), (∀ l ∈ robot u, LinkRun l (fun _ => rising u) fun _ => 0) ∧
      (∀ t, IsSPD (massMatrix (linksAt (robot u) t))) ∧
      (∀ t, contactSpace (foot (Fin 1)) (massMatrix (linksAt (robot u) t))⁻¹ = some (S t)) ∧ BaseDetermined (foot (Fin 1)) ∧
      foot (Fin 1) *ᵥ rising u = 0 ∧
      (∀ t, MovesNothing (massMatrix (linksAt (robot u) t)) (foot (Fin 1)) (weightAt grav (robot u) t) 0) ∧
      ∀ t, MovingMotion ((robot u).map (· t)) grav (foot (Fin 1)) 0 (rising u)
        (gravityTorque (S t) (massMatrix (linksAt (robot u) t))⁻¹ (weightAt grav (robot u) t) + 0) 0 (F t) := by
  have hS := fun t => foot_space (ι := Fin 1) (spd u t)
  choose S hS using hS
  have hm : ∀ t, ∃ F, MovingMotion ((robot u).map (· t)) grav (foot (Fin 1)) 0 (rising u)
        (gravityTorque (S t) (massMatrix (linksAt (robot u) t))⁻¹ (weightAt grav (robot u) t) + 0) 0 F := by
    intro t
    obtain ⟨q, F, h⟩ := movingMotion_exists (g := grav) (γ := 0) (spd u t) (hS t) (rising u)
      (gravityTorque (S t) (massMatrix (linksAt (robot u) t))⁻¹ (weightAt grav (robot u) t) + 0)
    have h' := ((C83_motion (g := grav) (γ := 0) (spd u t) (hS t) (rising u)).2 0 0 (shortfall u t) _ q F).mp h
    rw [add_zero, add_zero, add_zero] at h'
    have hq : q = 0 := (C03_gravity_compensation (spd u t) (hS t) _ h').2 Held.J_base
    subst hq
    exact ⟨F, h⟩
  choose F hF using hm
  refine ⟨S, F, run u, spd u, hS, Held.J_base, ?_, fun t τ q q' F F' h h' => ?_, hF⟩
  · rw [Held.J_mulVec]; rfl
  · rw [add_zero] at h'
    rw [((motion_iff (spd u t) (hS t) _ _ _ _).mp h).1, ((motion_iff (spd u t) (hS t) _ _ _ _).mp h').1]

namespace Skew

/-- a point that the first joint moves along the diagonal of `x` and `y`, the second along `y`, the third along `z` -/
def J : Matrix (Fin 3) (Fin 6 ⊕ Fin 3) ℝ :=
  Matrix.of ![Sum.elim ![1, 0, 0, 0, 0, 0] ![1, 0, 0], Sum.elim ![0, 1, 0, 0, 0, 0] ![1, 1, 0], Sum.elim ![0, 0, 1, 0, 0, 0] ![0, 0, 1]]

/-- a position task at its target, with damping 100 along `x` and 1 along `y` and `z` -/
def task : TaskLinkPD :=
  { mode := 1, tStart := 0, tEnd := 1, posInit := 0, velInit := 0, posDes := 0, velDes := 0, rotInit := 1, rotDes := 1
    posP := ![1, 1, 1], posD := ![100, 1, 1], posA := ![1, 1, 1], rotP := ![1, 1, 1], rotD := ![1, 1, 1], rotA := ![1, 1, 1] }

/-- velocity of the robot -/
def qd : Fin 6 ⊕ Fin 3 → ℝ := Sum.elim (fun _ => 0) ![1, 49, 0]

end Skew

/-- **C89 (wrong: damping that drives).**  With positive gains that differ between the axes, the command of a position task whose
trajectory has ended, the point being at its target, can increase the energy of the robot. -/
theorem C89_damping_wrong :
    ∃ (S : ContactSpace 6 (Fin 3)) (R : TaskReady (Fin 3)) (f : Fin 3 → ℝ),
      IsSPD (Held.A fun _ : Fin 3 => (1 : ℝ)) ∧ BaseDetermined (Held.J (Fin 3)) ∧
      contactSpace (Held.J (Fin 3)) (Held.A fun _ : Fin 3 => (1 : ℝ))⁻¹ = some S ∧ Held.J (Fin 3) *ᵥ Skew.qd = 0 ∧
      (∀ i, 0 < Skew.task.posP i ∧ 0 < Skew.task.posD i) ∧
      (Skew.task.setTrajectoryQuintic 0 1 0 0 0 0).posPD 2 0 (Skew.J *ᵥ Skew.qd) = some f ∧
      calculateJKT S (Held.A fun _ : Fin 3 => (1 : ℝ))⁻¹ ⟨3, Skew.J, f⟩ = some R ∧
      0 < jointPower (taskTorque S [R]) Skew.qd := by
  have hd : ∀ i : Fin 3, (0 : ℝ) < (fun _ => 1) i := fun _ => one_pos
  have hA := Held.hA hd
  obtain ⟨S, hS⟩ := Held.exists_S hd
  have hv : Skew.J *ᵥ Skew.qd = ![1, 50, 0] := by
    ext i
    fin_cases i <;> simp [Skew.J, Skew.qd, mulVec, dotProduct, Fin.sum_univ_succ] <;> norm_num
  have hstay : Held.J (Fin 3) *ᵥ Skew.qd = 0 := by rw [Held.J_mulVec]; rfl
  have hf : (Skew.task.setTrajectoryQuintic 0 1 0 0 0 0).posPD 2 0 (Skew.J *ᵥ Skew.qd) = some ![-100, -50, 0] := by
    rw [posPD_after Skew.task (by norm_num [Skew.task]) (by norm_num) 0 0 0 (by norm_num), hv]
    congr 1
    ext i
    fin_cases i <;> simp [Skew.task]
  have hfin : (calculateJKT S (Held.A fun _ : Fin 3 => (1 : ℝ))⁻¹ ⟨3, Skew.J, ![-100, -50, 0]⟩).isSome := by
    rw [C06_finite_iff hA hS]
    rintro y ⟨F, hF⟩
    change Fin 3 → ℝ at y
    rw [Held.JT_mulVec] at hF
    have h := fun j : Fin 3 => congrFun hF (Sum.inr j)
    have h0 := h 0; have h1 := h 1; have h2 := h 2
    simp [Skew.J, mulVec, dotProduct, Fin.sum_univ_succ] at h0 h1 h2
    ext i
    change Fin 3 at i
    fin_cases i
    · change y 0 = 0; linarith
    · change y 1 = 0; linarith
    · change y 2 = 0; linarith
  obtain ⟨R, hR⟩ := Option.isSome_iff_exists.mp hfin
  refine ⟨S, R, ![-100, -50, 0], hA, Held.J_base, hS, hstay, ?_, hf, hR, ?_⟩
  · intro i
    fin_cases i <;> simp [Skew.task]
  rw [C89_task_power hA hS Held.J_base hR hstay]
  obtain ⟨hu, rfl⟩ := (jkt_eq_some hS).mp hR
  change 0 < ((Skew.J * S.AinvNc * Skew.Jᵀ)⁻¹ *ᵥ ![-100, -50, 0]) ⬝ᵥ (Skew.J *ᵥ Skew.qd)
  have hL : (Skew.J * S.AinvNc * Skew.Jᵀ) *ᵥ ![-150, 50, 0] = ![-100, -50, 0] := by
    rw [← mulVec_mulVec, ← mulVec_mulVec, Held.P_mulVec hd hS]
    ext i
    fin_cases i <;> simp [Skew.J, mulVec, dotProduct, Fin.sum_univ_succ] <;> norm_num
  have e : (Skew.J * S.AinvNc * Skew.Jᵀ)⁻¹ *ᵥ ![-100, -50, 0] = ![-150, 50, 0] := by
    rw [← hL, mulVec_mulVec, nonsing_inv_mul _ hu, one_mulVec]
  rw [e, hv]
  simp [dotProduct, Fin.sum_univ_succ]
  norm_num

end Verif.Props
