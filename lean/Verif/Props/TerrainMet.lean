import Verif.Props.Terrain
import Verif.Props.StanceMet

/-!
# C103: two blocks on a slope, and on two steps of a slope
-/

set_option linter.unusedSectionVars false

namespace Verif.Props
open Matrix Verif Verif.Spec Verif.Model Verif.Lemmas

namespace Ramp

/-- a slope that falls three metres on four -/
noncomputable def tilt : Mat3 := !![4 / 5, 0, 3 / 5; 0, 1, 0; -(3 / 5), 0, 4 / 5]

theorem tilt_rot : IsRot tilt := by
  refine ⟨?_, ?_⟩
  · ext i j
    fin_cases i <;> fin_cases j <;> simp [tilt, mul_apply, Fin.sum_univ_three] <;> norm_num
  · rw [det_fin_three]
    simp [tilt]
    norm_num

theorem up : upIn tilt = ![-(3 / 5), 0, 4 / 5] := by
  funext j
  fin_cases j <;> simp [upIn, tilt, mulVec, dotProduct, Fin.sum_univ_three]

/-- a sole on the slope, with the coefficient of friction `μ` -/
noncomputable def pad (μ : ℝ) : ContactLink :=
  { type := .c6d, contact := true, rotm := tilt, planeX := 1 / 10, planeY := 1 / 10, friction := μ, frictionZ := 1 / 10 }

noncomputable def robot (μ : ℝ) (S : ContactSpace (6 * 2) (Fin 6)) (N : Matrix (Fin 6) (Fin (6 * 2 - 6)) ℝ) (P : Fin (6 * 2) → ℝ) (τg : Fin 6 → ℝ) : QPRobot 6 (6 * 2) :=
  { S := S, NwJw := N, P := P, τg := τg, limit := none, cs := [pad μ, pad μ] }

theorem two (μ : ℝ) : 2 = (active [pad μ, pad μ]).length := rfl

theorem pads (μ : ℝ) : ∀ l ∈ [pad μ, pad μ], l = pad μ := by simp

theorem foot_pad (μ : ℝ) (i : Fin 2) : footAt [pad μ, pad μ] (two μ) i = pad μ := by
  fin_cases i <;> rfl

theorem centre_mem (μ t : ℝ) (i : Fin 2) : ((Blocks.on t).get i).pos ∈ polygon [pad μ, pad μ] (two μ) fun i => ((Blocks.on t).get i).pos := by
  refine subset_convexHull ℝ _ (Set.mem_iUnion.mpr ⟨i, 0, 0, ?_, ?_, ?_⟩)
  · show |(0 : ℝ)| ≤ (footAt [pad μ, pad μ] (two μ) i).planeX
    rw [foot_pad]; norm_num [pad]
  · show |(0 : ℝ)| ≤ (footAt [pad μ, pad μ] (two μ) i).planeY
    rw [foot_pad]; norm_num [pad]
  · have : (![0, 0, 0] : Vec3) = 0 := by funext i; fin_cases i <;> rfl
    rw [this, mulVec_zero, add_zero]

theorem over (μ t : ℝ) : (![0, 1 / 2, t / 2] : Vec3) ∈ polygon [pad μ, pad μ] (two μ) fun i => ((Blocks.on t).get i).pos := by
  have h : Convex ℝ (polygon [pad μ, pad μ] (two μ) fun i => ((Blocks.on t).get i).pos) := convex_convexHull ℝ _
  have := h (centre_mem μ t 0) (centre_mem μ t 1) (show (0 : ℝ) ≤ 1 / 2 by norm_num) (show (0 : ℝ) ≤ 1 / 2 by norm_num) (by norm_num)
  have e : (![0, 1 / 2, t / 2] : Vec3) = (1 / 2 : ℝ) • ((Blocks.on t).get (0 : Fin 2)).pos + (1 / 2 : ℝ) • ((Blocks.on t).get (1 : Fin 2)).pos := by
    funext i
    fin_cases i <;> simp; ring
  rw [e]
  exact this

theorem footing {μ : ℝ} (hμ : 3 / 4 ≤ μ) : FeetFooting [pad μ, pad μ] (two μ) := by
  intro i
  have hx : (footAt [pad μ, pad μ] (two μ) i) = pad μ := foot_pad μ i
  simp only [hx]
  have hr : (pad μ).rotm = tilt := rfl
  simp only [hr, up, pad, cons_val]
  refine ⟨by norm_num, ?_, ?_, ?_⟩
  · rw [abs_neg, abs_of_pos (by norm_num)]
    linarith
  · rw [abs_zero]
    linarith
  · rw [abs_neg, abs_of_pos (by norm_num : (0 : ℝ) < 3 / 5)]
    norm_num

theorem in_plane (μ : ℝ) : FeetInPlane tilt [pad μ, pad μ] (two μ) fun i => ((Blocks.on 0).get i).pos := by
  refine ⟨tilt_rot, fun i => ?_, 0, fun i => ?_⟩
  · have hx : (footAt [pad μ, pad μ] (two μ) i).rotm = tilt := by rw [foot_pad]; rfl
    show Flat (tiltᵀ * (footAt [pad μ, pad μ] (two μ) i).rotm)
    rw [hx, tilt_rot.1]
    exact flat_one
  · fin_cases i <;> simp [tilt, mulVec, dotProduct, Fin.sum_univ_three]

/-- The hypotheses of `C103_stands_iff`, `C103_redistribute_iff`, `C103_topples`, `C103_never_fails`, `C103_hull` and `C103_too_steep` are met: on a slope
that falls three metres on four, with one foot `t` metres higher than the other, redistribution succeeds if and only if the coefficient of friction is at
least 3/4; if so QP task control never fails. -/
theorem _root_.Verif.Props.C103_ramp (t μ : ℝ) (qd : Sys (Fin 6) → ℝ) (cod : (W : Matrix (Fin 6) (Fin 6) ℝ) → CodNull W) :
    ∃ s S N, let G := s.G ∘ sysIdx.symm
      let R := Ramp.robot μ S N (Model.gravityForce S G) (gravityTorque S (ctrlMass (Blocks.L t))⁻¹ G)
      updateKinematics true (massMatrix (Blocks.L t)) 0 1 (mass (Blocks.L t)) qd = some s ∧
      (∃ m V2, calculateContactConstraint (stackFn (Blocks.feet t)) (ctrlMass (Blocks.L t))⁻¹ cod = .ret 1 S (some ⟨m, V2, N⟩)) ∧
      ((∃ τc, redistribute R Stand.rsolver (R.τg + 0) 0 = some (1, τc)) ↔ 3 / 4 ≤ μ) ∧
      (μ < 3 / 4 → redistribute R Stand.rsolver (R.τg + 0) 0 = some (0, 0)) ∧
      (3 / 4 ≤ μ → ∀ ts, ∃ τt τc, calcTaskControlTorqueQP R Stand.solver ts = .ret 1 τt τc) := by
  obtain ⟨s, S0, τ, hs, hcom, hS0, -⟩ := Blocks.data t qd
  obtain ⟨S, ⟨m, V2, N⟩, hcalc⟩ := C05_feet_succeed (p := fun i : Fin 2 => ((Blocks.on t).get i).pos) IsRot.one (by norm_num) (Blocks.rides t)
    (Blocks.spd t) (Blocks.independent t) cod
  obtain rfl : S0 = S := Option.some.inj (hS0.symm.trans (ret_space hcalc))
  set R := Ramp.robot μ S0 N (Model.gravityForce S0 (s.G ∘ sysIdx.symm)) (gravityTorque S0 (ctrlMass (Blocks.L t))⁻¹ (s.G ∘ sysIdx.symm)) with hRdef
  have h6 : ∀ l ∈ R.cs, l.type = .c6d := fun l hl => by rw [pads μ l hl]; rfl
  have hp : ∀ l ∈ R.cs, 0 < l.planeX ∧ 0 < l.planeY := fun l hl => by rw [pads μ l hl]; norm_num [pad]
  have hact : ∀ l ∈ active R.cs, l = pad μ := fun l hl => pads μ l (List.mem_of_mem_filter hl)
  have hin : s.comPos ∈ standRegion R.cs (two μ) (fun i => ((Blocks.on t).get i).pos) ↔ 3 / 4 ≤ μ := by
    constructor
    · intro h
      by_contra hμ
      have hnone := C103_too_steep (two μ) (fun i => ((Blocks.on t).get i).pos) hp (Q := tilt) (m := μ)
        (fun l hl => by rw [hact l hl]; exact ⟨rfl, le_rfl⟩) (Or.inl (by
          rw [up]
          simp only [cons_val]
          rw [abs_neg, abs_of_pos (by norm_num)]
          linarith))
      exact Set.notMem_empty _ (hnone ▸ h)
    · intro hμ
      refine C103_hull (two μ) _ hp (fun l hl => by rw [hact l hl]; exact tilt_rot) (footing hμ) ⟨t / 2, ?_⟩
      rw [hcom]
      exact over μ t
  have hM : ∃ F, Motion (ctrlMass (Blocks.L t)) (stackFn (Blocks.feet t)) (s.G ∘ sysIdx.symm) (R.τg + 0) 0 F := by
    obtain ⟨q0, h0⟩ := (C01_contact_force_exact (Blocks.spd t) hS0 (s.G ∘ sysIdx.symm) R.τg).1
    obtain rfl := (C03_gravity_compensation (Blocks.spd t) hS0 _ h0).2
      (C03_feet_determine_base (p := fun i : Fin 2 => ((Blocks.on t).get i).pos) IsRot.one (by norm_num) (Blocks.rides t))
    exact ⟨_, by rw [add_zero]; exact h0⟩
  obtain ⟨F, hM⟩ := hM
  refine ⟨s, S0, N, hs, ⟨m, V2, hcalc⟩, ?_, fun hμ => ?_, fun hμ ts => ?_⟩
  · rw [← hin]
    exact C103_redistribute_iff (p := fun i : Fin 2 => ((Blocks.on t).get i).pos) IsRot.one (List.cons_ne_nil _ _) (Blocks.masses t) (Blocks.inertias t)
      (Blocks.floating t) (Blocks.rides t) hs (Blocks.spd t) R hS0 rfl h6 (two μ) (by norm_num) hp cod hcalc Stand.rsolver_exact
      Stand.rsolver_complete rfl hM
  · exact C103_topples (p := fun i : Fin 2 => ((Blocks.on t).get i).pos) IsRot.one (List.cons_ne_nil _ _) (Blocks.masses t) (Blocks.inertias t)
      (Blocks.floating t) (Blocks.rides t) hs (Blocks.spd t) R hS0 rfl h6 (two μ) (by norm_num) hp cod hcalc
      (fun k d x hx => (Stand.rsolver_exact k d x hx).1) hM (fun h => absurd (hin.mp h) (not_le.mpr hμ))
  · exact C103_never_fails (p := fun i : Fin 2 => ((Blocks.on t).get i).pos) IsRot.one (List.cons_ne_nil _ _) (Blocks.masses t) (Blocks.inertias t)
      (Blocks.floating t) (Blocks.rides t) hs (Blocks.spd t) R hS0 rfl rfl h6 (two μ) (by norm_num) hp cod hcalc Stand.solver_sound
      Stand.solver_complete rfl (hin.mpr hμ) ts

/-- The hypotheses of `C103_slope` and `C103_slope_iff` are met: both blocks on one slope stand. -/
theorem _root_.Verif.Props.C103_ramp_plane {μ : ℝ} (hμ : 3 / 4 ≤ μ) (qd : Sys (Fin 6) → ℝ) : ∃ s,
    updateKinematics true (massMatrix (Blocks.L 0)) 0 1 (mass (Blocks.L 0)) qd = some s ∧
    ∃ τ F, Motion (ctrlMass (Blocks.L 0)) (stackFn (Blocks.feet 0)) (s.G ∘ sysIdx.symm) τ 0 F ∧ ContactsHold [pad μ, pad μ] F := by
  obtain ⟨s, S0, τ, hs, hcom, hS0, -⟩ := Blocks.data 0 qd
  have hact : ∀ l ∈ active [pad μ, pad μ], l = pad μ := fun l hl => pads μ l (List.mem_of_mem_filter hl)
  refine ⟨s, hs, (C103_slope_iff (p := fun i : Fin 2 => ((Blocks.on 0).get i).pos) (cs := [pad μ, pad μ]) (Q := tilt) IsRot.one (List.cons_ne_nil _ _)
    (Blocks.masses 0) (Blocks.inertias 0) (Blocks.floating 0) (Blocks.rides 0) hs (two μ) rfl (by norm_num)
    (fun l hl => by rw [pads μ l hl]; norm_num [pad]) (fun l hl => by rw [hact l hl]; exact tilt_rot) (in_plane μ) (by rw [up]; simp) (footing hμ)).mpr
    ⟨0, ?_⟩⟩
  have := over μ 0
  rw [zero_div] at this
  rw [hcom]
  exact this

end Ramp

end Verif.Props
