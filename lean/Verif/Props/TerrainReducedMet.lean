import Verif.Props.TerrainReduced
import Verif.Props.TerrainMet
import Verif.Props.StanceReducedMet

/-!
# C103: a robot with a hand on a slope, controlled with the reduced model
-/

set_option linter.unusedSectionVars false

namespace Verif.Props
open Matrix Verif Verif.Spec Verif.Model Verif.Lemmas

/-- the robot with two feet and a hand, on a slope with the coefficient of friction `μ` -/
noncomputable def rampHand (μ : ℝ) (N : Matrix (Fin 6 ⊕ Fin 6) (Fin (6 * 2 - 6)) ℝ) : RQPRobot 6 (6 * 2) :=
  { Hand.robot N with cs := [Ramp.pad μ, Ramp.pad μ] }

theorem rampHand_over (μ : ℝ) : (![0, 1 / 3, 0] : Vec3) ∈ polygon [Ramp.pad μ, Ramp.pad μ] (Ramp.two μ) fun i => ((Blocks.on 0).get i).pos := by
  have h : Convex ℝ (polygon [Ramp.pad μ, Ramp.pad μ] (Ramp.two μ) fun i => ((Blocks.on 0).get i).pos) := convex_convexHull ℝ _
  have := h (Ramp.centre_mem μ 0 0) (Ramp.centre_mem μ 0 1) (show (0 : ℝ) ≤ 2 / 3 by norm_num) (show (0 : ℝ) ≤ 1 / 3 by norm_num) (by norm_num)
  have e : (![0, 1 / 3, 0] : Vec3) = (2 / 3 : ℝ) • ((Blocks.on 0).get (0 : Fin 2)).pos + (1 / 3 : ℝ) • ((Blocks.on 0).get (1 : Fin 2)).pos := by
    funext i
    fin_cases i <;> simp
  rw [e]
  exact this

/-- The hypotheses of `C103_reduced_redistribute_iff` and `C103_reduced_never_fails` are met: on a slope that falls three metres on four, redistribution with
the reduced model succeeds if and only if the coefficient of friction is at least 3/4; if so task control of the hand succeeds. -/
theorem C103_hand_ramp (μ : ℝ) (qd : Sys (Fin 6 ⊕ Fin 6) → ℝ) (Wt : Matrix (Fin (6 * 2)) (Fin (6 * 2)) ℝ) : ∃ s S D C N,
    updateKinematics true (massMatrix Hand.L) 0 1 (mass Hand.L) qd = some s ∧
    reduce vcOf ncOf (ctrlMass Hand.L)⁻¹ 1 (s.G ∘ sysIdx.symm) = some D ∧ contactSpace (stackFn Hand.feet) (ctrlMass Hand.L)⁻¹ = some S ∧
    reducedContact D (stackFn Hand.feet) (ctrlMass Hand.L)⁻¹ = some C ∧ (∃ f : CodNull C.W, reducedNwJw C f = some N) ∧
    (3 / 4 ≤ μ → ∃ τ τR, reducedTaskTorqueQP D C 1 (ctrlMass Hand.L)⁻¹ (rampHand μ N) Stand.solver [TwoFeetFail.task] = .ret 1 τ τR) ∧
    ((∃ τc, reducedRedistribute D C (rampHand μ N) Wt Stand.rsolver 0 0 = some (1, τc)) ↔ 3 / 4 ≤ μ) := by
  obtain ⟨s, hs, hcom, -⟩ := C25_com_partial IsRot.one (List.cons_ne_nil _ _) Hand.masses Hand.inertias Hand.floating qd
  have hc3 : s.comPos = ![0, 1 / 3, 0] := by
    have hc : mass Hand.L • s.comPos = _ := hcom
    rw [Hand.mass_L] at hc
    have c0 := congrFun hc 0; have c1 := congrFun hc 1; have c2 := congrFun hc 2
    simp [Blocks.first, Blocks.second, Hand.palm, Hand.ofLeg, Hand.ofArm] at c0 c1 c2
    funext i
    fin_cases i
    · simpa using c0
    · simp; linarith
    · simpa using c2
  have hBd := C03_feet_determine_base (p := fun i : Fin 2 => ((Blocks.on 0).get i).pos) IsRot.one (by norm_num) Hand.rides
  obtain ⟨S, hS⟩ := Option.isSome_iff_exists.mp ((C02_finite_iff_independent Hand.spd).mpr Hand.independent)
  have hJ := jInc_unit Hand.base
  obtain ⟨D, hD⟩ := Option.isSome_iff_exists.mp ((C40_finite_iff (J := (1 : Matrix (Fin 6) (Fin 6) ℝ)) (G := s.G ∘ sysIdx.symm) Hand.spd).mpr
    fun f h => by simpa using h)
  obtain ⟨C, hC, -⟩ := C41_contact_partial Hand.spd hD Hand.zero (by norm_num) hS
  have hlast := ((C05_outcome Hand.spd Hand.independent (by norm_num) fun W => (exists_codNull W).some).1.mp
    (C05_feet_succeed (p := fun i : Fin 2 => ((Blocks.on 0).get i).pos) IsRot.one (by norm_num) Hand.rides Hand.spd Hand.independent
      fun W => (exists_codNull W).some)).2
  obtain ⟨N, hN⟩ := (C59_finite_iff_partial Hand.spd hD Hand.zero (by norm_num) Hand.independent hC (by norm_num)
    fun W => (exists_codNull W).some).mpr ⟨hBd, hlast⟩
  have h6 : ∀ l ∈ (rampHand μ N).cs, l.type = .c6d := fun l hl => by rw [Ramp.pads μ l hl]; rfl
  have hp : ∀ l ∈ (rampHand μ N).cs, 0 < l.planeX ∧ 0 < l.planeY := fun l hl => by rw [Ramp.pads μ l hl]; norm_num [Ramp.pad]
  have hact : ∀ l ∈ active (rampHand μ N).cs, l = Ramp.pad μ := fun l hl => Ramp.pads μ l (List.mem_of_mem_filter hl)
  have hin : s.comPos ∈ standRegion (rampHand μ N).cs (Ramp.two μ) (fun i => ((Blocks.on 0).get i).pos) ↔ 3 / 4 ≤ μ := by
    constructor
    · intro h
      by_contra hμ
      have hnone := C103_too_steep (Ramp.two μ) (fun i => ((Blocks.on 0).get i).pos) hp (Q := Ramp.tilt) (m := μ)
        (fun l hl => by rw [hact l hl]; exact ⟨rfl, le_rfl⟩) (Or.inl (by
          rw [Ramp.up]
          simp only [cons_val]
          rw [abs_neg, abs_of_pos (by norm_num)]
          linarith))
      exact Set.notMem_empty _ (hnone ▸ h)
    · intro hμ
      refine C103_hull (Ramp.two μ) _ hp (fun l hl => by rw [hact l hl]; exact Ramp.tilt_rot) (Ramp.footing hμ) ⟨0, ?_⟩
      rw [hc3]
      exact rampHand_over μ
  refine ⟨s, S, D, C, N, hs, hD, hS, hC, ⟨_, hN⟩, fun hμ => ?_, ?_⟩
  · refine C103_reduced_never_fails (Q := rampHand μ N) (p := fun i : Fin 2 => ((Blocks.on 0).get i).pos) IsRot.one (List.cons_ne_nil _ _) Hand.masses
      Hand.inertias Hand.floating Hand.rides hs Hand.spd hJ Hand.coupling hD Hand.zero (by norm_num) hS hC h6 (Ramp.two μ) (by norm_num) hp hN
      Stand.solver_sound Stand.solver_complete rfl ?_ (hin.mpr hμ)
    intro T hT
    obtain rfl : T = TwoFeetFail.task := by simpa using hT
    refine ⟨rfl, ?_⟩
    obtain ⟨hF, hP⟩ := rFacts Hand.spd (R := 1) (by simp) hJ Hand.coupling hD Hand.zero (by norm_num) hBd hS hC
    have hready : (calculateJKT S (ctrlMass Hand.L)⁻¹ (fullTask TwoFeetFail.task)).isSome := by
      refine (C06_finite_iff Hand.spd hS _).mpr ?_
      rintro y ⟨F, hy⟩
      funext j
      have h1 := congrFun hy (.inr (.inr j))
      have e1 : ((stackFn Hand.feet)ᵀ *ᵥ F) (.inr (.inr j)) = 0 := by
        rw [mulVec, dotProduct]
        exact Finset.sum_eq_zero fun r _ => by rw [transpose_apply, show stackFn Hand.feet r (.inr (.inr j)) = 0 from Hand.zero r j, zero_mul]
      rw [e1] at h1
      have e2 : (TwoFeetFail.TJᵀ *ᵥ y) (.inr (.inr j)) = y j := by
        exact congrFun (TwoFeetFail.TJ_transpose y) (.inr (.inr j))
      exact (h1.trans e2).symm
    obtain ⟨q, hq⟩ := Option.isSome_iff_exists.mp hready
    obtain ⟨q', hq', -, -⟩ := chainTask_ready (R := 1) (by simp) hJ hF (reduce_eq_some hD).2.2.2.1 hS Hand.chain hq
    exact ⟨q', by rw [hP]; exact hq'⟩
  · obtain ⟨q0, hM⟩ := (C01_contact_force_exact Hand.spd hS (s.G ∘ sysIdx.symm) (reducedGravityTorque D C)).1
    have hq0 : q0 = 0 := by
      rw [C41_gravity_torque_partial Hand.spd hD Hand.zero (by norm_num) hBd hS hC] at hM
      exact (C03_gravity_compensation Hand.spd hS _ hM).2 hBd
    subst hq0
    have hz0 : assembleTorque D (0 : Fin 6 ⊕ Fin 6 → ℝ) (0 : Fin 6 → ℝ) = 0 := by
      have e0 : (fun _ : Fin 6 => (0 : ℝ)) = 0 := rfl
      ext j
      rcases j with j | j
      · simp [assembleTorque]
      · simp [assembleTorque, e0]
    refine (C103_reduced_redistribute_iff (Q := rampHand μ N) (p := fun i : Fin 2 => ((Blocks.on 0).get i).pos) (τR := 0) (τN := 0) IsRot.one
      (List.cons_ne_nil _ _) Hand.masses Hand.inertias Hand.floating Hand.rides hs Hand.spd hJ Hand.coupling hD Hand.zero (by norm_num) hS hC h6 (Ramp.two μ)
      (by norm_num) hp hN Stand.rsolver_exact Stand.rsolver_complete rfl 0 (by rw [hz0, add_zero]; exact hM)).trans hin

end Verif.Props
