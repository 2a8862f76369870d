import Verif.Props.SupplyReduced
import Verif.Props.TerrainReducedMet

/-!
# C101 with the reduced model: a robot with a hand told to stay, on a slope
-/

set_option linter.unusedSectionVars false

namespace Verif.Props
open Matrix Verif Verif.Spec Verif.Model Verif.Lemmas

/-- the task of `TwoFeetFail` with the command not to move -/
noncomputable def stay : RTaskIn (Fin 6) (Fin 6) := { TwoFeetFail.task with f := 0 }

theorem stay_chain : ChainTask (ctrlMass Hand.L) stay := ⟨Hand.chain.1, Hand.chain.2⟩

/-- The hypotheses of `C101_reduced_followed_iff` and `C48_reduced_kept_iff_partial` are met: on a slope that falls three metres on four, the command to stay
is followed as it is if and only if the coefficient of friction is at least 3/4. -/
theorem C101_hand_stays (μ : ℝ) (qd : Sys (Fin 6 ⊕ Fin 6) → ℝ) : ∃ s S D C N,
    updateKinematics true (massMatrix Hand.L) 0 1 (mass Hand.L) qd = some s ∧
    reduce vcOf ncOf (ctrlMass Hand.L)⁻¹ 1 (s.G ∘ sysIdx.symm) = some D ∧ contactSpace (stackFn Hand.feet) (ctrlMass Hand.L)⁻¹ = some S ∧
    reducedContact D (stackFn Hand.feet) (ctrlMass Hand.L)⁻¹ = some C ∧ (∃ f : CodNull C.W, reducedNwJw C f = some N) ∧
    ((∃ τ τR out, reducedTaskTorqueQPRec D C 1 (ctrlMass Hand.L)⁻¹ (rampHand μ N) Stand.solver [stay] [.fresh 6] = (.ret 1 τ τR, out) ∧
      ∀ r ∈ out, r.fqp.2 = 0) ↔ 3 / 4 ≤ μ) := by
  obtain ⟨s, hs, hcom, -⟩ := C25_com_partial IsRot.one (List.cons_ne_nil _ _) Hand.masses Hand.inertias Hand.floating qd
  have hc3 : s.comPos = ![0, 1 / 3, 0] := by
    have hc : mass Hand.L • s.comPos = _ := hcom
    rw [Hand.mass_L] at hc
    have c0 := congrFun hc 0; have c1 := congrFun hc 1; have c2 := congrFun hc 2
    simp [Blocks.first, Blocks.second, Hand.palm, Hand.ofLeg, Hand.ofArm] at c0 c1 c2
    funext i
    fin_cases i
    · simpa using c0
    · simp; linarith
    · simpa using c2
  have hBd := C03_feet_determine_base (p := fun i : Fin 2 => ((Blocks.on 0).get i).pos) IsRot.one (by norm_num) Hand.rides
  obtain ⟨S, hS⟩ := Option.isSome_iff_exists.mp ((C02_finite_iff_independent Hand.spd).mpr Hand.independent)
  have hJ := jInc_unit Hand.base
  obtain ⟨D, hD⟩ := Option.isSome_iff_exists.mp ((C40_finite_iff (J := (1 : Matrix (Fin 6) (Fin 6) ℝ)) (G := s.G ∘ sysIdx.symm) Hand.spd).mpr
    fun f h => by simpa using h)
  obtain ⟨C, hC, -⟩ := C41_contact_partial Hand.spd hD Hand.zero (by norm_num) hS
  have hlast := ((C05_outcome Hand.spd Hand.independent (by norm_num) fun W => (exists_codNull W).some).1.mp
    (C05_feet_succeed (p := fun i : Fin 2 => ((Blocks.on 0).get i).pos) IsRot.one (by norm_num) Hand.rides Hand.spd Hand.independent
      fun W => (exists_codNull W).some)).2
  obtain ⟨N, hN⟩ := (C59_finite_iff_partial Hand.spd hD Hand.zero (by norm_num) Hand.independent hC (by norm_num)
    fun W => (exists_codNull W).some).mpr ⟨hBd, hlast⟩
  have h6 : ∀ l ∈ (rampHand μ N).cs, l.type = .c6d := fun l hl => by rw [Ramp.pads μ l hl]; rfl
  have hp : ∀ l ∈ (rampHand μ N).cs, 0 < l.planeX ∧ 0 < l.planeY := fun l hl => by rw [Ramp.pads μ l hl]; norm_num [Ramp.pad]
  have hact : ∀ l ∈ active (rampHand μ N).cs, l = Ramp.pad μ := fun l hl => Ramp.pads μ l (List.mem_of_mem_filter hl)
  have hin : s.comPos ∈ standRegion (rampHand μ N).cs (Ramp.two μ) (fun i => ((Blocks.on 0).get i).pos) ↔ 3 / 4 ≤ μ := by
    constructor
    · intro h
      by_contra hμ
      have hnone := C103_too_steep (Ramp.two μ) (fun i => ((Blocks.on 0).get i).pos) hp (Q := Ramp.tilt) (m := μ)
        (fun l hl => by rw [hact l hl]; exact ⟨rfl, le_rfl⟩) (Or.inl (by
          rw [Ramp.up]
          simp only [cons_val]
          rw [abs_neg, abs_of_pos (by norm_num)]
          linarith))
      exact Set.notMem_empty _ (hnone ▸ h)
    · intro hμ
      refine C103_hull (Ramp.two μ) _ hp (fun l hl => by rw [hact l hl]; exact Ramp.tilt_rot) (Ramp.footing hμ) ⟨0, ?_⟩
      rw [hc3]
      exact rampHand_over μ
  refine ⟨s, S, D, C, N, hs, hD, hS, hC, ⟨_, hN⟩, ?_⟩
  -- the command to stay takes no torque
  have hzero : reducedTaskTorque D C 1 (ctrlMass Hand.L)⁻¹ [stay] = some 0 := by
    obtain ⟨hF, hP⟩ := rFacts Hand.spd (R := 1) (by simp) hJ Hand.coupling hD Hand.zero (by norm_num) hBd hS hC
    have hready : (calculateJKT S (ctrlMass Hand.L)⁻¹ (fullTask stay)).isSome := by
      refine (C06_finite_iff Hand.spd hS _).mpr ?_
      rintro y ⟨F, hy⟩
      funext j
      have h1 := congrFun hy (.inr (.inr j))
      have e1 : ((stackFn Hand.feet)ᵀ *ᵥ F) (.inr (.inr j)) = 0 := by
        rw [mulVec, dotProduct]
        exact Finset.sum_eq_zero fun r _ => by rw [transpose_apply, show stackFn Hand.feet r (.inr (.inr j)) = 0 from Hand.zero r j, zero_mul]
      rw [e1] at h1
      have e2 : (TwoFeetFail.TJᵀ *ᵥ y) (.inr (.inr j)) = y j := by
        exact congrFun (TwoFeetFail.TJ_transpose y) (.inr (.inr j))
      exact (h1.trans e2).symm
    obtain ⟨q, hq⟩ := Option.isSome_iff_exists.mp hready
    obtain ⟨q', hq', -, -⟩ := chainTask_ready (R := 1) (by simp) hJ hF (reduce_eq_some hD).2.2.2.1 hS stay_chain hq
    have hz0 : assembleTorque D (0 : Fin 6 ⊕ Fin 6 → ℝ) (0 : Fin 6 → ℝ) = 0 := by
      have e0 : (fun _ : Fin 6 => (0 : ℝ)) = 0 := rfl
      ext j
      rcases j with j | j
      · simp [assembleTorque]
      · simp [assembleTorque, e0]
    rcases q' with ⟨T', JR, Λ, Jkt, JNC⟩
    obtain rfl : T' = stay := toIn_of_calc hq'
    rw [← hP] at hq'
    simp only [reducedTaskTorque, List.mapM_cons, List.mapM_nil, hq', Option.pure_def, Option.bind_eq_bind, Option.bind_some]
    rw [rTaskFrom_chain _ _ _ _ _ none 0 0 (show stay.noncont = false from rfl), show stay.f = 0 from rfl]
    simp [rTaskFrom, hz0]
  have hc : 6 * 2 = 6 * (active (rampHand μ N).cs).length := congrArg (6 * ·) (Ramp.two μ)
  obtain ⟨q0, hM⟩ := (C01_contact_force_exact Hand.spd hS (s.G ∘ sysIdx.symm) (reducedGravityTorque D C)).1
  have hq0 : q0 = 0 := by
    rw [C41_gravity_torque_partial Hand.spd hD Hand.zero (by norm_num) hBd hS hC] at hM
    exact (C03_gravity_compensation Hand.spd hS _ hM).2 hBd
  subst hq0
  have hstand := C103_stands_iff (p := fun i : Fin 2 => ((Blocks.on 0).get i).pos) IsRot.one (List.cons_ne_nil _ _) Hand.masses Hand.inertias Hand.floating
    Hand.rides hs (Ramp.two μ) hc hp
  have hmove := C101_motion_iff (p := fun i : Fin 2 => ((Blocks.on 0).get i).pos) IsRot.one (List.cons_ne_nil _ _) Hand.masses Hand.inertias Hand.floating
    Hand.rides hs (Ramp.two μ) hc hM.2
  rw [C101_reduced_followed_iff (Q := rampHand μ N) (p := fun i : Fin 2 => ((Blocks.on 0).get i).pos) IsRot.one (List.cons_ne_nil _ _) Hand.masses
    Hand.inertias Hand.floating Hand.rides hs Hand.spd hJ Hand.coupling hD Hand.zero (by norm_num) hS hC h6 (Ramp.two μ) (by norm_num) hp hN
    Stand.solver_exact Stand.solver_complete rfl (ts := [stay]) (rs := [.fresh 6]) (by simp [stay, TwoFeetFail.task]) rfl]
  refine Iff.trans ?_ ((hmove.symm.trans hstand).trans hin)
  constructor
  · intro hall
    obtain ⟨τj, e, hj⟩ := hall 0 (by simp)
    obtain rfl : 0 = τj := Option.some.inj (hzero.symm.trans e)
    exact hj _ _ (by rw [add_zero]; exact hM)
  · intro hsup j hj
    obtain rfl : j = 0 := by simpa using hj
    refine ⟨0, hzero, fun qdd F h' => ?_⟩
    rw [add_zero] at h'
    have hq : qdd = 0 := by
      rw [C41_gravity_torque_partial Hand.spd hD Hand.zero (by norm_num) hBd hS hC] at h'
      exact (C03_gravity_compensation Hand.spd hS _ h').2 hBd
    subst hq
    exact hsup

end Verif.Props
