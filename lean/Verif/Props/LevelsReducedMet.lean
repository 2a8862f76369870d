import Verif.Props.LevelsReduced
import Verif.Props.SupplyReducedMet

/-!
# C92, C101 with the reduced model: how far the hand's command is changed on a slope
-/

set_option linter.unusedSectionVars false

namespace Verif.Props
open Matrix Verif Verif.Spec Verif.Model Verif.Lemmas

/-- the task of `TwoFeetFail` with command `φ` -/
noncomputable def stepTo (φ : Fin 6 → ℝ) : RTaskIn (Fin 6) (Fin 6) := { TwoFeetFail.task with f := φ }

theorem stepTo_chain (φ : Fin 6 → ℝ) : ChainTask (ctrlMass Hand.L) (stepTo φ) := ⟨Hand.chain.1, Hand.chain.2⟩

/-- The hypotheses of `C92_reduced_levels_least_partial` and `C101_reduced_nearest` are met: on a slope that falls three metres on four, with a coefficient
of friction of at least 3/4, QP task control of the hand succeeds whatever is commanded, and the recorded change is never larger than the command. -/
theorem C101_hand_change {μ : ℝ} (hμ : 3 / 4 ≤ μ) (qd : Sys (Fin 6 ⊕ Fin 6) → ℝ) (φ : Fin 6 → ℝ) : ∃ s S D C N,
    updateKinematics true (massMatrix Hand.L) 0 1 (mass Hand.L) qd = some s ∧
    reduce vcOf ncOf (ctrlMass Hand.L)⁻¹ 1 (s.G ∘ sysIdx.symm) = some D ∧ contactSpace (stackFn Hand.feet) (ctrlMass Hand.L)⁻¹ = some S ∧
    reducedContact D (stackFn Hand.feet) (ctrlMass Hand.L)⁻¹ = some C ∧ (∃ f : CodNull C.W, reducedNwJw C f = some N) ∧
    ∃ τ τR out r, ∃ a : Fin 6 → ℝ,
      reducedTaskTorqueQPRec D C 1 (ctrlMass Hand.L)⁻¹ (rampHand μ N) Stand.solver [stepTo φ] [.fresh 6] = (.ret 1 τ τR, out) ∧
      out[0]? = some r ∧ r.fqp = ⟨6, a⟩ ∧ a ⬝ᵥ a ≤ φ ⬝ᵥ φ := by
  obtain ⟨s, hs, hcom, -⟩ := C25_com_partial IsRot.one (List.cons_ne_nil _ _) Hand.masses Hand.inertias Hand.floating qd
  have hc3 : s.comPos = ![0, 1 / 3, 0] := by
    have hc : mass Hand.L • s.comPos = _ := hcom
    rw [Hand.mass_L] at hc
    have c0 := congrFun hc 0; have c1 := congrFun hc 1; have c2 := congrFun hc 2
    simp [Blocks.first, Blocks.second, Hand.palm, Hand.ofLeg, Hand.ofArm] at c0 c1 c2
    funext i
    fin_cases i
    · simpa using c0
    · simp; linarith
    · simpa using c2
  have hBd := C03_feet_determine_base (p := fun i : Fin 2 => ((Blocks.on 0).get i).pos) IsRot.one (by norm_num) Hand.rides
  obtain ⟨S, hS⟩ := Option.isSome_iff_exists.mp ((C02_finite_iff_independent Hand.spd).mpr Hand.independent)
  have hJ := jInc_unit Hand.base
  obtain ⟨D, hD⟩ := Option.isSome_iff_exists.mp ((C40_finite_iff (J := (1 : Matrix (Fin 6) (Fin 6) ℝ)) (G := s.G ∘ sysIdx.symm) Hand.spd).mpr
    fun f h => by simpa using h)
  obtain ⟨C, hC, -⟩ := C41_contact_partial Hand.spd hD Hand.zero (by norm_num) hS
  have hlast := ((C05_outcome Hand.spd Hand.independent (by norm_num) fun W => (exists_codNull W).some).1.mp
    (C05_feet_succeed (p := fun i : Fin 2 => ((Blocks.on 0).get i).pos) IsRot.one (by norm_num) Hand.rides Hand.spd Hand.independent
      fun W => (exists_codNull W).some)).2
  obtain ⟨N, hN⟩ := (C59_finite_iff_partial Hand.spd hD Hand.zero (by norm_num) Hand.independent hC (by norm_num)
    fun W => (exists_codNull W).some).mpr ⟨hBd, hlast⟩
  have h6 : ∀ l ∈ (rampHand μ N).cs, l.type = .c6d := fun l hl => by rw [Ramp.pads μ l hl]; rfl
  have hp : ∀ l ∈ (rampHand μ N).cs, 0 < l.planeX ∧ 0 < l.planeY := fun l hl => by rw [Ramp.pads μ l hl]; norm_num [Ramp.pad]
  have hact : ∀ l ∈ active (rampHand μ N).cs, l = Ramp.pad μ := fun l hl => Ramp.pads μ l (List.mem_of_mem_filter hl)
  have hin : s.comPos ∈ standRegion (rampHand μ N).cs (Ramp.two μ) (fun i => ((Blocks.on 0).get i).pos) := by
    refine C103_hull (Ramp.two μ) _ hp (fun l hl => by rw [hact l hl]; exact Ramp.tilt_rot) (Ramp.footing hμ) ⟨0, ?_⟩
    rw [hc3]
    exact rampHand_over μ
  refine ⟨s, S, D, C, N, hs, hD, hS, hC, ⟨_, hN⟩, ?_⟩
  have hcalc : ∀ φ, ∃ q, calcJKTR D C ((ctrlMass Hand.L)⁻¹ * C.Nc) (stepTo φ) = some q := fun φ => by
    obtain ⟨hF, hP⟩ := rFacts Hand.spd (R := 1) (by simp) hJ Hand.coupling hD Hand.zero (by norm_num) hBd hS hC
    have hready : (calculateJKT S (ctrlMass Hand.L)⁻¹ (fullTask (stepTo φ))).isSome := by
      refine (C06_finite_iff Hand.spd hS _).mpr ?_
      rintro y ⟨F, hy⟩
      funext j
      have h1 := congrFun hy (.inr (.inr j))
      have e1 : ((stackFn Hand.feet)ᵀ *ᵥ F) (.inr (.inr j)) = 0 := by
        rw [mulVec, dotProduct]
        exact Finset.sum_eq_zero fun r _ => by rw [transpose_apply, show stackFn Hand.feet r (.inr (.inr j)) = 0 from Hand.zero r j, zero_mul]
      rw [e1] at h1
      have e2 : (TwoFeetFail.TJᵀ *ᵥ y) (.inr (.inr j)) = y j := by
        exact congrFun (TwoFeetFail.TJ_transpose y) (.inr (.inr j))
      exact (h1.trans e2).symm
    obtain ⟨q, hq⟩ := Option.isSome_iff_exists.mp hready
    obtain ⟨q', hq', -, -⟩ := chainTask_ready (R := 1) (by simp) hJ hF (reduce_eq_some hD).2.2.2.1 hS (stepTo_chain φ) hq
    exact ⟨q', by rw [hP]; exact hq'⟩
  obtain ⟨τ, τR, h1⟩ := C103_reduced_never_fails (Q := rampHand μ N) (p := fun i : Fin 2 => ((Blocks.on 0).get i).pos) IsRot.one (List.cons_ne_nil _ _)
    Hand.masses Hand.inertias Hand.floating Hand.rides hs Hand.spd hJ Hand.coupling hD Hand.zero (by norm_num) hS hC h6 (Ramp.two μ) (by norm_num) hp hN
    Stand.solver_sound Stand.solver_complete rfl (ts := [stepTo φ])
    (fun T hT => by obtain rfl : T = stepTo φ := by simpa using hT
                    exact ⟨rfl, hcalc φ⟩) hin
  have hret : reducedTaskTorqueQPRec D C 1 (ctrlMass Hand.L)⁻¹ (rampHand μ N) Stand.solver ([] ++ stepTo φ :: []) ([] ++ .fresh 6 :: []) =
      (.ret 1 τ τR, (reducedTaskTorqueQPRec D C 1 (ctrlMass Hand.L)⁻¹ (rampHand μ N) Stand.solver [stepTo φ] [.fresh 6]).2) :=
    Prod.ext ((C92_reduced_result rfl).trans h1) rfl
  obtain ⟨r, a, e1, e2, hnear⟩ := C101_reduced_nearest (Q := rampHand μ N) (p := fun i : Fin 2 => ((Blocks.on 0).get i).pos) IsRot.one
    (List.cons_ne_nil _ _) Hand.masses Hand.inertias Hand.floating Hand.rides hs Hand.spd hJ Hand.coupling hD Hand.zero (by norm_num) hS hC h6 (Ramp.two μ)
    (by norm_num) hp hN Stand.solver_exact rfl (T := stepTo φ) rfl (by simp) rfl hret
  refine ⟨τ, τR, _, r, a, hret, e1, e2, ?_⟩
  -- staying needs no torque, and the ground can supply it
  have hzero : reducedTaskTorque D C 1 (ctrlMass Hand.L)⁻¹ [stepTo 0] = some 0 := by
    obtain ⟨q', hq'⟩ := hcalc 0
    have hz0 : assembleTorque D (0 : Fin 6 ⊕ Fin 6 → ℝ) (0 : Fin 6 → ℝ) = 0 := by
      have e0 : (fun _ : Fin 6 => (0 : ℝ)) = 0 := rfl
      ext j
      rcases j with j | j
      · simp [assembleTorque]
      · simp [assembleTorque, e0]
    rcases q' with ⟨T', JR, Λ, Jkt, JNC⟩
    obtain rfl : T' = stepTo 0 := toIn_of_calc hq'
    simp only [reducedTaskTorque, List.mapM_cons, List.mapM_nil, hq', Option.pure_def, Option.bind_eq_bind, Option.bind_some]
    rw [rTaskFrom_chain _ _ _ _ _ none 0 0 (show (stepTo 0).noncont = false from rfl), show (stepTo 0).f = 0 from rfl]
    simp [rTaskFrom, hz0]
  have hc : 6 * 2 = 6 * (active (rampHand μ N).cs).length := congrArg (6 * ·) (Ramp.two μ)
  obtain ⟨q0, hM⟩ := (C01_contact_force_exact Hand.spd hS (s.G ∘ sysIdx.symm) (reducedGravityTorque D C)).1
  have hq0 : q0 = 0 := by
    rw [C41_gravity_torque_partial Hand.spd hD Hand.zero (by norm_num) hBd hS hC] at hM
    exact (C03_gravity_compensation Hand.spd hS _ hM).2 hBd
  subst hq0
  have hstand := C103_stands_iff (p := fun i : Fin 2 => ((Blocks.on 0).get i).pos) IsRot.one (List.cons_ne_nil _ _) Hand.masses Hand.inertias Hand.floating
    Hand.rides hs (Ramp.two μ) hc hp
  have hmove := C101_motion_iff (p := fun i : Fin 2 => ((Blocks.on 0).get i).pos) IsRot.one (List.cons_ne_nil _ _) Hand.masses Hand.inertias Hand.floating
    Hand.rides hs (Ramp.two μ) hc hM.2
  have := hnear (0 : Fin 6 → ℝ) 0 hzero fun qdd F h' => by
    rw [add_zero] at h'
    have hq : qdd = 0 := by
      rw [C41_gravity_torque_partial Hand.spd hD Hand.zero (by norm_num) hBd hS hC] at h'
      exact (C03_gravity_compensation Hand.spd hS _ h').2 hBd
    subst hq
    exact hmove.mp (hstand.mpr hin)
  have e : ((0 : Fin 6 → ℝ) - φ) ⬝ᵥ (0 - φ) = φ ⬝ᵥ φ := by simp
  exact this.trans_eq e

end Verif.Props
