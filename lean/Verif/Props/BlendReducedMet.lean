import Verif.Props.BlendReduced
import Verif.Props.ReducedModerate

/-!
# The hypotheses of C96 for the reduced model are met
-/

set_option linter.unusedSectionVars false

namespace Verif.Props
open Matrix Verif Verif.Spec Verif.Model

namespace TurnLeg

/-- one foot on the ground, no torque limit -/
noncomputable def robot : RQPRobot 6 6 := { FreeQP.robot with limit := none }

/-- the foot carries weight one and a small yaw moment -/
theorem hold {F : Fin 6 → ℝ} (hF : ∀ i, F i = if i = 2 then -1 else if i = 5 then F 5 else 0) (h5 : |F 5| ≤ 2 / 10) :
    ContactsHold ArmQP.cs (F ∘ Fin.cast ArmQP.dof.symm) := by
  intro i
  have hi : i.val = 0 := by have := i.isLt; have := ArmQP.dof; omega
  have hl : ∀ l ∈ active ArmQP.cs, l = exContact true := by simp [active, ArmQP.cs, exContact]
  have hi' := hl _ (List.getElem_mem i.isLt)
  simp only [Fin.getElem_fin, hi']
  rw [show (exContact true).rotm = 1 from rfl, Stand.inFrame_one]
  generalize hw : wrenchOf (F ∘ Fin.cast ArmQP.dof.symm) i = w
  have hv : ∀ j : Fin 6, w j = F j := by
    intro j
    rw [← hw]
    simp only [wrenchOf, Function.comp]
    have : (Fin.cast ArmQP.dof.symm ⟨6 * i + j, by omega⟩ : Fin 6) = j := by ext; simp [hi]
    rw [this]
  have v0 : w 0 = 0 := by rw [hv, hF]; rfl
  have v1 : w 1 = 0 := by rw [hv, hF]; rfl
  have v2 : w 2 = -1 := by rw [hv, hF]; rfl
  have v3 : w 3 = 0 := by rw [hv, hF]; rfl
  have v4 : w 4 = 0 := by rw [hv, hF]; rfl
  have v5 : |w 5| ≤ 2 / 10 := by rw [hv]; exact h5
  have hx : (exContact true).planeX = 15 / 100 := rfl
  have hy : (exContact true).planeY = 75 / 1000 := rfl
  have hf : (exContact true).friction = 2 / 10 := rfl
  have hz : (exContact true).frictionZ = 2 / 10 := rfl
  rw [hx, hy, hf, hz]
  constructor
  · rw [noTip_iff (by norm_num) (by norm_num)]
    simp [press, v2, v3, v4]
    norm_num
  · unfold NoSlip
    rw [press, v0, v1, v2]
    norm_num at v5 ⊢
    exact v5

/-- turning the leg with at most 1/10 is followed -/
theorem followed {D : Reduced (Fin 6) (Fin 6)} {C : ReducedContact 6 (Fin 6) (Fin 6)} {S : ContactSpace 6 (Fin 6 ⊕ Fin 6)}
    (hD : reduce vcOf ncOf (exRed 6)⁻¹ 1 FreeQP.G = some D) (hS : contactSpace (exFoot 6) (exRed 6)⁻¹ = some S)
    (hC : reducedContact D (exFoot 6) (exRed 6)⁻¹ = some C) {solve : Solver} (hs : solve.Exact) (ha : solve.Complete)
    {f : ℝ} (hf : |f| ≤ 1 / 10) (r : RTaskRecord 6) :
    ∃ τ τR out, reducedTaskTorqueQPRec D C 1 (exRed 6)⁻¹ robot solve [exRow (legRow 5) f true 0] [r] = (.ret 1 τ τR, out) ∧
      AllFollowedR out := by
  obtain ⟨Q0, hQ0, o0⟩ := exRow_ready hS (legRow_exP 5) f true 0
  obtain ⟨hF, hP⟩ := rFacts exRed_spd (by simp) exRed_jInc exRed_coupling hD (fun _ _ => rfl) le_rfl exFoot_base hS hC
  have hDJ := (reduce_eq_some hD).2.2.2.1
  obtain ⟨q0, c0, r0, p0⟩ := chainTask_ready (R := 1) (by simp) exRed_jInc hF hDJ hS (exRow_chain (by simp [ncOf]) f 0) hQ0
  obtain ⟨Cm, hst, h'⟩ := stackC_holds ArmQP.six ArmQP.plane ArmQP.dof
  have hst' : stackC robot.cs 6 = some ⟨_, Cm⟩ := hst
  have hg : q0.Jᵀ *ᵥ (q0.Λ *ᵥ q0.f) = (5 / 2 * f : ℝ) • legRow 5 := by
    change (ofR q0).Jᵀ *ᵥ ((ofR q0).Λ *ᵥ (ofR q0).f) = _
    rw [p0, o0, exRow_force]
  obtain ⟨t, ht⟩ : ∃ t, q0.Jkt *ᵥ (q0.Λ *ᵥ q0.f) = t := ⟨_, rfl⟩
  have hacc : S.AinvNc *ᵥ actuate (assembleTorque D t 0) = exP ((5 / 2 * f : ℝ) • legRow 5) := by
    have z : ncExt (D.N *ᵥ (0 : Fin 6 → ℝ)) = (0 : RSys (Fin 6) (Fin 6) → ℝ) := by
      rw [mulVec_zero]
      ext a
      rcases a with a | a | a <;> rfl
    rw [acc_assemble hF, z, mulVec_zero, add_zero, ← ht, accR_Jkt hF r0, hg, exP_eq hS]
  have hok : OkR D C none Cm (reducedGravity D C + 0 + prevNull (ν := Fin 6) none *ᵥ (q0.Jkt *ᵥ (q0.Λ *ᵥ q0.f)) + robot.NwJw *ᵥ 0) := by
    refine ⟨fun L hL => by simp at hL, ?_⟩
    have e1 : prevNull (ν := Fin 6) none *ᵥ t = t := Matrix.one_mulVec t
    rw [ht, e1, add_zero, mulVec_zero, add_zero]
    rw [← assembled_force exRed_spd (R := 1) (by simp) exRed_jInc exRed_coupling hD (fun _ _ => rfl) le_rfl exFoot_base hS hC t 0]
    obtain ⟨qdd, hm⟩ := (C01_contact_force_exact exRed_spd hS FreeQP.G (reducedGravityTorque D C + assembleTorque D t 0)).1
    generalize contactForce S (gravityForce S FreeQP.G) (reducedGravityTorque D C + assembleTorque D t 0) = F at hm ⊢
    have hd := hm.1
    rw [C41_gravity_torque_partial exRed_spd hD (fun _ _ => rfl) le_rfl exFoot_base hS hC] at hm
    have hq := acc_of_motion exRed_spd hS exFoot_base hm
    rw [hacc] at hq
    subst hq
    unfold Dynamics at hd
    rw [exRed, add_mulVec, one_mulVec, ← mulVec_mulVec, exE_mulVec, exE_transpose_mulVec, exFoot_transpose_mulVec] at hd
    have hb : ∀ i, F i = if i = 2 then -1 else if i = 5 then 3 / 2 * f else 0 := by
      intro i
      have := congrFun hd (.inl i)
      fin_cases i <;> simp [actuate, exP, FreeQP.G] at this ⊢ <;> linarith
    have h5 : F 5 = 3 / 2 * f := by rw [hb]; rfl
    refine (h' F).mpr (hold (fun i => by rw [h5]; exact hb i) ?_)
    rw [h5, abs_mul]
    norm_num
    linarith
  have hmm : [exRow (legRow 5) f true 0].mapM (calcJKTR D C ((exRed 6)⁻¹ * C.Nc)) = some [q0] := by
    rw [hP]
    simp [c0]
  simp only [reducedTaskTorqueQPRec, hmm]
  obtain ⟨r', hr, e⟩ := rloop_zero (R := 1) (P := (exRed 6)⁻¹ * C.Nc) (K := _) rfl hst' hs ha 0 none 0 0 none r0.kind r [] hok
  rw [List.zip_cons_cons, List.zip_nil_left, e]
  refine ⟨_, _, _, rfl, fun x hx => ?_⟩
  simp only [rqpFromRec, List.mem_singleton] at hx
  subst hx
  exact hr

end TurnLeg

/-- The robot of C40 on one foot, turning the leg one way and turning it the other way: both commands are followed, so are all in
between. -/
example {solve : Solver} (hs : solve.Exact) (ha : solve.Complete) {s : ℝ} (h0 : 0 ≤ s) (h1 : s ≤ 1) :
    ∃ D C τ τ' τR τR' out out' out'', reduce vcOf ncOf (exRed 6)⁻¹ 1 FreeQP.G = some D ∧
      reducedContact D (exFoot 6) (exRed 6)⁻¹ = some C ∧
      reducedTaskTorqueQPRec D C 1 (exRed 6)⁻¹ TurnLeg.robot solve [exRow (legRow 5) (1 / 10) true 0] [RTaskRecord.fresh 6] =
        (.ret 1 τ τR, out) ∧ AllFollowedR out ∧
      reducedTaskTorqueQPRec D C 1 (exRed 6)⁻¹ TurnLeg.robot solve [exRow (legRow 5) (-1 / 20) true 0] [RTaskRecord.fresh 6] =
        (.ret 1 τ' τR', out') ∧ AllFollowedR out' ∧
      reducedTaskTorqueQPRec D C 1 (exRed 6)⁻¹ TurnLeg.robot solve
        [blendedR s ⟨exRow (legRow 5) (1 / 10) true 0, fun _ => -1 / 20⟩] [RTaskRecord.fresh 6] =
        (.ret 1 (τ + s • (τ' - τ)) (τR + s • (τR' - τR)), out'') ∧ AllFollowedR out'' := by
  obtain ⟨D, S, C, hD, hS, hC, -⟩ := exC55 FreeQP.G
  obtain ⟨τ, τR, out, e, hf⟩ := TurnLeg.followed hD hS hC hs ha (f := 1 / 10) (by rw [abs_of_pos] <;> norm_num) (RTaskRecord.fresh 6)
  obtain ⟨τ', τR', out', e', hf'⟩ := TurnLeg.followed hD hS hC hs ha (f := -1 / 20) (by rw [abs_of_neg] <;> norm_num)
    (RTaskRecord.fresh 6)
  obtain ⟨out'', e'', hf''⟩ := C96_reduced_blend_partial (fun i t n d x h => (hs i t n d x h).1)
    (fun i t n d x h => (hs i t n d x h).1) hs ha h0 h1
    [⟨exRow (legRow 5) (1 / 10) true 0, fun _ => -1 / 20⟩] (by simp [exRow]) (rs'' := [RTaskRecord.fresh 6]) rfl rfl rfl e hf e' hf'
  exact ⟨D, C, τ, τ', τR, τR', out, out', out'', hD, hC, e, hf, e', hf', e'', hf''⟩

end Verif.Props
