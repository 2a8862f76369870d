import Verif.Props.TerrainStep
import Verif.Props.StanceReducedMet
import Verif.Props.JaccAnswers

/-!
# C100, C101, C103: the joint-acceleration QP of the reduced model and the ground
-/

set_option linter.unusedSectionVars false

namespace Verif.Props
open Matrix Verif Verif.Spec Verif.Model Verif.Lemmas

section
variable {k : ℕ} {κ ν : Type} [Fintype κ] [DecidableEq κ] [Fintype ν] [DecidableEq ν]
variable {L : List (MovingLink (Sys (κ ⊕ ν)))} {x0 : Vec3} {R0 : Mat3} {g : Fin k → Foot (κ ⊕ ν)} {p : Fin k → Vec3}
  {qd : Sys (κ ⊕ ν) → ℝ} {s : WholeBody (κ ⊕ ν)} {J : Matrix (Fin 6) ν ℝ} {D : Reduced κ ν} {SI : Mat6}

/-- **C101, C103 (joint-acceleration QP of the reduced model).**  Whatever the tasks and the terrain: if the torque of a level that reports success is sent to
the joints, with any torque added in the null space of the joints outside the contact chains, the full robot moves, and the feet can supply the force and the
moment of its motion.  In particular it stays at rest only if the centre of mass is in the support region. -/
theorem C103_jacc_reduced (hR : IsRot R0) (hL : L ≠ []) (hm : ∀ l ∈ L, 0 < l.m) (hI : ∀ l ∈ L, l.I.PosDef) (hb : ∀ l ∈ L, FloatingBase x0 R0 l)
    (hf : ∀ i, RidesOnBase x0 R0 (p i) (g i).jac) (hs : updateKinematics true (massMatrix L) x0 R0 (mass L) qd = some s)
    (hA : IsSPD (ctrlMass L)) (hJ : jInc SI R0 (baseNc (ctrlMass L)) = some J)
    (hcpl : ∀ (i : κ) (j : ν), ctrlMass L (.inr (.inl i)) (.inr (.inr j)) = 0)
    (h : reduce vcOf ncOf (ctrlMass L)⁻¹ J (s.G ∘ sysIdx.symm) = some D) (h0 : ∀ r j, stackFn g r (ncOf j) = 0) (hi : IndependentRows (stackFn g))
    {cs : List ContactLink} (h6 : ∀ l ∈ cs, l.type = .c6d) (hk : k = (active cs).length) (hp : ∀ l ∈ cs, 0 < l.planeX ∧ 0 < l.planeY)
    {solve : JSolver} (hsolve : solve.Sound) {ts ts' : List (RJTask κ ν (6 * k))} {m : ℕ}
    (hpass : rjaccPass D (stackFn g) cs solve ts m = some (true, ts')) :
    ∃ o : ℕ → JAnswer (κ ⊕ Fin 6) (6 * k), (∀ j < m, ∃ T', ts'[j]? = some T' ∧ T'.out = some (o j)) ∧ ∀ j < m, ∀ τN,
      (∃ qdd F, Motion (ctrlMass L) (stackFn g) (s.G ∘ sysIdx.symm) (assembleTorque D (o j).torque τN) qdd F) ∧
      ∀ qdd F, Motion (ctrlMass L) (stackFn g) (s.G ∘ sysIdx.symm) (assembleTorque D (o j).torque τN) qdd F →
        FeetSupply cs hk p s.comPos (mass L • (earth - s.jacLin *ᵥ (qdd ∘ sysIdx))) (-(angularMomentum s.comPos L (qdd ∘ sysIdx))) ∧
        (qdd = 0 → s.comPos ∈ standRegion cs hk p) := by
  have hc : 6 * k = 6 * (active cs).length := congrArg (6 * ·) hk
  obtain ⟨o, h1, h2⟩ := C62_stack_partial hA (mul_eq_one_comm.mp hR.1) hJ hcpl h h0 hi h6 hp hc hsolve hpass
  refine ⟨o, h1, fun j hj τN => ⟨(h2 j hj τN).1, fun qdd F hM => ?_⟩⟩
  have hh := ((h2 j hj τN).2 qdd F hM).2.1
  refine ⟨(C101_motion_iff hR hL hm hI hb hf hs hk hc hM.2).mp ⟨_, _, hM, hh⟩, ?_⟩
  rintro rfl
  exact (C103_stands_iff hR hL hm hI hb hf hs hk hc hp).mp ⟨_, _, hM, hh⟩

end

namespace Hand

/-- the first foot carries its block and the hand, the second its own block -/
noncomputable def load : Fin (6 * 2) → ℝ := ![0, 0, -19.62, 0, 0, 0, 0, 0, -9.81, 0, 0, 0]

/-- Some torque holds the robot still with these forces. -/
theorem held : ∃ τ, Motion (ctrlMass L) (stackFn feet) (-(Spec.gravityForce earth L) ∘ sysIdx.symm) τ 0 load := by
  refine (C99_held_iff (k := 2) (p := fun i : Fin 2 => ((Blocks.on 0).get i).pos) IsRot.one floating rides earth load).mpr ⟨?_, ?_⟩
  · rw [mass_L, Fin.sum_univ_two]
    funext i
    fin_cases i <;> simp [fpart, wrenchOf, load, earth] <;> norm_num
  · rw [Fin.sum_univ_two, cross_apply, cross_apply, cross_apply]
    funext i
    fin_cases i <;> simp [fpart, mpart, wrenchOf, load, earth, Blocks.first, Blocks.second, palm, ofLeg, ofArm]

theorem feet_moves (i : Fin 2) (b : Sys (Fin 6 ⊕ Fin 6) → ℝ) :
    (feet i).jac *ᵥ (b ∘ sysIdx.symm) = (Blocks.feet 0 i).jac *ᵥ ((b ∘ legs) ∘ sysIdx.symm) := by
  funext a
  simp [feet, ofFoot, mulVec, dotProduct, Fintype.sum_sum_type, sysIdx, legs]

theorem idle {τ : Fin 6 ⊕ Fin 6 → ℝ} (h : Motion (ctrlMass L) (stackFn feet) (-(Spec.gravityForce earth L) ∘ sysIdx.symm) τ 0 load) (j : Fin 6) :
    τ (.inl j) = 0 := by
  have hd : ctrlMass L *ᵥ 0 + (stackFn feet)ᵀ *ᵥ load + -(Spec.gravityForce earth L) ∘ sysIdx.symm = actuate τ := h.1
  have hj := congrArg (fun v => ((Pi.single (.inr (.inl j)) 1 : Sys (Fin 6 ⊕ Fin 6) → ℝ) ∘ sysIdx.symm) ⬝ᵥ v) hd
  have e : ((Pi.single (.inr (.inl j)) 1 : Sys (Fin 6 ⊕ Fin 6) → ℝ) ∘ sysIdx.symm) = Pi.single (.inr (.inl j)) 1 := by
    funext a
    rcases a with a | a
    · simp [sysIdx]
    · simp [sysIdx, Pi.single_apply]
  have eτ : ((Pi.single (.inr (.inl j)) 1 : Sys (Fin 6 ⊕ Fin 6) → ℝ) ∘ sysIdx.symm) ⬝ᵥ actuate τ = τ (.inl j) := by
    rw [e, single_one_dotProduct]; rfl
  have eG : ((Pi.single (.inr (.inl j)) 1 : Sys (Fin 6 ⊕ Fin 6) → ℝ) ∘ sysIdx.symm) ⬝ᵥ (-(Spec.gravityForce earth L) ∘ sysIdx.symm) =
      -((Pi.single (.inr (.inl j)) 1 : Sys (Fin 6 ⊕ Fin 6) → ℝ) ⬝ᵥ Spec.gravityForce earth L) := by
    rw [← dotProduct_neg]
    exact Equiv.sum_comp sysIdx.symm fun x => (Pi.single (.inr (.inl j)) 1 : Sys (Fin 6 ⊕ Fin 6) → ℝ) x * (-(Spec.gravityForce earth L)) x
  have eL : (Pi.single (.inr (.inl j)) 1 : Sys (Fin 6 ⊕ Fin 6) → ℝ) ∘ legs = Pi.single (.inr j) 1 := by
    funext a
    rcases a with a | a <;> simp [legs, Pi.single_apply]
  have eA : (Pi.single (.inr (.inl j)) 1 : Sys (Fin 6 ⊕ Fin 6) → ℝ) ∘ arms = 0 := by
    funext a
    rcases a with a | a <;> simp [arms, Pi.single_apply]
  have e0 : Blocks.feet 0 0 = Blocks.under Blocks.first := rfl
  have e1 : Blocks.feet 0 1 = Blocks.under (Blocks.second 0) := rfl
  simp only [mulVec_zero, zero_add, dotProduct_add] at hj
  rw [eτ, eG, weight_dot, dotProduct_mulVec, vecMul_transpose, stack_dot, Fin.sum_univ_two, feet_moves, feet_moves, eL, dot6, dot6, e0, e1,
    Blocks.under_v, Blocks.under_w, Blocks.under_v, Blocks.under_w] at hj
  simp only [List.map_cons, List.map_nil, ofLeg_v, ofArm_v, eL, eA, mulVec_zero, Blocks.first_v, Blocks.first_w, Blocks.second_v, Blocks.second_w] at hj
  rw [← hj]
  fin_cases j <;> simp [dotProduct, Fin.sum_univ_three, Pi.single_apply, fpart, mpart, wrenchOf, load, earth, Blocks.first, Blocks.second, ofLeg]

theorem carried (hc : 6 * 2 = 6 * (active [Blocks.pad, Blocks.pad]).length) : ContactsHold [Blocks.pad, Blocks.pad] (load ∘ Fin.cast hc.symm) := by
  refine (holds_cast Blocks.two hc _).mpr fun i => ?_
  rw [Blocks.foot_pad, show Blocks.pad.rotm = 1 from rfl, Stand.inFrame_one, noTip_iff (by norm_num [Blocks.pad]) (by norm_num [Blocks.pad])]
  fin_cases i <;> norm_num [wrenchOf, load, press, NoSlip, Blocks.pad]

end Hand

/-- The hypotheses of `C103_jacc_reduced` are met: the joint-acceleration QP of the reduced model of the robot with a hand succeeds on every task. -/
theorem C103_hand_jacc (qd : Sys (Fin 6 ⊕ Fin 6) → ℝ) (T : RJTask (Fin 6) (Fin 6) (6 * 2)) : ∃ s D,
    updateKinematics true (massMatrix Hand.L) 0 1 (mass Hand.L) qd = some s ∧
    reduce vcOf ncOf (ctrlMass Hand.L)⁻¹ 1 (s.G ∘ sysIdx.symm) = some D ∧
    ∃ ts', rjaccPass D (stackFn Hand.feet) [Blocks.pad, Blocks.pad] bestSolver [T] 1 = some (true, ts') := by
  obtain ⟨s, hs, -, -, -, -, -, hG, -⟩ := C25_com_partial IsRot.one (List.cons_ne_nil _ _) Hand.masses Hand.inertias Hand.floating qd
  obtain ⟨D, hD⟩ := Option.isSome_iff_exists.mp ((C40_finite_iff (J := (1 : Matrix (Fin 6) (Fin 6) ℝ)) (G := s.G ∘ sysIdx.symm) Hand.spd).mpr
    fun f h => by simpa using h)
  obtain ⟨τ, h⟩ := Hand.held
  refine ⟨s, D, hs, hD, (C62_succeeds_iff Hand.spd (R := 1) (by simp) (jInc_unit Hand.base) Hand.coupling hD Hand.zero
    (fun l hl => by rw [Blocks.pads l hl]; rfl) (fun l hl => by rw [Blocks.pads l hl]; norm_num [Blocks.pad]) (congrArg (6 * ·) Blocks.two)
    bestSolver_exact bestSolver_complete (by norm_num) (by simp)).mpr ⟨τ, 0, Hand.load, ?_, Hand.carried (congrArg (6 * ·) Blocks.two), fun i => ?_, fun i => ?_, fun i => ?_⟩⟩
  · rw [hG]; exact h
  · rw [Hand.idle h]; norm_num
  · simp
  · have : (fun i : Fin 6 => (0 : RSys (Fin 6) (Fin 6) → ℝ) (ncOf i)) = 0 := rfl
    rw [this, mulVec_zero]
    simp

end Verif.Props
