import Verif.Props.TerrainStep
import Verif.Props.StanceReducedMet
import Verif.Props.ModerateLqp
import Verif.Props.JaccQP

/-!
# C100, C101, C103: the hierarchical controller and the ground
-/

set_option linter.unusedSectionVars false

namespace Verif.Props
open Matrix Verif Verif.Spec Verif.Model Verif.Lemmas

section
variable {k n m : ℕ} {L : List (MovingLink (Sys (Fin n)))} {x0 : Vec3} {R0 : Mat3} {g : Fin k → Foot (Fin n)} {p : Fin k → Vec3}
  {qd : Sys (Fin n) → ℝ} {s : WholeBody (Fin n)}

/-- **C101, C103 (hierarchical controller).**  6-D contacts on any terrain, an exact solver.  The robot could stand still with torques within ±200 if and only
if some such torque holds it still so that no contact tips or slips; then the centre of mass is in the support region.  And then, whatever the tasks, the
answers of the contact level and of every task are motions of the robot with torques within ±200, no contact tips or slips in them, and the feet can supply
their force and moment. -/
theorem C103_lqp (hR : IsRot R0) (hL : L ≠ []) (hm : ∀ l ∈ L, 0 < l.m) (hI : ∀ l ∈ L, l.I.PosDef) (hb : ∀ l ∈ L, FloatingBase x0 R0 l)
    (hf : ∀ i, RidesOnBase x0 R0 (p i) (g i).jac) (hs : updateKinematics true (massMatrix L) x0 R0 (mass L) qd = some s)
    (hA : IsSPD (ctrlMass L)) {cs : List ContactLink} (h6 : ∀ l ∈ cs, l.type = .c6d) (hk : k = (active cs).length)
    (hc : 6 * k = 6 * (active cs).length) (hp : ∀ l ∈ cs, 0 < l.planeX ∧ 0 < l.planeY) {C : Matrix (Fin m) (Fin (6 * k)) ℝ}
    (hC : jContactRows cs (6 * k) = some ⟨m, C⟩) (tasks : List (Σ t : ℕ, Matrix (Fin t) (Fin 6 ⊕ Fin n) ℝ × (Fin t → ℝ))) (osqp : Osqp)
    (hs' : OsqpExact osqp) (N : NullSpaceFn) (hN : N.Correct) :
    let R : LqpRobot n (6 * k) m := ⟨ctrlMass L, (ctrlMass L)⁻¹, s.G ∘ sysIdx.symm, stackFn g, C, tasks⟩
    (CanStand R.conf ↔ ∃ τ F, Motion (ctrlMass L) (stackFn g) (s.G ∘ sysIdx.symm) τ 0 F ∧ ContactsHold cs (F ∘ Fin.cast hc.symm) ∧ ∀ i, |τ i| ≤ 200) ∧
    (CanStand R.conf → s.comPos ∈ standRegion cs hk p ∧ ∃ a b rs, calcControlTorqueLQP osqp N R = a :: b :: rs ∧ rs.length = tasks.length ∧
      ∀ r ∈ b :: rs, ∃ τ, Motion (ctrlMass L) (stackFn g) (s.G ∘ sysIdx.symm) τ (qddOf r.y) (forceOf r.y) ∧ (∀ i, |τ i| ≤ 200) ∧
        ContactsHold cs (forceOf r.y ∘ Fin.cast hc.symm) ∧
        FeetSupply cs hk p s.comPos (mass L • (earth - s.jacLin *ᵥ (qddOf r.y ∘ sysIdx))) (-(angularMomentum s.comPos L (qddOf r.y ∘ sysIdx)))) := by
  intro R
  obtain ⟨M, hM, hMF⟩ := jContactRows_six h6 hp hc
  have hrow : ∀ F : Fin (6 * k) → ℝ, (∀ r, (C *ᵥ F) r ≤ 0) ↔ ContactsHold cs (F ∘ Fin.cast hc.symm) := by
    have e := Option.some.inj (hC.symm.trans hM)
    obtain rfl : m = 10 * (active cs).length := congrArg Sigma.fst e
    obtain rfl : C = M := eq_of_heq (Sigma.mk.inj e).2
    exact hMF
  have hmoves : ∀ y, Moves R.conf y → R.J *ᵥ qddOf y = 0 →
      Motion (ctrlMass L) (stackFn g) (s.G ∘ sysIdx.symm) (fun i => demand R.conf y (.inr i)) (qddOf y) (forceOf y) := by
    intro y hy hfix
    refine ⟨?_, hfix⟩
    funext i
    have e : (ctrlMass L *ᵥ qddOf y + (stackFn g)ᵀ *ᵥ forceOf y + s.G ∘ sysIdx.symm) i = demand R.conf y i := by
      show _ = (ctrlMass L *ᵥ qddOf y + s.G ∘ sysIdx.symm + (stackFn g)ᵀ *ᵥ forceOf y) i
      rw [add_right_comm]
    refine e.trans ?_
    rcases i with i | i
    · rw [hy.1 i]; rfl
    · rfl
  have hiff : CanStand R.conf ↔ ∃ τ F, Motion (ctrlMass L) (stackFn g) (s.G ∘ sysIdx.symm) τ 0 F ∧ ContactsHold cs (F ∘ Fin.cast hc.symm) ∧
      ∀ i, |τ i| ≤ 200 := by
    constructor
    · rintro ⟨y, h1, h2, h3⟩
      have := hmoves y h1 (by rw [h2, mulVec_zero])
      rw [h2] at this
      exact ⟨_, _, this, (hrow _).mp h3, h1.2⟩
    · rintro ⟨τ, F, hM, hh, hτ⟩
      have e : demand R.conf (Sum.elim 0 F) = actuate τ := by
        rw [← hM.1]
        show ctrlMass L *ᵥ 0 + s.G ∘ sysIdx.symm + (stackFn g)ᵀ *ᵥ F = _
        rw [add_right_comm]
      refine ⟨Sum.elim 0 F, ⟨fun i => by rw [e]; rfl, fun i => by rw [e]; exact hτ i⟩, rfl, (hrow F).mpr hh⟩
  refine ⟨hiff, fun hstand => ⟨?_, ?_⟩⟩
  · obtain ⟨τ, F, hM, hh, -⟩ := hiff.mp hstand
    exact (C103_stands_iff hR hL hm hI hb hf hs hk hc hp).mp ⟨τ, F, hM, hh⟩
  · have hunit : R.M * R.Minv = 1 := hA.mul_inv
    obtain ⟨a, b, rs, h1, h2, ⟨h3, h4⟩, h5⟩ := C57_levels_partial osqp hs' N hN R hA hunit
    obtain ⟨b1, b2⟩ := lqp_contact_still (R := R.conf) hA (conf_weight hA) hstand h4
    refine ⟨a, b, rs, h1, h2, fun r hr => ?_⟩
    have hok : Moves R.conf r.y ∧ R.J *ᵥ qddOf r.y = 0 ∧ ∀ i, (C *ᵥ forceOf r.y) i ≤ 0 := by
      rcases List.mem_cons.mp hr with rfl | hr
      · exact ⟨h3, by rw [b1, mulVec_zero], b2⟩
      · obtain ⟨j, hj⟩ := List.mem_iff_getElem?.mp hr
        have hlt := (List.getElem?_eq_some_iff.mp hj).1
        obtain ⟨⟨k1, k2, -⟩, -⟩ := h5 j r _ hj (List.getElem?_eq_getElem (by omega))
        refine ⟨k1, ?_, fun i => (k2.2.1 i).trans (max_le (b2 i) le_rfl)⟩
        have := k2.1
        rw [b1, mulVec_zero] at this
        exact this
    have hM := hmoves _ hok.1 hok.2.1
    have hh := (hrow _).mp hok.2.2
    exact ⟨_, hM, hok.1.2, hh, (C101_motion_iff hR hL hm hI hb hf hs hk hc hM.2).mp ⟨_, _, hM, hh⟩⟩

end

/-- The hypotheses of `C103_lqp` are met: the two blocks can stand, whatever the tasks are. -/
theorem C103_blocks_lqp (qd : Sys (Fin 6) → ℝ) (tasks : List (Σ t : ℕ, Matrix (Fin t) (Fin 6 ⊕ Fin 6) ℝ × (Fin t → ℝ))) : ∃ s m C,
    updateKinematics true (massMatrix (Blocks.L 0)) 0 1 (mass (Blocks.L 0)) qd = some s ∧
    jContactRows [Blocks.pad, Blocks.pad] (6 * 2) = some ⟨m, C⟩ ∧
    CanStand (LqpRobot.conf ⟨ctrlMass (Blocks.L 0), (ctrlMass (Blocks.L 0))⁻¹, s.G ∘ sysIdx.symm, stackFn (Blocks.feet 0), C, tasks⟩) := by
  obtain ⟨s, hs, -, -, -, -, -, hG, -⟩ := C25_com_partial IsRot.one (List.cons_ne_nil _ _) (Blocks.masses 0) (Blocks.inertias 0) (Blocks.floating 0) qd
  have h6 : ∀ l ∈ [Blocks.pad, Blocks.pad], l.type = .c6d := fun l hl => by rw [Blocks.pads l hl]; rfl
  have hp : ∀ l ∈ [Blocks.pad, Blocks.pad], 0 < l.planeX ∧ 0 < l.planeY := fun l hl => by rw [Blocks.pads l hl]; norm_num [Blocks.pad]
  have hc : 6 * 2 = 6 * (active [Blocks.pad, Blocks.pad]).length := congrArg (6 * ·) Blocks.two
  obtain ⟨M, hM, hMF⟩ := jContactRows_six h6 hp hc
  obtain ⟨τ, h⟩ := Blocks.held 0
  obtain rfl := Blocks.idle h
  refine ⟨s, _, M, hs, hM, Sum.elim 0 (Blocks.F 0), ?_, rfl, (hMF _).mpr (Blocks.carried hc)⟩
  have e : demand (LqpRobot.conf ⟨ctrlMass (Blocks.L 0), (ctrlMass (Blocks.L 0))⁻¹, s.G ∘ sysIdx.symm, stackFn (Blocks.feet 0), M, tasks⟩)
      (Sum.elim 0 (Blocks.F 0)) = actuate 0 := by
    rw [← h.1]
    show ctrlMass (Blocks.L 0) *ᵥ 0 + s.G ∘ sysIdx.symm + (stackFn (Blocks.feet 0))ᵀ *ᵥ Blocks.F 0 = _
    rw [add_right_comm, hG]
    rfl
  refine ⟨fun i => by rw [e]; rfl, fun i => ?_⟩
  rw [e]
  show |(0 : ℝ)| ≤ 200
  norm_num

end Verif.Props
