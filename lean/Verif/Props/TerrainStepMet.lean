import Verif.Props.TerrainStep
import Verif.Props.TerrainMet
import Verif.Props.StanceReducedMet

/-!
# C103: two blocks on a slope, one of them on a wide sole
-/

set_option linter.unusedSectionVars false

namespace Verif.Props
open Matrix Verif Verif.Spec Verif.Model Verif.Lemmas

namespace Steep

/-- the two blocks on a slope that falls three metres on four; the sole of the first reaches under the centre of mass -/
noncomputable def feet (μ : ℝ) : List (Foot (Fin 6)) :=
  [{ link := { Ramp.pad μ with planeY := 3 / 5, frictionZ := 1 }, jac := (Blocks.feet 0 0).jac }, { link := Ramp.pad μ, jac := (Blocks.feet 0 1).jac }]

variable (μ : ℝ)

noncomputable def at' (i : Fin (feet μ).length) : Vec3 := ((Blocks.on 0).get (show Fin 2 from i)).pos

def both : Fin (feet μ).length → Bool := fun _ => true

theorem two : 2 ≤ (numbers (both μ)).length := by
  have : numbers (both μ) = List.finRange 2 := by
    unfold numbers both
    rw [List.filter_true]
    rfl
  rw [this]
  rfl

/-- one foot alone -/
def only (i₀ : Fin 2) : Fin (feet μ).length → Bool := fun i => (show Fin 2 from i) == i₀

theorem jac_eq (i : Fin (feet μ).length) : ((feet μ).get i).jac = (Blocks.feet 0 (show Fin 2 from i)).jac := by
  change Fin 2 at i
  fin_cases i <;> rfl

theorem rides (i : Fin (feet μ).length) : RidesOnBase 0 1 (at' μ i) ((feet μ).get i).jac := by
  rw [jac_eq]
  exact Blocks.rides 0 _

theorem link_eq {f : Foot (Fin 6)} (hf : f ∈ feet μ) : f.link = Ramp.pad μ ∨ f.link = { Ramp.pad μ with planeY := 3 / 5, frictionZ := 1 } := by
  simp only [feet, List.mem_cons, List.not_mem_nil, or_false] at hf
  rcases hf with rfl | rfl
  · exact Or.inr rfl
  · exact Or.inl rfl

theorem independent : IndependentRows (stackFeet (setContacts (feet μ) (both μ))) := by
  intro F hF
  obtain ⟨f, rfl, -⟩ := exists_forces (both μ) F
  rw [stack_transpose] at hF
  let f' : Fin 2 → Fin 6 → ℝ := f
  have h := Blocks.independent 0 (fun r => f' ⟨r / 6, by omega⟩ ⟨r % 6, by omega⟩) (by
    rw [stackFn_transpose]
    refine Eq.trans (Finset.sum_congr rfl fun i _ => ?_) hF
    refine Eq.trans ?_ (if_pos (show both μ (show Fin (feet μ).length from i) = true from rfl)).symm
    have e : wrenchOf (fun r : Fin (6 * 2) => f' ⟨r / 6, by omega⟩ ⟨r % 6, by omega⟩) i = f' i := by
      funext j
      have h1 : (⟨(6 * i.val + j.val) / 6, by omega⟩ : Fin 2) = i := Fin.ext (by simp only; omega)
      have h2 : (⟨(6 * i.val + j.val) % 6, by omega⟩ : Fin 6) = j := Fin.ext (by simp only; omega)
      show f' ⟨(6 * i.val + j.val) / 6, by omega⟩ ⟨(6 * i.val + j.val) % 6, by omega⟩ = f' i j
      rw [h1, h2]
    rw [e]
    exact congrArg (fun J : Matrix (Fin 6) (Fin 6 ⊕ Fin 6) ℝ => Jᵀ *ᵥ f' i) (jac_eq μ i).symm)
  have hf : ∀ i j, f' i j = 0 := by
    intro i j
    have h1 : (⟨(6 * i.val + j.val) / 6, by omega⟩ : Fin 2) = i := Fin.ext (by simp only; omega)
    have h2 : (⟨(6 * i.val + j.val) % 6, by omega⟩ : Fin 6) = j := Fin.ext (by simp only; omega)
    have := congrFun h ⟨6 * i.val + j.val, by omega⟩
    simp only [h1, h2] at this
    exact this
  funext r
  exact hf _ _

theorem links (on : Fin (feet μ).length → Bool) {c : ContactLink} (hc : c ∈ (setContacts (feet μ) on).map Foot.link) :
    c.rotm = Ramp.tilt ∧ c.friction = μ ∧ 0 < c.planeX ∧ 0 < c.planeY := by
  simp only [setContacts, List.map_map, List.mem_map] at hc
  obtain ⟨i, -, rfl⟩ := hc
  rcases link_eq μ (List.get_mem (feet μ) i) with h | h
  · show ((feet μ).get i).link.rotm = _ ∧ ((feet μ).get i).link.friction = μ ∧ 0 < ((feet μ).get i).link.planeX ∧ 0 < ((feet μ).get i).link.planeY
    rw [h]
    exact ⟨rfl, rfl, by norm_num [Ramp.pad], by norm_num [Ramp.pad]⟩
  · show ((feet μ).get i).link.rotm = _ ∧ ((feet μ).get i).link.friction = μ ∧ 0 < ((feet μ).get i).link.planeX ∧ 0 < ((feet μ).get i).link.planeY
    rw [h]
    exact ⟨rfl, rfl, by norm_num [Ramp.pad], by norm_num⟩

/-- on the wide sole alone, or with the other, the robot can stand exactly if it does not slide -/
theorem region (on : Fin (feet μ).length → Bool) (h0 : on (0 : Fin 2) = true) : (![0, 1 / 2, 0] : Vec3) ∈ stanceRegion (feet μ) (at' μ) on ↔ 3 / 4 ≤ μ := by
  rw [← region_set]
  constructor
  · intro h
    by_contra hμ
    have hnone := C103_too_steep (count_set on) (fun k => at' μ (numberOf (feet μ) on k)) (fun c hc => (links μ on hc).2.2) (Q := Ramp.tilt) (m := μ)
      (fun c hc => ⟨(links μ on (List.mem_of_mem_filter hc)).1, (links μ on (List.mem_of_mem_filter hc)).2.1.le⟩) (Or.inl (by
        rw [Ramp.up]
        simp only [cons_val]
        rw [abs_neg, abs_of_pos (by norm_num)]
        linarith))
    exact Set.notMem_empty _ (hnone ▸ h)
  · intro hμ
    refine C103_hull (count_set on) _ (fun c hc => (links μ on hc).2.2)
      (fun c hc => by rw [(links μ on (List.mem_of_mem_filter hc)).1]; exact Ramp.tilt_rot) ?_ ⟨0, ?_⟩
    · intro k
      simp only [footAt_set]
      have hu : upIn ((feet μ).get (numberOf (feet μ) on k)).link.rotm = ![-(3 / 5), 0, 4 / 5] := by
        rcases link_eq μ (List.get_mem (feet μ) (numberOf (feet μ) on k)) with h | h <;> rw [h] <;> exact Ramp.up
      rw [hu]
      rcases link_eq μ (List.get_mem (feet μ) (numberOf (feet μ) on k)) with h | h
      all_goals
        rw [h]
        simp only [Ramp.pad, cons_val]
        rw [abs_neg, abs_of_pos (by norm_num : (0 : ℝ) < 3 / 5), abs_zero]
        refine ⟨by norm_num, by linarith, by linarith, by norm_num⟩
    · rw [polygon_set]
      refine subset_convexHull ℝ _ (Set.mem_iUnion.mpr ⟨⟨(0 : Fin 2), h0⟩, 0, 1 / 2, ?_, ?_, ?_⟩)
      · show |(0 : ℝ)| ≤ 1 / 10
        norm_num
      · show |(1 / 2 : ℝ)| ≤ 3 / 5
        rw [abs_of_pos] <;> norm_num
      · show _ = _ + Ramp.tilt *ᵥ _
        funext a
        fin_cases a <;> simp [at', Ramp.tilt, mulVec, dotProduct, Fin.sum_univ_three]

end Steep

/-- The hypotheses of the theorems on lifting feet are met: on a slope that falls three metres on four, the block with the small sole can be lifted if and only
if the coefficient of friction is at least 3/4, and redistribution on both succeeds under the same condition; QP task control does not fail then. -/
theorem C103_steep_lift (μ : ℝ) (qd : Sys (Fin 6) → ℝ) (cod : (W : Matrix (Fin 6) (Fin 6) ℝ) → CodNull W) : ∃ s τ₁, let A := ctrlMass (Blocks.L 0)
    let G := s.G ∘ sysIdx.symm
    let l := setContacts (Steep.feet μ) (Steep.both μ)
    updateKinematics true (massMatrix (Blocks.L 0)) 0 1 (mass (Blocks.L 0)) qd = some s ∧
    ((∃ τ f, Motion A (stackFeet l) G τ 0 (stackForces (Steep.feet μ) (Steep.both μ) f) ∧
      (∀ i, Steep.both μ i = true → FootHolds ((Steep.feet μ).get i).link (f i)) ∧
      ∀ i, Steep.both μ i = true → Steep.only μ 0 i = false → f i = 0) ↔ 3 / 4 ≤ μ) ∧
    feetGravity A G l = some τ₁ ∧
    ((∃ τc, feetRedistribute A G cod none Stand.rsolver (τ₁ + 0) 0 l = some (1, τc)) ↔ 3 / 4 ≤ μ) ∧
    (3 / 4 ≤ μ → ∃ out, feetQP A G cod none Stand.solver [] l = some out ∧ out.1 = 1) := by
  obtain ⟨s, S0, τ, hs, hcom, hS0, -⟩ := Blocks.data 0 qd
  have hA := Blocks.spd 0
  have hp : ∀ f ∈ Steep.feet μ, 0 < f.link.planeX ∧ 0 < f.link.planeY := fun f hf => by
    rcases Steep.link_eq μ hf with h | h <;> rw [h] <;> norm_num [Ramp.pad]
  have h6 : ∀ f ∈ Steep.feet μ, f.link.type = .c6d := fun f hf => by rcases Steep.link_eq μ hf with h | h <;> rw [h] <;> rfl
  have hc3 : s.comPos = ![0, 1 / 2, 0] := by rw [hcom]; simp
  have hin := fun on h0 => hc3.symm ▸ Steep.region μ on h0
  obtain ⟨S₁, hS₁⟩ := Option.isSome_iff_exists.mp ((C02_finite_iff_independent hA).mpr (Steep.independent μ))
  have hrides : ∀ k, RidesOnBase 0 1 (Steep.at' μ (numberOf (Steep.feet μ) (Steep.both μ) k)) ((standing (setContacts (Steep.feet μ) (Steep.both μ))).get k).jac := by
    intro k
    rw [get_standing]
    exact Steep.rides μ _
  refine ⟨s, _, hs, ?_, Option.map_eq_some_iff.mpr ⟨S₁, hS₁, rfl⟩, ?_, fun hμ => ?_⟩
  · exact (C103_lift_iff (p := Steep.at' μ) (on := Steep.both μ) (on' := Steep.only μ 0) IsRot.one (List.cons_ne_nil _ _) (Blocks.masses 0) (Blocks.inertias 0)
      (Blocks.floating 0) (Steep.rides μ) hs hp fun _ _ => rfl).trans (hin _ rfl)
  · obtain ⟨q0, h0⟩ := (C01_contact_force_exact hA hS₁ (s.G ∘ sysIdx.symm) (gravityTorque S₁ (ctrlMass (Blocks.L 0))⁻¹ (s.G ∘ sysIdx.symm))).1
    obtain rfl := (C03_gravity_compensation hA hS₁ _ h0).2 (set_base (i := (0 : Fin 2)) rfl (rides_unit IsRot.one (Steep.rides μ _)))
    exact (C103_lifted_redistribute_iff (p := Steep.at' μ) IsRot.one (List.cons_ne_nil _ _) (Blocks.masses 0) (Blocks.inertias 0)
      (Blocks.floating 0) (Steep.rides μ) hs hA h6 hp (Steep.independent μ) (Steep.two μ) cod Stand.rsolver_exact Stand.rsolver_complete
      (by rw [add_zero]; exact h0)).trans (hin _ rfl)
  · obtain ⟨S, out, hcalc⟩ := C05_feet_succeed (g := (standing (setContacts (Steep.feet μ) (Steep.both μ))).get) IsRot.one
      (by rw [standing_set_length]; exact (show 1 < 2 by norm_num)) hrides hA (Steep.independent μ) cod
    have hex : ∃ o, feetQP (ctrlMass (Blocks.L 0)) (s.G ∘ sysIdx.symm) cod none Stand.solver [] (setContacts (Steep.feet μ) (Steep.both μ)) = some o := by
      unfold feetQP qpCycle
      rw [show calculateContactConstraint (stackFeet (setContacts (Steep.feet μ) (Steep.both μ))) (ctrlMass (Blocks.L 0))⁻¹ cod = _ from hcalc]
      exact ⟨_, rfl⟩
    obtain ⟨o, ho⟩ := hex
    exact ⟨o, ho, C103_lifted_never_fails (p := Steep.at' μ) IsRot.one (List.cons_ne_nil _ _) (Blocks.masses 0) (Blocks.inertias 0)
      (Blocks.floating 0) (Steep.rides μ) hs hA h6 hp (Steep.two μ) cod Stand.solver_sound Stand.solver_complete ((hin _ rfl).mpr hμ) ho⟩



end Verif.Props
