import Verif.Props.Step

/-!
# C102: two blocks, one of them on a wide sole
-/

set_option linter.unusedSectionVars false

namespace Verif.Props
open Matrix Verif Verif.Spec Verif.Model Verif.Lemmas

namespace Wide

/-- the two blocks; the sole of the first reaches under the centre of mass -/
noncomputable def feet : List (Foot (Fin 6)) := [{ link := { Blocks.pad with planeY := 3 / 5 }, jac := (Blocks.feet 0 0).jac }, { link := Blocks.pad, jac := (Blocks.feet 0 1).jac }]

noncomputable def at' (i : Fin feet.length) : Vec3 := ((Blocks.on 0).get (show Fin 2 from i)).pos

def both : Fin feet.length → Bool := fun _ => true

theorem two : 2 ≤ (numbers both).length := by
  have : numbers both = List.finRange 2 := by
    unfold numbers both
    rw [List.filter_true]
    rfl
  rw [this]
  rfl

/-- one foot alone -/
def only (i₀ : Fin 2) : Fin feet.length → Bool := fun i => (show Fin 2 from i) == i₀

theorem jac_eq (i : Fin feet.length) : (feet.get i).jac = (Blocks.feet 0 (show Fin 2 from i)).jac := by
  change Fin 2 at i
  fin_cases i <;> rfl

theorem rides (i : Fin feet.length) : RidesOnBase 0 1 (at' i) (feet.get i).jac := by
  rw [jac_eq]
  exact Blocks.rides 0 _

theorem link_eq {f : Foot (Fin 6)} (hf : f ∈ feet) : f.link = Blocks.pad ∨ f.link = { Blocks.pad with planeY := 3 / 5 } := by
  simp only [feet, List.mem_cons, List.not_mem_nil, or_false] at hf
  rcases hf with rfl | rfl
  · exact Or.inr rfl
  · exact Or.inl rfl

theorem independent : IndependentRows (stackFeet (setContacts feet both)) := by
  intro F hF
  obtain ⟨f, rfl, -⟩ := exists_forces both F
  rw [stack_transpose] at hF
  let f' : Fin 2 → Fin 6 → ℝ := f
  have h := Blocks.independent 0 (fun r => f' ⟨r / 6, by omega⟩ ⟨r % 6, by omega⟩) (by
    rw [stackFn_transpose]
    refine Eq.trans (Finset.sum_congr rfl fun i _ => ?_) hF
    refine Eq.trans ?_ (if_pos (show both (show Fin feet.length from i) = true from rfl)).symm
    have e : wrenchOf (fun r : Fin (6 * 2) => f' ⟨r / 6, by omega⟩ ⟨r % 6, by omega⟩) i = f' i := by
      funext j
      have h1 : (⟨(6 * i.val + j.val) / 6, by omega⟩ : Fin 2) = i := Fin.ext (by simp only; omega)
      have h2 : (⟨(6 * i.val + j.val) % 6, by omega⟩ : Fin 6) = j := Fin.ext (by simp only; omega)
      show f' ⟨(6 * i.val + j.val) / 6, by omega⟩ ⟨(6 * i.val + j.val) % 6, by omega⟩ = f' i j
      rw [h1, h2]
    rw [e]
    exact congrArg (fun J : Matrix (Fin 6) (Fin 6 ⊕ Fin 6) ℝ => Jᵀ *ᵥ f' i) (jac_eq i).symm)
  have hf : ∀ i j, f' i j = 0 := by
    intro i j
    have h1 : (⟨(6 * i.val + j.val) / 6, by omega⟩ : Fin 2) = i := Fin.ext (by simp only; omega)
    have h2 : (⟨(6 * i.val + j.val) % 6, by omega⟩ : Fin 6) = j := Fin.ext (by simp only; omega)
    have := congrFun h ⟨6 * i.val + j.val, by omega⟩
    simp only [h1, h2] at this
    exact this
  funext r
  exact hf _ _

end Wide

/-- The hypotheses of the theorems of C102 are met, and both answers occur: the block with the small sole can be lifted, the one with the wide sole cannot; both
together stand, redistribution succeeds and QP task control never fails. -/
theorem C102_blocks (qd : Sys (Fin 6) → ℝ) (cod : (W : Matrix (Fin 6) (Fin 6) ℝ) → CodNull W) : ∃ s τ₀ τ₁, let A := ctrlMass (Blocks.L 0)
    let G := s.G ∘ sysIdx.symm
    let lifts := fun i₀ : Fin 2 => ∃ τ f, Motion A (stackFeet (setContacts Wide.feet Wide.both)) G τ 0 (stackForces Wide.feet Wide.both f) ∧
      (∀ i, Wide.both i = true → FootHolds (Wide.feet.get i).link (f i)) ∧ ∀ i, Wide.both i = true → Wide.only i₀ i = false → f i = 0
    updateKinematics true (massMatrix (Blocks.L 0)) 0 1 (mass (Blocks.L 0)) qd = some s ∧ lifts 0 ∧ ¬ lifts 1 ∧
    feetGravity A G (setContacts Wide.feet (Wide.only 0)) = some τ₀ ∧
    (∃ f, Motion A (stackFeet (setContacts Wide.feet Wide.both)) G τ₀ 0 (stackForces Wide.feet Wide.both f) ∧
      (∀ i, Wide.both i = true → FootHolds (Wide.feet.get i).link (f i)) ∧ ∀ i, Wide.both i = true → i ≠ (0 : Fin 2) → f i = 0) ∧
    feetGravity A G (setContacts Wide.feet Wide.both) = some τ₁ ∧
    (∃ τc, feetRedistribute A G cod none Stand.rsolver (τ₁ + 0) 0 (setContacts Wide.feet Wide.both) = some (1, τc)) ∧
    ∃ out, feetQP A G cod none Stand.solver [] (setContacts Wide.feet Wide.both) = some out ∧ out.1 = 1 := by
  obtain ⟨s, S0, τ, hs, hcom, hS0, -⟩ := Blocks.data 0 qd
  have hA := Blocks.spd 0
  have hp : ∀ f ∈ Wide.feet, 0 < f.link.planeX ∧ 0 < f.link.planeY := fun f hf => by
    rcases Wide.link_eq hf with h | h <;> rw [h] <;> norm_num [Blocks.pad]
  have h6 : ∀ f ∈ Wide.feet, f.link.type = .c6d := fun f hf => by rcases Wide.link_eq hf with h | h <;> rw [h] <;> rfl
  have hμ : ∀ f ∈ Wide.feet, 0 ≤ f.link.friction ∧ 0 ≤ f.link.frictionZ := fun f hf => by
    rcases Wide.link_eq hf with h | h <;> rw [h] <;> norm_num [Blocks.pad]
  have hflat : ∀ f ∈ Wide.feet, Flat f.link.rotm := fun f hf => by rcases Wide.link_eq hf with h | h <;> rw [h] <;> exact flat_one
  have hz : ∀ i, Wide.at' i 2 = 0 := by intro i; change Fin 2 at i; fin_cases i <;> rfl
  have hind : ∀ on, IndependentRows (stackFeet (setContacts Wide.feet on)) := fun on => independent_sub (fun i _ => rfl) Wide.independent
  have hsole0 : ![s.comPos 0, s.comPos 1, 0] ∈ stancePolygon Wide.feet Wide.at' (Wide.only 0) := by
    refine subset_convexHull ℝ _ (Set.mem_iUnion.mpr ⟨⟨(0 : Fin 2), rfl⟩, 0, 1 / 2, ?_, ?_, ?_⟩)
    · show |(0 : ℝ)| ≤ 1 / 10
      norm_num
    · show |(1 / 2 : ℝ)| ≤ 3 / 5
      rw [abs_of_pos] <;> norm_num
    · show _ = _ + (1 : Mat3) *ᵥ _
      rw [one_mulVec, hcom]
      funext a
      fin_cases a <;> simp [Wide.at']
  have hsole1 : ![s.comPos 0, s.comPos 1, 0] ∉ stancePolygon Wide.feet Wide.at' (Wide.only 1) := by
    intro h
    have hsub : stancePolygon Wide.feet Wide.at' (Wide.only 1) ⊆ {q : Vec3 | 9 / 10 ≤ q 1} := by
      refine convexHull_min (Set.iUnion_subset ?_) ?_
      · rintro ⟨i, hi⟩ q ⟨a, b, -, hb, rfl⟩
        obtain rfl : i = (1 : Fin 2) := eq_of_beq (α := Fin 2) hi
        replace hb : |b| ≤ 1 / 10 := hb
        show 9 / 10 ≤ (1 : ℝ) + ((1 : Mat3) *ᵥ ![a, b, 0]) 1
        rw [one_mulVec]
        show 9 / 10 ≤ (1 : ℝ) + b
        linarith [(abs_le.mp hb).1]
      · intro q₁ h₁ q₂ h₂ a b ha hb hab
        simp only [Set.mem_ofPred_eq] at h₁ h₂ ⊢
        show 9 / 10 ≤ a * q₁ 1 + b * q₂ 1
        nlinarith
    have := hsub h
    rw [hcom] at this
    norm_num at this
  have hboth : ![s.comPos 0, s.comPos 1, 0] ∈ stancePolygon Wide.feet Wide.at' Wide.both := C102_mono Wide.at' (fun i _ => rfl) hsole0
  have hlift := fun (i₀ : Fin 2) => C102_lift_iff (on := Wide.both) (on' := Wide.only i₀) IsRot.one (List.cons_ne_nil _ _) (Blocks.masses 0) (Blocks.inertias 0)
    (Blocks.floating 0) Wide.rides hs hA hp hμ hflat hz (hind _) (fun _ _ => rfl) ⟨i₀, by simp [Wide.only]⟩
  have hgrav : ∀ on, ∃ S, contactSpace (stackFeet (setContacts Wide.feet on)) (ctrlMass (Blocks.L 0))⁻¹ = some S := fun on =>
    Option.isSome_iff_exists.mp ((C02_finite_iff_independent hA).mpr (hind on))
  obtain ⟨S₀, hS₀⟩ := hgrav (Wide.only 0)
  obtain ⟨S₁, hS₁⟩ := hgrav Wide.both
  have hτ₀ : feetGravity (ctrlMass (Blocks.L 0)) (s.G ∘ sysIdx.symm) (setContacts Wide.feet (Wide.only 0)) =
      some (gravityTorque S₀ (ctrlMass (Blocks.L 0))⁻¹ (s.G ∘ sysIdx.symm)) := Option.map_eq_some_iff.mpr ⟨S₀, hS₀, rfl⟩
  refine ⟨s, _, _, hs, (hlift 0).mpr hsole0, fun h => hsole1 ((hlift 1).mp h), hτ₀, ?_, Option.map_eq_some_iff.mpr ⟨S₁, hS₁, rfl⟩, ?_, ?_⟩
  · refine (C102_last_foot (p := Wide.at') (i₀ := (0 : Fin 2)) IsRot.one (List.cons_ne_nil _ _) (Blocks.masses 0) (Blocks.inertias 0)
      (Blocks.floating 0) Wide.rides hs hA hp hμ hflat hz (hind _) rfl hτ₀).mpr ?_
    refine ⟨0, 1 / 2, ?_, ?_, ?_⟩
    · show |(0 : ℝ)| ≤ 1 / 10
      norm_num
    · show |(1 / 2 : ℝ)| ≤ 3 / 5
      rw [abs_of_pos] <;> norm_num
    · show _ = _ + (1 : Mat3) *ᵥ _
      rw [one_mulVec, hcom]
      funext a
      fin_cases a <;> simp [Wide.at']
  · obtain ⟨q0, h0⟩ := (C01_contact_force_exact hA hS₁ (s.G ∘ sysIdx.symm) (gravityTorque S₁ (ctrlMass (Blocks.L 0))⁻¹ (s.G ∘ sysIdx.symm))).1
    obtain rfl := (C03_gravity_compensation hA hS₁ _ h0).2 (set_base (i := (0 : Fin 2)) rfl (rides_unit IsRot.one (Wide.rides _)))
    exact (C102_redistribute_iff IsRot.one (List.cons_ne_nil _ _) (Blocks.masses 0) (Blocks.inertias 0)
      (Blocks.floating 0) Wide.rides hs hA h6 hp hμ hflat hz (hind _) Wide.two cod Stand.rsolver_exact Stand.rsolver_complete
      (by rw [add_zero]; exact h0)).mpr hboth
  · have hrides : ∀ k, RidesOnBase 0 1 (Wide.at' (numberOf Wide.feet Wide.both k)) ((standing (setContacts Wide.feet Wide.both)).get k).jac := by
      intro k
      rw [get_standing]
      exact Wide.rides _
    obtain ⟨S, out, hcalc⟩ := C05_feet_succeed (g := (standing (setContacts Wide.feet Wide.both)).get) IsRot.one
      (by rw [standing_set_length]; exact (show 1 < 2 by norm_num)) hrides hA (hind _) cod
    have hex : ∃ o, feetQP (ctrlMass (Blocks.L 0)) (s.G ∘ sysIdx.symm) cod none Stand.solver [] (setContacts Wide.feet Wide.both) = some o := by
      unfold feetQP qpCycle
      rw [show calculateContactConstraint (stackFeet (setContacts Wide.feet Wide.both)) (ctrlMass (Blocks.L 0))⁻¹ cod = _ from hcalc]
      exact ⟨_, rfl⟩
    obtain ⟨o, ho⟩ := hex
    exact ⟨o, ho, C102_never_fails IsRot.one (List.cons_ne_nil _ _) (Blocks.masses 0) (Blocks.inertias 0)
      (Blocks.floating 0) Wide.rides hs hA h6 hp hμ hflat hz (hind _) Wide.two cod Stand.solver_sound Stand.solver_complete hboth ho⟩

end Verif.Props
