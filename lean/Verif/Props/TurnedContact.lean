import Verif.Props.Turned
import Verif.Lemmas.Heading
import Verif.Props.ClosedForm
import Verif.Props.Zmp

/-!
# C80: contact redistribution without a QP, and the ZMP, of a robot that stands elsewhere and faces another way
-/

set_option linter.unusedSectionVars false

namespace Verif.Props
open Matrix Verif Verif.Spec Verif.Model

section
variable {ι : Type*} [Fintype ι] [DecidableEq ι] {U V : Matrix (Fin 6) (Fin 6) ℝ}
  {A A' : Matrix (Fin 6 ⊕ ι) (Fin 6 ⊕ ι) ℝ} {J J' : Matrix (Fin 12) (Fin 6 ⊕ ι) ℝ} {G G' : Fin 6 ⊕ ι → ℝ}

/-- The three angles stored for a link give its orientation: the first turns about `z`, the last about `x`. -/
theorem C80_angles {m : Mat3} (hm : IsRot m) :
    rotateWithZ (eulerAngles210 m 0) * rotateWithY (eulerAngles210 m 1) * rotateWithX (eulerAngles210 m 2) = m :=
  euler_spec hm

/-- C80.  The angle the redistribution without a QP turns its frame by says nothing about the heading: for an upright base it is
zero or a half turn. -/
theorem C80_redistribute_angle {ψ : ℝ} (h1 : -Real.pi < ψ) (h2 : ψ ≤ Real.pi) (S : ContactSpace 12 ι) (f : CodNull S.W)
    (P : Fin 12 → ℝ) (s : Fin 4 → Bool) (pos : List Vec3) (com : Vec3) (τ : ι → ℝ) :
    redistributeClosed S f P s pos com (rotateWithZ ψ) τ
      = closedFormTorque S f P s pos com (if ψ < 0 then Real.pi else 0) τ := by
  unfold redistributeClosed
  rw [euler_upright h1 h2]

/-- C80 (redistribution without a QP, place).  Carrying the robot elsewhere does not change the torque. -/
theorem C80_redistribute_place (S : ContactSpace 12 ι) (f : CodNull S.W) (P : Fin 12 → ℝ) (s : Fin 4 → Bool) (pos : List Vec3)
    (com d : Vec3) (base : Mat3) (τ : ι → ℝ) :
    redistributeClosed S f P s (pos.map (· + d)) (com + d) base τ = redistributeClosed S f P s pos com base τ := by
  unfold redistributeClosed
  rw [closedFormTorque_eq, closedFormTorque_eq, closedFormForce_shift]

/-- C80 (redistribution without a QP, heading; what would hold).  If the frame of the two contacts were turned back by an angle that
follows the heading, then the turned robot would get the torque of the robot.  Missing: the code passes `rpy(2)`, the angle about
`x`, see `C80_redistribute_heading`. -/
theorem C80_redistribute_yaw_partial (hU : U * V = 1) (θ : ℝ) (d : Vec3)
    (h : SeenAs U (turnRows (rotateWithZ θ) 12) A J G A' J' G') {S : ContactSpace 12 ι} (f : CodNull S.W) (s : Fin 4 → Bool)
    (pos : List Vec3) (com : Vec3) (yaw : ℝ) (τ : ι → ℝ) :
    closedFormTorque (seenSpace U V (turnRows (rotateWithZ θ) 12) S) f
        (gravityForce (seenSpace U V (turnRows (rotateWithZ θ) 12) S) G') s
        (pos.map fun p => rotateWithZ θ *ᵥ p + d) (rotateWithZ θ *ᵥ com + d) (yaw + θ) τ
      = closedFormTorque S f (gravityForce S G) s pos com yaw τ := by
  refine (closedFormTorque_eq (seenSpace U V (turnRows (rotateWithZ θ) 12) S) f _ _ _ _ _ _).trans ?_
  rw [closedFormTorque_eq S f, gravityForce_seen hU h, contactForce_seen, rotate12_turn, closedFormForce_turn]
  rcases closedFormForce s pos com yaw (contactForce S (gravityForce S G) τ) with _ | fc
  · rfl
  simp only [Option.map_some, Option.bind_some]
  rw [← rotate12_turn, ← rotate12_turn, closedApply_seen (rotZ_orth θ)]

end

/-! ### Facing another way changes the torque -/

namespace Feet

/-- Two feet beside each other. -/
noncomputable def left : Vec3 := ![0, 1 / 10, 0]
noncomputable def right : Vec3 := ![0, -1 / 10, 0]

/-- Half the weight on each foot, with a moment `k` about `y` on the first. -/
noncomputable def force (k : ℝ) : Fin 12 → ℝ := ![0, 0, -1 / 2, 0, k, 0, 0, 0, -1 / 2, 0, 0, 0]

/-- Within the bounds the ratio is the one that gives the first foot no moment about `x`. -/
theorem ratio_inside (s : Fin 4 → Bool) {P1 P2 : Vec3} {R : Fin 6 → ℝ} (hA : coefA P1 P2 R 0 ≠ 0) {η : ℝ}
    (hη : coefA P1 P2 R 0 * η = -coefB P2 R 0) (h1 : 1 / 100 ≤ η) (h2 : η ≤ 99 / 100)
    (hb : ∀ i, |coefA P1 P2 R i * η + coefB P2 R i| ≤ coefC dwbcParams R i) :
    splitRatio s dwbcParams P1 P2 R = .fin η := by
  have hC : ∀ i, 0 ≤ coefC dwbcParams R i := coefC_nonneg (by norm_num [dwbcParams]) (by norm_num [dwbcParams]) (by norm_num [dwbcParams]) R
  obtain ⟨lb, ub, e, -, -, hm⟩ := bounds_spec s (A := coefA P1 P2 R) (B := coefB P2 R) hC (1 - dwbcParams.etaCust) dwbcParams.etaCust
  have hin := (hm η).mpr ⟨⟨by norm_num [dwbcParams]; linarith, by norm_num [dwbcParams]; linarith⟩, fun i _ => hb i⟩
  unfold splitRatio
  simp only
  rw [e]
  have eA : (P1 2 - P2 2) * R 1 - (P1 1 - P2 1) * R 2 = coefA P1 P2 R 0 := rfl
  have eB : -R 3 - P2 2 * R 1 + P2 1 * R 2 = -coefB P2 R 0 := by simp [coefB]; ring
  have eS : Fl.div (s 3) (-coefB P2 R 0) (coefA P1 P2 R 0) = .fin η := by
    unfold Fl.div
    rw [if_pos hA, ← hη, mul_div_cancel_left₀ _ hA]
  rw [eA, eB, eS]
  unfold clampRatio
  simp only
  rw [if_neg (show ¬ Fl.Lt (Fl.fin ub) (Fl.fin η) from not_lt.mpr hin.2), if_neg (show ¬ Fl.Lt (Fl.fin η) (Fl.fin lb) from not_lt.mpr hin.1)]
  rw [if_neg]
  simp only [Fl.Lt, not_or, not_lt]
  exact ⟨by norm_num [dwbcParams]; linarith, by norm_num [dwbcParams]; linarith⟩

/-- The angle with cosine 4/5 and sine 3/5. -/
noncomputable def θ : ℝ := Real.arcsin (3 / 5)

theorem sin_θ : Real.sin θ = 3 / 5 := Real.sin_arcsin (by norm_num) (by norm_num)

theorem cos_θ : Real.cos θ = 4 / 5 := by
  rw [θ, Real.cos_arcsin, show (1 : ℝ) - (3 / 5) ^ 2 = (4 / 5) ^ 2 by norm_num, Real.sqrt_sq (by norm_num)]

theorem θ_nonneg : 0 ≤ θ := Real.arcsin_nonneg.mpr (by norm_num)

theorem θ_le : θ ≤ Real.pi := (Real.arcsin_le_pi_div_two _).trans (by linarith [Real.pi_pos])

theorem rot_zero : rotateWithZ (-0) = 1 := by
  ext i j
  fin_cases i <;> fin_cases j <;> simp [rotateWithZ]

theorem rotate12_one (F : Fin 12 → ℝ) : rotate12 1 F = F := by
  ext i
  fin_cases i <;> simp [rotate12]

theorem closedFormForce_zero (s : Fin 4 → Bool) (p q : Vec3) (F : Fin 12 → ℝ) :
    closedFormForce s [p, q] 0 0 F = (contactRedistribute s dwbcParams p q F).map (·.2) := by
  simp only [closedFormForce, List.getElem?_cons_zero, List.getElem?_cons_succ, Option.bind_eq_bind, Option.bind_some, rot_zero,
    rotate12_one, one_mulVec, sub_zero, transpose_one]
  rcases contactRedistribute s dwbcParams p q F with _ | x <;> rfl

theorem resultant_straight (k : ℝ) : resultant left right (force k) = ![0, 0, -1, 0, k, 0] := by
  ext i
  fin_cases i <;> simp [resultant, left, right, force] <;> norm_num

theorem straight (s : Fin 4 → Bool) :
    ∃ fc, closedFormForce s [left, right] 0 0 (force (1 / 100)) = some fc ∧ fc 8 = -1 / 2 := by
  rw [closedFormForce_zero]
  have h := ratio_inside s (P1 := left) (P2 := right) (R := ![0, 0, -1, 0, 1 / 100, 0]) (η := 1 / 2)
    (by simp [coefA, left, right] <;> norm_num) (by simp [coefA, coefB, left, right] <;> norm_num) (by norm_num) (by norm_num)
    (by intro i; fin_cases i <;> simp [coefA, coefB, coefC, dwbcParams, left, right] <;> norm_num [abs_le])
  unfold contactRedistribute
  rw [resultant_straight, h]
  refine ⟨_, rfl, ?_⟩
  simp [splitForce] <;> norm_num

theorem turned_left : rotateWithZ θ *ᵥ left = ![-6 / 100, 8 / 100, 0] := by
  ext i
  fin_cases i <;> simp [rotateWithZ, left, mulVec, dotProduct, Fin.sum_univ_three, sin_θ, cos_θ] <;> norm_num

theorem turned_right : rotateWithZ θ *ᵥ right = ![6 / 100, -8 / 100, 0] := by
  ext i
  fin_cases i <;> simp [rotateWithZ, right, mulVec, dotProduct, Fin.sum_univ_three, sin_θ, cos_θ] <;> norm_num

theorem resultant_turned : resultant ![-6 / 100, 8 / 100, 0] ![6 / 100, -8 / 100, 0] (rotate12 (rotateWithZ θ) (force (1 / 100)))
    = ![0, 0, -1, -6 / 1000, 8 / 1000, 0] := by
  have e : rotate12 (rotateWithZ θ) (force (1 / 100)) = ![0, 0, -1 / 2, -6 / 1000, 8 / 1000, 0, 0, 0, -1 / 2, 0, 0, 0] := by
    ext i
    fin_cases i <;> simp [rotate12, rotateWithZ, force, mulVec, dotProduct, Fin.sum_univ_three, sin_θ, cos_θ] <;> norm_num
  rw [e]
  ext i
  fin_cases i <;> simp [resultant] <;> norm_num

theorem turned (s : Fin 4 → Bool) :
    ∃ fc, closedFormForce s [rotateWithZ θ *ᵥ left, rotateWithZ θ *ᵥ right] 0 0 (rotate12 (rotateWithZ θ) (force (1 / 100))) = some fc ∧
      fc 8 = -37 / 80 := by
  rw [closedFormForce_zero, turned_left, turned_right]
  have h := ratio_inside s (P1 := ![-6 / 100, 8 / 100, 0]) (P2 := ![6 / 100, -8 / 100, 0]) (R := ![0, 0, -1, -6 / 1000, 8 / 1000, 0])
    (η := 43 / 80) (by simp [coefA] <;> norm_num) (by simp [coefA, coefB] <;> norm_num) (by norm_num) (by norm_num)
    (by intro i; fin_cases i <;> simp [coefA, coefB, coefC, dwbcParams] <;> norm_num [abs_le])
  unfold contactRedistribute
  rw [resultant_turned, h]
  refine ⟨_, rfl, ?_⟩
  simp [splitForce] <;> norm_num

/-- A quarter turn leaves the feet one behind the other, and without a moment there is nothing to divide by. -/
theorem quarter (s : Fin 4 → Bool) :
    closedFormForce s [rotateWithZ (Real.pi / 2) *ᵥ left, rotateWithZ (Real.pi / 2) *ᵥ right] 0 0
      (rotate12 (rotateWithZ (Real.pi / 2)) (force 0)) = none := by
  rw [closedFormForce_zero, Option.map_eq_none_iff, C14_finite_iff (by constructor <;> norm_num [dwbcParams])]
  simp [coefA, coefB, resultant, left, right, force, rotate12, rotateWithZ, mulVec, dotProduct, Fin.sum_univ_three]

theorem straight_zero (s : Fin 4 → Bool) : (closedFormForce s [left, right] 0 0 (force 0)).isSome := by
  rw [closedFormForce_zero, Option.isSome_map, Option.isSome_iff_ne_none, Ne, C14_finite_iff (by constructor <;> norm_num [dwbcParams])]
  rw [resultant_straight]
  simp [coefA, left, right] <;> norm_num

/-- A robot with unit inertia on these feet, with contact force `force k` at zero torque. -/
theorem robot (k : ℝ) (f₀ : (W : Matrix (Fin 6) (Fin 6) ℝ) → CodNull W) :
    ∃ (S : ContactSpace 12 (Fin 6)) (G : Fin 6 ⊕ Fin 6 → ℝ),
      contactSpace (rigidJ left right) (1 : Matrix (Fin 6 ⊕ Fin 6) (Fin 6 ⊕ Fin 6) ℝ)⁻¹ = some S ∧
      contactForce S (gravityForce S G) 0 = force k ∧ ∀ fc, (closedApply S (f₀ S.W) (force k) fc).isSome := by
  have hA : IsSPD (1 : Matrix (Fin 6 ⊕ Fin 6) (Fin 6 ⊕ Fin 6) ℝ) := isSPD_one
  obtain ⟨S, hS⟩ := Option.isSome_iff_exists.mp ((C02_finite_iff_independent hA).mpr (rigidJ_ind left right))
  refine ⟨S, -((rigidJ left right)ᵀ *ᵥ force k), hS, ?_, fun fc => ?_⟩
  · unfold contactForce gravityForce
    rw [mulVec_zero, mulVec_neg, mulVec_mulVec, cs_JcInvT_JT hS]
    simp
  · have hJ := rigidJ_rigid left right
    have hk : 6 = (f₀ S.W).k := by
      have h1 := finrank_ker_W hA hS
      have h2 := (baseDetermined_iff_rank (rigidJ left right)).mp (rigid_baseDetermined hJ)
      have h3 := cod_k hA hS (f₀ S.W)
      omega
    have hu := closedForm_isUnit hA hS (f₀ S.W) hJ hk
    unfold closedApply
    rw [dif_pos hk, eigenInverse_eq_some.mpr ⟨hu, rfl⟩]
    rfl

end Feet

/-- **C80 (redistribution without a QP, negation).** A robot stands upright on two feet; the same robot turned by the angle `θ`
about the vertical, with everything turned with it, gets another contact torque: `rpy(2)` is zero for both. -/
theorem C80_redistribute_heading (s : Fin 4 → Bool) (f₀ : (W : Matrix (Fin 6) (Fin 6) ℝ) → CodNull W) :
    ∃ (A : Matrix (Fin 6 ⊕ Fin 6) (Fin 6 ⊕ Fin 6) ℝ) (J : Matrix (Fin 12) (Fin 6 ⊕ Fin 6) ℝ) (G : Fin 6 ⊕ Fin 6 → ℝ)
      (A' : Matrix (Fin 6 ⊕ Fin 6) (Fin 6 ⊕ Fin 6) ℝ) (J' : Matrix (Fin 12) (Fin 6 ⊕ Fin 6) ℝ) (G' : Fin 6 ⊕ Fin 6 → ℝ)
      (S S' : ContactSpace 12 (Fin 6)) (p₁ p₂ : Vec3) (θ : ℝ) (τc τc' : Fin 6 → ℝ), IsSPD A ∧
      SeenAs (turnBase (rotateWithZ θ)) (turnRows (rotateWithZ θ) 12) A J G A' J' G' ∧
      contactSpace J A⁻¹ = some S ∧ contactSpace J' A'⁻¹ = some S' ∧
      redistributeClosed S (f₀ S.W) (gravityForce S G) s [p₁, p₂] 0 1 0 = some τc ∧
      redistributeClosed S' (f₀ S'.W) (gravityForce S' G') s [rotateWithZ θ *ᵥ p₁, rotateWithZ θ *ᵥ p₂] 0 (rotateWithZ θ * 1) 0
        = some τc' ∧ τc ≠ τc' := by
  obtain ⟨S, G, hS, hF, hsome⟩ := Feet.robot (1 / 100) f₀
  have hU := turnBase_inv (rotZ_orth Feet.θ)
  have hR : (turnRows (rotateWithZ Feet.θ) 12)ᵀ * turnRows (rotateWithZ Feet.θ) 12 = 1 := turnRows_orth (rotZ_orth _) (by norm_num)
  have hseen : SeenAs (turnBase (rotateWithZ Feet.θ)) (turnRows (rotateWithZ Feet.θ) 12)
      (1 : Matrix (Fin 6 ⊕ Fin 6) (Fin 6 ⊕ Fin 6) ℝ) (rigidJ Feet.left Feet.right) G _ _ _ := ⟨rfl, rfl, rfl⟩
  have hS' := contactSpace_seen hU hR hseen
  rw [hS, Option.map_some] at hS'
  have h1 : eulerAngles210 1 2 = 0 := by
    have := euler_upright (ψ := 0) (by linarith [Real.pi_pos]) Real.pi_pos.le
    rw [if_neg (lt_irrefl 0)] at this
    have e : rotateWithZ 0 = 1 := by rw [← Feet.rot_zero, neg_zero]
    rwa [e] at this
  have h2 : eulerAngles210 (rotateWithZ Feet.θ * 1) 2 = 0 := by
    rw [Matrix.mul_one, euler_upright (by linarith [Real.pi_pos, Feet.θ_nonneg]) Feet.θ_le, if_neg (not_lt.mpr Feet.θ_nonneg)]
  obtain ⟨fc, e1, e1'⟩ := Feet.straight s
  obtain ⟨fc', e2, e2'⟩ := Feet.turned s
  obtain ⟨τc, hτ⟩ := Option.isSome_iff_exists.mp (hsome fc)
  -- the wrench asked for, turned back
  have hback : turnRows (rotateWithZ Feet.θ) 12 *ᵥ (turnRows (rotateWithZ Feet.θ)ᵀ 12 *ᵥ fc') = fc' := by
    rw [turnRows_comp _ _ (by norm_num), mul_eq_one_comm.mp (rotZ_orth Feet.θ), turnRows_one, one_mulVec]
  obtain ⟨τc', hτ'⟩ := Option.isSome_iff_exists.mp (hsome (turnRows (rotateWithZ Feet.θ)ᵀ 12 *ᵥ fc'))
  refine ⟨1, _, G, _, _, _, S, _, Feet.left, Feet.right, Feet.θ, τc, τc', isSPD_one, hseen, hS, hS', ?_, ?_, ?_⟩
  · unfold redistributeClosed
    rw [h1, closedFormTorque_eq, hF, e1]
    exact hτ
  · unfold redistributeClosed
    rw [h2, closedFormTorque_eq, gravityForce_seen hU hseen, contactForce_seen, hF, rotate12_turn, e2, Option.bind_some, ← hback,
      ← rotate12_turn]
    exact (closedApply_seen (rotZ_orth _) _ _ S (f₀ S.W) _ _).trans hτ'
  · rintro rfl
    have k1 := closedApply_second hτ 2
    have k2 := closedApply_second hτ' 2
    have k3 : (turnRows (rotateWithZ Feet.θ)ᵀ 12 *ᵥ fc') 8 = fc' 8 := by
      rw [rotate12_turn]
      simp [rotate12, rotateWithZ, mulVec, dotProduct, Fin.sum_univ_three]
    have k4 : fc 8 = (turnRows (rotateWithZ Feet.θ)ᵀ 12 *ᵥ fc') 8 := by
      have := k1.symm.trans k2
      exact add_left_cancel this
    rw [k3, e1', e2'] at k4
    norm_num at k4

/-- **C80 (redistribution without a QP, negation).** Facing another way can make the contact torque NaN: two feet beside each other,
the robot turned by a quarter turn. -/
theorem C80_redistribute_heading_nan (s : Fin 4 → Bool) (f₀ : (W : Matrix (Fin 6) (Fin 6) ℝ) → CodNull W) :
    ∃ (A : Matrix (Fin 6 ⊕ Fin 6) (Fin 6 ⊕ Fin 6) ℝ) (J : Matrix (Fin 12) (Fin 6 ⊕ Fin 6) ℝ) (G : Fin 6 ⊕ Fin 6 → ℝ)
      (A' : Matrix (Fin 6 ⊕ Fin 6) (Fin 6 ⊕ Fin 6) ℝ) (J' : Matrix (Fin 12) (Fin 6 ⊕ Fin 6) ℝ) (G' : Fin 6 ⊕ Fin 6 → ℝ)
      (S S' : ContactSpace 12 (Fin 6)) (p₁ p₂ : Vec3) (τc : Fin 6 → ℝ), IsSPD A ∧
      SeenAs (turnBase (rotateWithZ (Real.pi / 2))) (turnRows (rotateWithZ (Real.pi / 2)) 12) A J G A' J' G' ∧
      contactSpace J A⁻¹ = some S ∧ contactSpace J' A'⁻¹ = some S' ∧
      redistributeClosed S (f₀ S.W) (gravityForce S G) s [p₁, p₂] 0 1 0 = some τc ∧
      redistributeClosed S' (f₀ S'.W) (gravityForce S' G') s [rotateWithZ (Real.pi / 2) *ᵥ p₁, rotateWithZ (Real.pi / 2) *ᵥ p₂] 0
        (rotateWithZ (Real.pi / 2) * 1) 0 = none := by
  obtain ⟨S, G, hS, hF, hsome⟩ := Feet.robot 0 f₀
  have hU := turnBase_inv (rotZ_orth (Real.pi / 2))
  have hR : (turnRows (rotateWithZ (Real.pi / 2)) 12)ᵀ * turnRows (rotateWithZ (Real.pi / 2)) 12 = 1 := turnRows_orth (rotZ_orth _) (by norm_num)
  have hseen : SeenAs (turnBase (rotateWithZ (Real.pi / 2))) (turnRows (rotateWithZ (Real.pi / 2)) 12)
      (1 : Matrix (Fin 6 ⊕ Fin 6) (Fin 6 ⊕ Fin 6) ℝ) (rigidJ Feet.left Feet.right) G _ _ _ := ⟨rfl, rfl, rfl⟩
  have hS' := contactSpace_seen hU hR hseen
  rw [hS, Option.map_some] at hS'
  have hpi := Real.pi_pos
  have h1 : eulerAngles210 1 2 = 0 := by
    have := euler_upright (ψ := 0) (by linarith) hpi.le
    rw [if_neg (lt_irrefl 0)] at this
    have e : rotateWithZ 0 = 1 := by rw [← Feet.rot_zero, neg_zero]
    rwa [e] at this
  have h2 : eulerAngles210 (rotateWithZ (Real.pi / 2) * 1) 2 = 0 := by
    rw [Matrix.mul_one, euler_upright (by linarith) (by linarith), if_neg (by linarith)]
  obtain ⟨fc, e1⟩ := Option.isSome_iff_exists.mp (Feet.straight_zero s)
  obtain ⟨τc, hτ⟩ := Option.isSome_iff_exists.mp (hsome fc)
  refine ⟨1, _, G, _, _, _, S, _, Feet.left, Feet.right, τc, isSPD_one, hseen, hS, hS', ?_, ?_⟩
  · unfold redistributeClosed
    rw [h1, closedFormTorque_eq, hF, e1]
    exact hτ
  · unfold redistributeClosed
    rw [h2, closedFormTorque_eq, gravityForce_seen hU hseen, contactForce_seen, hF, rotate12_turn, Feet.quarter]
    rfl

/-! ### ZMP -/

/-- A contact of the robot that has been turned by `Q` and carried by `d`. -/
def carryContact (Q : Mat3) (d : Vec3) (c : ZmpContact) : ZmpContact := ⟨c.contact, Q *ᵥ c.pos + d⟩

/-- What `getZMP` should say of the robot turned and carried. -/
def carryZmp (Q : Mat3) (d : Vec3) : ZmpResult → ZmpResult
  | .outOfRange => .outOfRange
  | .notFinite => .notFinite
  | .zmp p => .zmp (Q *ᵥ p + d)

section
variable {m : ℕ} (h3 : 3 ∣ m) (θ : ℝ) (d : Vec3) (f : Fin m → ℝ)
include h3

theorem vecAt_turn2 (i : ℕ) : vecAt (turnRows (rotateWithZ θ) m *ᵥ f) (i * 6 + 2) = vecAt f (i * 6 + 2) := by
  unfold vecAt
  split_ifs with h
  · rw [turnRows_mulVec _ h3, Fin.sum_univ_three]
    have e : (i * 6 + 2) % 3 = 2 := by omega
    have e' : 3 * ((i * 6 + 2) / 3) = i * 6 := by omega
    simp only [e, e']
    simp [rotateWithZ]
  · rfl

theorem vecAt_turn3 {i : ℕ} {x y : ℝ} (hx : vecAt f (i * 6 + 3) = some x) (hy : vecAt f (i * 6 + 4) = some y) :
    vecAt (turnRows (rotateWithZ θ) m *ᵥ f) (i * 6 + 3) = some (Real.cos θ * x - Real.sin θ * y) := by
  unfold vecAt at *
  split_ifs at hx with h
  split_ifs at hy with h'
  rw [dif_pos h, turnRows_mulVec _ h3, Fin.sum_univ_three]
  simp only [Option.some.injEq] at hx hy ⊢
  have e : (i * 6 + 3) % 3 = 0 := by omega
  have e' : 3 * ((i * 6 + 3) / 3) = i * 6 + 3 := by omega
  simp only [e, e']
  simp [rotateWithZ]
  rw [← hx, ← hy]
  ring

theorem vecAt_turn4 {i : ℕ} {x y : ℝ} (hx : vecAt f (i * 6 + 3) = some x) (hy : vecAt f (i * 6 + 4) = some y) :
    vecAt (turnRows (rotateWithZ θ) m *ᵥ f) (i * 6 + 4) = some (Real.sin θ * x + Real.cos θ * y) := by
  unfold vecAt at *
  split_ifs at hx with h
  split_ifs at hy with h'
  rw [dif_pos h', turnRows_mulVec _ h3, Fin.sum_univ_three]
  simp only [Option.some.injEq] at hx hy ⊢
  have e : (i * 6 + 4) % 3 = 1 := by omega
  have e' : 3 * ((i * 6 + 4) / 3) = i * 6 + 3 := by omega
  simp only [e, e']
  simp [rotateWithZ]
  rw [← hx, ← hy]

theorem vecAt_some_iff (g : Fin m → ℝ) (k : ℕ) : vecAt g k = none ↔ m ≤ k := by
  unfold vecAt
  split_ifs with h
  · simp; omega
  · simp; omega

theorem totalFz_turn (i : ℕ) (cs : List ZmpContact) :
    totalFz (turnRows (rotateWithZ θ) m *ᵥ f) i (cs.map (carryContact (rotateWithZ θ) d)) = totalFz f i cs := by
  induction cs generalizing i with
  | nil => rfl
  | cons c cs ih =>
    simp only [List.map_cons, totalFz]
    have e : 2 + i * 6 = i * 6 + 2 := by ring
    rw [ih, e, vecAt_turn2 h3 θ f i]
    rfl

omit h3 in
theorem contactZmp_turn (p : Vec3) (x y z : ℝ) :
    contactZmp (rotateWithZ θ *ᵥ p + d) (Real.cos θ * x - Real.sin θ * y) (Real.sin θ * x + Real.cos θ * y) z
      = rotateWithZ θ *ᵥ contactZmp p x y z + d := by
  unfold contactZmp
  split_ifs with h
  · rfl
  · have hz : z ≠ 0 := by intro e; rw [e] at h; norm_num at h
    ext i
    fin_cases i <;> simp [rotateWithZ, mulVec, dotProduct, Fin.sum_univ_three] <;> field_simp <;> ring

theorem zmpSum_turn (tot : ℝ) (i : ℕ) (cs : List ZmpContact) {t : ℝ} (ht : totalFz f i cs = some t) :
    zmpSum (turnRows (rotateWithZ θ) m *ᵥ f) tot i (cs.map (carryContact (rotateWithZ θ) d))
      = (zmpSum f tot i cs).map fun p => rotateWithZ θ *ᵥ p + (t / tot) • d := by
  induction cs generalizing i t with
  | nil =>
    simp only [totalFz, Option.some.injEq] at ht
    subst ht
    simp [zmpSum]
  | cons c cs ih =>
    simp only [List.map_cons, zmpSum, totalFz, carryContact] at ht ⊢
    by_cases hc : c.contact = true
    · rw [if_pos hc] at ht ⊢
      rw [if_pos hc]
      have e : 2 + i * 6 = i * 6 + 2 := by ring
      rw [e] at ht
      rw [vecAt_turn2 h3 θ f i]
      rcases hz : vecAt f (i * 6 + 2) with _ | z
      · rw [hz] at ht; simp at ht
      rw [hz] at ht
      rcases hr : totalFz f (i + 1) cs with _ | r
      · rw [hr] at ht; simp at ht
      rw [hr] at ht
      simp only [Option.bind_eq_bind, Option.bind_some, Option.pure_def, Option.some.injEq] at ht ⊢
      rcases hx : vecAt f (i * 6 + 3) with _ | x
      · have := (vecAt_some_iff h3 f _).mp hx
        rw [(vecAt_some_iff h3 (turnRows (rotateWithZ θ) m *ᵥ f) _).mpr this]
        rfl
      rcases hy : vecAt f (i * 6 + 4) with _ | y
      · have h4 := (vecAt_some_iff h3 f _).mp hy
        have h5 : ¬ m ≤ i * 6 + 3 := fun h => by
          have := (vecAt_some_iff h3 f _).mpr h
          rw [hx] at this; simp at this
        omega
      rw [vecAt_turn3 h3 θ f hx hy, vecAt_turn4 h3 θ f hx hy]
      simp only [Option.bind_some]
      have ih' := ih (i + 1) hr
      rw [ih']
      rcases zmpSum f tot (i + 1) cs with _ | p
      · rfl
      simp only [Option.map_some, Option.bind_some, Option.some.injEq]
      rw [contactZmp_turn, ← ht, mulVec_add, mulVec_smul]
      ext j
      simp only [Pi.add_apply, Pi.smul_apply, smul_eq_mul]
      ring
    · rw [if_neg hc] at ht ⊢
      rw [if_neg hc]
      exact ih (i + 1) ht

/-- C80 (ZMP).  The reported zero moment point turns and moves with the robot, as long as a contact is active. -/
theorem C80_zmp (cs : List ZmpContact) (hc : ∃ c ∈ cs, c.contact) :
    getZMP (cs.map (carryContact (rotateWithZ θ) d)) (turnRows (rotateWithZ θ) m *ᵥ f) = carryZmp (rotateWithZ θ) d (getZMP cs f) := by
  unfold getZMP
  rw [totalFz_turn h3]
  rcases ht : totalFz f 0 cs with _ | t
  · rfl
  simp only
  rw [zmpSum_turn h3 θ d f t 0 cs ht]
  rcases zmpSum f t 0 cs with _ | p
  · rfl
  simp only [Option.map_some]
  have hc' : ∃ c ∈ cs.map (carryContact (rotateWithZ θ) d), c.contact := by
    obtain ⟨c, h, h'⟩ := hc
    exact ⟨_, List.mem_map_of_mem h, h'⟩
  by_cases h0 : t = 0
  · rw [if_pos ⟨h0, hc'⟩, if_pos ⟨h0, hc⟩]
    rfl
  · rw [if_neg (fun h => h0 h.1), if_neg (fun h => h0 h.1), div_self h0, one_smul]
    rfl

omit h3 in
/-- C80 (ZMP, no active contact).  The answer is the origin of the world wherever the robot stands. -/
theorem C80_zmp_none (cs : List ZmpContact) (hc : ∀ c ∈ cs, c.contact = false) : getZMP cs f = .zmp 0 := by
  have h1 : ∀ (cs : List ZmpContact), (∀ c ∈ cs, c.contact = false) → ∀ i, totalFz f i cs = some 0 := by
    intro cs hc
    induction cs with
    | nil => intro i; rfl
    | cons c cs ih =>
      intro i
      rw [totalFz, if_neg (by rw [hc c (List.mem_cons_self ..)]; simp)]
      exact ih (fun x hx => hc x (List.mem_cons_of_mem _ hx)) (i + 1)
  have h2 : ∀ (cs : List ZmpContact), (∀ c ∈ cs, c.contact = false) → ∀ t i, zmpSum f t i cs = some 0 := by
    intro cs hc
    induction cs with
    | nil => intro t i; rfl
    | cons c cs ih =>
      intro t i
      rw [zmpSum, if_neg (by rw [hc c (List.mem_cons_self ..)]; simp)]
      exact ih (fun x hx => hc x (List.mem_cons_of_mem _ hx)) t (i + 1)
  unfold getZMP
  rw [h1 cs hc]
  simp only
  rw [h2 cs hc]
  simp only
  rw [if_neg]
  rintro ⟨-, c, h, h'⟩
  rw [hc c h] at h'
  simp at h'

end

end Verif.Props
