import Verif.Props.Weight
import Verif.Props.ReducedMix
import Verif.Lemmas.Moving
import Mathlib.Tactic.FinCases
import Mathlib.Tactic.Linarith
import Mathlib.Tactic.NormNum

/-!
# C99: two blocks joined by a six-axis drive, on flat ground and on a step
-/

set_option linter.unusedSectionVars false

namespace Verif.Props
open Matrix Verif Verif.Spec Verif.Model

namespace Blocks

/-- the first block, which is the base, at the origin -/
noncomputable def first : MovingLink (Sys (Fin 6)) :=
  { m := 1, I := 1, x := 0, Jv := Matrix.of fun i => Sum.elim (Sum.elim (Pi.single i 1) 0) 0, Jw := Matrix.of fun i => Sum.elim (Sum.elim 0 (Pi.single i 1)) 0 }

/-- the second block, one metre to the left and `t` metres higher; the six joints move it relative to the first -/
noncomputable def second (t : ℝ) : MovingLink (Sys (Fin 6)) :=
  { m := 1, I := 1, x := ![0, 1, t], Jv := Matrix.of fun i => Sum.elim (Sum.elim (Pi.single i 1) (!![0, t, -1; -t, 0, 0; 1, 0, 0] i)) (!![1, 0, 0, 0, 0, 0; 0, 1, 0, 0, 0, 0; 0, 0, 1, 0, 0, 0] i), Jw := Matrix.of fun i => Sum.elim (Sum.elim 0 (Pi.single i 1)) (!![0, 0, 0, 1, 0, 0; 0, 0, 0, 0, 1, 0; 0, 0, 0, 0, 0, 1] i) }

noncomputable abbrev L (t : ℝ) : List (MovingLink (Sys (Fin 6))) := [first, second t]

theorem first_v (q : Sys (Fin 6) → ℝ) : first.Jv *ᵥ q = ![q (.inl (.inl 0)), q (.inl (.inl 1)), q (.inl (.inl 2))] := by
  funext i
  fin_cases i <;> simp [first, mulVec, dotProduct, Fin.sum_univ_succ, Pi.single_apply]

theorem first_w (q : Sys (Fin 6) → ℝ) : first.Jw *ᵥ q = ![q (.inl (.inr 0)), q (.inl (.inr 1)), q (.inl (.inr 2))] := by
  funext i
  fin_cases i <;> simp [first, mulVec, dotProduct, Fin.sum_univ_succ, Pi.single_apply]

theorem second_v (t : ℝ) (q : Sys (Fin 6) → ℝ) : (second t).Jv *ᵥ q = ![q (.inl (.inl 0)) + (t * q (.inl (.inr 1)) - q (.inl (.inr 2))) + q (.inr 0),
    q (.inl (.inl 1)) - t * q (.inl (.inr 0)) + q (.inr 1), q (.inl (.inl 2)) + q (.inl (.inr 0)) + q (.inr 2)] := by
  funext i
  fin_cases i <;> simp [second, mulVec, dotProduct, Fin.sum_univ_succ, Pi.single_apply] <;> ring

theorem second_w (t : ℝ) (q : Sys (Fin 6) → ℝ) : (second t).Jw *ᵥ q = ![q (.inl (.inr 0)) + q (.inr 3), q (.inl (.inr 1)) + q (.inr 4),
    q (.inl (.inr 2)) + q (.inr 5)] := by
  funext i
  fin_cases i <;> simp [second, mulVec, dotProduct, Fin.sum_univ_succ, Pi.single_apply] <;> rfl

theorem floating (t : ℝ) : ∀ l ∈ L t, FloatingBase 0 1 l := by
  intro l hl
  simp only [L, List.mem_cons, List.not_mem_nil, or_false] at hl
  rcases hl with rfl | rfl
  · refine ⟨fun v ω => ?_, fun v ω => ?_⟩
    · rw [first_v, one_mulVec, cross_apply]
      funext i; fin_cases i <;> simp [baseVelocity, first]
    · rw [first_w, one_mulVec]
      funext i; fin_cases i <;> simp [baseVelocity]
  · refine ⟨fun v ω => ?_, fun v ω => ?_⟩
    · rw [second_v, one_mulVec, cross_apply]
      funext i; fin_cases i <;> simp [baseVelocity, second] <;> ring
    · rw [second_w, one_mulVec]
      funext i; fin_cases i <;> simp [baseVelocity]

theorem masses (t : ℝ) : ∀ l ∈ L t, 0 < l.m := by
  intro l hl
  simp only [L, List.mem_cons, List.not_mem_nil, or_false] at hl
  rcases hl with rfl | rfl <;> norm_num [first, second]

theorem inertias (t : ℝ) : ∀ l ∈ L t, l.I.PosDef := by
  intro l hl
  simp only [L, List.mem_cons, List.not_mem_nil, or_false] at hl
  rcases hl with rfl | rfl <;> exact PosDef.one

theorem solid (t : ℝ) : ∀ l ∈ L t, 0 < l.m ∧ IsSPD l.I := by
  intro l hl
  simp only [L, List.mem_cons, List.not_mem_nil, or_false] at hl
  rcases hl with rfl | rfl
  · exact ⟨by norm_num [first], isSPD_one⟩
  · exact ⟨by norm_num [second], isSPD_one⟩

/-- If no block moves, no coordinate moves. -/
theorem still (t : ℝ) (q : Sys (Fin 6) → ℝ) (h : ∀ l ∈ L t, l.Jv *ᵥ q = 0 ∧ l.Jw *ᵥ q = 0) : q = 0 := by
  have h1 := (h first (by simp [L])).1
  have h2 := (h first (by simp [L])).2
  have h3 := (h (second t) (by simp [L])).1
  have h4 := (h (second t) (by simp [L])).2
  rw [first_v] at h1
  rw [first_w] at h2
  rw [second_v] at h3
  rw [second_w] at h4
  have a0 := congrFun h1 0; have a1 := congrFun h1 1; have a2 := congrFun h1 2
  have b0 := congrFun h2 0; have b1 := congrFun h2 1; have b2 := congrFun h2 2
  have c0 := congrFun h3 0; have c1 := congrFun h3 1; have c2 := congrFun h3 2
  have d0 := congrFun h4 0; have d1 := congrFun h4 1; have d2 := congrFun h4 2
  simp at a0 a1 a2 b0 b1 b2 c0 c1 c2 d0 d1 d2
  simp only [a0, a1, a2, b0, b1, b2, mul_zero, sub_zero, zero_add, add_zero] at c0 c1 c2 d0 d1 d2
  funext i
  rcases i with (i | i) | i <;> fin_cases i <;> assumption

theorem spd (t : ℝ) : IsSPD (ctrlMass (L t)) := isSPD_reindex (massMatrix_spd (solid t) (still t)) _

/-- the robot stands on both blocks -/
noncomputable abbrev on (t : ℝ) : List ZmpContact := [⟨true, 0⟩, ⟨true, ![0, 1, t]⟩]

/-- a foot fixed to a block, at its centre -/
noncomputable def under (l : MovingLink (Sys (Fin 6))) : Foot (Fin 6) :=
  { link := { type := .c6d, contact := true, rotm := 1, planeX := 1, planeY := 1, friction := 1, frictionZ := 1 }, jac := Matrix.of fun a s => Sum.elim (fun i => l.Jv i (sysIdx.symm s)) (fun i => l.Jw i (sysIdx.symm s)) ((finSumFinEquiv (m := 3) (n := 3)).symm a) }

noncomputable def feet (t : ℝ) : Fin 2 → Foot (Fin 6) := ![under first, under (second t)]

theorem under_v (l : MovingLink (Sys (Fin 6))) (b : Sys (Fin 6) → ℝ) : fpart ((under l).jac *ᵥ (b ∘ sysIdx.symm)) = l.Jv *ᵥ b := by
  funext i
  have h : ∀ i : Fin 3, ((under l).jac *ᵥ (b ∘ sysIdx.symm)) (finSumFinEquiv (m := 3) (n := 3) (.inl i)) = (l.Jv *ᵥ b) i := by
    intro i
    simp only [under, mulVec, Matrix.of_apply, Equiv.symm_apply_apply, Sum.elim_inl]
    exact Equiv.sum_comp sysIdx.symm fun x => l.Jv i x * b x
  fin_cases i
  · exact h 0
  · exact h 1
  · exact h 2

theorem under_w (l : MovingLink (Sys (Fin 6))) (b : Sys (Fin 6) → ℝ) : mpart ((under l).jac *ᵥ (b ∘ sysIdx.symm)) = l.Jw *ᵥ b := by
  funext i
  have h : ∀ i : Fin 3, ((under l).jac *ᵥ (b ∘ sysIdx.symm)) (finSumFinEquiv (m := 3) (n := 3) (.inr i)) = (l.Jw *ᵥ b) i := by
    intro i
    simp only [under, mulVec, Matrix.of_apply, Equiv.symm_apply_apply, Sum.elim_inr]
    exact Equiv.sum_comp sysIdx.symm fun x => l.Jw i x * b x
  fin_cases i
  · exact h 0
  · exact h 1
  · exact h 2

theorem rides (t : ℝ) (i : Fin 2) : RidesOnBase 0 1 ((on t).get i).pos (feet t i).jac := by
  intro v ω
  fin_cases i
  · exact ⟨(under_v _ _).trans ((floating t first (by simp)).lin v ω), (under_w _ _).trans ((floating t first (by simp)).ang v ω)⟩
  · exact ⟨(under_v _ _).trans ((floating t (second t) (by simp)).lin v ω), (under_w _ _).trans ((floating t (second t) (by simp)).ang v ω)⟩

theorem independent (t : ℝ) : IndependentRows (stackFn (feet t)) := by
  intro F hF
  have key : ∀ b : Sys (Fin 6) → ℝ, (first.Jv *ᵥ b) ⬝ᵥ fpart (wrenchOf F 0) + (first.Jw *ᵥ b) ⬝ᵥ mpart (wrenchOf F 0) +
      (((second t).Jv *ᵥ b) ⬝ᵥ fpart (wrenchOf F 1) + ((second t).Jw *ᵥ b) ⬝ᵥ mpart (wrenchOf F 1)) = 0 := by
    intro b
    have h := congrArg (fun v => (b ∘ sysIdx.symm) ⬝ᵥ v) hF
    simp only [dotProduct_zero] at h
    rw [dotProduct_mulVec, vecMul_transpose, stack_dot, Fin.sum_univ_two, dot6, dot6] at h
    have e0 : feet t 0 = under first := rfl
    have e1 : feet t 1 = under (second t) := rfl
    rwa [e0, e1, under_v, under_w, under_v, under_w] at h
  simp only [first_v, first_w, second_v, second_w] at key
  have hj := fun j => key (Pi.single (.inr j) 1)
  have h10 := hj 0; have h11 := hj 1; have h12 := hj 2; have h13 := hj 3; have h14 := hj 4; have h15 := hj 5
  simp [dotProduct, Fin.sum_univ_three, Pi.single_apply, fpart, mpart] at h10 h11 h12 h13 h14 h15
  have hv := fun i => key (Pi.single (.inl (.inl i)) 1)
  have hw := fun i => key (Pi.single (.inl (.inr i)) 1)
  have h00 := hv 0; have h01 := hv 1; have h02 := hv 2; have h03 := hw 0; have h04 := hw 1; have h05 := hw 2
  simp [dotProduct, Fin.sum_univ_three, Pi.single_apply, fpart, mpart, h10, h11, h12, h13, h14, h15] at h00 h01 h02 h03 h04 h05
  funext r
  fin_cases r
  exacts [h00, h01, h02, h03, h04, h05, h10, h11, h12, h13, h14, h15]

/-- the contact forces: each foot carries one block, and on a step the feet also push against each other -/
noncomputable def F (t : ℝ) : Fin (6 * 2) → ℝ := ![0, -(9.81 * t), -9.81, 9.81 * t ^ 2, 0, 0, 0, 9.81 * t, -9.81, 0, 0, 0]

theorem mass_L (t : ℝ) : mass (L t) = 2 := by
  norm_num [mass, first, second]

/-- Some torque holds the robot still with these forces. -/
theorem held (t : ℝ) : ∃ τ, Motion (ctrlMass (L t)) (stackFn (feet t)) (-(Spec.gravityForce earth (L t)) ∘ sysIdx.symm) τ 0 (F t) := by
  refine (C99_held_iff (k := 2) (p := fun i : Fin 2 => ((on t).get i).pos) IsRot.one (floating t) (rides t) earth (F t)).mpr ⟨?_, ?_⟩
  · rw [mass_L, Fin.sum_univ_two]
    funext i
    fin_cases i <;> simp [fpart, wrenchOf, F, earth] <;> norm_num
  · rw [Fin.sum_univ_two, cross_apply, cross_apply, cross_apply]
    funext i
    fin_cases i <;> simp [fpart, mpart, wrenchOf, F, earth, first, second] <;> ring

theorem zmp (t : ℝ) : getZMP (on t) (F t) = .zmp ![0, (1 - t ^ 2) / 2, t / 2] := by
  have ht : totalFz (F t) 0 (on t) = some (-9.81 + (-9.81 + 0)) := rfl
  have hz : zmpSum (F t) (-9.81 + (-9.81 + 0)) 0 (on t) = some ((-9.81 / (-9.81 + (-9.81 + 0)) : ℝ) • contactZmp 0 (9.81 * t ^ 2) 0 (-9.81) +
      ((-9.81 / (-9.81 + (-9.81 + 0)) : ℝ) • contactZmp ![0, 1, t] 0 0 (-9.81) + 0)) := rfl
  unfold getZMP
  rw [ht]
  simp only
  rw [hz]
  simp only
  rw [if_neg (by rintro ⟨h, -⟩; norm_num at h)]
  congr 1
  unfold contactZmp
  rw [if_neg (by norm_num), if_neg (by norm_num)]
  funext i
  fin_cases i <;> simp <;> ring

/-- The data of the theorems on this robot: a state of the kinematics, the contact space, a torque that holds the robot still, and its contact forces. -/
theorem data (t : ℝ) (qd : Sys (Fin 6) → ℝ) : ∃ s S τ, updateKinematics true (massMatrix (L t)) 0 1 (mass (L t)) qd = some s ∧ s.comPos = ![0, 1 / 2, t / 2] ∧
    contactSpace (stackFn (feet t)) (ctrlMass (L t))⁻¹ = some S ∧ Motion (ctrlMass (L t)) (stackFn (feet t)) (s.G ∘ sysIdx.symm) τ 0 (F t) ∧
    contactForce S (Model.gravityForce S (s.G ∘ sysIdx.symm)) τ = F t := by
  obtain ⟨s, hs, hcom, -, -, -, -, hG, -⟩ := C25_com_partial IsRot.one (List.cons_ne_nil _ _) (masses t) (inertias t) (floating t) qd
  obtain ⟨S, hS⟩ := Option.isSome_iff_exists.mp ((C02_finite_iff_independent (spd t)).mpr (independent t))
  obtain ⟨τ, h⟩ := held t
  have h' : Motion (ctrlMass (L t)) (stackFn (feet t)) (s.G ∘ sysIdx.symm) τ 0 (F t) := by
    rw [hG]; exact h
  refine ⟨s, S, τ, hs, ?_, hS, h', ((C01_contact_force_exact (spd t) hS _ τ).2.1 _ _ h').symm⟩
  have hc : mass (L t) • s.comPos = _ := hcom
  rw [mass_L] at hc
  have c0 := congrFun hc 0; have c1 := congrFun hc 1; have c2 := congrFun hc 2
  simp [first, second] at c0 c1 c2
  funext i
  fin_cases i
  · simpa using c0
  · simp; linarith
  · simp; linarith

end Blocks

/-- The hypotheses of `C99_held_iff`, `C99_balance`, `C99_weight`, `C99_zmp_partial` and `C99_zmp_still_partial` are met by the two blocks on flat
ground. -/
theorem C99_blocks_stand (qd : Sys (Fin 6) → ℝ) : ∃ s S τ,
    updateKinematics true (massMatrix (Blocks.L 0)) 0 1 (mass (Blocks.L 0)) qd = some s ∧
    contactSpace (stackFn (Blocks.feet 0)) (ctrlMass (Blocks.L 0))⁻¹ = some S ∧
    Motion (ctrlMass (Blocks.L 0)) (stackFn (Blocks.feet 0)) (s.G ∘ sysIdx.symm) τ 0 (Blocks.F 0) ∧
    getZMP (Blocks.on 0) (contactForce S (Model.gravityForce S (s.G ∘ sysIdx.symm)) τ) = .zmp ![s.comPos 0, s.comPos 1, 0] ∧
    s.comPos = ![0, 1 / 2, 0] := by
  obtain ⟨s, S, τ, hs, hc, hS, h, hF⟩ := Blocks.data 0 qd
  refine ⟨s, S, τ, hs, hS, h, ?_, by rw [hc, zero_div]⟩
  refine (congrArg (fun l => getZMP l _) (List.append_nil (Blocks.on 0)).symm).trans
    (C99_zmp_still_partial (on := Blocks.on 0) (off := []) (f := Blocks.feet 0) (z := 0) IsRot.one (List.cons_ne_nil _ _) (Blocks.masses 0)
    (Blocks.inertias 0) (Blocks.floating 0) (by simp) (by simp) (by simp) (by simp) (Blocks.rides 0) hs (Blocks.spd 0) hS τ h ?_)
  intro j
  change 1 / 1000 ≤ press (wrenchOf (contactForce S (Model.gravityForce S (s.G ∘ sysIdx.symm)) τ) j)
  rw [hF]
  have hj : ∀ j : Fin 2, 1 / 1000 ≤ press (wrenchOf (Blocks.F 0) j) := by
    intro j
    fin_cases j <;> simp [press, wrenchOf, Blocks.F] <;> norm_num
  exact hj j

/-- Also those of `C99_gravity`. -/
theorem C99_blocks_gravity (qd : Sys (Fin 6) → ℝ) : ∃ s S,
    updateKinematics true (massMatrix (Blocks.L 0)) 0 1 (mass (Blocks.L 0)) qd = some s ∧
    contactSpace (stackFn (Blocks.feet 0)) (ctrlMass (Blocks.L 0))⁻¹ = some S ∧
    ∑ i, fpart (wrenchOf (contactForce S (Model.gravityForce S (s.G ∘ sysIdx.symm)) (gravityTorque S (ctrlMass (Blocks.L 0))⁻¹ (s.G ∘ sysIdx.symm))) i) =
      ![0, 0, -19.62] := by
  obtain ⟨s, S, τ, hs, -, hS, -⟩ := Blocks.data 0 qd
  refine ⟨s, S, hs, hS, ?_⟩
  refine (C99_gravity (p := fun i : Fin 2 => ((Blocks.on 0).get i).pos) IsRot.one (List.cons_ne_nil _ _) (Blocks.masses 0) (Blocks.inertias 0)
    (Blocks.floating 0) (Blocks.rides 0) hs (Blocks.spd 0) hS (by decide)).1.trans ?_
  rw [Blocks.mass_L]
  norm_num

/-- **C99 (negation: feet at different heights).**  With one block on a step, a metre higher than the other, the robot is held still by a torque for which
each foot presses with the weight of its block, and the reported ZMP is half a metre to the side of the centre of mass. -/
theorem C99_step_zmp_off (qd : Sys (Fin 6) → ℝ) : ∃ s S τ,
    updateKinematics true (massMatrix (Blocks.L 1)) 0 1 (mass (Blocks.L 1)) qd = some s ∧
    contactSpace (stackFn (Blocks.feet 1)) (ctrlMass (Blocks.L 1))⁻¹ = some S ∧
    Motion (ctrlMass (Blocks.L 1)) (stackFn (Blocks.feet 1)) (s.G ∘ sysIdx.symm) τ 0 (Blocks.F 1) ∧
    (∀ j : Fin 2, press (wrenchOf (Blocks.F 1) j) = 9.81) ∧
    ∃ p, getZMP (Blocks.on 1) (contactForce S (Model.gravityForce S (s.G ∘ sysIdx.symm)) τ) = .zmp p ∧ p 1 = s.comPos 1 - 1 / 2 := by
  obtain ⟨s, S, τ, hs, hc, hS, h, hF⟩ := Blocks.data 1 qd
  refine ⟨s, S, τ, hs, hS, h, ?_, _, (congrArg (getZMP (Blocks.on 1)) hF).trans (Blocks.zmp 1), ?_⟩
  · intro j
    fin_cases j <;> simp [press, wrenchOf, Blocks.F]
  · rw [hc]
    norm_num

end Verif.Props
