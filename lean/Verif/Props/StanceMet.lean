import Verif.Props.Stance
import Verif.Props.WeightMet

/-!
# C100: two blocks that stand, and two blocks with a weight on a boom that topple
-/

set_option linter.unusedSectionVars false

namespace Verif.Props
open Matrix Verif Verif.Spec Verif.Model Verif.Lemmas

theorem ret_space {n c : ℕ} {J : Matrix (Fin c) (Fin 6 ⊕ Fin n) ℝ} {Ai : Matrix (Fin 6 ⊕ Fin n) (Fin 6 ⊕ Fin n) ℝ}
    {cod : (W : Matrix (Fin n) (Fin n) ℝ) → CodNull W} {v : ℕ} {S : ContactSpace c (Fin n)} {out}
    (h : calculateContactConstraint J Ai cod = .ret v S out) : contactSpace J Ai = some S := by
  unfold calculateContactConstraint at h
  split at h
  · cases h
  · rename_i S' hS'
    dsimp only at h
    split_ifs at h
    all_goals first
      | cases h; done
      | (cases h; exact hS')
      | (split at h
         all_goals first
           | cases h; done
           | (cases h; exact hS'))

theorem flat_one : Flat 1 := ⟨IsRot.one, one_mulVec _⟩

namespace Blocks

/-- soles of twenty by twenty centimetres -/
noncomputable def pad : ContactLink :=
  { type := .c6d, contact := true, rotm := 1, planeX := 1 / 10, planeY := 1 / 10, friction := 1 / 2, frictionZ := 1 / 10 }

/-- the robot as task control and redistribution see it, without torque limits -/
noncomputable def robot (S : ContactSpace (6 * 2) (Fin 6)) (N : Matrix (Fin 6) (Fin (6 * 2 - 6)) ℝ) (P : Fin (6 * 2) → ℝ) (τg : Fin 6 → ℝ) : QPRobot 6 (6 * 2) :=
  { S := S, NwJw := N, P := P, τg := τg, limit := none, cs := [pad, pad] }

theorem two : 2 = (active [pad, pad]).length := rfl

theorem pads : ∀ l ∈ [pad, pad], l = pad := by simp

theorem foot_pad (i : Fin 2) : footAt [pad, pad] two i = pad := by
  fin_cases i <;> rfl

theorem centre_mem (i : Fin 2) : ((on 0).get i).pos ∈ polygon [pad, pad] two fun i => ((on 0).get i).pos := by
  refine subset_convexHull ℝ _ (Set.mem_iUnion.mpr ⟨i, 0, 0, ?_, ?_, ?_⟩)
  · show |(0 : ℝ)| ≤ (footAt [pad, pad] two i).planeX
    rw [foot_pad]; norm_num [pad]
  · show |(0 : ℝ)| ≤ (footAt [pad, pad] two i).planeY
    rw [foot_pad]; norm_num [pad]
  · have : (![0, 0, 0] : Vec3) = 0 := by funext i; fin_cases i <;> rfl
    rw [this, mulVec_zero, add_zero]

theorem over : (![0, 1 / 2, 0] : Vec3) ∈ polygon [pad, pad] two fun i => ((on 0).get i).pos := by
  have h : Convex ℝ (polygon [pad, pad] two fun i => ((on 0).get i).pos) := convex_convexHull ℝ _
  have := h (centre_mem 0) (centre_mem 1) (show (0 : ℝ) ≤ 1 / 2 by norm_num) (show (0 : ℝ) ≤ 1 / 2 by norm_num) (by norm_num)
  have e : (![0, 1 / 2, 0] : Vec3) = (1 / 2 : ℝ) • ((on 0).get (0 : Fin 2)).pos + (1 / 2 : ℝ) • ((on 0).get (1 : Fin 2)).pos := by
    funext i
    fin_cases i <;> simp
  rw [e]
  exact this

/-- a third body on a boom, five metres in front of the first and fixed to it -/
noncomputable def boom : MovingLink (Sys (Fin 6)) :=
  { m := 1, I := 1, x := ![5, 0, 0], Jv := Matrix.of fun i => Sum.elim (Sum.elim (Pi.single i 1) (!![0, 0, 0; 0, 0, 5; 0, -5, 0] i)) 0, Jw := Matrix.of fun i => Sum.elim (Sum.elim 0 (Pi.single i 1)) 0 }

noncomputable abbrev L3 : List (MovingLink (Sys (Fin 6))) := boom :: L 0

theorem boom_v (q : Sys (Fin 6) → ℝ) : boom.Jv *ᵥ q = ![q (.inl (.inl 0)), q (.inl (.inl 1)) + 5 * q (.inl (.inr 2)), q (.inl (.inl 2)) - 5 * q (.inl (.inr 1))] := by
  funext i
  fin_cases i <;> simp [boom, mulVec, dotProduct, Fin.sum_univ_succ, Pi.single_apply] <;> ring

theorem boom_w (q : Sys (Fin 6) → ℝ) : boom.Jw *ᵥ q = ![q (.inl (.inr 0)), q (.inl (.inr 1)), q (.inl (.inr 2))] := by
  funext i
  fin_cases i <;> simp [boom, mulVec, dotProduct, Fin.sum_univ_succ, Pi.single_apply]

theorem floating3 : ∀ l ∈ L3, FloatingBase 0 1 l := by
  intro l hl
  rcases List.mem_cons.mp hl with rfl | hl
  · refine ⟨fun v ω => ?_, fun v ω => ?_⟩
    · rw [boom_v, one_mulVec, cross_apply]
      funext i; fin_cases i <;> simp [baseVelocity, boom] <;> ring
    · rw [boom_w, one_mulVec]
      funext i; fin_cases i <;> simp [baseVelocity]
  · exact floating 0 l hl

theorem masses3 : ∀ l ∈ L3, 0 < l.m := by
  intro l hl
  rcases List.mem_cons.mp hl with rfl | hl
  · norm_num [boom]
  · exact masses 0 l hl

theorem inertias3 : ∀ l ∈ L3, l.I.PosDef := by
  intro l hl
  rcases List.mem_cons.mp hl with rfl | hl
  · exact PosDef.one
  · exact inertias 0 l hl

theorem spd3 : IsSPD (ctrlMass L3) := by
  refine isSPD_reindex (massMatrix_spd ?_ fun q h => still 0 q fun l hl => h l (List.mem_cons_of_mem _ hl)) _
  intro l hl
  rcases List.mem_cons.mp hl with rfl | hl
  · exact ⟨by norm_num [boom], isSPD_one⟩
  · exact solid 0 l hl

theorem mass_L3 : mass L3 = 3 := by
  norm_num [mass, first, second, boom]

/-- only the first block touches the ground -/
noncomputable def foot1 : Fin 1 → Foot (Fin 6) := fun _ => under first

theorem rides1 (i : Fin 1) : RidesOnBase 0 1 0 (foot1 i).jac := fun v ω => rides 0 0 v ω

theorem independent1 : IndependentRows (stackFn foot1) := by
  intro F hF
  have key : ∀ b : Sys (Fin 6) → ℝ, (first.Jv *ᵥ b) ⬝ᵥ fpart (wrenchOf F 0) + (first.Jw *ᵥ b) ⬝ᵥ mpart (wrenchOf F 0) = 0 := by
    intro b
    have h := congrArg (fun v => (b ∘ sysIdx.symm) ⬝ᵥ v) hF
    simp only [dotProduct_zero] at h
    rw [dotProduct_mulVec, vecMul_transpose, stack_dot, Fin.sum_univ_one, dot6] at h
    have e0 : foot1 0 = under first := rfl
    rwa [e0, under_v, under_w] at h
  simp only [first_v, first_w] at key
  have hv := fun i => key (Pi.single (.inl (.inl i)) 1)
  have hw := fun i => key (Pi.single (.inl (.inr i)) 1)
  have h00 := hv 0; have h01 := hv 1; have h02 := hv 2; have h03 := hw 0; have h04 := hw 1; have h05 := hw 2
  simp [dotProduct, Fin.sum_univ_three, Pi.single_apply, fpart, mpart] at h00 h01 h02 h03 h04 h05
  funext r
  fin_cases r
  exacts [h00, h01, h02, h03, h04, h05]

noncomputable def robot1 (S : ContactSpace (6 * 1) (Fin 6)) (N : Matrix (Fin 6) (Fin (6 * 1 - 6)) ℝ) (P : Fin (6 * 1) → ℝ) (τg : Fin 6 → ℝ) : QPRobot 6 (6 * 1) :=
  { S := S, NwJw := N, P := P, τg := τg, limit := none, cs := [pad] }

theorem one : 1 = (active [pad]).length := rfl

end Blocks

/-- The hypotheses of `C100_motion`, `C100_stands_iff`, `C100_task_control`, `C100_redistribute`, `C100_redistribute_iff` and `C100_never_fails` are met: two
blocks on flat soles stand, redistribution succeeds and QP task control never fails. -/
theorem C100_blocks_stand (qd : Sys (Fin 6) → ℝ) (cod : (W : Matrix (Fin 6) (Fin 6) ℝ) → CodNull W) :
    ∃ s S N, let G := s.G ∘ sysIdx.symm
      let R := Blocks.robot S N (Model.gravityForce S G) (gravityTorque S (ctrlMass (Blocks.L 0))⁻¹ G)
      updateKinematics true (massMatrix (Blocks.L 0)) 0 1 (mass (Blocks.L 0)) qd = some s ∧
      (∃ m V2, calculateContactConstraint (stackFn (Blocks.feet 0)) (ctrlMass (Blocks.L 0))⁻¹ cod = .ret 1 S (some ⟨m, V2, N⟩)) ∧
      (∃ τc, redistribute R Stand.rsolver (R.τg + 0) 0 = some (1, τc)) ∧
      ∀ ts, ∃ τt τc, calcTaskControlTorqueQP R Stand.solver ts = .ret 1 τt τc := by
  obtain ⟨s, S0, τ, hs, hcom, hS0, -⟩ := Blocks.data 0 qd
  obtain ⟨S, ⟨m, V2, N⟩, hcalc⟩ := C05_feet_succeed (p := fun i : Fin 2 => ((Blocks.on 0).get i).pos) IsRot.one (by norm_num) (Blocks.rides 0)
    (Blocks.spd 0) (Blocks.independent 0) cod
  obtain rfl : S0 = S := Option.some.inj (hS0.symm.trans (ret_space hcalc))
  set R := Blocks.robot S0 N (Model.gravityForce S0 (s.G ∘ sysIdx.symm)) (gravityTorque S0 (ctrlMass (Blocks.L 0))⁻¹ (s.G ∘ sysIdx.symm)) with hRdef
  have h6 : ∀ l ∈ R.cs, l.type = .c6d := fun l hl => by rw [Blocks.pads l hl]; rfl
  have hp : ∀ l ∈ R.cs, 0 < l.planeX ∧ 0 < l.planeY := fun l hl => by rw [Blocks.pads l hl]; norm_num [Blocks.pad]
  have hact : ∀ l ∈ active R.cs, l = Blocks.pad := fun l hl => Blocks.pads l (List.mem_of_mem_filter hl)
  have hμ : ∀ l ∈ active R.cs, 0 ≤ l.friction ∧ 0 ≤ l.frictionZ := fun l hl => by rw [hact l hl]; norm_num [Blocks.pad]
  have hflat : ∀ l ∈ active R.cs, Flat l.rotm := fun l hl => by rw [hact l hl]; exact flat_one
  have hz : ∀ i : Fin 2, ((Blocks.on 0).get i).pos 2 = 0 := by intro i; fin_cases i <;> rfl
  have hover : ![s.comPos 0, s.comPos 1, 0] ∈ polygon R.cs Blocks.two fun i => ((Blocks.on 0).get i).pos := by
    rw [hcom]; exact Blocks.over
  have hM : ∃ F, Motion (ctrlMass (Blocks.L 0)) (stackFn (Blocks.feet 0)) (s.G ∘ sysIdx.symm) (R.τg + 0) 0 F := by
    obtain ⟨q0, h0⟩ := (C01_contact_force_exact (Blocks.spd 0) hS0 (s.G ∘ sysIdx.symm) R.τg).1
    obtain rfl := (C03_gravity_compensation (Blocks.spd 0) hS0 _ h0).2
      (C03_feet_determine_base (p := fun i : Fin 2 => ((Blocks.on 0).get i).pos) IsRot.one (by norm_num) (Blocks.rides 0))
    exact ⟨_, by rw [add_zero]; exact h0⟩
  obtain ⟨F, hM⟩ := hM
  refine ⟨s, S0, N, hs, ⟨m, V2, hcalc⟩, ?_, ?_⟩
  · exact (C100_redistribute_iff (p := fun i : Fin 2 => ((Blocks.on 0).get i).pos) IsRot.one (List.cons_ne_nil _ _) (Blocks.masses 0) (Blocks.inertias 0)
      (Blocks.floating 0) (Blocks.rides 0) hs (Blocks.spd 0) R hS0 rfl h6 Blocks.two (by norm_num) hp hμ hflat hz cod hcalc Stand.rsolver_exact
      Stand.rsolver_complete rfl hM).mpr hover
  · exact C100_never_fails (p := fun i : Fin 2 => ((Blocks.on 0).get i).pos) IsRot.one (List.cons_ne_nil _ _) (Blocks.masses 0) (Blocks.inertias 0)
      (Blocks.floating 0) (Blocks.rides 0) hs (Blocks.spd 0) R hS0 rfl rfl h6 Blocks.two (by norm_num) hp hμ hflat hz cod hcalc Stand.solver_sound
      Stand.solver_complete rfl hover

/-- The two blocks, standing on both feet, cannot move. -/
theorem Blocks.fixed {q : Fin 6 ⊕ Fin 6 → ℝ} (h : ContactsFixed (stackFn (Blocks.feet 0)) q) : q = 0 := by
  have hrow : ∀ i, (Blocks.feet 0 i).jac *ᵥ q = 0 := by
    intro i
    funext j
    rw [← stackFn_row, show stackFn (Blocks.feet 0) *ᵥ q = 0 from h]
    rfl
  have e : q = (q ∘ sysIdx) ∘ sysIdx.symm := by funext x; simp
  have z1 : fpart (0 : Fin 6 → ℝ) = 0 := by funext a; fin_cases a <;> rfl
  have z2 : mpart (0 : Fin 6 → ℝ) = 0 := by funext a; fin_cases a <;> rfl
  have h0 := hrow 0
  have h1 := hrow 1
  rw [e] at h0 h1
  have hq : q ∘ sysIdx = 0 := by
    refine Blocks.still 0 _ fun l hl => ?_
    simp only [Blocks.L, List.mem_cons, List.not_mem_nil, or_false] at hl
    rcases hl with rfl | rfl
    · rw [← Blocks.under_v, ← Blocks.under_w]
      have h0' : (Blocks.under Blocks.first).jac *ᵥ ((q ∘ sysIdx) ∘ sysIdx.symm) = 0 := h0
      rw [h0', z1, z2]
      exact ⟨rfl, rfl⟩
    · rw [← Blocks.under_v, ← Blocks.under_w]
      have h1' : (Blocks.under (Blocks.second 0)).jac *ᵥ ((q ∘ sysIdx) ∘ sysIdx.symm) = 0 := h1
      rw [h1', z1, z2]
      exact ⟨rfl, rfl⟩
  rw [e, hq]
  rfl

/-- The hypotheses of `C100_zmp` are met by the two blocks, whatever the tasks: each foot presses. -/
theorem C100_blocks_zmp (qd : Sys (Fin 6) → ℝ) (cod : (W : Matrix (Fin 6) (Fin 6) ℝ) → CodNull W) {ts : List (TaskReady (Fin 6))} (hts : ts ≠ []) :
    ∃ s S N τt τc, let G := s.G ∘ sysIdx.symm
      let R := Blocks.robot S N (Model.gravityForce S G) (gravityTorque S (ctrlMass (Blocks.L 0))⁻¹ G)
      updateKinematics true (massMatrix (Blocks.L 0)) 0 1 (mass (Blocks.L 0)) qd = some s ∧
      calcTaskControlTorqueQP R Stand.solver ts = .ret 1 τt τc ∧
      (∀ j : Fin 2, 1 / 1000 ≤ press (wrenchOf (contactForce R.S R.P (R.τg + τt + τc)) j)) ∧
      ∃ q ∈ polygon R.cs Blocks.two (fun i => ((Blocks.on 0).get i).pos), getZMP (Blocks.on 0) (contactForce R.S R.P (R.τg + τt + τc)) = .zmp q := by
  obtain ⟨s, S, N, hs, ⟨m, V2, hcalc⟩, -, hall⟩ := C100_blocks_stand qd cod
  obtain ⟨τt, τc, h⟩ := hall ts
  have hcom : s.comPos = ![0, 1 / 2, 0] := by
    obtain ⟨s', S', τ', hs', hc', -⟩ := Blocks.data 0 qd
    obtain rfl : s = s' := Option.some.inj (hs.symm.trans hs')
    rw [hc', zero_div]
  have hS := ret_space hcalc
  set R := Blocks.robot S N (Model.gravityForce S (s.G ∘ sysIdx.symm)) (gravityTorque S (ctrlMass (Blocks.L 0))⁻¹ (s.G ∘ sysIdx.symm)) with hRdef
  have h6 : ∀ l ∈ R.cs, l.type = .c6d := fun l hl => by rw [Blocks.pads l hl]; rfl
  have hp : ∀ l ∈ R.cs, 0 < l.planeX ∧ 0 < l.planeY := fun l hl => by rw [Blocks.pads l hl]; norm_num [Blocks.pad]
  have hact : ∀ l ∈ active R.cs, l = Blocks.pad := fun l hl => Blocks.pads l (List.mem_of_mem_filter hl)
  have hflat : ∀ l ∈ active R.cs, Flat l.rotm := fun l hl => by rw [hact l hl]; exact flat_one
  obtain ⟨qdd, hM⟩ := (C01_contact_force_exact (Blocks.spd 0) hS (s.G ∘ sysIdx.symm) (R.τg + τt + τc)).1
  have hq := Blocks.fixed hM.2
  subst hq
  have hpress : ∀ j : Fin 2, 1 / 1000 ≤ press (wrenchOf (contactForce R.S R.P (R.τg + τt + τc)) j) := by
    obtain ⟨w1, w2⟩ := C99_weight (p := fun i : Fin 2 => ((Blocks.on 0).get i).pos) IsRot.one (List.cons_ne_nil _ _) (Blocks.masses 0) (Blocks.inertias 0)
      (Blocks.floating 0) (Blocks.rides 0) hs (Blocks.spd 0) hS _ hM
    have hold := (holds_cast Blocks.two rfl _).mp (C09_contacts_hold (Blocks.spd 0) R hS rfl h6 hp rfl Stand.solver_sound hts h hM)
    set F := contactForce R.S R.P (R.τg + τt + τc) with hF
    have t : ∀ i : Fin 2, |wrenchOf F i 3| ≤ 1 / 10 * press (wrenchOf F i) := by
      intro i
      have := (hold i).1
      change NoTip (footAt R.cs Blocks.two i).planeX (footAt R.cs Blocks.two i).planeY (inFrame (footAt R.cs Blocks.two i).rotm (wrenchOf F i)) at this
      rw [show footAt R.cs Blocks.two i = Blocks.pad from Blocks.foot_pad i, noTip_iff (by norm_num [Blocks.pad]) (by norm_num [Blocks.pad])] at this
      have := this.2
      simpa [Blocks.pad, inFrame, press] using this
    have e1 := congrFun w1 2
    have e2 := congrFun w2 0
    change (∑ i, fpart (wrenchOf F i)) 2 = _ at e1
    change (∑ i, (mpart (wrenchOf F i) + crossProduct (((Blocks.on 0).get i).pos - s.comPos) (fpart (wrenchOf F i)))) 0 = 0 at e2
    have e1' : (fpart (wrenchOf F 0) + fpart (wrenchOf F 1)) 2 = -9.81 * mass (Blocks.L 0) := by rw [← Fin.sum_univ_two fun i => fpart (wrenchOf F i)]; exact e1
    have e2' : ((mpart (wrenchOf F 0) + crossProduct (((Blocks.on 0).get (0 : Fin 2)).pos - s.comPos) (fpart (wrenchOf F 0))) +
        (mpart (wrenchOf F 1) + crossProduct (((Blocks.on 0).get (1 : Fin 2)).pos - s.comPos) (fpart (wrenchOf F 1)))) 0 = 0 := by
      rw [← Fin.sum_univ_two fun i : Fin 2 => mpart (wrenchOf F i) + crossProduct (((Blocks.on 0).get i).pos - s.comPos) (fpart (wrenchOf F i))]; exact e2
    rw [Blocks.mass_L] at e1'
    simp only [Pi.add_apply, cross0, hcom, Pi.sub_apply] at e1' e2'
    simp [fpart, mpart] at e1' e2'
    have t0 := abs_le.mp (t 0)
    have t1 := abs_le.mp (t 1)
    simp only [press] at t0 t1
    intro j
    fin_cases j
    · simp only [press]; norm_num at e1'; show 1 / 1000 ≤ -wrenchOf F 0 2; linarith [t0.1, t0.2, t1.1, t1.2]
    · simp only [press]; norm_num at e1'; show 1 / 1000 ≤ -wrenchOf F 1 2; linarith [t0.1, t0.2, t1.1, t1.2]
  refine ⟨s, S, N, τt, τc, hs, h, hpress, ?_⟩
  obtain ⟨q, hq, hz⟩ := C100_zmp (on := Blocks.on 0) (off := []) (f := Blocks.feet 0) (z := 0) IsRot.one (List.cons_ne_nil _ _) (Blocks.masses 0)
    (Blocks.inertias 0) (Blocks.floating 0) (by simp) (by simp) (by simp) (by simp) (Blocks.rides 0) hs (Blocks.spd 0) R hS rfl h6 Blocks.two hp hflat
    Stand.solver_sound hts h hpress
  exact ⟨q, hq, (congrArg (fun l => getZMP l _) (List.append_nil (Blocks.on 0)).symm).trans hz⟩

/-- The hypotheses of `C100_topples` are met: with a weight on a boom five metres in front, redistribution of the gravity torque returns 0. -/
theorem C100_boom_topples (qd : Sys (Fin 6) → ℝ) (cod : (W : Matrix (Fin 6) (Fin 6) ℝ) → CodNull W) :
    ∃ s S N, let G := s.G ∘ sysIdx.symm
      let R := Blocks.robot S N (Model.gravityForce S G) (gravityTorque S (ctrlMass Blocks.L3)⁻¹ G)
      updateKinematics true (massMatrix Blocks.L3) 0 1 (mass Blocks.L3) qd = some s ∧ s.comPos 0 = 5 / 3 ∧
      (∃ m V2, calculateContactConstraint (stackFn (Blocks.feet 0)) (ctrlMass Blocks.L3)⁻¹ cod = .ret 1 S (some ⟨m, V2, N⟩)) ∧
      redistribute R Stand.rsolver (R.τg + 0) 0 = some (0, 0) := by
  obtain ⟨s, hs, hcm, -⟩ := C25_com_partial IsRot.one (List.cons_ne_nil _ _) Blocks.masses3 Blocks.inertias3 Blocks.floating3 qd
  have hcom : s.comPos 0 = 5 / 3 := by
    have hc : mass Blocks.L3 • s.comPos = _ := hcm
    rw [Blocks.mass_L3] at hc
    have c0 := congrFun hc 0
    simp [Blocks.first, Blocks.second, Blocks.boom] at c0
    linarith
  obtain ⟨S, ⟨m, V2, N⟩, hcalc⟩ := C05_feet_succeed (p := fun i : Fin 2 => ((Blocks.on 0).get i).pos) IsRot.one (by norm_num) (Blocks.rides 0)
    Blocks.spd3 (Blocks.independent 0) cod
  have hS := ret_space hcalc
  set R := Blocks.robot S N (Model.gravityForce S (s.G ∘ sysIdx.symm)) (gravityTorque S (ctrlMass Blocks.L3)⁻¹ (s.G ∘ sysIdx.symm)) with hRdef
  have h6 : ∀ l ∈ R.cs, l.type = .c6d := fun l hl => by rw [Blocks.pads l hl]; rfl
  have hp : ∀ l ∈ R.cs, 0 < l.planeX ∧ 0 < l.planeY := fun l hl => by rw [Blocks.pads l hl]; norm_num [Blocks.pad]
  have hact : ∀ l ∈ active R.cs, l = Blocks.pad := fun l hl => Blocks.pads l (List.mem_of_mem_filter hl)
  have hμ : ∀ l ∈ active R.cs, 0 ≤ l.friction ∧ 0 ≤ l.frictionZ := fun l hl => by rw [hact l hl]; norm_num [Blocks.pad]
  have hflat : ∀ l ∈ active R.cs, Flat l.rotm := fun l hl => by rw [hact l hl]; exact flat_one
  have hz : ∀ i : Fin 2, ((Blocks.on 0).get i).pos 2 = 0 := by intro i; fin_cases i <;> rfl
  have hM : ∃ F, Motion (ctrlMass Blocks.L3) (stackFn (Blocks.feet 0)) (s.G ∘ sysIdx.symm) (R.τg + 0) 0 F := by
    obtain ⟨q0, h0⟩ := (C01_contact_force_exact Blocks.spd3 hS (s.G ∘ sysIdx.symm) R.τg).1
    obtain rfl := (C03_gravity_compensation Blocks.spd3 hS _ h0).2
      (C03_feet_determine_base (p := fun i : Fin 2 => ((Blocks.on 0).get i).pos) IsRot.one (by norm_num) (Blocks.rides 0))
    exact ⟨_, by rw [add_zero]; exact h0⟩
  obtain ⟨F, hM⟩ := hM
  refine ⟨s, S, N, hs, hcom, ⟨m, V2, hcalc⟩, ?_⟩
  refine C100_topples (p := fun i : Fin 2 => ((Blocks.on 0).get i).pos) IsRot.one (List.cons_ne_nil _ _) Blocks.masses3 Blocks.inertias3
    Blocks.floating3 (Blocks.rides 0) hs Blocks.spd3 R hS rfl h6 Blocks.two (by norm_num) hp hμ hflat hz cod hcalc (fun k d x hx => (Stand.rsolver_exact k d x hx).1)
    hM fun hin => ?_
  -- no point of the polygon is more than ten centimetres in front
  have hsub : polygon R.cs Blocks.two (fun i => ((Blocks.on 0).get i).pos) ⊆ {x : Vec3 | x 0 ≤ 1} := by
    refine convexHull_min (Set.iUnion_subset fun i => ?_) (convex_halfSpace_le ⟨fun _ _ => rfl, fun _ _ => rfl⟩ 1)
    rintro x ⟨a, b, ha, -, rfl⟩
    have hpad : footAt [Blocks.pad, Blocks.pad] Blocks.two i = Blocks.pad := Blocks.foot_pad i
    change |a| ≤ (footAt [Blocks.pad, Blocks.pad] Blocks.two i).planeX at ha
    show (((Blocks.on 0).get i).pos + (footAt [Blocks.pad, Blocks.pad] Blocks.two i).rotm *ᵥ ![a, b, 0]) 0 ≤ 1
    rw [hpad] at ha ⊢
    have hx : ((Blocks.on 0).get i).pos 0 = 0 := by fin_cases i <;> rfl
    have ha' := (le_abs_self a).trans ha
    simp only [Pi.add_apply, hx, Blocks.pad, one_mulVec, cons_val_zero] at ha' ⊢
    linarith
  have h1 := hsub hin
  have : s.comPos 0 ≤ 1 := h1
  rw [hcom] at this
  norm_num at this

/-- **C100 (negation: one foot).**  On one foot the toppling is not noticed: no torque holds the robot with the boom still without tipping its foot, and
redistribution of the gravity torque reports success. -/
theorem C100_one_foot_unnoticed (qd : Sys (Fin 6) → ℝ) (solve : RSolver) (N : Matrix (Fin 6) (Fin (6 * 1 - 6)) ℝ) :
    ∃ s S, let G := s.G ∘ sysIdx.symm
      let R := Blocks.robot1 S N (Model.gravityForce S G) (gravityTorque S (ctrlMass Blocks.L3)⁻¹ G)
      updateKinematics true (massMatrix Blocks.L3) 0 1 (mass Blocks.L3) qd = some s ∧
      contactSpace (stackFn Blocks.foot1) (ctrlMass Blocks.L3)⁻¹ = some S ∧
      (∃ F, Motion (ctrlMass Blocks.L3) (stackFn Blocks.foot1) G (R.τg + 0) 0 F) ∧
      (¬ ∃ τ F, Motion (ctrlMass Blocks.L3) (stackFn Blocks.foot1) G τ 0 F ∧ ContactsHold [Blocks.pad] F) ∧
      ∃ τc, redistribute R solve (R.τg + 0) 0 = some (1, τc) := by
  obtain ⟨s, hs, hcm, -⟩ := C25_com_partial IsRot.one (List.cons_ne_nil _ _) Blocks.masses3 Blocks.inertias3 Blocks.floating3 qd
  have hcom : s.comPos 0 = 5 / 3 := by
    have hc : mass Blocks.L3 • s.comPos = _ := hcm
    rw [Blocks.mass_L3] at hc
    have c0 := congrFun hc 0
    simp [Blocks.first, Blocks.second, Blocks.boom] at c0
    linarith
  obtain ⟨S, hS⟩ := Option.isSome_iff_exists.mp ((C02_finite_iff_independent Blocks.spd3).mpr Blocks.independent1)
  have hpads : ∀ l ∈ [Blocks.pad], l = Blocks.pad := by simp
  refine ⟨s, S, hs, hS, ?_, fun hstand => ?_, _, if_neg (by norm_num)⟩
  · obtain ⟨q0, h0⟩ := (C01_contact_force_exact Blocks.spd3 hS (s.G ∘ sysIdx.symm) (gravityTorque S (ctrlMass Blocks.L3)⁻¹ (s.G ∘ sysIdx.symm))).1
    obtain rfl := (C03_gravity_compensation Blocks.spd3 hS _ h0).2
      (C03_feet_determine_base (p := fun _ : Fin 1 => 0) IsRot.one (by norm_num) Blocks.rides1)
    exact ⟨_, by rw [add_zero]; exact h0⟩
  · have hin := (C100_stands_iff (k := 1) (cs := [Blocks.pad]) (p := fun _ : Fin 1 => 0) (z := 0) IsRot.one (List.cons_ne_nil _ _) Blocks.masses3 Blocks.inertias3
      Blocks.floating3 Blocks.rides1 hs Blocks.spd3 hS Blocks.one rfl (by norm_num) (fun l hl => by rw [hpads l hl]; norm_num [Blocks.pad])
      (fun l hl => by rw [hpads l (List.mem_of_mem_filter hl)]; norm_num [Blocks.pad])
      (fun l hl => by rw [hpads l (List.mem_of_mem_filter hl)]; exact flat_one) (fun _ => rfl)).mp hstand
    have hsub : polygon [Blocks.pad] Blocks.one (fun _ => 0) ⊆ {x : Vec3 | x 0 ≤ 1} := by
      refine convexHull_min (Set.iUnion_subset fun i => ?_) (convex_halfSpace_le ⟨fun _ _ => rfl, fun _ _ => rfl⟩ 1)
      rintro x ⟨a, b, ha, -, rfl⟩
      have hpad : footAt [Blocks.pad] Blocks.one i = Blocks.pad := by fin_cases i; rfl
      change |a| ≤ (footAt [Blocks.pad] Blocks.one i).planeX at ha
      show ((0 : Vec3) + (footAt [Blocks.pad] Blocks.one i).rotm *ᵥ ![a, b, 0]) 0 ≤ 1
      rw [hpad] at ha ⊢
      have ha' := (le_abs_self a).trans ha
      simp only [Pi.add_apply, Pi.zero_apply, Blocks.pad, one_mulVec, cons_val_zero] at ha' ⊢
      linarith
    have h1 := hsub hin
    have : s.comPos 0 ≤ 1 := h1
    rw [hcom] at this
    norm_num at this

end Verif.Props
