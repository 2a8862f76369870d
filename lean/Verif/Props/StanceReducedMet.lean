import Verif.Props.StanceReduced
import Verif.Props.StanceMet

/-!
# C100: the two blocks with a hand, controlled with the reduced model
-/

set_option linter.unusedSectionVars false

namespace Verif.Props
open Matrix Verif Verif.Spec Verif.Model Verif.Lemmas

/-- With unit inertia the Jacobian of the part outside the contact chains is the identity. -/
theorem jInc_unit {k : ℕ} {A : Matrix (RSys (Fin k) (Fin 6)) (RSys (Fin k) (Fin 6)) ℝ}
    (hB : baseNc A = (1 : Matrix (Fin 6) (Fin 6) ℝ).submatrix six id) : jInc 1 1 (baseNc A) = some (1 : Matrix (Fin 6) (Fin 6) ℝ) := by
  have h := exRed_jInc (k := k)
  have hB' : baseNc (exRed k) = (1 : Matrix (Fin 6) (Fin 6) ℝ).submatrix six id := by
    ext r j
    simp [baseNc, exRed, ncOf, Matrix.mul_apply, exE, Matrix.one_apply, eq_comm]
  rwa [hB, ← hB']

namespace Hand

/-- the coordinates of the base and the leg among all -/
def legs : Sys (Fin 6) → Sys (Fin 6 ⊕ Fin 6)
  | .inl a => .inl a
  | .inr j => .inr (.inl j)

/-- the coordinates of the base and the arm among all -/
def arms : Sys (Fin 6) → Sys (Fin 6 ⊕ Fin 6)
  | .inl a => .inl a
  | .inr j => .inr (.inr j)

/-- a block that does not move with the arm -/
noncomputable def ofLeg (l : MovingLink (Sys (Fin 6))) : MovingLink (Sys (Fin 6 ⊕ Fin 6)) :=
  { m := l.m, I := l.I, x := l.x, Jv := Matrix.of fun i => Sum.elim (fun a => l.Jv i (.inl a)) (Sum.elim (fun j => l.Jv i (.inr j)) 0), Jw := Matrix.of fun i => Sum.elim (fun a => l.Jw i (.inl a)) (Sum.elim (fun j => l.Jw i (.inr j)) 0) }

/-- a block that does not move with the leg -/
noncomputable def ofArm (l : MovingLink (Sys (Fin 6))) : MovingLink (Sys (Fin 6 ⊕ Fin 6)) :=
  { m := l.m, I := l.I, x := l.x, Jv := Matrix.of fun i => Sum.elim (fun a => l.Jv i (.inl a)) (Sum.elim 0 (fun j => l.Jv i (.inr j))), Jw := Matrix.of fun i => Sum.elim (fun a => l.Jw i (.inl a)) (Sum.elim 0 (fun j => l.Jw i (.inr j))) }

theorem ofLeg_v (l : MovingLink (Sys (Fin 6))) (q : Sys (Fin 6 ⊕ Fin 6) → ℝ) : (ofLeg l).Jv *ᵥ q = l.Jv *ᵥ (q ∘ legs) := by
  funext i
  simp [ofLeg, mulVec, dotProduct, Fintype.sum_sum_type, legs]

theorem ofLeg_w (l : MovingLink (Sys (Fin 6))) (q : Sys (Fin 6 ⊕ Fin 6) → ℝ) : (ofLeg l).Jw *ᵥ q = l.Jw *ᵥ (q ∘ legs) := by
  funext i
  simp [ofLeg, mulVec, dotProduct, Fintype.sum_sum_type, legs]

theorem ofArm_v (l : MovingLink (Sys (Fin 6))) (q : Sys (Fin 6 ⊕ Fin 6) → ℝ) : (ofArm l).Jv *ᵥ q = l.Jv *ᵥ (q ∘ arms) := by
  funext i
  simp [ofArm, mulVec, dotProduct, Fintype.sum_sum_type, arms]

theorem ofArm_w (l : MovingLink (Sys (Fin 6))) (q : Sys (Fin 6 ⊕ Fin 6) → ℝ) : (ofArm l).Jw *ᵥ q = l.Jw *ᵥ (q ∘ arms) := by
  funext i
  simp [ofArm, mulVec, dotProduct, Fintype.sum_sum_type, arms]

/-- the hand, at the origin; six joints move it relative to the base -/
noncomputable def palm : MovingLink (Sys (Fin 6)) :=
  { m := 1, I := 1, x := 0, Jv := Matrix.of fun i => Sum.elim (Sum.elim (Pi.single i 1) 0) (!![1, 0, 0, 0, 0, 0; 0, 1, 0, 0, 0, 0; 0, 0, 1, 0, 0, 0] i), Jw := Matrix.of fun i => Sum.elim (Sum.elim 0 (Pi.single i 1)) (!![0, 0, 0, 1, 0, 0; 0, 0, 0, 0, 1, 0; 0, 0, 0, 0, 0, 1] i) }

theorem palm_v (q : Sys (Fin 6) → ℝ) : palm.Jv *ᵥ q = ![q (.inl (.inl 0)) + q (.inr 0), q (.inl (.inl 1)) + q (.inr 1), q (.inl (.inl 2)) + q (.inr 2)] := by
  funext i
  fin_cases i <;> simp [palm, mulVec, dotProduct, Fin.sum_univ_succ, Pi.single_apply]

theorem palm_w (q : Sys (Fin 6) → ℝ) : palm.Jw *ᵥ q = ![q (.inl (.inr 0)) + q (.inr 3), q (.inl (.inr 1)) + q (.inr 4), q (.inl (.inr 2)) + q (.inr 5)] := by
  funext i
  fin_cases i <;> simp [palm, mulVec, dotProduct, Fin.sum_univ_succ, Pi.single_apply] <;> rfl

theorem palm_floating : FloatingBase 0 1 palm := by
  refine ⟨fun v ω => ?_, fun v ω => ?_⟩
  · rw [palm_v, one_mulVec, cross_apply]
    funext i; fin_cases i <;> simp [baseVelocity, palm]
  · rw [palm_w, one_mulVec]
    funext i; fin_cases i <;> simp [baseVelocity]

noncomputable abbrev L : List (MovingLink (Sys (Fin 6 ⊕ Fin 6))) := [ofLeg Blocks.first, ofLeg (Blocks.second 0), ofArm palm]

theorem base_legs (v ω : Vec3) : (baseVelocity v ω : Sys (Fin 6 ⊕ Fin 6) → ℝ) ∘ legs = baseVelocity v ω := by
  funext i
  rcases i with (i | i) | i <;> rfl

theorem base_arms (v ω : Vec3) : (baseVelocity v ω : Sys (Fin 6 ⊕ Fin 6) → ℝ) ∘ arms = baseVelocity v ω := by
  funext i
  rcases i with (i | i) | i <;> rfl

theorem floating : ∀ l ∈ L, FloatingBase 0 1 l := by
  have hl : ∀ l ∈ Blocks.L 0, FloatingBase 0 1 (ofLeg l) := fun l hl =>
    ⟨fun v ω => by rw [ofLeg_v, base_legs]; exact (Blocks.floating 0 l hl).lin v ω, fun v ω => by rw [ofLeg_w, base_legs]; exact (Blocks.floating 0 l hl).ang v ω⟩
  intro l h
  simp only [L, List.mem_cons, List.not_mem_nil, or_false] at h
  rcases h with rfl | rfl | rfl
  · exact hl _ (by simp)
  · exact hl _ (by simp)
  · exact ⟨fun v ω => by rw [ofArm_v, base_arms]; exact palm_floating.lin v ω, fun v ω => by rw [ofArm_w, base_arms]; exact palm_floating.ang v ω⟩

theorem masses : ∀ l ∈ L, 0 < l.m := by
  intro l h
  simp only [L, List.mem_cons, List.not_mem_nil, or_false] at h
  rcases h with rfl | rfl | rfl <;> norm_num [ofLeg, ofArm, Blocks.first, Blocks.second, palm]

theorem inertias : ∀ l ∈ L, l.I.PosDef := by
  intro l h
  simp only [L, List.mem_cons, List.not_mem_nil, or_false] at h
  rcases h with rfl | rfl | rfl <;> exact PosDef.one

theorem still (q : Sys (Fin 6 ⊕ Fin 6) → ℝ) (h : ∀ l ∈ L, l.Jv *ᵥ q = 0 ∧ l.Jw *ᵥ q = 0) : q = 0 := by
  have h1 : q ∘ legs = 0 := Blocks.still 0 _ fun l hl => by
    rw [← ofLeg_v, ← ofLeg_w]
    simp only [Blocks.L, List.mem_cons, List.not_mem_nil, or_false] at hl
    rcases hl with rfl | rfl
    · exact h _ (by simp)
    · exact h _ (by simp)
  have hb : ∀ a, q (.inl a) = 0 := fun a => congrFun h1 (.inl a)
  have h3 := (h (ofArm palm) (by simp)).1
  have h4 := (h (ofArm palm) (by simp)).2
  rw [ofArm_v, palm_v] at h3
  rw [ofArm_w, palm_w] at h4
  have c0 := congrFun h3 0; have c1 := congrFun h3 1; have c2 := congrFun h3 2
  have d0 := congrFun h4 0; have d1 := congrFun h4 1; have d2 := congrFun h4 2
  simp [arms, hb] at c0 c1 c2 d0 d1 d2
  funext i
  rcases i with i | i | i
  · exact hb i
  · exact congrFun h1 (.inr i)
  · fin_cases i <;> assumption

theorem spd : IsSPD (ctrlMass L) := by
  refine isSPD_reindex (massMatrix_spd ?_ still) _
  intro l h
  refine ⟨masses l h, ?_⟩
  simp only [L, List.mem_cons, List.not_mem_nil, or_false] at h
  rcases h with rfl | rfl | rfl <;> exact isSPD_one

/-- a foot that does not move with the arm -/
noncomputable def ofFoot (f : Foot (Fin 6)) : Foot (Fin 6 ⊕ Fin 6) :=
  { link := f.link, jac := Matrix.of fun a => Sum.elim (fun b => f.jac a (.inl b)) (Sum.elim (fun j => f.jac a (.inr j)) 0) }

noncomputable def feet (i : Fin 2) : Foot (Fin 6 ⊕ Fin 6) := ofFoot (Blocks.feet 0 i)

theorem rides (i : Fin 2) : RidesOnBase 0 1 ((Blocks.on 0).get i).pos (feet i).jac := by
  intro v ω
  have e : (feet i).jac *ᵥ ((baseVelocity v ω : Sys (Fin 6 ⊕ Fin 6) → ℝ) ∘ sysIdx.symm) = (Blocks.feet 0 i).jac *ᵥ ((baseVelocity v ω : Sys (Fin 6) → ℝ) ∘ sysIdx.symm) := by
    funext a
    simp [feet, ofFoot, mulVec, dotProduct, Fintype.sum_sum_type, sysIdx, baseVelocity]
  rw [e]
  exact Blocks.rides 0 i v ω

theorem zero (r : Fin (6 * 2)) (j : Fin 6) : stackFn feet r (ncOf j) = 0 := rfl

theorem independent : IndependentRows (stackFn feet) := by
  intro F hF
  refine Blocks.independent 0 F (funext fun x => ?_)
  rcases x with x | x
  · exact congrFun hF (.inl x)
  · exact congrFun hF (.inr (.inl x))

theorem base : baseNc (ctrlMass L) = (1 : Matrix (Fin 6) (Fin 6) ℝ).submatrix six id := by
  have e : ∀ r : Fin 3 ⊕ Fin 3, (sysIdx (ι := Fin 6 ⊕ Fin 6)).symm (.inl (six r)) = .inl r := fun r => by
    rw [Equiv.symm_apply_eq]; rfl
  ext r j
  show massMatrix L (sysIdx.symm (.inl (six r))) (.inr (.inr j)) = _
  rw [e]
  have hq : (Pi.single (.inr (.inr j)) 1 : Sys (Fin 6 ⊕ Fin 6) → ℝ) ∘ legs = 0 := by
    funext x
    rcases x with (x | x) | x <;> simp [legs, Pi.single_apply]
  have hd := mass_dot L (Pi.single (.inl r) 1) (Pi.single (.inr (.inr j)) 1)
  rw [mulVec_single_one, single_one_dotProduct] at hd
  refine hd.trans ?_
  simp only [L, List.map_cons, List.map_nil, List.sum_cons, List.sum_nil, add_zero, ofLeg_v, ofLeg_w, hq, mulVec_zero, dotProduct_zero, mul_zero, zero_add,
    ofArm_v, ofArm_w, palm_v, palm_w]
  have hm : (ofArm palm).m = 1 := rfl
  have hI : (ofArm palm).I = 1 := rfl
  rw [hm, hI, one_mulVec]
  rcases r with r | r <;> fin_cases r <;> fin_cases j <;>
    simp [arms, Pi.single_apply, dotProduct, Fin.sum_univ_three, six, finSumFinEquiv, Matrix.one_apply, Fin.ext_iff]

theorem coupling (i : Fin 6) (j : Fin 6) : ctrlMass L (.inr (.inl i)) (.inr (.inr j)) = 0 := by
  show massMatrix L (.inr (.inl i)) (.inr (.inr j)) = 0
  simp [massMatrix, L, Matrix.mul_apply, ofLeg, ofArm]

end Hand

/-- the robot as the reduced model sees it, without torque limits -/
noncomputable def Hand.robot (N : Matrix (Fin 6 ⊕ Fin 6) (Fin (6 * 2 - 6)) ℝ) : RQPRobot 6 (6 * 2) := { NwJw := N, limit := none, cs := [Blocks.pad, Blocks.pad] }

theorem Hand.mass_L : mass Hand.L = 3 := by
  norm_num [mass, Blocks.first, Blocks.second, Hand.palm, Hand.ofLeg, Hand.ofArm]

theorem Hand.over : (![0, 1 / 3, 0] : Vec3) ∈ polygon [Blocks.pad, Blocks.pad] Blocks.two fun i => ((Blocks.on 0).get i).pos := by
  have h : Convex ℝ (polygon [Blocks.pad, Blocks.pad] Blocks.two fun i => ((Blocks.on 0).get i).pos) := convex_convexHull ℝ _
  have := h (Blocks.centre_mem 0) (Blocks.centre_mem 1) (show (0 : ℝ) ≤ 2 / 3 by norm_num) (show (0 : ℝ) ≤ 1 / 3 by norm_num) (by norm_num)
  have e : (![0, 1 / 3, 0] : Vec3) = (2 / 3 : ℝ) • ((Blocks.on 0).get (0 : Fin 2)).pos + (1 / 3 : ℝ) • ((Blocks.on 0).get (1 : Fin 2)).pos := by
    funext i
    fin_cases i <;> simp
  rw [e]
  exact this

theorem Hand.chain : ChainTask (ctrlMass Hand.L) TwoFeetFail.task := by
  refine ⟨rfl, .inl ⟨rfl, (1 : Matrix (Fin 6) (Fin 6) ℝ).submatrix id six, ?_⟩⟩
  have h1 : TwoFeetFail.TJ.submatrix id ncOf = (1 : Matrix (Fin 6) (Fin 6) ℝ).submatrix id six * (1 : Matrix (Fin 6) (Fin 6) ℝ).submatrix six id := by
    rw [submatrix_mul_equiv, Matrix.one_mul]
    ext r j
    simp [TwoFeetFail.TJ, ncOf, Matrix.one_apply]
  rw [Hand.base]
  exact h1

/-- The hypotheses of `C100_reduced_task_control`, `C100_reduced_redistribute_iff` and `C100_reduced_never_fails` are met: the robot stands on two feet, task
control of its hand with the reduced model succeeds and so does redistribution. -/
theorem C100_hand_stands (qd : Sys (Fin 6 ⊕ Fin 6) → ℝ) (Wt : Matrix (Fin (6 * 2)) (Fin (6 * 2)) ℝ) : ∃ s S D C N,
    updateKinematics true (massMatrix Hand.L) 0 1 (mass Hand.L) qd = some s ∧
    reduce vcOf ncOf (ctrlMass Hand.L)⁻¹ 1 (s.G ∘ sysIdx.symm) = some D ∧ contactSpace (stackFn Hand.feet) (ctrlMass Hand.L)⁻¹ = some S ∧
    reducedContact D (stackFn Hand.feet) (ctrlMass Hand.L)⁻¹ = some C ∧ (∃ f : CodNull C.W, reducedNwJw C f = some N) ∧
    (∃ τ τR, reducedTaskTorqueQP D C 1 (ctrlMass Hand.L)⁻¹ (Hand.robot N) Stand.solver [TwoFeetFail.task] = .ret 1 τ τR) ∧
    ∃ τc, reducedRedistribute D C (Hand.robot N) Wt Stand.rsolver 0 0 = some (1, τc) := by
  obtain ⟨s, hs, hcom, -⟩ := C25_com_partial IsRot.one (List.cons_ne_nil _ _) Hand.masses Hand.inertias Hand.floating qd
  have hc3 : s.comPos = ![0, 1 / 3, 0] := by
    have hc : mass Hand.L • s.comPos = _ := hcom
    rw [Hand.mass_L] at hc
    have c0 := congrFun hc 0; have c1 := congrFun hc 1; have c2 := congrFun hc 2
    simp [Blocks.first, Blocks.second, Hand.palm, Hand.ofLeg, Hand.ofArm] at c0 c1 c2
    funext i
    fin_cases i
    · simpa using c0
    · simp; linarith
    · simpa using c2
  have hBd := C03_feet_determine_base (p := fun i : Fin 2 => ((Blocks.on 0).get i).pos) IsRot.one (by norm_num) Hand.rides
  obtain ⟨S, hS⟩ := Option.isSome_iff_exists.mp ((C02_finite_iff_independent Hand.spd).mpr Hand.independent)
  have hJ := jInc_unit Hand.base
  obtain ⟨D, hD⟩ := Option.isSome_iff_exists.mp ((C40_finite_iff (J := (1 : Matrix (Fin 6) (Fin 6) ℝ)) (G := s.G ∘ sysIdx.symm) Hand.spd).mpr
    fun f h => by simpa using h)
  obtain ⟨C, hC, -⟩ := C41_contact_partial Hand.spd hD Hand.zero (by norm_num) hS
  have hlast := ((C05_outcome Hand.spd Hand.independent (by norm_num) fun W => (exists_codNull W).some).1.mp
    (C05_feet_succeed (p := fun i : Fin 2 => ((Blocks.on 0).get i).pos) IsRot.one (by norm_num) Hand.rides Hand.spd Hand.independent
      fun W => (exists_codNull W).some)).2
  obtain ⟨N, hN⟩ := (C59_finite_iff_partial Hand.spd hD Hand.zero (by norm_num) Hand.independent hC (by norm_num)
    fun W => (exists_codNull W).some).mpr ⟨hBd, hlast⟩
  have h6 : ∀ l ∈ (Hand.robot N).cs, l.type = .c6d := fun l hl => by rw [Blocks.pads l hl]; rfl
  have hp : ∀ l ∈ (Hand.robot N).cs, 0 < l.planeX ∧ 0 < l.planeY := fun l hl => by rw [Blocks.pads l hl]; norm_num [Blocks.pad]
  have hact : ∀ l ∈ active (Hand.robot N).cs, l = Blocks.pad := fun l hl => Blocks.pads l (List.mem_of_mem_filter hl)
  have hμ : ∀ l ∈ active (Hand.robot N).cs, 0 ≤ l.friction ∧ 0 ≤ l.frictionZ := fun l hl => by rw [hact l hl]; norm_num [Blocks.pad]
  have hflat : ∀ l ∈ active (Hand.robot N).cs, Flat l.rotm := fun l hl => by rw [hact l hl]; exact flat_one
  have hz : ∀ i : Fin 2, ((Blocks.on 0).get i).pos 2 = 0 := by intro i; fin_cases i <;> rfl
  have hover : ![s.comPos 0, s.comPos 1, 0] ∈ polygon (Hand.robot N).cs Blocks.two fun i => ((Blocks.on 0).get i).pos := by
    rw [hc3]; exact Hand.over
  refine ⟨s, S, D, C, N, hs, hD, hS, hC, ⟨_, hN⟩, ?_, ?_⟩
  · refine C100_reduced_never_fails (Q := Hand.robot N) (p := fun i : Fin 2 => ((Blocks.on 0).get i).pos) IsRot.one (List.cons_ne_nil _ _) Hand.masses
      Hand.inertias Hand.floating Hand.rides hs Hand.spd hJ Hand.coupling hD Hand.zero (by norm_num) hS hC h6 Blocks.two (by norm_num) hp hμ hflat hz hN
      Stand.solver_sound Stand.solver_complete rfl ?_ hover
    intro T hT
    obtain rfl : T = TwoFeetFail.task := by simpa using hT
    refine ⟨rfl, ?_⟩
    obtain ⟨hF, hP⟩ := rFacts Hand.spd (R := 1) (by simp) hJ Hand.coupling hD Hand.zero (by norm_num) hBd hS hC
    have hready : (calculateJKT S (ctrlMass Hand.L)⁻¹ (fullTask TwoFeetFail.task)).isSome := by
      refine (C06_finite_iff Hand.spd hS _).mpr ?_
      rintro y ⟨F, hy⟩
      funext j
      have h1 := congrFun hy (.inr (.inr j))
      have e1 : ((stackFn Hand.feet)ᵀ *ᵥ F) (.inr (.inr j)) = 0 := by
        rw [mulVec, dotProduct]
        exact Finset.sum_eq_zero fun r _ => by rw [transpose_apply, show stackFn Hand.feet r (.inr (.inr j)) = 0 from Hand.zero r j, zero_mul]
      rw [e1] at h1
      have e2 : (TwoFeetFail.TJᵀ *ᵥ y) (.inr (.inr j)) = y j := by
        exact congrFun (TwoFeetFail.TJ_transpose y) (.inr (.inr j))
      exact (h1.trans e2).symm
    obtain ⟨q, hq⟩ := Option.isSome_iff_exists.mp hready
    obtain ⟨q', hq', -, -⟩ := chainTask_ready (R := 1) (by simp) hJ hF (reduce_eq_some hD).2.2.2.1 hS Hand.chain hq
    exact ⟨q', by rw [hP]; exact hq'⟩
  · obtain ⟨q0, hM⟩ := (C01_contact_force_exact Hand.spd hS (s.G ∘ sysIdx.symm) (reducedGravityTorque D C)).1
    have hq0 : q0 = 0 := by
      rw [C41_gravity_torque_partial Hand.spd hD Hand.zero (by norm_num) hBd hS hC] at hM
      exact (C03_gravity_compensation Hand.spd hS _ hM).2 hBd
    subst hq0
    have hz0 : assembleTorque D (0 : Fin 6 ⊕ Fin 6 → ℝ) (0 : Fin 6 → ℝ) = 0 := by
      have e0 : (fun _ : Fin 6 => (0 : ℝ)) = 0 := rfl
      ext j
      rcases j with j | j
      · simp [assembleTorque]
      · simp [assembleTorque, e0]
    exact (C100_reduced_redistribute_iff (Q := Hand.robot N) (p := fun i : Fin 2 => ((Blocks.on 0).get i).pos) (τR := 0) (τN := 0) IsRot.one
      (List.cons_ne_nil _ _) Hand.masses Hand.inertias Hand.floating Hand.rides hs Hand.spd hJ Hand.coupling hD Hand.zero (by norm_num) hS hC h6 Blocks.two
      (by norm_num) hp hμ hflat hz hN Stand.rsolver_exact Stand.rsolver_complete rfl 0 (by rw [hz0, add_zero]; exact hM)).mpr hover

/-- On flat ground the torque that lets each foot carry its own block is zero. -/
theorem Blocks.idle {τ : Fin 6 → ℝ}
    (h : Motion (ctrlMass (Blocks.L 0)) (stackFn (Blocks.feet 0)) (-(Spec.gravityForce earth (Blocks.L 0)) ∘ sysIdx.symm) τ 0 (Blocks.F 0)) : τ = 0 := by
  funext j
  have hd : ctrlMass (Blocks.L 0) *ᵥ 0 + (stackFn (Blocks.feet 0))ᵀ *ᵥ Blocks.F 0 + -(Spec.gravityForce earth (Blocks.L 0)) ∘ sysIdx.symm = actuate τ := h.1
  have hj := congrArg (fun v => ((Pi.single (.inr j) 1 : Sys (Fin 6) → ℝ) ∘ sysIdx.symm) ⬝ᵥ v) hd
  have e : ((Pi.single (.inr j) 1 : Sys (Fin 6) → ℝ) ∘ sysIdx.symm) = Pi.single (.inr j) 1 := by
    funext a
    rcases a with a | a
    · simp [sysIdx]
    · simp [sysIdx, Pi.single_apply]
  have eτ : ((Pi.single (.inr j) 1 : Sys (Fin 6) → ℝ) ∘ sysIdx.symm) ⬝ᵥ actuate τ = τ j := by
    rw [e, single_one_dotProduct]; rfl
  have eG : ((Pi.single (.inr j) 1 : Sys (Fin 6) → ℝ) ∘ sysIdx.symm) ⬝ᵥ (-(Spec.gravityForce earth (Blocks.L 0)) ∘ sysIdx.symm) =
      -((Pi.single (.inr j) 1 : Sys (Fin 6) → ℝ) ⬝ᵥ Spec.gravityForce earth (Blocks.L 0)) := by
    rw [← dotProduct_neg]
    exact Equiv.sum_comp sysIdx.symm fun x => (Pi.single (.inr j) 1 : Sys (Fin 6) → ℝ) x * (-(Spec.gravityForce earth (Blocks.L 0))) x
  have e0 : Blocks.feet 0 0 = Blocks.under Blocks.first := rfl
  have e1 : Blocks.feet 0 1 = Blocks.under (Blocks.second 0) := rfl
  simp only [mulVec_zero, zero_add, dotProduct_add] at hj
  rw [eτ, eG, weight_dot, dotProduct_mulVec, vecMul_transpose, stack_dot, Fin.sum_univ_two, dot6, dot6, e0, e1, Blocks.under_v, Blocks.under_w,
    Blocks.under_v, Blocks.under_w] at hj
  simp only [List.map_cons, List.map_nil, Blocks.first_v, Blocks.first_w, Blocks.second_v, Blocks.second_w] at hj
  rw [← hj]
  fin_cases j <;> simp [dotProduct, Fin.sum_univ_three, Pi.single_apply, fpart, mpart, wrenchOf, Blocks.F, earth, Blocks.first, Blocks.second]

theorem Blocks.carried (hc : 6 * 2 = 6 * (active [Blocks.pad, Blocks.pad]).length) : ContactsHold [Blocks.pad, Blocks.pad] (Blocks.F 0 ∘ Fin.cast hc.symm) := by
  refine (holds_cast Blocks.two hc _).mpr fun i => ?_
  rw [Blocks.foot_pad, show Blocks.pad.rotm = 1 from rfl, Stand.inFrame_one, noTip_iff (by norm_num [Blocks.pad]) (by norm_num [Blocks.pad])]
  fin_cases i <;> norm_num [wrenchOf, Blocks.F, press, NoSlip, Blocks.pad]

/-- The hypotheses of `C100_jacc` are met: the joint-acceleration QP of the two blocks succeeds on every task. -/
theorem C100_blocks_jacc (qd : Sys (Fin 6) → ℝ) (T : JTask (Fin 6) (6 * 2)) : ∃ s S,
    updateKinematics true (massMatrix (Blocks.L 0)) 0 1 (mass (Blocks.L 0)) qd = some s ∧
    contactSpace (stackFn (Blocks.feet 0)) (ctrlMass (Blocks.L 0))⁻¹ = some S ∧
    ∃ ts', jaccPass ⟨ctrlMass (Blocks.L 0), s.G ∘ sysIdx.symm, stackFn (Blocks.feet 0), [Blocks.pad, Blocks.pad], none⟩ bestSolver [T] 1 =
      some (true, ts') := by
  obtain ⟨s, hs, -, -, -, -, -, hG, -⟩ := C25_com_partial IsRot.one (List.cons_ne_nil _ _) (Blocks.masses 0) (Blocks.inertias 0) (Blocks.floating 0) qd
  obtain ⟨S, hS⟩ := Option.isSome_iff_exists.mp ((C02_finite_iff_independent (Blocks.spd 0)).mpr (Blocks.independent 0))
  obtain ⟨τ, h⟩ := Blocks.held 0
  obtain rfl := Blocks.idle h
  refine ⟨s, S, hs, hS, (C35_succeeds_iff (R := ⟨ctrlMass (Blocks.L 0), s.G ∘ sysIdx.symm, stackFn (Blocks.feet 0), [Blocks.pad, Blocks.pad], none⟩)
    (Blocks.spd 0) (fun l hl => by rw [Blocks.pads l hl]; rfl) (fun l hl => by rw [Blocks.pads l hl]; norm_num [Blocks.pad])
    (congrArg (6 * ·) Blocks.two) bestSolver_exact bestSolver_complete (by norm_num) (by simp)).mpr ⟨⟨0, 0, Blocks.F 0⟩, ?_, ?_, ?_, ?_⟩⟩
  · show Motion (ctrlMass (Blocks.L 0)) (stackFn (Blocks.feet 0)) (s.G ∘ sysIdx.symm) 0 0 (Blocks.F 0)
    rw [hG]; exact h
  · intro i; simp
  · intro i; simp
  · exact Blocks.carried (congrArg (6 * ·) Blocks.two)

end Verif.Props
