import Verif.Lemmas.TurnedRobot
import Verif.Model.Command
import Verif.Props.QPControl

/-!
# C80: a robot gives the same joint torques wherever it stands and whatever it faces
-/

set_option linter.unusedSectionVars false

namespace Verif.Props
open Matrix Verif Verif.Spec Verif.Model

section
variable {ι : Type*} [Fintype ι] [DecidableEq ι] {c : ℕ} {U V : Matrix (Fin 6) (Fin 6) ℝ} {R : Matrix (Fin c) (Fin c) ℝ}
  {A A' : Matrix (Fin 6 ⊕ ι) (Fin 6 ⊕ ι) ℝ} {J J' : Matrix (Fin c) (Fin 6 ⊕ ι) ℝ} {G G' : Fin 6 ⊕ ι → ℝ}

theorem actuate_seen (τ : ι → ℝ) : (baseChange (ι := ι) U)ᵀ *ᵥ actuate τ = actuate τ := by
  rw [actuate_eq, mulVec_mulVec, baseChangeT_selT]

/-- C80 (the physics).  The robot described otherwise moves under the same joint torques as the robot does, with its contact forces
turned. -/
theorem C80_motion (hU : U * V = 1) (hR : Rᵀ * R = 1) (h : SeenAs U R A J G A' J' G') (τ : ι → ℝ) (qdd : Fin 6 ⊕ ι → ℝ)
    (F : Fin c → ℝ) : Motion A' J' G' τ qdd (R *ᵥ F) ↔ Motion A J G τ (baseChange (ι := ι) U *ᵥ qdd) F := by
  have hinj : ∀ x y : Fin 6 ⊕ ι → ℝ, (baseChange (ι := ι) U)ᵀ *ᵥ x = (baseChange (ι := ι) U)ᵀ *ᵥ y ↔ x = y := by
    intro x y
    refine ⟨fun e => ?_, fun e => by rw [e]⟩
    have := congrArg ((baseChange (ι := ι) V)ᵀ *ᵥ ·) e
    simp only [mulVec_mulVec] at this
    rwa [← transpose_mul, baseChange_mul, hU, baseChange_one, transpose_one, one_mulVec, one_mulVec] at this
  have h1 : Dynamics A' J' G' τ qdd (R *ᵥ F) ↔ Dynamics A J G τ (baseChange (ι := ι) U *ᵥ qdd) F := by
    unfold Dynamics
    rw [h.mass, h.contact, h.weight, ← hinj (A *ᵥ _ + _ + _), actuate_seen, mulVec_add, mulVec_add]
    have e1 : ((baseChange (ι := ι) U)ᵀ * A * baseChange (ι := ι) U) *ᵥ qdd
        = (baseChange (ι := ι) U)ᵀ *ᵥ (A *ᵥ (baseChange (ι := ι) U *ᵥ qdd)) := by
      rw [mulVec_mulVec, mulVec_mulVec]
    have e2 : (R * J * baseChange (ι := ι) U)ᵀ *ᵥ (R *ᵥ F) = (baseChange (ι := ι) U)ᵀ *ᵥ (Jᵀ *ᵥ F) := by
      rw [transpose_mul, transpose_mul, mulVec_mulVec, mulVec_mulVec]
      have : (baseChange (ι := ι) U)ᵀ * (Jᵀ * Rᵀ) * R = (baseChange (ι := ι) U)ᵀ * Jᵀ * (Rᵀ * R) := by
        simp only [Matrix.mul_assoc]
      rw [this, hR, Matrix.mul_one]
    rw [e1, e2]
  have h2 : ContactsFixed J' qdd ↔ ContactsFixed J (baseChange (ι := ι) U *ᵥ qdd) := by
    unfold ContactsFixed
    rw [h.contact, Matrix.mul_assoc, ← mulVec_mulVec, ← mulVec_mulVec]
    constructor
    · intro e
      have := congrArg (Rᵀ *ᵥ ·) e
      simp only [mulVec_zero] at this
      rwa [mulVec_mulVec, hR, one_mulVec] at this
    · intro e; rw [e, mulVec_zero]
  exact and_congr h1 h2

/-- C80 (gravity compensation).  The torque does not depend on how the robot is described, and neither does the question whether
there is one. -/
theorem C80_gravity (hU : U * V = 1) (hR : Rᵀ * R = 1) (h : SeenAs U R A J G A' J' G') :
    gravityCommand J' A'⁻¹ G' = gravityCommand J A⁻¹ G := by
  unfold gravityCommand
  rw [contactSpace_seen hU hR h, Option.map_map]
  congr 1
  funext S
  exact gravityTorque_seen hU h

/-- C80 (contact forces).  For every torque the library reports the turned contact forces. -/
theorem C80_contact_force (hU : U * V = 1) (hR : Rᵀ * R = 1) (h : SeenAs U R A J G A' J' G') {S S' : ContactSpace c ι}
    (hS : contactSpace J A⁻¹ = some S) (hS' : contactSpace J' A'⁻¹ = some S') (τ : ι → ℝ) :
    contactForce S' (gravityForce S' G') τ = R *ᵥ contactForce S (gravityForce S G) τ := by
  rw [contactSpace_seen hU hR h, hS, Option.map_some, Option.some.injEq] at hS'
  rw [← hS', gravityForce_seen hU h, contactForce_seen]

/-- C80 (task control without QP).  The same joint torque, for every list of tasks whose Jacobians and commanded accelerations are
turned with the robot. -/
theorem C80_closed_command (hU : U * V = 1) (hR : Rᵀ * R = 1) (h : SeenAs U R A J G A' J' G') {ts ts' : List (TaskIn ι)}
    (ht : SeenTasks U ts ts') : closedCommand J' A'⁻¹ G' ts' = closedCommand J A⁻¹ G ts := by
  unfold closedCommand
  rw [contactSpace_seen hU hR h]
  rcases contactSpace J A⁻¹ with _ | S
  · rfl
  simp only [Option.map_some]
  rcases calcTaskSpace_seen (S := S) hU h ht with ⟨e, e'⟩ | ⟨ys, ys', e, e', hy⟩
  · rw [e, e']; rfl
  · rw [e, e', Option.map_some, Option.map_some, gravityTorque_seen hU h, taskTorque_seen hU hy]

end

/-! ### QP task control -/

section
variable {n c : ℕ} {U V : Matrix (Fin 6) (Fin 6) ℝ} {Q : Matrix (Fin 3) (Fin 3) ℝ}
  {A A' : Matrix (Fin 6 ⊕ Fin n) (Fin 6 ⊕ Fin n) ℝ} {J J' : Matrix (Fin c) (Fin 6 ⊕ Fin n) ℝ} {G G' : Fin 6 ⊕ Fin n → ℝ}

theorem stackC_turn (hQ : Qᵀ * Q = 1) {cs : List ContactLink} (h6 : ∀ l ∈ cs, l.type = .c6d) (hc : c = 6 * (active cs).length) :
    ∃ m m' C C', stackC cs c = some ⟨m, C⟩ ∧ stackC (cs.map (turnContact Q)) c = some ⟨m', C'⟩ ∧
      ∀ F : Fin c → ℝ, (∀ r, 0 ≤ (C' *ᵥ (turnRows Q c *ᵥ F)) r) ↔ ∀ r, 0 ≤ (C *ᵥ F) r := by
  have h6' : ∀ l ∈ cs.map (turnContact Q), l.type = .c6d := by
    intro l hl
    obtain ⟨l0, h0, rfl⟩ := List.mem_map.mp hl
    exact h6 l0 h0
  have hlen : (active (cs.map (turnContact Q))).length = (active cs).length := by rw [active_turn, List.length_map]
  have hc' : c = 6 * (active (cs.map (turnContact Q))).length := by rw [hlen]; exact hc
  obtain ⟨C, e, hC⟩ := stackC_spec cs h6 hc
  obtain ⟨C', e', hC'⟩ := stackC_spec (cs.map (turnContact Q)) h6' hc'
  refine ⟨_, _, C, C', e, e', fun F => ?_⟩
  rw [hC, hC']
  subst hc
  have key : ∀ (i : Fin (active cs).length) (r),
      (contactConst (active (cs.map (turnContact Q)))[i.val] *ᵥ
        inFrame (active (cs.map (turnContact Q)))[i.val].rotm
          (wrenchOf ((turnRows Q _ *ᵥ F) ∘ Fin.cast hc'.symm) (Fin.cast hlen.symm i))) r
      = (contactConst (active cs)[i] *ᵥ inFrame (active cs)[i].rotm (wrenchOf (F ∘ Fin.cast rfl) i)) r := by
    intro i r
    have e1 : (active (cs.map (turnContact Q)))[i.val]'(by rw [hlen]; exact i.isLt) = turnContact Q (active cs)[i.val] := by
      simp only [active_turn, List.getElem_map]
    have e2 : wrenchOf ((turnRows Q (6 * (active cs).length) *ᵥ F) ∘ Fin.cast hc'.symm) (Fin.cast hlen.symm i)
        = wrenchOf (turnRows Q (6 * (active cs).length) *ᵥ F) i := rfl
    have e3 : wrenchOf (F ∘ Fin.cast rfl) i = wrenchOf F i := rfl
    rw [e1, e2, e3]
    have e4 : (turnContact Q (active cs)[i.val]).rotm = Q * (active cs)[i.val].rotm := rfl
    have e5 : contactConst (turnContact Q (active cs)[i.val]) = contactConst (active cs)[i.val] := rfl
    rw [e4, e5, inFrame_turn hQ]
    rfl
  constructor
  · intro H i r
    exact (key i r) ▸ H (Fin.cast hlen.symm i) r
  · intro H i r
    have := key (Fin.cast hlen i) r
    exact this.symm ▸ H (Fin.cast hlen i) r

/-- The same answer, apart from the torque for the contact forces. -/
def SameCycle (x y : Option (ℕ × (Fin n → ℝ) × (Fin n → ℝ) × (Fin n → ℝ))) : Prop :=
  x.map (fun o => (o.1, o.2.1, o.2.2.1)) = y.map (fun o => (o.1, o.2.1, o.2.2.1))

/-- C80 (a cycle with QP task control).  Return value, gravity torque and task torque of the turned robot are those of the robot, for
exact solvers that answer every solvable problem (the torque for the contact forces need not be unique, see C86).  Contacts of type
6DOF. -/
theorem C80_qp_cycle_partial (hU : U * V = 1) (hQ : Qᵀ * Q = 1) {cs : List ContactLink} (h6 : ∀ l ∈ cs, l.type = .c6d)
    (hc : c = 6 * (active cs).length) (h : SeenAs U (turnRows Q c) A J G A' J' G')
    (cod : (W : Matrix (Fin n) (Fin n) ℝ) → CodNull W) (limit : Option (Fin n → ℝ)) {solve solve' : Solver} (he : solve.Exact)
    (hcomp : solve.Complete) (he' : solve'.Exact) (hcomp' : solve'.Complete) {ts ts' : List (TaskIn (Fin n))} (ht : SeenTasks U ts ts') :
    SameCycle (qpCycle J' A'⁻¹ G' cod limit (cs.map (turnContact Q)) solve' ts') (qpCycle J A⁻¹ G cod limit cs solve ts) := by
  have h3 : 3 ∣ c := ⟨2 * (active cs).length, by rw [hc]; ring⟩
  have hR := turnRows_orth hQ h3
  have hT := keepsTop_turn Q h3
  have hccc := ccc_seen hU hR hT h cod
  unfold SameCycle qpCycle
  rw [hccc]
  rcases hr : calculateContactConstraint J A⁻¹ cod with _ | _ | ⟨v, S, o⟩
  · rfl
  · rfl
  rw [hr] at hccc
  rcases o with _ | ⟨k, V2, N⟩
  · rfl
  simp only [seenResult, Option.map_some]
  rcases calcTaskSpace_seen (S := S) hU h ht with ⟨e, e'⟩ | ⟨ys, ys', e, e', hy⟩
  · rw [e, e']
  rw [e, e']
  simp only
  have hs : SeenRobot U V (turnRows Q c)
      { S := S, NwJw := N, P := gravityForce S G, τg := gravityTorque S A⁻¹ G, limit := limit, cs := cs }
      { S := seenSpace U V (turnRows Q c) S, NwJw := N * (topBlock (turnRows Q c))ᵀ,
        P := gravityForce (seenSpace U V (turnRows Q c) S) G', τg := gravityTorque (seenSpace U V (turnRows Q c) S) A'⁻¹ G',
        limit := limit, cs := cs.map (turnContact Q) } := by
    refine ⟨rfl, fun δ => ?_, gravityForce_seen hU h, gravityTorque_seen hU h, rfl, Or.inr ?_⟩
    · simp only [seenResult, Option.map_some] at hccc
      rw [ccc_internal hr, ccc_internal hccc]
      exact Iff.rfl
    · exact stackC_turn hQ h6 hc
  have hl := qpLoop_seen hU hs he hcomp he' hcomp' hy 0 1 0 0 0
  unfold calcTaskControlTorqueQP
  revert hl
  rcases qpLoop _ solve 0 1 0 0 ys with _ | ⟨v1, τ1, τc1⟩ <;> rcases qpLoop _ solve' 0 1 0 0 ys' with _ | ⟨v2, τ2, τc2⟩
  · intro _; rfl
  · intro hl; exact hl.elim
  · intro hl; exact hl.elim
  · rintro ⟨rfl, rfl⟩
    simp only [Option.map_some, gravityTorque_seen hU h]

/-- Problems with the cost `½ ‖x‖²` have one solution. -/
theorem solution_unique {V : Type*} [Fintype V] [DecidableEq V] {d : QP V} (hH : d.H = 1) (hg : d.g = 0) {x y : V → ℝ}
    (hx : d.IsSolution x) (hy : d.IsSolution y) : x = y := by
  have h1 := hx.2 _ (qp_midpoint hx.1 hy.1)
  have h2 := hy.2 _ hx.1
  have h3 := hx.2 _ hy.1
  simp only [QP.cost, hH, hg, one_mulVec, zero_dotProduct, add_zero, dotProduct_smul, smul_dotProduct, smul_eq_mul, dotProduct_add,
    add_dotProduct] at h1 h2 h3
  have hc : y ⬝ᵥ x = x ⬝ᵥ y := dotProduct_comm _ _
  rw [hc] at h1
  have h4 : (x - y) ⬝ᵥ (x - y) ≤ 0 := by
    simp only [dotProduct_sub, sub_dotProduct]
    rw [hc]
    linarith
  exact sub_eq_zero.mp (dotProduct_self_eq_zero.mp (le_antisymm h4 (dotProduct_self_nonneg _)))

/-- Contact redistribution by QP, if the matrix `R` leaves the last six contact rows among themselves. -/
theorem redistributeCycle_seen (hU : U * V = 1) {R : Matrix (Fin c) (Fin c) ℝ} (hR : Rᵀ * R = 1) (hT : KeepsTop R)
    {cs cs' : List ContactLink} (hcone : ∃ m m' C C', stackC cs c = some ⟨m, C⟩ ∧ stackC cs' c = some ⟨m', C'⟩ ∧
      ∀ F : Fin c → ℝ, (∀ r, 0 ≤ (C' *ᵥ (R *ᵥ F)) r) ↔ ∀ r, 0 ≤ (C *ᵥ F) r)
    (hact : c > 6 → 1 ≤ (active cs).length) (hact' : c > 6 → 1 ≤ (active cs').length) (h : SeenAs U R A J G A' J' G')
    (cod : (W : Matrix (Fin n) (Fin n) ℝ) → CodNull W) (limit : Option (Fin n → ℝ)) {solve solve' : RSolver} (he : solve.Exact)
    (hcomp : solve.Complete) (he' : solve'.Exact) (hcomp' : solve'.Complete) (τin τc : Fin n → ℝ) :
    redistributeCycle J' A'⁻¹ G' cod limit cs' solve' τin τc
      = redistributeCycle J A⁻¹ G cod limit cs solve τin τc := by
  have ht := topBlock_orth hT hR
  have ht' : topBlock R * (topBlock R)ᵀ = 1 := mul_eq_one_comm.mp ht
  unfold redistributeCycle
  rw [ccc_seen hU hR hT h cod]
  rcases calculateContactConstraint J A⁻¹ cod with _ | _ | ⟨v, S, o⟩
  · rfl
  · rfl
  rcases o with _ | ⟨k, V2, N⟩
  · rfl
  simp only [seenResult, Option.map_some]
  unfold redistribute
  by_cases hc6 : c > 6
  swap
  · rw [if_neg hc6, if_neg hc6]
  rw [if_pos hc6, if_pos hc6]
  obtain ⟨m, m', C, C', e, e', hC⟩ := hcone
  have hact := hact hc6
  have hact' := hact' hc6
  simp only [QPRobot.C, e, e']
  set X : QPRobot n c := { S := S, NwJw := N, P := gravityForce S G, τg := gravityTorque S A⁻¹ G, limit := limit, cs := cs } with hX
  set X' : QPRobot n c :=
    { S := seenSpace U V R S, NwJw := N * (topBlock R)ᵀ,
      P := gravityForce (seenSpace U V R S) G', τg := gravityTorque (seenSpace U V R S) A'⁻¹ G',
      limit := limit, cs := cs' } with hX'
  have hN : ∀ q, X'.NwJw *ᵥ (topBlock R *ᵥ q) = X.NwJw *ᵥ q := by
    intro q
    change (N * (topBlock R)ᵀ) *ᵥ (topBlock R *ᵥ q) = N *ᵥ q
    rw [mulVec_mulVec, Matrix.mul_assoc, ht, Matrix.mul_one]
  have hfeas : ∀ q, (redistributeQP X' C' τin).Feasible (topBlock R *ᵥ q) ↔ (redistributeQP X C τin).Feasible q := by
    intro q
    rw [redistributeQP_feasible X' C' τin hact', redistributeQP_feasible X C τin hact, hN]
    refine and_congr Iff.rfl ?_
    have : contactForce X'.S X'.P (τin + X.NwJw *ᵥ q) = R *ᵥ contactForce X.S X.P (τin + X.NwJw *ᵥ q) := by
      change contactForce (seenSpace U V R S) (gravityForce (seenSpace U V R S) G') _ = _
      rw [gravityForce_seen hU h, contactForce_seen]
    rw [this]
    exact hC _
  have hH : (redistributeQP X C τin).H = 1 := by unfold redistributeQP; rcases X.limit with _ | L <;> rfl
  have hg : (redistributeQP X C τin).g = 0 := by unfold redistributeQP; rcases X.limit with _ | L <;> rfl
  have hH' : (redistributeQP X' C' τin).H = 1 := by unfold redistributeQP; rcases X'.limit with _ | L <;> rfl
  have hg' : (redistributeQP X' C' τin).g = 0 := by unfold redistributeQP; rcases X'.limit with _ | L <;> rfl
  have hcost : ∀ q, (redistributeQP X' C' τin).cost (topBlock R *ᵥ q) = (redistributeQP X C τin).cost q := by
    intro q
    simp only [QP.cost, hH, hg, hH', hg', one_mulVec, zero_dotProduct, add_zero]
    rw [dotProduct_mulVec, vecMul_mulVec, ht, vecMul_one]
  have hback : ∀ q, topBlock R *ᵥ ((topBlock R)ᵀ *ᵥ q) = q := by
    intro q; rw [mulVec_mulVec, ht', one_mulVec]
  have hsol : ∀ q, (redistributeQP X' C' τin).IsSolution (topBlock R *ᵥ q) ↔ (redistributeQP X C τin).IsSolution q := by
    intro q
    refine and_congr (hfeas q) ?_
    rw [hcost]
    constructor
    · intro H y hy
      have := H _ ((hfeas y).mpr hy)
      rwa [hcost] at this
    · intro H y hy
      rw [← hback y] at hy ⊢
      rw [hcost]
      exact H _ ((hfeas _).mp hy)
  rcases hs : solve (c - 6) (redistributeQP X C τin) with _ | q
  · rcases hs' : solve' (c - 6) (redistributeQP X' C' τin) with _ | q'
    · rfl
    · exfalso
      have h1 := he' _ _ _ hs'
      rw [← hback q', hsol] at h1
      have := hcomp _ _ ⟨_, h1⟩
      rw [hs] at this
      simp at this
  · have h1 := he _ _ _ hs
    rcases hs' : solve' (c - 6) (redistributeQP X' C' τin) with _ | q'
    · exfalso
      have := hcomp' _ _ ⟨_, (hsol q).mpr h1⟩
      rw [hs'] at this
      simp at this
    · have h2 := he' _ _ _ hs'
      rw [solution_unique hH' hg' h2 ((hsol q).mpr h1)]
      exact congrArg (fun t => some (1, τc + t)) (hN q)

/-- C80 (contact redistribution by QP).  Return value and contact torque of the turned robot are those of the robot, for exact
solvers that answer every solvable problem.  Contacts of type 6DOF. -/
theorem C80_redistribute_qp (hU : U * V = 1) (hQ : Qᵀ * Q = 1) {cs : List ContactLink} (h6 : ∀ l ∈ cs, l.type = .c6d)
    (hc : c = 6 * (active cs).length) (h : SeenAs U (turnRows Q c) A J G A' J' G')
    (cod : (W : Matrix (Fin n) (Fin n) ℝ) → CodNull W) (limit : Option (Fin n → ℝ)) {solve solve' : RSolver} (he : solve.Exact)
    (hcomp : solve.Complete) (he' : solve'.Exact) (hcomp' : solve'.Complete) (τin τc : Fin n → ℝ) :
    redistributeCycle J' A'⁻¹ G' cod limit (cs.map (turnContact Q)) solve' τin τc
      = redistributeCycle J A⁻¹ G cod limit cs solve τin τc := by
  have h3 : 3 ∣ c := ⟨2 * (active cs).length, by rw [hc]; ring⟩
  have hR := turnRows_orth hQ h3
  have hT := keepsTop_turn Q h3
  refine redistributeCycle_seen hU hR hT (stackC_turn hQ h6 hc) (fun _ => by omega) (fun _ => ?_) h cod limit he hcomp he' hcomp' τin τc
  rw [active_turn, List.length_map]
  omega

end

end Verif.Props
