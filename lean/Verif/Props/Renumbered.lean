import Verif.Lemmas.RenumberedQP
import Verif.Lemmas.Held
import Verif.Props.Turned
import Verif.Props.Contact

/-!
# C84: how the joints are counted does not matter, their units do
-/

set_option linter.unusedSectionVars false

namespace Verif.Props
open Matrix Verif Verif.Spec Verif.Model Module

section
variable {ι : Type*} [Fintype ι] [DecidableEq ι] {c : ℕ} {e : Equiv.Perm ι} {s : ι → ℝ}

theorem count_orth' (hs : Signs s) : countMatrix e s * (countMatrix e s)ᵀ = 1 := mul_eq_one_comm.mp (countMatrix_orth e hs)

theorem contactSpace_counted (hs : Signs s) (A : Matrix (Fin 6 ⊕ ι) (Fin 6 ⊕ ι) ℝ) (J : Matrix (Fin c) (Fin 6 ⊕ ι) ℝ) :
    contactSpace (recountCols e s J) (recountMass e s A)⁻¹
      = (contactSpace J A⁻¹).map (jointSpace (countMatrix e s) (countMatrix e s)ᵀ) := by
  have h := counted_seen e s A J 0
  rcases hS : contactSpace J A⁻¹ with _ | S
  · rw [contactSpace_joint_none (count_orth' hs) h hS]; rfl
  have hW : S.Winv = pinv S.W := by
    unfold contactSpace at hS
    obtain ⟨Λ, -, rfl⟩ := Option.map_eq_some_iff.mp hS
    rfl
  rw [contactSpace_joint (count_orth' hs) h hS (by rw [joint_pinv_orth (countMatrix_orth e hs), hW])]
  rfl

theorem actuate_counted (τ : ι → ℝ) : actuate (recount e s τ) = recountAll e s (actuate τ) := by
  ext r
  rcases r with r | r <;> simp [actuate, recount, recountAll, signed, counted]

/-- C84 (the physics).  The robot with its joints counted otherwise moves alike under the same torques, counted otherwise, with the
same contact forces. -/
theorem C84_motion (hs : Signs s) (A : Matrix (Fin 6 ⊕ ι) (Fin 6 ⊕ ι) ℝ) (J : Matrix (Fin c) (Fin 6 ⊕ ι) ℝ) (G : Fin 6 ⊕ ι → ℝ)
    (τ : ι → ℝ) (qdd : Fin 6 ⊕ ι → ℝ) (F : Fin c → ℝ) :
    Motion (recountMass e s A) (recountCols e s J) (recountAll e s G) (recount e s τ) (recountAll e s qdd) F ↔ Motion A J G τ qdd F := by
  have h := counted_seen e s A J G
  have hD := count_orth' (e := e) hs
  set D := countMatrix e s with hDd
  have hDT : jointChange D * (jointChange D)ᵀ = 1 := by
    have : (jointChange D)ᵀ = jointChange Dᵀ := by simp [jointChange, fromBlocks_transpose]
    rw [this, jointChange_mul, hD, jointChange_one]
  have hinj : ∀ x y : Fin 6 ⊕ ι → ℝ, (jointChange D)ᵀ *ᵥ x = (jointChange D)ᵀ *ᵥ y ↔ x = y := by
    intro x y
    refine ⟨fun h => ?_, fun h => by rw [h]⟩
    have := congrArg (jointChange D *ᵥ ·) h
    simp only [mulVec_mulVec] at this
    rwa [hDT, one_mulVec, one_mulVec] at this
  refine and_congr ?_ ?_
  · unfold Dynamics
    rw [actuate_counted, h.mass, h.contact, ← countAll_mulVec, ← countAll_mulVec, ← countAll_mulVec, ← hDd, ← hinj (A *ᵥ _ + _ + _),
      mulVec_add, mulVec_add]
    have e1 : ((jointChange D)ᵀ * A * jointChange D) *ᵥ ((jointChange D)ᵀ *ᵥ qdd) = (jointChange D)ᵀ *ᵥ (A *ᵥ qdd) := by
      rw [mulVec_mulVec, Matrix.mul_assoc, hDT, Matrix.mul_one, mulVec_mulVec]
    rw [e1, transpose_mul, mulVec_mulVec F]
  · unfold ContactsFixed
    rw [h.contact, ← countAll_mulVec, ← hDd, mulVec_mulVec, Matrix.mul_assoc, hDT, Matrix.mul_one]

/-- C84 (gravity compensation).  Counting the joints otherwise counts the torque otherwise, and does not change whether there is
one. -/
theorem C84_gravity (hs : Signs s) (A : Matrix (Fin 6 ⊕ ι) (Fin 6 ⊕ ι) ℝ) (J : Matrix (Fin c) (Fin 6 ⊕ ι) ℝ) (G : Fin 6 ⊕ ι → ℝ) :
    gravityCommand (recountCols e s J) (recountMass e s A)⁻¹ (recountAll e s G) = (gravityCommand J A⁻¹ G).map (recount e s) := by
  unfold gravityCommand
  rw [contactSpace_counted hs, Option.map_map, Option.map_map]
  congr 1
  funext S
  refine (gravityTorque_joint (count_orth' hs) (counted_seen e s A J G)).trans ?_
  rw [countMatrixT_mulVec]
  rfl

/-- C84 (contact forces).  For the same torque the library reports the same contact forces. -/
theorem C84_contact_force (hs : Signs s) {A : Matrix (Fin 6 ⊕ ι) (Fin 6 ⊕ ι) ℝ} {J : Matrix (Fin c) (Fin 6 ⊕ ι) ℝ} {G : Fin 6 ⊕ ι → ℝ}
    {S S' : ContactSpace c ι} (hS : contactSpace J A⁻¹ = some S)
    (hS' : contactSpace (recountCols e s J) (recountMass e s A)⁻¹ = some S') (τ : ι → ℝ) :
    contactForce S' (gravityForce S' (recountAll e s G)) (recount e s τ) = contactForce S (gravityForce S G) τ := by
  rw [contactSpace_counted hs, hS, Option.map_some, Option.some.injEq] at hS'
  rw [← hS', gravityForce_joint (count_orth' hs) (counted_seen e s A J G), ← countMatrixT_mulVec, contactForce_joint (count_orth' hs)]

/-- The task for the robot with its joints counted otherwise: the same command. -/
def recountTask (e : Equiv.Perm ι) (s : ι → ℝ) (T : TaskIn ι) : TaskIn ι := ⟨T.t, recountCols e s T.J, T.f⟩

theorem recountTask_eq (T : TaskIn ι) : recountTask e s T = jointTask (countMatrix e s) T := by
  unfold recountTask jointTask
  rw [countCols_eq]

/-- C84 (task control without QP).  Counting the joints otherwise counts the torque otherwise, for every list of tasks. -/
theorem C84_closed_command (hs : Signs s) (A : Matrix (Fin 6 ⊕ ι) (Fin 6 ⊕ ι) ℝ) (J : Matrix (Fin c) (Fin 6 ⊕ ι) ℝ)
    (G : Fin 6 ⊕ ι → ℝ) (ts : List (TaskIn ι)) :
    closedCommand (recountCols e s J) (recountMass e s A)⁻¹ (recountAll e s G) (ts.map (recountTask e s))
      = (closedCommand J A⁻¹ G ts).map (recount e s) := by
  unfold closedCommand
  rw [contactSpace_counted hs]
  rcases contactSpace J A⁻¹ with _ | S
  · rfl
  simp only [Option.map_some]
  have hd := count_orth' (e := e) hs
  have h := counted_seen e s A J G
  rw [show (ts.map (recountTask e s)) = ts.map (jointTask (countMatrix e s)) from List.map_congr_left fun T _ => recountTask_eq T,
    calcTaskSpace_joint hd h, Option.map_map, Option.map_map]
  congr 1
  funext ys
  simp only [Function.comp]
  rw [gravityTorque_joint hd h, taskTorque_joint hd, ← mulVec_add, countMatrixT_mulVec]

end

/-! ### QP control -/

section
variable {n c : ℕ} {e : Equiv.Perm (Fin n)} {s : Fin n → ℝ}

theorem limit_counted (hs : Signs s) (limit : Option (Fin n → ℝ)) (τ : Fin n → ℝ) :
    (∀ L, limit.map (recountLimit e) = some L → ∀ j, |((countMatrix e s)ᵀ *ᵥ τ) j| ≤ L j) ↔ ∀ L, limit = some L → ∀ j, |τ j| ≤ L j := by
  have habs : ∀ j, |((countMatrix e s)ᵀ *ᵥ τ) j| = |τ (e j)| := by
    intro j
    rw [countMatrixT_mulVec, recount, abs_mul]
    rcases hs j with h | h <;> simp [h]
  rcases limit with _ | L
  · simp
  constructor
  · intro h L' hL' j
    rw [Option.some.injEq] at hL'
    subst hL'
    have := h (recountLimit e L) rfl (e.symm j)
    rwa [habs, recountLimit, e.apply_symm_apply] at this
  · intro h L' hL' j
    rw [Option.map_some, Option.some.injEq] at hL'
    subst hL'
    rw [habs]
    exact h L rfl (e j)

/-- C84 (a cycle with QP task control).  Counting the joints, and their torque limits, otherwise changes neither the return value nor
the torques for the weight and the tasks, for exact solvers that answer every solvable problem and whichever null space the
decomposition yields.  The torque for the contact forces need not be unique (C86) and is left out. -/
theorem C84_qp_cycle_partial (hs : Signs s) (A : Matrix (Fin 6 ⊕ Fin n) (Fin 6 ⊕ Fin n) ℝ) (J : Matrix (Fin c) (Fin 6 ⊕ Fin n) ℝ)
    (G : Fin 6 ⊕ Fin n → ℝ) (cod cod' : (W : Matrix (Fin n) (Fin n) ℝ) → CodNull W) (limit : Option (Fin n → ℝ)) (cs : List ContactLink)
    {solve solve' : Solver} (he : solve.Exact) (hcomp : solve.Complete) (he' : solve'.Exact) (hcomp' : solve'.Complete)
    (ts : List (TaskIn (Fin n))) :
    (qpCycle (recountCols e s J) (recountMass e s A)⁻¹ (recountAll e s G) cod' (limit.map (recountLimit e)) cs solve'
        (ts.map (recountTask e s))).map (fun o => (o.1, o.2.1, o.2.2.1))
      = (qpCycle J A⁻¹ G cod limit cs solve ts).map (fun o => (o.1, recount e s o.2.1, recount e s o.2.2.1)) := by
  have hd := countMatrix_orth e hs
  have hd' := count_orth' (e := e) hs
  have h := counted_seen e s A J G
  have hr := ccc_joint hd h cod cod'
  unfold qpCycle
  revert hr
  rcases calculateContactConstraint J A⁻¹ cod with _ | _ | ⟨v, S, o⟩ <;>
    rcases calculateContactConstraint (recountCols e s J) (recountMass e s A)⁻¹ cod' with _ | _ | ⟨v', S', o'⟩ <;> intro hr <;>
    first | rfl | exact hr.elim | skip
  obtain ⟨rfl, rfl, ho⟩ := hr
  rcases o with _ | ⟨k, V2, N⟩ <;> rcases o' with _ | ⟨k', V2', N'⟩
  · rfl
  · simp at ho
  · simp at ho
  simp only [Option.map_some, Option.some.injEq] at ho
  subst ho
  simp only
  rw [show (ts.map (recountTask e s)) = ts.map (jointTask (countMatrix e s)) from List.map_congr_left fun T _ => recountTask_eq T,
    calcTaskSpace_joint hd' h]
  rcases calcTaskSpace S A⁻¹ ts with _ | ys
  · rfl
  simp only [Option.map_some]
  set X : QPRobot n c := { S := S, NwJw := N, P := gravityForce S G, τg := gravityTorque S A⁻¹ G, limit := limit, cs := cs } with hX
  set X' : QPRobot n c :=
    { S := jointSpace (countMatrix e s) (countMatrix e s)ᵀ S, NwJw := (countMatrix e s)ᵀ * N,
      P := gravityForce (jointSpace (countMatrix e s) (countMatrix e s)ᵀ S) (recountAll e s G),
      τg := gravityTorque (jointSpace (countMatrix e s) (countMatrix e s)ᵀ S) (recountMass e s A)⁻¹ (recountAll e s G),
      limit := limit.map (recountLimit e), cs := cs } with hX'
  have hj : JointRobot (countMatrix e s) X X' :=
    ⟨rfl, rfl, gravityForce_joint hd' h, gravityTorque_joint hd' h, limit_counted hs limit, rfl⟩
  have hl := qpLoop_joint hd hj he hcomp he' hcomp' ys 0 1 0 0 0
  rw [Matrix.mul_one, transpose_transpose, hd, mulVec_zero] at hl
  unfold calcTaskControlTorqueQP
  revert hl
  rcases qpLoop X solve 0 1 0 0 ys with _ | ⟨v1, τ1, τc1⟩ <;>
    rcases qpLoop X' solve' 0 1 0 0 (ys.map (jointReady (countMatrix e s))) with _ | ⟨v2, τ2, τc2⟩
  · intro _; rfl
  · intro hl; exact hl.elim
  · intro hl; exact hl.elim
  · rintro ⟨rfl, rfl⟩
    simp only [Option.map_some, Option.some.injEq, Prod.mk.injEq, true_and]
    exact ⟨hj.grav.trans (countMatrixT_mulVec _ _ _), countMatrixT_mulVec _ _ _⟩

/-- C84 (contact redistribution by QP).  Counting the joints otherwise counts the contact torque otherwise, and does not change the
return value. -/
theorem C84_redistribute_qp (hs : Signs s) (A : Matrix (Fin 6 ⊕ Fin n) (Fin 6 ⊕ Fin n) ℝ) (J : Matrix (Fin c) (Fin 6 ⊕ Fin n) ℝ)
    (G : Fin 6 ⊕ Fin n → ℝ) (cod cod' : (W : Matrix (Fin n) (Fin n) ℝ) → CodNull W) (limit : Option (Fin n → ℝ)) {cs : List ContactLink}
    (hact : 1 ≤ (active cs).length) {solve solve' : RSolver} (he : solve.Exact) (hcomp : solve.Complete) (he' : solve'.Exact)
    (hcomp' : solve'.Complete) (τin τc : Fin n → ℝ) :
    redistributeCycle (recountCols e s J) (recountMass e s A)⁻¹ (recountAll e s G) cod' (limit.map (recountLimit e)) cs solve'
        (recount e s τin) (recount e s τc)
      = (redistributeCycle J A⁻¹ G cod limit cs solve τin τc).map (fun o => (o.1, recount e s o.2)) := by
  have hd := countMatrix_orth e hs
  have hd' := count_orth' (e := e) hs
  have h := counted_seen e s A J G
  have hr := ccc_joint hd h cod cod'
  unfold redistributeCycle
  revert hr
  rcases calculateContactConstraint J A⁻¹ cod with _ | _ | ⟨v, S, o⟩ <;>
    rcases calculateContactConstraint (recountCols e s J) (recountMass e s A)⁻¹ cod' with _ | _ | ⟨v', S', o'⟩ <;> intro hr <;>
    first | rfl | exact hr.elim | skip
  obtain ⟨rfl, rfl, ho⟩ := hr
  rcases o with _ | ⟨k, V2, N⟩ <;> rcases o' with _ | ⟨k', V2', N'⟩
  · rfl
  · simp at ho
  · simp at ho
  simp only [Option.map_some, Option.some.injEq] at ho
  subst ho
  simp only
  set X : QPRobot n c := { S := S, NwJw := N, P := gravityForce S G, τg := gravityTorque S A⁻¹ G, limit := limit, cs := cs } with hX
  set X' : QPRobot n c :=
    { S := jointSpace (countMatrix e s) (countMatrix e s)ᵀ S, NwJw := (countMatrix e s)ᵀ * N,
      P := gravityForce (jointSpace (countMatrix e s) (countMatrix e s)ᵀ S) (recountAll e s G),
      τg := gravityTorque (jointSpace (countMatrix e s) (countMatrix e s)ᵀ S) (recountMass e s A)⁻¹ (recountAll e s G),
      limit := limit.map (recountLimit e), cs := cs } with hX'
  have hj : JointRobot (countMatrix e s) X X' :=
    ⟨rfl, rfl, gravityForce_joint hd' h, gravityTorque_joint hd' h, limit_counted hs limit, rfl⟩
  rw [← countMatrixT_mulVec, ← countMatrixT_mulVec]
  unfold redistribute
  by_cases hc6 : c > 6
  swap
  · rw [if_neg hc6, if_neg hc6]
    simp only [Option.map_some, Option.some.injEq, Prod.mk.injEq, true_and]
    exact (mulVec_zero _).symm.trans (countMatrixT_mulVec e s 0)
  rw [if_pos hc6, if_pos hc6]
  rw [hj.cone]
  rcases X.C with _ | ⟨m, C⟩
  · rfl
  simp only
  have hfeas : ∀ q, (redistributeQP X' C ((countMatrix e s)ᵀ *ᵥ τin)).Feasible q ↔ (redistributeQP X C τin).Feasible q := by
    intro q
    rw [redistributeQP_feasible X' C _ hact, redistributeQP_feasible X C τin hact, hj.internal, ← mulVec_mulVec q, ← mulVec_add, hj.limit,
      hj.space, hj.force, contactForce_joint hd']
  have hH : (redistributeQP X C τin).H = 1 := by unfold redistributeQP; rcases X.limit with _ | L <;> rfl
  have hg : (redistributeQP X C τin).g = 0 := by unfold redistributeQP; rcases X.limit with _ | L <;> rfl
  have hH' : (redistributeQP X' C ((countMatrix e s)ᵀ *ᵥ τin)).H = 1 := by unfold redistributeQP; rcases X'.limit with _ | L <;> rfl
  have hg' : (redistributeQP X' C ((countMatrix e s)ᵀ *ᵥ τin)).g = 0 := by unfold redistributeQP; rcases X'.limit with _ | L <;> rfl
  have hsol : ∀ q, (redistributeQP X' C ((countMatrix e s)ᵀ *ᵥ τin)).IsSolution q ↔ (redistributeQP X C τin).IsSolution q := by
    intro q
    unfold QP.IsSolution QP.cost
    rw [hH, hg, hH', hg']
    exact and_congr (hfeas q) (forall_congr' fun y => imp_congr (hfeas y) Iff.rfl)
  rcases hs : solve (c - 6) (redistributeQP X C τin) with _ | q
  · rcases hs' : solve' (c - 6) (redistributeQP X' C ((countMatrix e s)ᵀ *ᵥ τin)) with _ | q'
    · exact congrArg (fun t => some (0, t)) ((mulVec_zero _).symm.trans (countMatrixT_mulVec e s 0))
    · exfalso
      have := hcomp _ _ ⟨_, (hsol q').mp (he' _ _ _ hs')⟩
      rw [hs] at this
      simp at this
  · have h1 := he _ _ _ hs
    rcases hs' : solve' (c - 6) (redistributeQP X' C ((countMatrix e s)ᵀ *ᵥ τin)) with _ | q'
    · exfalso
      have := hcomp' _ _ ⟨_, (hsol q).mpr h1⟩
      rw [hs'] at this
      simp at this
    · have h2 := he' _ _ _ hs'
      rw [solution_unique hH' hg' h2 ((hsol q).mpr h1)]
      simp only [Option.map_some, Option.some.injEq, Prod.mk.injEq, true_and]
      rw [hj.internal, ← mulVec_mulVec, ← mulVec_add]
      exact countMatrixT_mulVec _ _ _

end

/-! ### contact redistribution without a QP -/

section
variable {ι : Type*} [Fintype ι] [DecidableEq ι] {e : Equiv.Perm ι} {s : ι → ℝ}

theorem bottomRight_joint {D : Matrix ι ι ℝ} (S : ContactSpace 12 ι) : bottomRight (jointSpace D Dᵀ S) = bottomRight S * D := by
  ext i j
  have h := congrFun (congrFun (rightCols_joint (D := D) (E := Dᵀ) (S := S)) (⟨6 + i, by omega⟩ : Fin 12)) j
  rw [transpose_transpose] at h
  exact h

theorem closedApply_eq (S : ContactSpace 12 ι) (f : CodNull S.W) (F fc : Fin 12 → ℝ) :
    closedApply S f F fc = (nullInv (bottomRight S) f).map fun X => X *ᵥ
      fun i : Fin 6 => -F (⟨6 + i, by omega⟩ : Fin 12) + fc (⟨6 + i, by omega⟩ : Fin 12) := by
  unfold closedApply nullInv
  by_cases h : 6 = f.k
  · rw [dif_pos h, dif_pos h]
    rcases eigenInverse ((bottomRight S * f.V2ᵀ).submatrix id (Fin.cast h)) with _ | X <;> rfl
  · rw [dif_neg h, dif_neg h]; rfl

/-- C84 (contact redistribution without a QP, two feet).  Counting the joints otherwise counts the contact torque otherwise,
whichever null space the decomposition yields. -/
theorem C84_redistribute_closed (hs : Signs s) {A : Matrix (Fin 6 ⊕ ι) (Fin 6 ⊕ ι) ℝ} {J : Matrix (Fin 12) (Fin 6 ⊕ ι) ℝ}
    {G : Fin 6 ⊕ ι → ℝ} {S S' : ContactSpace 12 ι} (hS : contactSpace J A⁻¹ = some S)
    (hS' : contactSpace (recountCols e s J) (recountMass e s A)⁻¹ = some S') (f : CodNull S.W) (f' : CodNull S'.W) (σ : Fin 4 → Bool)
    (pos : List Vec3) (com : Vec3) (base : Mat3) (τ : ι → ℝ) :
    redistributeClosed S' f' (gravityForce S' (recountAll e s G)) σ pos com base (recount e s τ)
      = (redistributeClosed S f (gravityForce S G) σ pos com base τ).map (recount e s) := by
  have hF := C84_contact_force hs (G := G) hS hS' τ
  rw [contactSpace_counted hs, hS, Option.map_some, Option.some.injEq] at hS'
  subst hS'
  unfold redistributeClosed
  rw [closedFormTorque_eq, closedFormTorque_eq, hF]
  rcases closedFormForce σ pos com (eulerAngles210 base 2) (contactForce S (gravityForce S G) τ) with _ | fc
  · rfl
  simp only [Option.bind_some]
  rw [closedApply_eq, closedApply_eq, bottomRight_joint]
  have := nullInv_joint (countMatrix_orth e hs) (bottomRight S) f f'
  refine (congrArg (Option.map _) this).trans ?_
  rw [Option.map_map, Option.map_map]
  congr 1
  funext X
  simp only [Function.comp]
  rw [← mulVec_mulVec, countMatrixT_mulVec]

end

/-! ### units -/

section
variable {ι : Type*} [Fintype ι] [DecidableEq ι] {c : ℕ} {u : ι → ℝ}

theorem scale_inv (hu : ∀ i, u i ≠ 0) : (diagonal u : Matrix ι ι ℝ) * diagonal (fun i => (u i)⁻¹) = 1 := by
  rw [diagonal_mul_diagonal, ← diagonal_one]
  congr 1
  funext i
  exact mul_inv_cancel₀ (hu i)

theorem scaleTorque_eq (τ : ι → ℝ) : (diagonal u : Matrix ι ι ℝ)ᵀ *ᵥ τ = scaleTorque u τ := by
  ext i
  rw [diagonal_transpose, mulVec_diagonal]
  rfl

theorem scaleTask_eq (T : TaskIn ι) : (⟨T.t, scaleCols u T.J, T.f⟩ : TaskIn ι) = jointTask (diagonal u) T := by
  unfold jointTask
  congr 1
  have hd : (jointChange (diagonal u) : Matrix (Fin 6 ⊕ ι) (Fin 6 ⊕ ι) ℝ) = diagonal (Sum.elim (fun _ => 1) u) := by
    unfold jointChange
    rw [← diagonal_one, fromBlocks_diagonal]
  rw [hd]
  ext a r
  simp only [scaleCols, Matrix.of_apply, mul_diagonal]
  ring

/-- Six contact rows leave no internal forces. -/
theorem W_unit {A : Matrix (Fin 6 ⊕ ι) (Fin 6 ⊕ ι) ℝ} {J : Matrix (Fin 6) (Fin 6 ⊕ ι) ℝ} (hA : IsSPD A) (hB : BaseDetermined J)
    {S : ContactSpace 6 ι} (hS : contactSpace J A⁻¹ = some S) : IsUnit S.W.det := by
  have h := finrank_ker_W hA hS
  rw [(baseDetermined_iff_rank J).mp hB] at h
  have h0 : LinearMap.ker S.W.mulVecLin = ⊥ := Submodule.finrank_eq_zero.mp (by omega)
  rw [← isUnit_iff_isUnit_det]
  exact mulVec_injective_iff_isUnit.mp (LinearMap.ker_eq_bot.mp h0)

/-- C84 (units, one foot on the ground).  With six contact rows that fix the base, the command without QP is the same torque in every
choice of units for the joint coordinates.  Missing: more contact rows, where it is not, see `C84_units_wrong`. -/
theorem C84_units_partial (hu : ∀ i, u i ≠ 0) {A : Matrix (Fin 6 ⊕ ι) (Fin 6 ⊕ ι) ℝ} (hA : IsSPD A) {J : Matrix (Fin 6) (Fin 6 ⊕ ι) ℝ}
    (hB : BaseDetermined J) (G : Fin 6 ⊕ ι → ℝ) (ts : List (TaskIn ι)) :
    closedCommand (scaleCols u J) (scaleMass u A)⁻¹ (scaleAll u G) (ts.map fun T => ⟨T.t, scaleCols u T.J, T.f⟩)
      = (closedCommand J A⁻¹ G ts).map (scaleTorque u) := by
  have hd := scale_inv hu
  have h := scaled_seen u A J G
  unfold closedCommand
  rcases hS : contactSpace J A⁻¹ with _ | S
  · rw [contactSpace_joint_none hd h hS]; rfl
  have hW : S.Winv = pinv S.W := by
    have hS := hS
    unfold contactSpace at hS
    obtain ⟨Λ, -, rfl⟩ := Option.map_eq_some_iff.mp hS
    rfl
  rw [contactSpace_joint hd h hS (by rw [joint_pinv_unit hd (W_unit hA hB hS), hW])]
  simp only
  rw [show (ts.map fun T => (⟨T.t, scaleCols u T.J, T.f⟩ : TaskIn ι)) = ts.map (jointTask (diagonal u)) from
    List.map_congr_left fun T _ => scaleTask_eq T, calcTaskSpace_joint hd h, Option.map_map, Option.map_map]
  congr 1
  funext ys
  simp only [Function.comp]
  rw [gravityTorque_joint hd h, taskTorque_joint hd, ← mulVec_add, scaleTorque_eq]

end

end Verif.Props
