import Verif.Lemmas.Scaled
import Verif.Lemmas.Heading
import Verif.Model.Command
import Verif.Spec.Dynamics
import Verif.Props.Renumbered

/-! # C85: units of mass and time, or a heavier robot

Masses are multiplied by `μ` and accelerations, that of gravity included, by `κ`: `A ↦ μ A`, `G ↦ μ κ G`, commanded accelerations
`f ↦ κ f`, torque limits `L ↦ μ κ L`. -/

set_option linter.unusedSectionVars false

namespace Verif.Props
open Matrix Verif Verif.Spec Verif.Model

section
variable {ι : Type*} [Fintype ι] [DecidableEq ι] {c : ℕ} {μ κ : ℝ}

/-- C85 (the motion).  The robot with `μ` times the masses, accelerated `κ` times as much, moves the same way under `μ κ` times the
torques, and its contacts press `μ κ` times as hard. -/
theorem C85_motion (hμ : 0 < μ) (hκ : 0 < κ) (A : Matrix (Fin 6 ⊕ ι) (Fin 6 ⊕ ι) ℝ) (J : Matrix (Fin c) (Fin 6 ⊕ ι) ℝ)
    (G : Fin 6 ⊕ ι → ℝ) (τ : ι → ℝ) (qdd : Fin 6 ⊕ ι → ℝ) (F : Fin c → ℝ) :
    Motion (μ • A) J ((μ * κ) • G) ((μ * κ) • τ) (κ • qdd) ((μ * κ) • F) ↔ Motion A J G τ qdd F := by
  have hm : μ * κ ≠ 0 := by positivity
  have ha : actuate ((μ * κ) • τ) = (μ * κ) • actuate τ := by
    ext r; rcases r with r | r <;> simp [actuate]
  unfold Motion Dynamics ContactsFixed
  rw [ha, smul_mulVec, mulVec_smul, mulVec_smul, mulVec_smul, smul_smul, ← smul_add, ← smul_add]
  refine and_congr ?_ ?_
  · exact (smul_right_injective _ hm).eq_iff
  · exact smul_eq_zero_iff_right hκ.ne'

/-- C85 (compensation of the weight). -/
theorem C85_gravity (hμ : 0 < μ) (κ : ℝ) (A : Matrix (Fin 6 ⊕ ι) (Fin 6 ⊕ ι) ℝ) (J : Matrix (Fin c) (Fin 6 ⊕ ι) ℝ) (G : Fin 6 ⊕ ι → ℝ) :
    gravityCommand J (μ • A)⁻¹ ((μ * κ) • G) = (gravityCommand J A⁻¹ G).map ((μ * κ) • ·) := by
  unfold gravityCommand
  rw [contactSpace_heavy hμ.ne', Option.map_map, Option.map_map]
  congr 1
  funext S
  exact gravityTorque_heavy hμ.ne' κ

/-- C85 (reported contact forces). -/
theorem C85_contact_force (hμ : 0 < μ) (κ : ℝ) {A : Matrix (Fin 6 ⊕ ι) (Fin 6 ⊕ ι) ℝ} {J : Matrix (Fin c) (Fin 6 ⊕ ι) ℝ} {G : Fin 6 ⊕ ι → ℝ}
    {S S' : ContactSpace c ι} (hS : contactSpace J A⁻¹ = some S) (hS' : contactSpace J (μ • A)⁻¹ = some S') (τ : ι → ℝ) :
    contactForce S' (gravityForce S' ((μ * κ) • G)) ((μ * κ) • τ) = (μ * κ) • contactForce S (gravityForce S G) τ := by
  rw [contactSpace_heavy hμ.ne', hS, Option.map_some, Option.some.injEq] at hS'
  subst hS'
  rw [gravityForce_heavy, contactForce_heavy]

/-- C85 (control without a QP). -/
theorem C85_closed_command (hμ : 0 < μ) (κ : ℝ) (A : Matrix (Fin 6 ⊕ ι) (Fin 6 ⊕ ι) ℝ) (J : Matrix (Fin c) (Fin 6 ⊕ ι) ℝ)
    (G : Fin 6 ⊕ ι → ℝ) (ts : List (TaskIn ι)) :
    closedCommand J (μ • A)⁻¹ ((μ * κ) • G) (ts.map fun T => ⟨T.t, T.J, κ • T.f⟩) = (closedCommand J A⁻¹ G ts).map ((μ * κ) • ·) := by
  unfold closedCommand
  rw [contactSpace_heavy hμ.ne']
  rcases contactSpace J A⁻¹ with _ | S
  · rfl
  simp only [Option.map_some]
  have := calcTaskSpace_heavy (S := S) (A := A) hμ.ne' κ ts
  unfold fastTask at this
  rw [this, Option.map_map, Option.map_map]
  congr 1
  funext ys
  simp only [Function.comp]
  rw [gravityTorque_heavy hμ.ne', taskTorque_heavy hμ.ne', smul_add]

end

/-! ### QP control -/

section
variable {n c : ℕ} {μ κ : ℝ}

/-- C85 (a cycle with QP task control).  The heavier robot with stronger motors gets the same return value and `μ κ` times the torques
for the weight and the tasks, for exact solvers that answer every solvable problem and whichever null space the decomposition yields.
The torque for the contact forces need not be unique (C86) and is left out. -/
theorem C85_qp_cycle_partial (hμ : 0 < μ) (hκ : 0 < κ) (A : Matrix (Fin 6 ⊕ Fin n) (Fin 6 ⊕ Fin n) ℝ) (J : Matrix (Fin c) (Fin 6 ⊕ Fin n) ℝ)
    (G : Fin 6 ⊕ Fin n → ℝ) (cod cod' : (W : Matrix (Fin n) (Fin n) ℝ) → CodNull W) (limit : Option (Fin n → ℝ)) (cs : List ContactLink)
    {solve solve' : Solver} (he : solve.Exact) (hcomp : solve.Complete) (he' : solve'.Exact) (hcomp' : solve'.Complete)
    (ts : List (TaskIn (Fin n))) :
    (qpCycle J (μ • A)⁻¹ ((μ * κ) • G) cod' (limit.map ((μ * κ) • ·)) cs solve' (ts.map fun T => ⟨T.t, T.J, κ • T.f⟩)).map
        (fun o => (o.1, o.2.1, o.2.2.1))
      = (qpCycle J A⁻¹ G cod limit cs solve ts).map (fun o => (o.1, (μ * κ) • o.2.1, (μ * κ) • o.2.2.1)) := by
  have hr := ccc_heavy hμ.ne' A J cod cod'
  unfold qpCycle
  revert hr
  rcases calculateContactConstraint J A⁻¹ cod with _ | _ | ⟨v, S, o⟩ <;>
    rcases calculateContactConstraint J (μ • A)⁻¹ cod' with _ | _ | ⟨v', S', o'⟩ <;> intro hr <;>
    first | rfl | exact hr.elim | skip
  obtain ⟨rfl, rfl, ho⟩ := hr
  rcases o with _ | ⟨k, V2, N⟩ <;> rcases o' with _ | ⟨k', V2', N'⟩
  · rfl
  · simp at ho
  · simp at ho
  simp only [Option.map_some, Option.some.injEq] at ho
  subst ho
  simp only
  have htask := calcTaskSpace_heavy (S := S) (A := A) hμ.ne' κ ts
  unfold fastTask at htask
  rw [htask]
  rcases calcTaskSpace S A⁻¹ ts with _ | ys
  · rfl
  simp only [Option.map_some]
  set X : QPRobot n c := { S := S, NwJw := N', P := gravityForce S G, τg := gravityTorque S A⁻¹ G, limit := limit, cs := cs } with hX
  set X' : QPRobot n c :=
    { S := heavySpace μ S, NwJw := N', P := gravityForce (heavySpace μ S) ((μ * κ) • G),
      τg := gravityTorque (heavySpace μ S) (μ • A)⁻¹ ((μ * κ) • G), limit := limit.map ((μ * κ) • ·), cs := cs } with hX'
  have hj : HeavyRobot μ κ X X' := ⟨rfl, rfl, gravityForce_heavy (S := S) (G := G) μ κ, gravityTorque_heavy (S := S) (G := G) hμ.ne' κ, rfl, rfl⟩
  have hl := qpLoop_heavy hμ hκ hj he hcomp he' hcomp' ys 0 1 0 0 0
  rw [smul_zero] at hl
  unfold calcTaskControlTorqueQP
  revert hl
  rcases qpLoop X solve 0 1 0 0 ys with _ | ⟨v1, τ1, τc1⟩ <;>
    rcases qpLoop X' solve' 0 1 0 0 (ys.map (heavyReady μ κ)) with _ | ⟨v2, τ2, τc2⟩
  · intro _; rfl
  · intro hl; exact hl.elim
  · intro hl; exact hl.elim
  · rintro ⟨rfl, rfl⟩
    simp only [Option.map_some, Option.some.injEq, Prod.mk.injEq, true_and, and_true]
    exact hj.grav

/-- C85 (contact redistribution by QP). -/
theorem C85_redistribute_qp (hμ : 0 < μ) (hκ : 0 < κ) (A : Matrix (Fin 6 ⊕ Fin n) (Fin 6 ⊕ Fin n) ℝ) (J : Matrix (Fin c) (Fin 6 ⊕ Fin n) ℝ)
    (G : Fin 6 ⊕ Fin n → ℝ) (cod cod' : (W : Matrix (Fin n) (Fin n) ℝ) → CodNull W) (limit : Option (Fin n → ℝ)) {cs : List ContactLink}
    (hact : 1 ≤ (active cs).length) {solve solve' : RSolver} (he : solve.Exact) (hcomp : solve.Complete) (he' : solve'.Exact)
    (hcomp' : solve'.Complete) (τin τc : Fin n → ℝ) :
    redistributeCycle J (μ • A)⁻¹ ((μ * κ) • G) cod' (limit.map ((μ * κ) • ·)) cs solve' ((μ * κ) • τin) ((μ * κ) • τc)
      = (redistributeCycle J A⁻¹ G cod limit cs solve τin τc).map (fun o => (o.1, (μ * κ) • o.2)) := by
  have hm : 0 < μ * κ := mul_pos hμ hκ
  have hr := ccc_heavy hμ.ne' A J cod cod'
  unfold redistributeCycle
  revert hr
  rcases calculateContactConstraint J A⁻¹ cod with _ | _ | ⟨v, S, o⟩ <;>
    rcases calculateContactConstraint J (μ • A)⁻¹ cod' with _ | _ | ⟨v', S', o'⟩ <;> intro hr <;>
    first | rfl | exact hr.elim | skip
  obtain ⟨rfl, rfl, ho⟩ := hr
  rcases o with _ | ⟨k, V2, N⟩ <;> rcases o' with _ | ⟨k', V2', N'⟩
  · rfl
  · simp at ho
  · simp at ho
  simp only [Option.map_some, Option.some.injEq] at ho
  subst ho
  simp only
  set X : QPRobot n c := { S := S, NwJw := N', P := gravityForce S G, τg := gravityTorque S A⁻¹ G, limit := limit, cs := cs } with hX
  set X' : QPRobot n c :=
    { S := heavySpace μ S, NwJw := N', P := gravityForce (heavySpace μ S) ((μ * κ) • G),
      τg := gravityTorque (heavySpace μ S) (μ • A)⁻¹ ((μ * κ) • G), limit := limit.map ((μ * κ) • ·), cs := cs } with hX'
  have hj : HeavyRobot μ κ X X' := ⟨rfl, rfl, gravityForce_heavy (S := S) (G := G) μ κ, gravityTorque_heavy (S := S) (G := G) hμ.ne' κ, rfl, rfl⟩
  unfold redistribute
  by_cases hc6 : c > 6
  swap
  · rw [if_neg hc6, if_neg hc6, Option.map_some, smul_zero]
  rw [if_pos hc6, if_pos hc6]
  rw [hj.cone]
  rcases X.C with _ | ⟨m, C⟩
  · rfl
  simp only
  have hfeas : ∀ q, (redistributeQP X' C ((μ * κ) • τin)).Feasible ((μ * κ) • q) ↔ (redistributeQP X C τin).Feasible q := by
    intro q
    rw [redistributeQP_feasible X' C _ hact, redistributeQP_feasible X C τin hact, hj.internal, mulVec_smul, ← smul_add, hj.limit,
      limit_heavy hm, hj.space, hj.force, contactForce_heavy, cone_heavy hm]
  have hH : (redistributeQP X C τin).H = 1 := by unfold redistributeQP; rcases X.limit with _ | L <;> rfl
  have hg : (redistributeQP X C τin).g = 0 := by unfold redistributeQP; rcases X.limit with _ | L <;> rfl
  have hH' : (redistributeQP X' C ((μ * κ) • τin)).H = 1 := by unfold redistributeQP; rcases X'.limit with _ | L <;> rfl
  have hg' : (redistributeQP X' C ((μ * κ) • τin)).g = 0 := by unfold redistributeQP; rcases X'.limit with _ | L <;> rfl
  have honto : ∀ q : Fin (c - 6) → ℝ, ∃ p, q = (μ * κ) • p := fun q => ⟨(μ * κ)⁻¹ • q, by rw [smul_smul, mul_inv_cancel₀ hm.ne', one_smul]⟩
  have hsol : ∀ q, (redistributeQP X' C ((μ * κ) • τin)).IsSolution ((μ * κ) • q) ↔ (redistributeQP X C τin).IsSolution q := by
    intro q
    have hcost : ∀ y, (redistributeQP X' C ((μ * κ) • τin)).cost ((μ * κ) • y) = (μ * κ) ^ 2 * (redistributeQP X C τin).cost y := by
      intro y
      unfold QP.cost
      rw [hH, hg, hH', hg']
      simp only [one_mulVec, zero_dotProduct, add_zero, dotProduct_smul, smul_dotProduct, smul_eq_mul]
      ring
    refine and_congr (hfeas q) ?_
    constructor
    · intro H y hy
      have := H _ ((hfeas y).mpr hy)
      rw [hcost, hcost] at this
      exact le_of_mul_le_mul_left this (by positivity)
    · intro H y' hy'
      obtain ⟨y, rfl⟩ := honto y'
      rw [hcost, hcost]
      exact mul_le_mul_of_nonneg_left (H y ((hfeas y).mp hy')) (by positivity)
  rcases hs : solve (c - 6) (redistributeQP X C τin) with _ | q
  · rcases hs' : solve' (c - 6) (redistributeQP X' C ((μ * κ) • τin)) with _ | q'
    · simp only [Option.map_some, smul_zero]
    · exfalso
      have h1 := he' _ _ _ hs'
      obtain ⟨y, rfl⟩ := honto q'
      have := hcomp _ _ ⟨_, (hsol y).mp h1⟩
      rw [hs] at this
      simp at this
  · have h1 := he _ _ _ hs
    rcases hs' : solve' (c - 6) (redistributeQP X' C ((μ * κ) • τin)) with _ | q'
    · exfalso
      have := hcomp' _ _ ⟨_, (hsol q).mpr h1⟩
      rw [hs'] at this
      simp at this
    · have h2 := he' _ _ _ hs'
      rw [solution_unique hH' hg' h2 ((hsol q).mpr h1)]
      simp only [Option.map_some, Option.some.injEq, Prod.mk.injEq, true_and]
      rw [hj.internal, mulVec_smul, smul_add]

end

/-! ### contact redistribution without a QP -/

section
variable {ι : Type*} [Fintype ι] [DecidableEq ι] {μ κ a : ℝ}

theorem div_scale (ha : 0 < a) (s : Bool) (x y : ℝ) : Fl.div s (a * x) (a * y) = Fl.div s x y := by
  unfold Fl.div
  by_cases hy : y = 0
  · subst hy
    simp only [mul_zero, ne_eq, not_true_eq_false, if_false]
    by_cases hx : x = 0
    · subst hx; simp
    · rw [if_neg hx, if_neg (mul_ne_zero ha.ne' hx)]
      have : (a * x < 0) ↔ x < 0 := by
        constructor
        · intro h; by_contra hn; push Not at hn; exact absurd h (not_lt.mpr (mul_nonneg ha.le hn))
        · intro h; exact mul_neg_of_pos_of_neg ha h
      simp only [this]
  · rw [if_pos hy, if_pos (mul_ne_zero ha.ne' hy), mul_div_mul_left _ _ ha.ne']

theorem tighten_scale (ha : 0 < a) (s : Bool) (A B C : ℝ) (p : Fl × Fl) : tighten s (a * A) (a * B) (a * C) p = tighten s A B C p := by
  have hq : Real.sqrt (2 * (a * A) * (a * B) * (2 * (a * A) * (a * B)) - 4 * (a * A * (a * A)) * (a * B * (a * B) - a * C * (a * C)))
      = a ^ 2 * Real.sqrt (2 * A * B * (2 * A * B) - 4 * (A * A) * (B * B - C * C)) := by
    have : 2 * (a * A) * (a * B) * (2 * (a * A) * (a * B)) - 4 * (a * A * (a * A)) * (a * B * (a * B) - a * C * (a * C))
        = (a ^ 2) ^ 2 * (2 * A * B * (2 * A * B) - 4 * (A * A) * (B * B - C * C)) := by ring
    rw [this, Real.sqrt_mul (by positivity), Real.sqrt_sq (by positivity)]
  have h1 : ∀ σ : ℝ, Fl.div s ((-(2 * (a * A) * (a * B)) + a ^ 2 * σ) / 2) (a * A * (a * A)) = Fl.div s ((-(2 * A * B) + σ) / 2) (A * A) := by
    intro σ
    rw [← div_scale (a := a ^ 2) (by positivity) s ((-(2 * A * B) + σ) / 2) (A * A)]
    congr 1 <;> ring
  have h2 : ∀ σ : ℝ, Fl.div s ((-(2 * (a * A) * (a * B)) - a ^ 2 * σ) / 2) (a * A * (a * A)) = Fl.div s ((-(2 * A * B) - σ) / 2) (A * A) := by
    intro σ
    rw [← div_scale (a := a ^ 2) (by positivity) s ((-(2 * A * B) - σ) / 2) (A * A)]
    congr 1 <;> ring
  unfold tighten
  simp only
  rw [hq, h1, h2]

theorem resultant_scale (P1 P2 : Fin 3 → ℝ) (F : Fin 12 → ℝ) : resultant P1 P2 (a • F) = a • resultant P1 P2 F := by
  ext i
  fin_cases i <;> simp [resultant] <;> ring

theorem coefA_scale (P1 P2 : Fin 3 → ℝ) (R : Fin 6 → ℝ) (i : Fin 3) : coefA P1 P2 (a • R) i = a * coefA P1 P2 R i := by
  fin_cases i <;> simp [coefA] <;> ring

theorem coefB_scale (P2 : Fin 3 → ℝ) (R : Fin 6 → ℝ) (i : Fin 3) : coefB P2 (a • R) i = a * coefB P2 R i := by
  fin_cases i <;> simp [coefB] <;> ring

theorem coefC_scale (ha : 0 < a) (p : RedistParams) (R : Fin 6 → ℝ) (i : Fin 3) : coefC p (a • R) i = a * coefC p R i := by
  fin_cases i <;> simp [coefC, abs_mul, abs_of_pos ha] <;> ring

theorem splitRatio_scale (ha : 0 < a) (s : Fin 4 → Bool) (p : RedistParams) (P1 P2 : Fin 3 → ℝ) (R : Fin 6 → ℝ) :
    splitRatio s p P1 P2 (a • R) = splitRatio s p P1 P2 R := by
  unfold splitRatio
  simp only [coefA_scale, coefB_scale, coefC_scale ha, tighten_scale ha]
  congr 1
  rw [← div_scale ha (s 3) (-R 3 - P2 2 * R 1 + P2 1 * R 2)]
  congr 1 <;> simp only [Pi.smul_apply, smul_eq_mul] <;> ring

theorem splitForce_scale (P1 P2 : Fin 3 → ℝ) (R : Fin 6 → ℝ) (eta : ℝ) : splitForce P1 P2 (a • R) eta = a • splitForce P1 P2 R eta := by
  unfold splitForce
  simp only [coefA_scale, coefB_scale]
  ext i
  fin_cases i <;> simp <;> ring

theorem rotate12_scale (R : Mat3) (F : Fin 12 → ℝ) : rotate12 R (a • F) = a • rotate12 R F := by
  ext i
  fin_cases i <;> simp [rotate12, mulVec, dotProduct, Fin.sum_univ_three] <;> ring

theorem closedFormForce_scale (ha : 0 < a) (s : Fin 4 → Bool) (pos : List Vec3) (com : Vec3) (yaw : ℝ) (F : Fin 12 → ℝ) :
    closedFormForce s pos com yaw (a • F) = (closedFormForce s pos com yaw F).map (a • ·) := by
  unfold closedFormForce
  rcases pos[0]? with _ | p1
  · rfl
  rcases pos[1]? with _ | p2
  · rfl
  simp only [Option.bind_eq_bind, Option.bind_some, Option.pure_def]
  unfold contactRedistribute
  rw [rotate12_scale, resultant_scale, splitRatio_scale ha]
  rcases splitRatio s dwbcParams (rotateWithZ (-yaw) *ᵥ (p1 - com)) (rotateWithZ (-yaw) *ᵥ (p2 - com))
    (resultant (rotateWithZ (-yaw) *ᵥ (p1 - com)) (rotateWithZ (-yaw) *ᵥ (p2 - com)) (rotate12 (rotateWithZ (-yaw)) F)) with _ | _ | eta
  · rfl
  · rfl
  simp only [Option.bind_some, Option.map_some]
  rw [splitForce_scale, rotate12_scale]

/-- C85 (contact redistribution without a QP, two feet). -/
theorem C85_redistribute_closed (hμ : 0 < μ) (hκ : 0 < κ) {A : Matrix (Fin 6 ⊕ ι) (Fin 6 ⊕ ι) ℝ} {J : Matrix (Fin 12) (Fin 6 ⊕ ι) ℝ}
    {G : Fin 6 ⊕ ι → ℝ} {S S' : ContactSpace 12 ι} (hS : contactSpace J A⁻¹ = some S)
    (hS' : contactSpace J (μ • A)⁻¹ = some S') (f : CodNull S.W) (f' : CodNull S'.W) (σ : Fin 4 → Bool)
    (pos : List Vec3) (com : Vec3) (base : Mat3) (τ : ι → ℝ) :
    redistributeClosed S' f' (gravityForce S' ((μ * κ) • G)) σ pos com base ((μ * κ) • τ)
      = (redistributeClosed S f (gravityForce S G) σ pos com base τ).map ((μ * κ) • ·) := by
  have hm : 0 < μ * κ := mul_pos hμ hκ
  have hF := C85_contact_force hμ κ (G := G) hS hS' τ
  rw [contactSpace_heavy hμ.ne', hS, Option.map_some, Option.some.injEq] at hS'
  subst hS'
  unfold redistributeClosed
  rw [closedFormTorque_eq, closedFormTorque_eq, hF, closedFormForce_scale hm]
  rcases closedFormForce σ pos com (eulerAngles210 base 2) (contactForce S (gravityForce S G) τ) with _ | fc
  · rfl
  simp only [Option.map_some, Option.bind_some]
  rw [closedApply_eq, closedApply_eq]
  have := nullInv_heavy (inv_ne_zero hμ.ne') (bottomRight S) f f'
  refine (congrArg (Option.map _) this).trans ?_
  rw [Option.map_map]
  congr 1
  funext X
  simp only [Function.comp]
  rw [← mulVec_smul]
  congr 1
  ext i
  simp only [Pi.smul_apply, smul_eq_mul]
  ring

end

/-! ### the ZMP -/

section
variable {m : ℕ} {a : ℝ}

theorem vecAt_scale (f : Fin m → ℝ) (k : ℕ) : vecAt (a • f) k = (vecAt f k).map (a * ·) := by
  unfold vecAt
  by_cases h : k < m
  · rw [dif_pos h, dif_pos h]; rfl
  · rw [dif_neg h, dif_neg h]; rfl

theorem totalFz_scale (f : Fin m → ℝ) (cs : List ZmpContact) (i : ℕ) : totalFz (a • f) i cs = (totalFz f i cs).map (a * ·) := by
  induction cs generalizing i with
  | nil => simp [totalFz]
  | cons c cs ih =>
    unfold totalFz
    by_cases hc : c.contact = true
    · rw [if_pos hc, if_pos hc, vecAt_scale, ih]
      rcases vecAt f (2 + i * 6) with _ | z
      · rfl
      rcases totalFz f (i + 1) cs with _ | r
      · rfl
      simp [mul_add]
    · rw [if_neg hc, if_neg hc, ih]

/-- Every contact that is switched on presses with at least a thousandth of the unit of force. -/
def Pressing (i : ℕ) (cs : List ZmpContact) (f : Fin m → ℝ) : Prop :=
  ∀ k c z, cs[k]? = some c → c.contact = true → vecAt f ((i + k) * 6 + 2) = some z → z ≤ -(1 / 1000)

theorem Pressing.tail {i : ℕ} {c : ZmpContact} {cs : List ZmpContact} {f : Fin m → ℝ} (h : Pressing i (c :: cs) f) : Pressing (i + 1) cs f := by
  intro k d z hd hc hz
  exact h (k + 1) d z (by rw [List.getElem?_cons_succ]; exact hd) hc (by rw [← hz]; congr 1; ring)

theorem zmpSum_scale (ha : 0 < a) (f : Fin m → ℝ) (tot : ℝ) (cs : List ZmpContact) (i : ℕ) (h : Pressing i cs f) (h' : Pressing i cs (a • f)) :
    zmpSum (a • f) (a * tot) i cs = zmpSum f tot i cs := by
  induction cs generalizing i with
  | nil => rfl
  | cons c cs ih =>
    unfold zmpSum
    by_cases hc : c.contact = true
    swap
    · rw [if_neg hc, if_neg hc]; exact ih _ h.tail h'.tail
    rw [if_pos hc, if_pos hc, vecAt_scale, vecAt_scale, vecAt_scale, ih _ h.tail h'.tail]
    rcases hz : vecAt f (i * 6 + 2) with _ | fz
    · rfl
    rcases vecAt f (i * 6 + 3) with _ | mx
    · rfl
    rcases vecAt f (i * 6 + 4) with _ | my
    · rfl
    rcases zmpSum f tot (i + 1) cs with _ | r
    · rfl
    have h1 : fz ≤ -(1 / 1000) := h 0 c fz rfl hc hz
    have h2 : a * fz ≤ -(1 / 1000) := h' 0 c (a * fz) rfl hc (by rw [vecAt_scale]; simp only [Nat.add_zero]; rw [hz]; rfl)
    have h0 : fz ≠ 0 := by intro h; rw [h] at h1; norm_num at h1
    simp only [Option.map_some, Option.bind_eq_bind, Option.bind_some, Option.pure_def, Option.some.injEq]
    rw [mul_div_mul_left _ _ ha.ne']
    congr 2
    unfold contactZmp
    rw [if_neg (not_lt.mpr h1), if_neg (not_lt.mpr h2), ← mul_neg, mul_div_mul_left _ _ ha.ne', mul_div_mul_left _ _ ha.ne']

/-- C85 (the ZMP).  Multiplying all contact forces by the same number does not move the ZMP, if every contact that is switched on
presses with at least `0.001` before and after.  Missing: contacts that press less, see `C85_zmp_wrong`. -/
theorem C85_zmp_partial (ha : 0 < a) (cs : List ZmpContact) (f : Fin m → ℝ) (h : Pressing 0 cs f) (h' : Pressing 0 cs (a • f)) :
    getZMP cs (a • f) = getZMP cs f := by
  unfold getZMP
  rw [totalFz_scale]
  rcases totalFz f 0 cs with _ | tot
  · rfl
  simp only [Option.map_some]
  rw [zmpSum_scale ha f tot cs 0 h h']
  have : a * tot = 0 ↔ tot = 0 := by
    constructor
    · intro h; exact (mul_eq_zero.mp h).resolve_left ha.ne'
    · intro h; rw [h, mul_zero]
  simp only [this]

/-- One foot at the origin, pressed half a metre in front of it. -/
noncomputable def toe : Fin 6 → ℝ := ![0, 0, -(1 / 500), 0, 1 / 1000, 0]

/-- C85 (the ZMP; false).  The threshold of `0.001` is a number, not a force: a foot pressing with `0.002` half a metre in front of its
centre has its ZMP there, and with all forces divided by four, or measured in another unit, under its centre. -/
theorem C85_zmp_wrong : getZMP [⟨true, 0⟩] toe = .zmp ![1 / 2, 0, 0] ∧ getZMP [⟨true, 0⟩] ((1 / 4 : ℝ) • toe) = .zmp 0 := by
  have h0 : totalFz toe 0 [⟨true, 0⟩] = some (-(1 / 500)) := by
    simp [totalFz, vecAt, toe]
  have h1 : totalFz ((1 / 4 : ℝ) • toe) 0 [⟨true, 0⟩] = some (-(1 / 2000)) := by
    rw [totalFz_scale, h0]; norm_num
  have z0 : zmpSum toe (-(1 / 500)) 0 [⟨true, 0⟩] = some ![1 / 2, 0, 0] := by
    simp [zmpSum, vecAt, toe, contactZmp]
    norm_num
  have z1 : zmpSum ((1 / 4 : ℝ) • toe) (-(1 / 2000)) 0 [⟨true, 0⟩] = some 0 := by
    simp [zmpSum, vecAt, toe, contactZmp]
    norm_num
  constructor
  · unfold getZMP
    rw [h0]
    simp only
    rw [z0]
    simp
  · unfold getZMP
    rw [h1]
    simp only
    rw [z1]
    simp

end

end Verif.Props
