import Verif.Props.EnergyMet
import Verif.Props.ToleranceMet

/-! # C89: one task with the QP -/

set_option linter.unusedSectionVars false

namespace Verif.Props
open Matrix Verif Verif.Spec Verif.Model

theorem qp_feasible_convex {V : Type*} [Fintype V] {d : QP V} {x y : V → ℝ} (hx : d.Feasible x) (hy : d.Feasible y) {t : ℝ} (h0 : 0 ≤ t)
    (h1 : t ≤ 1) : d.Feasible (x + t • (y - x)) := by
  intro r hr
  have e : d.A r ⬝ᵥ (x + t • (y - x)) = (1 - t) * (d.A r ⬝ᵥ x) + t * (d.A r ⬝ᵥ y) := by
    rw [dotProduct_add, dotProduct_smul, dotProduct_sub, smul_eq_mul]; ring
  rw [e]
  refine ⟨fun b hb => ?_, ?_⟩
  · nlinarith [(hx r hr).1 b hb, (hy r hr).1 b hb]
  · nlinarith [(hx r hr).2, (hy r hr).2]

variable {n c : ℕ} {A : Matrix (Fin 6 ⊕ Fin n) (Fin 6 ⊕ Fin n) ℝ} {J : Matrix (Fin c) (Fin 6 ⊕ Fin n) ℝ} {G : Fin 6 ⊕ Fin n → ℝ}
  {R : QPRobot n c}

/-- **C89 (one task with the QP).**  If the robot could safely stand still, the acceleration `a` the QP commands in place of `f` never
points away from `f` and is never larger than `f`. -/
theorem C89_qp_command (hA : IsSPD A) (cod : (W : Matrix (Fin n) (Fin n) ℝ) → CodNull W) {v k : ℕ} {V2 : Matrix (Fin k) (Fin n) ℝ}
    (hS : contactSpace J A⁻¹ = some R.S) (hR : calculateContactConstraint J A⁻¹ cod = .ret v R.S (some ⟨k, V2, R.NwJw⟩))
    (hP : R.P = Model.gravityForce R.S G) (h6 : ∀ l ∈ R.cs, l.type = .c6d) (hp : ∀ l ∈ R.cs, 0 < l.planeX ∧ 0 < l.planeY)
    (hc : c = 6 * (active R.cs).length) (hc6 : 6 < c) {solve : Solver} (hs : solve.Exact) {T : TaskReady (Fin n)} {ν : Fin n → ℝ}
    (hν : MovesNothing A J G ν) (hstand : SafeTorque A J G R.limit R.cs hc (R.τg + ν)) {τt τc : Fin n → ℝ}
    (h : calcTaskControlTorqueQP R solve [T] = .ret 1 τt τc) :
    ∃ a : Fin T.t → ℝ, τt = taskTorque R.S [withCommand T a] ∧ MovesNothing A J G τc ∧ a ⬝ᵥ a ≤ a ⬝ᵥ T.f ∧ a ⬝ᵥ a ≤ T.f ⬝ᵥ T.f := by
  obtain ⟨C, e, h'⟩ := stackC_holds h6 hp hc
  have hC : R.C = some ⟨_, C⟩ := e
  obtain ⟨b, rfl⟩ := (movesNothing_iff hA hc6 cod hS hR ν).mp hν
  simp only [calcTaskControlTorqueQP, qpLoop, hC] at h
  split at h
  · simp at h
  rename_i x hx
  split_ifs at h
  simp only [CtrlResult.ret.injEq, true_and] at h
  obtain ⟨h1, h2⟩ := h
  have hsol := hs _ _ _ _ _ hx
  -- standing still
  obtain ⟨y, hy⟩ : ∃ y : Fin T.t ⊕ Fin (c - 6) → ℝ, y = Sum.elim (-T.f) b := ⟨_, rfl⟩
  have hyf : (taskQP R C T 1 (R.τg + 0)).Feasible y := by
    rw [taskQP_feasible]
    have e0 : (T.f + fun a => y (Sum.inl a)) = 0 := by ext a; simp [hy]
    have e1 : (fun j => y (Sum.inr j)) = b := by ext j; simp [hy]
    rw [e0, e1, mulVec_zero, mulVec_zero, mulVec_zero, add_zero, add_zero]
    exact (safe_iff hA hS hP hc h' _).mp hstand
  obtain ⟨a, ha⟩ : ∃ a : Fin T.t → ℝ, a = T.f + fun j => x (Sum.inl j) := ⟨_, rfl⟩
  have key : a ⬝ᵥ a ≤ a ⬝ᵥ T.f := by
    by_contra hlt
    push Not at hlt
    have hcost : ∀ t : ℝ, 0 ≤ t → t ≤ 1 → 2 * t * (a ⬝ᵥ a - a ⬝ᵥ T.f) ≤ t ^ 2 * (a ⬝ᵥ a) := by
      intro t h0 h1
      have := hsol.2 _ (qp_feasible_convex hsol.1 hyf h0 h1)
      rw [taskQP_cost, taskQP_cost] at this
      have e3 : ∀ j, (x + t • (y - x)) (Sum.inl j) = a j - T.f j - t * a j := by
        intro j
        simp [hy, ha]; ring
      have e4 : ∀ j, x (Sum.inl j) = a j - T.f j := by intro j; simp [ha]
      simp only [e3, e4] at this
      have e5 : ∑ j, (a j - T.f j - t * a j) * (a j - T.f j - t * a j) =
          ∑ j, (a j - T.f j) * (a j - T.f j) - 2 * t * (a ⬝ᵥ a - a ⬝ᵥ T.f) + t ^ 2 * (a ⬝ᵥ a) := by
        simp only [dotProduct, ← Finset.sum_sub_distrib, Finset.mul_sum, ← Finset.sum_add_distrib]
        exact Finset.sum_congr rfl fun j _ => by ring
      rw [e5] at this
      linarith
    have hsq : 0 ≤ a ⬝ᵥ a := by
      rw [dotProduct]; exact Finset.sum_nonneg fun j _ => mul_self_nonneg _
    have hd : 0 < a ⬝ᵥ a - a ⬝ᵥ T.f := sub_pos.mpr hlt
    by_cases hbig : a ⬝ᵥ a - a ⬝ᵥ T.f ≤ a ⬝ᵥ a
    · have hpos : 0 < a ⬝ᵥ a := lt_of_lt_of_le hd hbig
      have h3 := hcost ((a ⬝ᵥ a - a ⬝ᵥ T.f) / (a ⬝ᵥ a)) (by positivity) (by rw [div_le_one hpos]; exact hbig)
      have h4 : ((a ⬝ᵥ a - a ⬝ᵥ T.f) / (a ⬝ᵥ a)) ^ 2 * (a ⬝ᵥ a) =
          ((a ⬝ᵥ a - a ⬝ᵥ T.f) / (a ⬝ᵥ a)) * (a ⬝ᵥ a - a ⬝ᵥ T.f) := by field_simp
      rw [h4] at h3
      have h5 : 0 < ((a ⬝ᵥ a - a ⬝ᵥ T.f) / (a ⬝ᵥ a)) * (a ⬝ᵥ a - a ⬝ᵥ T.f) := by positivity
      linarith
    · have h3 := hcost 1 zero_le_one le_rfl
      push Not at hbig
      linarith
  refine ⟨a, ?_, ?_, key, ?_⟩
  · rw [← h1, ← ha]; rfl
  · rw [← h2]
    exact (movesNothing_iff hA hc6 cod hS hR _).mpr ⟨_, rfl⟩
  · have h3 : 0 ≤ (a - T.f) ⬝ᵥ (a - T.f) := by
      rw [dotProduct]; exact Finset.sum_nonneg fun j _ => mul_self_nonneg _
    rw [sub_dotProduct, dotProduct_sub, dotProduct_sub, dotProduct_comm T.f a] at h3
    linarith

/-- **C89 (damping with the QP, one row).**  A task of one row that only damps takes energy out of the robot, or at least adds none, also
when limits and contacts keep the QP from following the command, if the robot could safely stand still. -/
theorem C89_qp_damping (hA : IsSPD A) (cod : (W : Matrix (Fin n) (Fin n) ℝ) → CodNull W) {v k : ℕ} {V2 : Matrix (Fin k) (Fin n) ℝ}
    (hS : contactSpace J A⁻¹ = some R.S) (hR : calculateContactConstraint J A⁻¹ cod = .ret v R.S (some ⟨k, V2, R.NwJw⟩))
    (hP : R.P = Model.gravityForce R.S G) (h6 : ∀ l ∈ R.cs, l.type = .c6d) (hp : ∀ l ∈ R.cs, 0 < l.planeX ∧ 0 < l.planeY)
    (hc : c = 6 * (active R.cs).length) (hc6 : 6 < c) (hB : BaseDetermined J) {solve : Solver} (hs : solve.Exact)
    {JT : Matrix (Fin 1) (Fin 6 ⊕ Fin n) ℝ} {f : Fin 1 → ℝ} {T : TaskReady (Fin n)} (hT : calculateJKT R.S A⁻¹ ⟨1, JT, f⟩ = some T)
    {qd : Fin 6 ⊕ Fin n → ℝ} (hv : J *ᵥ qd = 0) {d : ℝ} (hd : 0 < d) (hf : f = -(d • (JT *ᵥ qd))) {ν : Fin n → ℝ}
    (hν : MovesNothing A J G ν) (hstand : SafeTorque A J G R.limit R.cs hc (R.τg + ν)) {τt τc : Fin n → ℝ}
    (h : calcTaskControlTorqueQP R solve [T] = .ret 1 τt τc) : jointPower (τt + τc) qd ≤ 0 := by
  obtain ⟨a, hτ, hτc, h1, -⟩ := C89_qp_command hA cod hS hR hP h6 hp hc hc6 hs hν hstand h
  have e : jointPower (τt + τc) qd = jointPower τt qd + jointPower τc qd := by
    rw [jointPower_sel, jointPower_sel, jointPower_sel, add_dotProduct]
  rw [e, C89_internal_power hA hS hv hτc, add_zero, hτ]
  have hu : calculateJKT R.S A⁻¹ ⟨T.t, T.J, a⟩ = some (withCommand T a) :=
    jkt_withCommand ((ready_rows hT) ▸ hT) a
  rw [C89_task_power hA hS hB hu hv]
  obtain ⟨hunit, rfl⟩ := (jkt_eq_some hS).mp hT
  have h2 : ∀ x : Fin 1 → ℝ, x ≠ 0 → 0 < ((JT * R.S.AinvNc * JTᵀ)⁻¹ *ᵥ x) ⬝ᵥ x := fun x hx => Λ_pos hA hS hT hx
  change ((JT * R.S.AinvNc * JTᵀ)⁻¹ *ᵥ a) ⬝ᵥ (JT *ᵥ qd) ≤ 0
  change a ⬝ᵥ a ≤ a ⬝ᵥ f at h1
  rw [hf] at h1
  generalize (JT * R.S.AinvNc * JTᵀ)⁻¹ = Λ at h2
  generalize JT *ᵥ qd = w at h1
  have h3 := h2 1 one_ne_zero
  change Fin 1 → ℝ at a
  simp only [dotProduct, mulVec, Finset.univ_unique, Fin.default_eq_zero, Finset.sum_singleton, Pi.neg_apply, Pi.smul_apply, smul_eq_mul,
    Pi.one_apply, mul_one] at h1 h3 ⊢
  have h4 : a 0 * w 0 ≤ 0 := by
    by_contra hn
    push Not at hn
    nlinarith [mul_self_nonneg (a 0), mul_pos hd hn]
  nlinarith

/-- The hypotheses are met by the biped with an arm whose motor is too weak for the command: the arm swings, the task brakes it. -/
example (cod : (W : Matrix (Fin 7) (Fin 7) ℝ) → CodNull W) : ∃ S N T τt τc,
    contactSpace Reach.J Reach.A⁻¹ = some S ∧ calculateJKT S Reach.A⁻¹ Reach.T = some T ∧
    calcTaskControlTorqueQP (Reach.robot S N) Stand.solver [T] = .ret 1 τt τc ∧
    Reach.T.f = -((1 : ℝ) • (Reach.T.J *ᵥ Pi.single (Sum.inr 6) (-1))) ∧
    jointPower (τt + τc) (Pi.single (Sum.inr 6) (-1)) ≤ 0 := by
  obtain ⟨S, k, V2, N, T, o, hR, hS, hT, hg, -⟩ := reach_data cod
  have h0 : MovesNothing Reach.A Reach.J Reach.G 0 :=
    (movesNothing_iff Reach.hA (by norm_num) cod hS hR 0).mpr ⟨0, (mulVec_zero _).symm⟩
  have hsafe : SafeTorque Reach.A Reach.J Reach.G (Reach.robot S N).limit (Reach.robot S N).cs Stand.dof
      ((Reach.robot S N).τg + 0) := by
    rw [show (Reach.robot S N).τg = 0 from hg, add_zero]
    constructor
    · intro L hL j
      obtain rfl := Option.some.inj hL
      norm_num
    · intro qdd F hM
      rw [(C01_contact_force_exact Reach.hA hS _ _).2.1 _ _ hM, ← (C01_contact_force_exact Reach.hA hS _ _).2.1 _ _ Reach.motion]
      exact Stand.hold
  obtain ⟨τt, τc, h⟩ := C60_never_fails Reach.hA (R := Reach.robot S N) hS rfl Stand.six Stand.plane Stand.dof (by norm_num) cod hR
    Stand.solver_sound Stand.solver_complete h0 hsafe [T]
  have hf : Reach.T.f = -((1 : ℝ) • (Reach.T.J *ᵥ Pi.single (Sum.inr 6) (-1))) := by
    ext i
    have e : (Reach.T.J *ᵥ Pi.single (Sum.inr 6) (-1)) i = -1 := by
      rw [mulVec_single]
      change (Pi.single (M := fun _ : Fin 6 ⊕ Fin 7 => ℝ) (Sum.inr 6) 1) (Sum.inr 6) * (-1) = -1
      rw [Pi.single_eq_same (M := fun _ : Fin 6 ⊕ Fin 7 => ℝ) (Sum.inr 6) 1]; norm_num
    change (1 : ℝ) = -((1 : ℝ) * (Reach.T.J *ᵥ Pi.single (Sum.inr 6) (-1)) i)
    rw [e]; norm_num
  have hv : Reach.J *ᵥ (Pi.single (Sum.inr 6) (-1)) = 0 := by
    ext i
    fin_cases i <;> simp [Reach.J]
  exact ⟨S, N, T, τt, τc, hS, hT, h, hf, C89_qp_damping (R := Reach.robot S N) Reach.hA cod hS hR rfl Stand.six Stand.plane Stand.dof
    (by norm_num) Reach.J_base Stand.solver_exact hT hv one_pos hf h0 hsafe h⟩

end Verif.Props
