import Verif.Lemmas.Tolerance
import Verif.Props.QPFail

/-!
# C88: a solver that stops at a tolerance
-/

set_option linter.unusedSectionVars false

namespace Verif.Props
open Matrix Verif Verif.Spec Verif.Model

variable {n c : ℕ} {A : Matrix (Fin 6 ⊕ Fin n) (Fin 6 ⊕ Fin n) ℝ} {J : Matrix (Fin c) (Fin 6 ⊕ Fin n) ℝ} {G : Fin 6 ⊕ Fin n → ℝ}
  {R : QPRobot n c}

/-- Answers keep the constraints up to `ε` and cost at most `δ` too much. -/
def SolverWithin (ε δ : ℝ) (solve : Solver) : Prop := ∀ i t k d x, solve i t k d = some x → d.SolvedWithin ε δ x

/-- A problem that has a solution within the tolerances is answered. -/
def AnswersWithin (ε δ : ℝ) (solve : Solver) : Prop := ∀ i t k d, (∃ x, d.SolvedWithin ε δ x) → (solve i t k d).isSome

/-- The same for the redistribution problem. -/
def RSolverWithin (ε δ : ℝ) (solve : RSolver) : Prop := ∀ k d x, solve k d = some x → d.SolvedWithin ε δ x

/-- Every joint torque exceeds its limit by at most `ε`. -/
def NearLimit (ε : ℝ) (L τ : Fin n → ℝ) : Prop := ∀ j, |τ j| ≤ L j + ε

/-- Every active contact has to carry at most `ε` more than it can. -/
def ContactsNear (ε : ℝ) (cs : List ContactLink) (F : Fin (6 * (active cs).length) → ℝ) : Prop :=
  ∀ i : Fin (active cs).length, CarriesWithin ε (active cs)[i].planeX (active cs)[i].planeY (active cs)[i].friction
    (active cs)[i].frictionZ (inFrame (active cs)[i].rotm (wrenchOf F i))

/-- With tolerance zero these are the conditions of `C08` and `C09`. -/
theorem near_zero {cs : List ContactLink} (hp : ∀ l ∈ cs, 0 < l.planeX ∧ 0 < l.planeY) (F : Fin (6 * (active cs).length) → ℝ) :
    ContactsNear 0 cs F ↔ ContactsHold cs F := by
  refine forall_congr' fun i => ?_
  have : 0 < (active cs)[i].planeX ∧ 0 < (active cs)[i].planeY := hp _ (List.mem_filter.mp (List.getElem_mem i.isLt)).1
  rw [noTip_iff this.1 this.2]
  simp only [CarriesWithin, NoSlip, add_zero]
  tauto

/-- A pressing foot within the tolerance has its centre of pressure in the sole widened by `ε` over the pressing force. -/
theorem near_cop {ε lx ly μ μz : ℝ} {w : Fin 6 → ℝ} (h : CarriesWithin ε lx ly μ μz w) (hp : 0 < press w) :
    ∃ px py, IsCoP w px py ∧ |px| ≤ lx + ε / press w ∧ |py| ≤ ly + ε / press w := by
  obtain ⟨-, -, -, h4, h3⟩ := h
  have e2 : w 2 = -press w := by unfold press; ring
  refine ⟨w 4 / press w, -(w 3 / press w), ⟨?_, ?_⟩, ?_, ?_⟩
  · rw [e2]; field_simp; ring
  · rw [e2]; field_simp; ring
  · rw [abs_div, abs_of_pos hp, div_le_iff₀ hp, add_mul, div_mul_cancel₀ _ hp.ne']
    exact h4
  · rw [abs_neg, abs_div, abs_of_pos hp, div_le_iff₀ hp, add_mul, div_mul_cancel₀ _ hp.ne']
    exact h3

/-- The last level's answer bounds the final torque. -/
theorem qpLoop_within {ε δ : ℝ} (hε : 0 ≤ ε) (R : QPRobot n c) {solve : Solver} (hs : SolverWithin ε δ solve) (i : ℕ)
    (N : Matrix (Fin n) (Fin n) ℝ) (τt τc : Fin n → ℝ) (T : TaskReady (Fin n)) (rest : List (TaskReady (Fin n))) {τt' τc' : Fin n → ℝ}
    (h : qpLoop R solve i N τt τc (T :: rest) = .ret 1 τt' τc') :
    ∃ m C, R.C = some ⟨m, C⟩ ∧ (∀ L, R.limit = some L → ∀ j, |(R.τg + τt' + τc') j| ≤ L j + ε) ∧
      ∀ r, -ε ≤ (C *ᵥ contactForce R.S R.P (R.τg + τt' + τc')) r := by
  induction rest generalizing i N τt τc T with
  | nil =>
    simp only [qpLoop] at h
    split at h
    · cases h
    · rename_i m C hC
      split at h
      · simp at h
      · rename_i x hx
        split_ifs at h
        simp only [CtrlResult.ret.injEq, true_and] at h
        obtain ⟨rfl, rfl⟩ := h
        have := (taskQP_within hε R C T N _ x).mp (hs _ _ _ _ _ hx).1
        rw [add_assoc R.τg] at this
        exact ⟨m, C, hC, this⟩
  | cons T' rest ih =>
    rw [qpLoop] at h
    split at h
    · cases h
    · split at h
      · simp at h
      · simp only at h
        split_ifs at h
        exact ih _ _ _ _ _ h

/-- **C88 (task control, safety).**  If the solver's answers keep the constraints up to `ε`, a successful call commands torques that
exceed the limits by at most `ε`, and every contact has to carry at most `ε` more than it can: the errors of the levels do not add up. -/
theorem C88_task_safe {ε δ : ℝ} (hε : 0 ≤ ε) (hA : IsSPD A) (hS : contactSpace J A⁻¹ = some R.S) (hP : R.P = gravityForce R.S G)
    (h6 : ∀ l ∈ R.cs, l.type = .c6d) (hc : c = 6 * (active R.cs).length)
    {solve : Solver} (hs : SolverWithin ε δ solve) {ts : List (TaskReady (Fin n))} (hts : ts ≠ []) {τt τc : Fin n → ℝ}
    (h : calcTaskControlTorqueQP R solve ts = .ret 1 τt τc) :
    (∀ L, R.limit = some L → NearLimit ε L (R.τg + τt + τc)) ∧
      ∀ qdd F, Motion A J G (R.τg + τt + τc) qdd F → ContactsNear ε R.cs (F ∘ Fin.cast hc.symm) := by
  obtain ⟨T, rest, rfl⟩ := List.exists_cons_of_ne_nil hts
  obtain ⟨m, C, hC, hl, hf⟩ := qpLoop_within hε R hs _ _ _ _ _ _ h
  obtain ⟨C', e, h'⟩ := stackC_within R.cs h6 hc
  rw [QPRobot.C, e] at hC
  simp only [Option.some.injEq, Sigma.mk.injEq] at hC
  obtain ⟨rfl, hC⟩ := hC
  obtain rfl := eq_of_heq hC
  refine ⟨hl, fun qdd F hM => ?_⟩
  rw [(C01_contact_force_exact hA hS G _).2.1 _ _ hM, ← hP]
  exact (h' ε _).mp hf

/-- **C88 (redistribution, safety).** -/
theorem C88_redistribute_safe {ε δ : ℝ} (hε : 0 ≤ ε) (hA : IsSPD A) (hS : contactSpace J A⁻¹ = some R.S)
    (hP : R.P = gravityForce R.S G) (h6 : ∀ l ∈ R.cs, l.type = .c6d) (hc : c = 6 * (active R.cs).length) (hc6 : 6 < c)
    {solve : RSolver} (hs : RSolverWithin ε δ solve) {base τc τc' : Fin n → ℝ}
    (h : redistribute R solve (base + τc) τc = some (1, τc')) :
    (∀ L, R.limit = some L → NearLimit ε L (base + τc')) ∧
      ∀ qdd F, Motion A J G (base + τc') qdd F → ContactsNear ε R.cs (F ∘ Fin.cast hc.symm) := by
  obtain ⟨C, e, h'⟩ := stackC_within R.cs h6 hc
  simp only [redistribute, gt_iff_lt, hc6, if_true, QPRobot.C, e] at h
  split at h
  · rename_i q hq
    simp only [Option.some.injEq, Prod.mk.injEq, true_and] at h
    subst h
    have := (redistributeQP_within hε R C _ (by omega) q).mp (hs _ _ _ hq).1
    rw [add_assoc] at this
    refine ⟨this.1, fun qdd F hM => ?_⟩
    rw [(C01_contact_force_exact hA hS G _).2.1 _ _ hM, ← hP]
    exact (h' ε _).mp this.2
  · simp at h

/-- The torque for the contact forces comes from the redistribution matrix. -/
theorem qpLoop_internal {solve : Solver} {m : ℕ} {C : Matrix (Fin m) (Fin c) ℝ} (hC : R.C = some ⟨m, C⟩) {τt τc : Fin n → ℝ}
    (ts : List (TaskReady (Fin n))) (i : ℕ) (N : Matrix (Fin n) (Fin n) ℝ) (τ0 τ1 : Fin n → ℝ) (hz : ∃ z, τ1 = R.NwJw *ᵥ z)
    (h : qpLoop R solve i N τ0 τ1 ts = .ret 1 τt τc) : ∃ z, τc = R.NwJw *ᵥ z := by
  induction ts generalizing i N τ0 τ1 with
  | nil =>
    simp only [qpLoop, CtrlResult.ret.injEq, true_and] at h
    obtain ⟨-, rfl⟩ := h
    exact hz
  | cons T ts ih =>
    simp only [qpLoop, hC] at h
    split at h
    · simp at h
    · split_ifs at h
      exact ih _ _ _ _ ⟨_, rfl⟩ h

/-- **C88 (first task).**  If the solver's answers cost at most `δ` too much, the first task is missed by hardly more than it has to be:
the square of the miss is at most `2δ` above that of any acceleration that could be commanded safely. -/
theorem C88_first_task {ε δ : ℝ} (hA : IsSPD A) (hS : contactSpace J A⁻¹ = some R.S) (hB : BaseDetermined J)
    (hP : R.P = gravityForce R.S G) (hg : R.τg = gravityTorque R.S A⁻¹ G)
    (h6 : ∀ l ∈ R.cs, l.type = .c6d) (hp : ∀ l ∈ R.cs, 0 < l.planeX ∧ 0 < l.planeY) (hc : c = 6 * (active R.cs).length)
    (hc6 : 6 < c) (cod : (W : Matrix (Fin n) (Fin n) ℝ) → CodNull W) {v k : ℕ} {V2 : Matrix (Fin k) (Fin n) ℝ}
    (hR : calculateContactConstraint J A⁻¹ cod = .ret v R.S (some ⟨k, V2, R.NwJw⟩))
    {solve : Solver} (hs : SolverWithin ε δ solve) {T : TaskReady (Fin n)} (hT : calculateJKT R.S A⁻¹ T.toTaskIn = some T)
    {lower : List (TaskReady (Fin n))} {τt τc : Fin n → ℝ}
    (h : calcTaskControlTorqueQP R solve (T :: lower) = .ret 1 τt τc) {qdd : Fin 6 ⊕ Fin n → ℝ} {F : Fin c → ℝ}
    (hM : Motion A J G (R.τg + τt + τc) qdd F) {a : Fin T.t → ℝ} {ν : Fin n → ℝ} (hν : MovesNothing A J G ν)
    (hsafe : SafeTorque A J G R.limit R.cs hc (R.τg + taskTorque R.S [withCommand T a] + ν)) :
    ∑ i, ((T.J *ᵥ qdd) i - T.f i) ^ 2 ≤ ∑ i, (a i - T.f i) ^ 2 + 2 * δ := by
  obtain ⟨C, e, h'⟩ := stackC_holds h6 hp hc
  have hC : R.C = some ⟨_, C⟩ := e
  obtain ⟨z, rfl⟩ := qpLoop_internal hC _ _ _ _ _ ⟨0, (mulVec_zero _).symm⟩ h
  rw [calcTaskControlTorqueQP, qpLoop, hC] at h
  simp only at h
  rcases hx : solve 0 T.t (c - 6) (taskQP R C T 1 (R.τg + 0)) with _ | x
  · rw [hx] at h; simp at h
  rw [hx] at h
  simp only at h
  rw [if_neg (by omega)] at h
  obtain ⟨rs, hrs⟩ := qpLoop_commands _ _ _ _ _ h
  obtain ⟨qdd', hM'⟩ := (C01_contact_force_exact hA hS G (R.τg + τt)).1
  obtain rfl := (C04_internal_force hA hc6 cod hR G (R.τg + τt) z hM' hM).1
  have hT' := jkt_withCommand hT (T.f + fun a => x (Sum.inl a))
  have hstack : τt = taskTorque R.S (withCommand T (T.f + fun a => x (Sum.inl a)) :: rs) := hrs
  rw [hg, hstack] at hM'
  have hacc : T.J *ᵥ qdd = T.f + fun a => x (Sum.inl a) := C07_top_priority_partial hA hS hB hT' rs hM'
  obtain ⟨z', rfl⟩ := (movesNothing_iff hA hc6 cod hS hR ν).mp hν
  have hfeas : (taskQP R C T 1 (R.τg + 0)).Feasible (Sum.elim (a - T.f) z') := by
    rw [taskQP_feasible, one_mulVec, add_zero]
    have ea : (T.f + fun b => Sum.elim (a - T.f) z' (Sum.inl b)) = a := by ext b; simp
    rw [ea]
    have := (safe_iff hA hS hP hc h' _).mp hsafe
    rw [taskTorque_one] at this
    exact this
  have hle := (hs _ _ _ _ _ hx).2 _ hfeas
  rw [taskQP_cost, taskQP_cost] at hle
  have e1 : ∀ i, ((T.J *ᵥ qdd) i - T.f i) ^ 2 = x (Sum.inl i) * x (Sum.inl i) := by
    intro i
    rw [hacc]
    simp only [Pi.add_apply]
    ring
  have e2 : ∀ i, (a i - T.f i) ^ 2 = Sum.elim (a - T.f) z' (Sum.inl i) * Sum.elim (a - T.f) z' (Sum.inl i) := by
    intro i
    simp only [Sum.elim_inl, Pi.sub_apply]
    ring
  simp only [e1, e2]
  linarith

/-- From a torque that is safe up to the tolerance on, no level fails. -/
theorem qpLoop_go_within {ε δ : ℝ} (hε : 0 ≤ ε) (hδ : 0 ≤ δ) (hc6 : 6 < c) {m : ℕ} {C : Matrix (Fin m) (Fin c) ℝ} (hC : R.C = some ⟨m, C⟩)
    {solve : Solver} (hs : SolverWithin ε δ solve) (hcomp : AnswersWithin ε δ solve) (ts : List (TaskReady (Fin n))) (i : ℕ)
    (N : Matrix (Fin n) (Fin n) ℝ) (τt τc : Fin n → ℝ) (z : Fin (c - 6) → ℝ)
    (h : (∀ L, R.limit = some L → ∀ j, |(R.τg + τt + R.NwJw *ᵥ z) j| ≤ L j + ε) ∧
      ∀ r, -ε ≤ (C *ᵥ contactForce R.S R.P (R.τg + τt + R.NwJw *ᵥ z)) r) :
    ∃ τt' τc', qpLoop R solve i N τt τc ts = .ret 1 τt' τc' := by
  induction ts generalizing i N τt τc z with
  | nil => exact ⟨τt, τc, rfl⟩
  | cons T ts ih =>
    have hf : (taskQP R C T N (R.τg + τt)).FeasibleWithin ε (Sum.elim (-T.f) z) := by
      rw [taskQP_within hε]
      have e : (T.f + fun a => Sum.elim (-T.f) z (Sum.inl a)) = 0 := by ext a; simp
      rw [e, mulVec_zero, mulVec_zero, mulVec_zero, add_zero]
      exact h
    have hsol : ∃ x, (taskQP R C T N (R.τg + τt)).SolvedWithin ε δ x := by
      by_cases hex : ∃ y, (taskQP R C T N (R.τg + τt)).Feasible y
      · obtain ⟨y, hy⟩ := hex
        obtain ⟨x, hx1, hx2⟩ := taskQP_exists R C T N _ hy
        exact ⟨x, feasibleWithin_of hε hx1, fun y hy => (hx2 y hy).trans (le_add_of_nonneg_right hδ)⟩
      · exact ⟨_, hf, fun y hy => absurd ⟨y, hy⟩ hex⟩
    obtain ⟨x, hx⟩ := Option.isSome_iff_exists.mp (hcomp i _ _ _ hsol)
    have hx' := (taskQP_within hε R C T N _ x).mp (hs _ _ _ _ _ hx).1
    rw [qpLoop, hC]
    simp only [hx]
    rw [if_neg (by omega)]
    refine ih _ _ _ _ (fun b => x (Sum.inr b)) ?_
    rw [← add_assoc]
    exact hx'

/-- **C88 (no failure of a robot that can stand).**  If the solver applies the same tolerance when it decides whether a problem is solvable,
task control succeeds for every list of tasks as soon as the robot can stand. -/
theorem C88_never_fails {ε δ : ℝ} (hε : 0 ≤ ε) (hδ : 0 ≤ δ) (hA : IsSPD A) (hS : contactSpace J A⁻¹ = some R.S) (hP : R.P = gravityForce R.S G)
    (h6 : ∀ l ∈ R.cs, l.type = .c6d) (hp : ∀ l ∈ R.cs, 0 < l.planeX ∧ 0 < l.planeY) (hc : c = 6 * (active R.cs).length)
    (hc6 : 6 < c) (cod : (W : Matrix (Fin n) (Fin n) ℝ) → CodNull W) {v k : ℕ} {V2 : Matrix (Fin k) (Fin n) ℝ}
    (hR : calculateContactConstraint J A⁻¹ cod = .ret v R.S (some ⟨k, V2, R.NwJw⟩))
    {solve : Solver} (hs : SolverWithin ε δ solve) (hcomp : AnswersWithin ε δ solve) {ν : Fin n → ℝ} (hν : MovesNothing A J G ν)
    (hsafe : SafeTorque A J G R.limit R.cs hc (R.τg + ν)) (ts : List (TaskReady (Fin n))) :
    ∃ τt τc, calcTaskControlTorqueQP R solve ts = .ret 1 τt τc := by
  obtain ⟨C, e, h'⟩ := stackC_holds h6 hp hc
  have hC : R.C = some ⟨_, C⟩ := e
  obtain ⟨z, rfl⟩ := (movesNothing_iff hA hc6 cod hS hR ν).mp hν
  refine qpLoop_go_within hε hδ hc6 hC hs hcomp ts 0 1 0 0 z ?_
  rw [add_zero]
  obtain ⟨a, b⟩ := (safe_iff hA hS hP hc h' _).mp hsafe
  exact ⟨fun L hL j => (a L hL j).trans (le_add_of_nonneg_right hε), fun r => (neg_nonpos.mpr hε).trans (b r)⟩

end Verif.Props
