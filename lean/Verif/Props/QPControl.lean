import Verif.Lemmas.QPControl
import Verif.Lemmas.Arm
import Verif.Props.Contact
import Verif.Props.ConstraintRows
import Verif.Lemmas.QPExists
import Verif.Lemmas.QPLeast

/-!
# C08-C11, C46, C47: control with quadratic programmes
-/
set_option linter.unusedSectionVars false

namespace Verif.Props
open Matrix Verif Verif.Spec Verif.Model

variable {n c : ℕ}

/-- Every joint torque is within its limit. -/
def WithinLimit (L τ : Fin n → ℝ) : Prop := ∀ j, |τ j| ≤ L j

/-- No active contact tips or slips under the stacked contact force `F`. -/
def ContactsHold (cs : List ContactLink) (F : Fin (6 * (active cs).length) → ℝ) : Prop :=
  ∀ i : Fin (active cs).length,
    NoTip (active cs)[i].planeX (active cs)[i].planeY (inFrame (active cs)[i].rotm (wrenchOf F i)) ∧
    NoSlip (active cs)[i].friction (active cs)[i].frictionZ (inFrame (active cs)[i].rotm (wrenchOf F i))

/-- C08.  If QP task control with at least one task reports success, gravity, task and contact torque together
respect the torque limit of every joint. -/
theorem C08_torque_limit (R : QPRobot n c) {solve : Solver} (hs : solve.Sound) {ts : List (TaskReady (Fin n))}
    (hts : ts ≠ []) {L τt τc : Fin n → ℝ} (hL : R.limit = some L)
    (h : calcTaskControlTorqueQP R solve ts = .ret 1 τt τc) : WithinLimit L (R.τg + τt + τc) := by
  obtain ⟨T, rest, rfl⟩ := List.exists_cons_of_ne_nil hts
  obtain ⟨m, C, -, hl, -⟩ := qpLoop_success R hs _ _ _ _ _ _ h
  exact hl L hL

theorem stackC_holds {cs : List ContactLink} (h6 : ∀ l ∈ cs, l.type = .c6d)
    (hp : ∀ l ∈ cs, 0 < l.planeX ∧ 0 < l.planeY) (hc : c = 6 * (active cs).length) :
    ∃ C, stackC cs c = some ⟨10 * (active cs).length, C⟩ ∧
      ∀ F : Fin c → ℝ, (∀ r, 0 ≤ (C *ᵥ F) r) ↔ ContactsHold cs (F ∘ Fin.cast hc.symm) := by
  obtain ⟨C, e, h⟩ := stackC_spec cs h6 hc
  refine ⟨C, e, fun F => (h F).trans (forall_congr' fun i => ?_)⟩
  have : 0 < (active cs)[i].planeX ∧ 0 < (active cs)[i].planeY :=
    hp _ (List.mem_filter.mp (List.getElem_mem i.isLt)).1
  rw [← C12_zmp_rows this.1 this.2, ← C13_force_rows, ← contactConst_iff]

/-- C09.  If QP task control with at least one task reports success, then in every motion of the robot under the
total torque no active contact tips or slips. -/
theorem C09_contacts_hold {A : Matrix (Fin 6 ⊕ Fin n) (Fin 6 ⊕ Fin n) ℝ} {J : Matrix (Fin c) (Fin 6 ⊕ Fin n) ℝ}
    {G : Fin 6 ⊕ Fin n → ℝ} (hA : IsSPD A) (R : QPRobot n c) (hS : contactSpace J A⁻¹ = some R.S)
    (hP : R.P = gravityForce R.S G)
    (h6 : ∀ l ∈ R.cs, l.type = .c6d) (hp : ∀ l ∈ R.cs, 0 < l.planeX ∧ 0 < l.planeY)
    (hc : c = 6 * (active R.cs).length)
    {solve : Solver} (hs : solve.Sound) {ts : List (TaskReady (Fin n))}
    (hts : ts ≠ []) {τt τc : Fin n → ℝ} (h : calcTaskControlTorqueQP R solve ts = .ret 1 τt τc)
    {qdd : Fin 6 ⊕ Fin n → ℝ} {F : Fin c → ℝ} (hM : Motion A J G (R.τg + τt + τc) qdd F) :
    ContactsHold R.cs (F ∘ Fin.cast hc.symm) := by
  obtain ⟨T, rest, rfl⟩ := List.exists_cons_of_ne_nil hts
  obtain ⟨m, C, hC, -, hf⟩ := qpLoop_success R hs _ _ _ _ _ _ h
  obtain ⟨C', e, h'⟩ := stackC_holds h6 hp hc
  rw [QPRobot.C, e] at hC
  simp only [Option.some.injEq, Sigma.mk.injEq] at hC
  obtain ⟨rfl, hC⟩ := hC
  obtain rfl := eq_of_heq hC
  rw [(C01_contact_force_exact hA hS G _).2.1 _ _ hM, ← hP]
  exact (h' _).mp hf

/-- C10.  In double support (more than six contact rows), after a successful redistribution the new total torque
is within the limits and no contact tips or slips. `base` is gravity plus task torque, `τc` the contact torque
before, `τc'` after. -/
theorem C10_safe {A : Matrix (Fin 6 ⊕ Fin n) (Fin 6 ⊕ Fin n) ℝ} {J : Matrix (Fin c) (Fin 6 ⊕ Fin n) ℝ}
    {G : Fin 6 ⊕ Fin n → ℝ} (hA : IsSPD A) (R : QPRobot n c) (hS : contactSpace J A⁻¹ = some R.S)
    (hP : R.P = gravityForce R.S G)
    (h6 : ∀ l ∈ R.cs, l.type = .c6d) (hp : ∀ l ∈ R.cs, 0 < l.planeX ∧ 0 < l.planeY)
    (hc : c = 6 * (active R.cs).length) (hc6 : 6 < c)
    {solve : RSolver} (hs : solve.Sound) {base τc τc' : Fin n → ℝ}
    (h : redistribute R solve (base + τc) τc = some (1, τc')) :
    (∀ L, R.limit = some L → WithinLimit L (base + τc')) ∧
    ∀ qdd F, Motion A J G (base + τc') qdd F → ContactsHold R.cs (F ∘ Fin.cast hc.symm) := by
  obtain ⟨C, e, h'⟩ := stackC_holds h6 hp hc
  simp only [redistribute, gt_iff_lt, hc6, if_true, QPRobot.C, e] at h
  split at h
  · rename_i q hq
    simp only [Option.some.injEq, Prod.mk.injEq, true_and] at h
    subst h
    have := (redistributeQP_feasible R C _ (by omega) q).mp (hs _ _ _ hq)
    rw [add_assoc] at this
    refine ⟨this.1, fun qdd F hM => ?_⟩
    rw [(C01_contact_force_exact hA hS G _).2.1 _ _ hM, ← hP]
    exact (h' _).mp this.2
  · simp at h

/-- C10.  Redistribution never changes an acceleration. -/
theorem C10_motion_unchanged {A : Matrix (Fin 6 ⊕ Fin n) (Fin 6 ⊕ Fin n) ℝ}
    {J : Matrix (Fin c) (Fin 6 ⊕ Fin n) ℝ}
    {G : Fin 6 ⊕ Fin n → ℝ} (hA : IsSPD A) (R : QPRobot n c) (hc6 : 6 < c)
    (cod : (W : Matrix (Fin n) (Fin n) ℝ) → CodNull W) {v k : ℕ} {V2 : Matrix (Fin k) (Fin n) ℝ}
    (hR : calculateContactConstraint J A⁻¹ cod = .ret v R.S (some ⟨k, V2, R.NwJw⟩))
    {solve : RSolver} {base τc τc' : Fin n → ℝ}
    (h : redistribute R solve (base + τc) τc = some (1, τc')) {qdd qdd' F F'}
    (hM : Motion A J G (base + τc) qdd F) (hM' : Motion A J G (base + τc') qdd' F') : qdd' = qdd := by
  simp only [redistribute, gt_iff_lt, hc6, if_true] at h
  split at h
  · cases h
  · split at h
    · simp only [Option.some.injEq, Prod.mk.injEq, true_and] at h
      subst h
      rw [← add_assoc] at hM'
      exact (C04_internal_force hA hc6 cod hR G _ _ hM hM').1
    · simp at h

/-- C10.  With an exact solver, a torque that already satisfies everything is left alone. -/
theorem C10_unchanged {A : Matrix (Fin 6 ⊕ Fin n) (Fin 6 ⊕ Fin n) ℝ} {J : Matrix (Fin c) (Fin 6 ⊕ Fin n) ℝ}
    {G : Fin 6 ⊕ Fin n → ℝ} (hA : IsSPD A) (R : QPRobot n c) (hS : contactSpace J A⁻¹ = some R.S)
    (hP : R.P = gravityForce R.S G)
    (h6 : ∀ l ∈ R.cs, l.type = .c6d) (hp : ∀ l ∈ R.cs, 0 < l.planeX ∧ 0 < l.planeY)
    (hc : c = 6 * (active R.cs).length) (hc6 : 6 < c)
    {solve : RSolver} (hs : solve.Exact) {base τc τc' : Fin n → ℝ}
    (hl : ∀ L, R.limit = some L → WithinLimit L (base + τc)) {qdd F}
    (hM : Motion A J G (base + τc) qdd F) (hF : ContactsHold R.cs (F ∘ Fin.cast hc.symm))
    (h : redistribute R solve (base + τc) τc = some (1, τc')) : τc' = τc := by
  obtain ⟨C, e, h'⟩ := stackC_holds h6 hp hc
  simp only [redistribute, gt_iff_lt, hc6, if_true, QPRobot.C, e] at h
  split at h
  · rename_i q hq
    simp only [Option.some.injEq, Prod.mk.injEq, true_and] at h
    subst h
    have h0 : (redistributeQP R C (base + τc)).Feasible 0 := by
      rw [redistributeQP_feasible R C _ (by omega)]
      simp only [mulVec_zero, add_zero]
      refine ⟨hl, (h' _).mpr ?_⟩
      rw [hP, ← (C01_contact_force_exact hA hS G _).2.1 _ _ hM]
      exact hF
    have : q = 0 := solution_zero (d := redistributeQP R C (base + τc))
      (by unfold redistributeQP; rcases R.limit with _ | L <;> rfl)
      (by unfold redistributeQP; rcases R.limit with _ | L <;> rfl) h0 (hs _ _ _ hq)
    rw [this]; simp
  · simp at h

/-- C10.  With an exact and complete solver redistribution succeeds precisely when some contact torque meets the limits,
keeps every contact and leaves the accelerations as they are. -/
theorem C10_succeeds_iff {A : Matrix (Fin 6 ⊕ Fin n) (Fin 6 ⊕ Fin n) ℝ} {J : Matrix (Fin c) (Fin 6 ⊕ Fin n) ℝ}
    {G : Fin 6 ⊕ Fin n → ℝ} (hA : IsSPD A) (R : QPRobot n c) (hS : contactSpace J A⁻¹ = some R.S)
    (hP : R.P = gravityForce R.S G)
    (h6 : ∀ l ∈ R.cs, l.type = .c6d) (hp : ∀ l ∈ R.cs, 0 < l.planeX ∧ 0 < l.planeY)
    (hc : c = 6 * (active R.cs).length) (hc6 : 6 < c)
    (cod : (W : Matrix (Fin n) (Fin n) ℝ) → CodNull W) {v k : ℕ} {V2 : Matrix (Fin k) (Fin n) ℝ}
    (hR : calculateContactConstraint J A⁻¹ cod = .ret v R.S (some ⟨k, V2, R.NwJw⟩))
    {solve : RSolver} (hs : solve.Exact) (hcomp : solve.Complete) (base τc : Fin n → ℝ) :
    (∃ τc', redistribute R solve (base + τc) τc = some (1, τc')) ↔
    ∃ τc', (∀ L, R.limit = some L → WithinLimit L (base + τc')) ∧
      ∀ qdd F qdd' F', Motion A J G (base + τc) qdd F → Motion A J G (base + τc') qdd' F' →
        qdd' = qdd ∧ ContactsHold R.cs (F' ∘ Fin.cast hc.symm) := by
  constructor
  · rintro ⟨τc', h⟩
    obtain ⟨hl, hh⟩ := C10_safe hA R hS hP h6 hp hc hc6 (fun k d x hx => (hs k d x hx).1) h
    exact ⟨τc', hl, fun qdd F qdd' F' hM hM' => ⟨C10_motion_unchanged hA R hc6 cod hR h hM hM', hh _ _ hM'⟩⟩
  · rintro ⟨τ1, hl, hm⟩
    obtain ⟨C, e, h'⟩ := stackC_holds h6 hp hc
    obtain ⟨qdd, hM⟩ := (C01_contact_force_exact hA hS G (base + τc)).1
    obtain ⟨qdd', hM'⟩ := (C01_contact_force_exact hA hS G (base + τ1)).1
    obtain ⟨rfl, hh⟩ := hm _ _ _ _ hM hM'
    obtain ⟨x, hδ⟩ : ∃ x, τ1 - τc = R.NwJw *ᵥ x := ⟨_, C04_every_internal_force hA hc6 cod hR G (base + τc) (τ1 - τc) hM
      (by rw [show base + τc + (τ1 - τc) = base + τ1 by abel]; exact hM')⟩
    have e1 : base + τc + R.NwJw *ᵥ x = base + τ1 := by rw [← hδ]; abel
    have hf : (redistributeQP R C (base + τc)).Feasible x := by
      rw [redistributeQP_feasible R C _ (by omega), e1]
      refine ⟨hl, (h' _).mpr ?_⟩
      rw [hP]; exact hh
    have hsome := hcomp _ _ (exists_solution
      (d := redistributeQP R C (base + τc))
      (by unfold redistributeQP; rcases R.limit with _ | L <;> rfl)
      (by unfold redistributeQP; rcases R.limit with _ | L <;> rfl) hf)
    obtain ⟨q, hq⟩ := Option.isSome_iff_exists.mp hsome
    exact ⟨τc + R.NwJw *ᵥ q, by simp only [redistribute, gt_iff_lt, hc6, if_true, QPRobot.C, e, hq]⟩

/-- C10.  What redistribution by QP minimises: among all contact torques that meet the limits, keep every contact and leave the
accelerations as they are, it takes one that changes the first `c - 6` contact force components least (the last six components, those
of the contact registered last, do not count). -/
theorem C10_least {A : Matrix (Fin 6 ⊕ Fin n) (Fin 6 ⊕ Fin n) ℝ} {J : Matrix (Fin c) (Fin 6 ⊕ Fin n) ℝ}
    {G : Fin 6 ⊕ Fin n → ℝ} (hA : IsSPD A) (R : QPRobot n c) (hS : contactSpace J A⁻¹ = some R.S)
    (hP : R.P = gravityForce R.S G)
    (h6 : ∀ l ∈ R.cs, l.type = .c6d) (hp : ∀ l ∈ R.cs, 0 < l.planeX ∧ 0 < l.planeY)
    (hc : c = 6 * (active R.cs).length) (hc6 : 6 < c)
    (cod : (W : Matrix (Fin n) (Fin n) ℝ) → CodNull W) {v k : ℕ} {V2 : Matrix (Fin k) (Fin n) ℝ}
    (hR : calculateContactConstraint J A⁻¹ cod = .ret v R.S (some ⟨k, V2, R.NwJw⟩))
    {solve : RSolver} (hs : solve.Exact) {base τc τc' τ1 : Fin n → ℝ}
    (h : redistribute R solve (base + τc) τc = some (1, τc'))
    (hl : ∀ L, R.limit = some L → WithinLimit L (base + τ1)) {qdd qdd' : Fin 6 ⊕ Fin n → ℝ} {F F' F1 : Fin c → ℝ}
    (hM : Motion A J G (base + τc) qdd F) (hM' : Motion A J G (base + τc') qdd' F') (hM1 : Motion A J G (base + τ1) qdd F1)
    (hF : ContactsHold R.cs (F1 ∘ Fin.cast hc.symm)) :
    ∑ i : Fin (c - 6), (F' (Fin.castLE (Nat.sub_le c 6) i) - F (Fin.castLE (Nat.sub_le c 6) i)) ^ 2
      ≤ ∑ i : Fin (c - 6), (F1 (Fin.castLE (Nat.sub_le c 6) i) - F (Fin.castLE (Nat.sub_le c 6) i)) ^ 2 := by
  obtain ⟨C, e, h'⟩ := stackC_holds h6 hp hc
  simp only [redistribute, gt_iff_lt, hc6, if_true, QPRobot.C, e] at h
  split at h
  · rename_i q hq
    simp only [Option.some.injEq, Prod.mk.injEq, true_and] at h
    subst h
    have hδ := C04_every_internal_force hA hc6 cod hR G (base + τc) (τ1 - τc) hM
      (by rw [show base + τc + (τ1 - τc) = base + τ1 by abel]; exact hM1)
    rw [← add_assoc] at hM'
    have hq' := (C04_internal_force hA hc6 cod hR G _ _ hM hM').2
    have hf : (redistributeQP R C (base + τc)).Feasible
        (fun i => F1 (Fin.castLE (Nat.sub_le c 6) i) - F (Fin.castLE (Nat.sub_le c 6) i)) := by
      rw [redistributeQP_feasible R C _ (by omega), ← hδ, show base + τc + (τ1 - τc) = base + τ1 by abel]
      refine ⟨hl, (h' _).mpr ?_⟩
      rw [hP, ← (C01_contact_force_exact hA hS G _).2.1 _ _ hM1]
      exact hF
    have hopt := (hs _ _ _ hq).2 _ hf
    have hH : (redistributeQP R C (base + τc)).H = 1 := by unfold redistributeQP; rcases R.limit with _ | L <;> rfl
    have hg : (redistributeQP R C (base + τc)).g = 0 := by unfold redistributeQP; rcases R.limit with _ | L <;> rfl
    simp only [QP.cost, hH, hg, one_mulVec, zero_dotProduct, add_zero] at hopt
    have hs2 : ∀ x : Fin (c - 6) → ℝ, ∑ i, x i ^ 2 = x ⬝ᵥ x := fun x => Finset.sum_congr rfl fun i _ => sq _
    rw [hs2 fun i => F1 (Fin.castLE (Nat.sub_le c 6) i) - F (Fin.castLE (Nat.sub_le c 6) i)]
    have : ∑ i : Fin (c - 6), (F' (Fin.castLE (Nat.sub_le c 6) i) - F (Fin.castLE (Nat.sub_le c 6) i)) ^ 2 = q ⬝ᵥ q := by
      rw [← hs2]
      refine Finset.sum_congr rfl fun i _ => ?_
      rw [hq' i]; ring
    rw [this]
    linarith
  · simp at h

/-- C10.  A redistribution that reports failure leaves no contact torque, whatever contact torque was there before. -/
theorem C10_failure_clears (R : QPRobot n c) (solve : RSolver) {τin τc τc' : Fin n → ℝ}
    (h : redistribute R solve τin τc = some (0, τc')) : τc' = 0 := by
  unfold redistribute at h
  split_ifs at h
  · split at h
    · cases h
    · split at h
      · simp at h
      · simp only [Option.some.injEq, Prod.mk.injEq, true_and] at h
        exact h.symm
  · simp at h

/-- C10 (negation).  In single support redistribution reports success without looking at the torque: whatever the
limits, there is an input torque beyond them that is accepted. -/
theorem C10_single_support_unchecked (R : QPRobot n c) (hc : c ≤ 6) (hn : 0 < n) {L : Fin n → ℝ}
    (hL : R.limit = some L) (solve : RSolver) :
    ∃ base τc', redistribute R solve (base + 0) 0 = some (1, τc') ∧ ¬ WithinLimit L (base + τc') := by
  refine ⟨fun j => |L j| + 1, 0, by simp [redistribute, Nat.not_lt.mpr hc], fun h => ?_⟩
  have := h ⟨0, hn⟩
  simp only [add_zero] at this
  have h2 := le_abs_self (L ⟨0, hn⟩)
  rw [abs_of_nonneg (by positivity)] at this
  linarith

/-- C47 (negation).  With at most six contact rows QP task control never succeeds: after the first QP is solved
it multiplies matrices of different sizes. -/
theorem C47_single_support_undefined (R : QPRobot n c) (hc : c ≤ 6) (hn : n ≠ 0) (solve : Solver)
    {ts : List (TaskReady (Fin n))} (hts : ts ≠ []) :
    (∀ τt τc, calcTaskControlTorqueQP R solve ts ≠ .ret 1 τt τc) ∧
    (∀ T rest C, ts = T :: rest → R.C = some C →
      (solve 0 T.t (c - 6) (taskQP R C.2 T 1 (R.τg + 0))).isSome → calcTaskControlTorqueQP R solve ts = .undefined) := by
  obtain ⟨T, rest, rfl⟩ := List.exists_cons_of_ne_nil hts
  constructor
  · intro τt τc h
    unfold calcTaskControlTorqueQP at h
    rw [qpLoop] at h
    split at h
    · cases h
    · split at h
      · simp at h
      · simp [hc, hn] at h
  · rintro T' rest' ⟨m, C⟩ h hC hsol
    obtain ⟨rfl, rfl⟩ := List.cons.inj h
    unfold calcTaskControlTorqueQP
    rw [qpLoop, hC]
    obtain ⟨x, hx⟩ := Option.isSome_iff_exists.mp hsol
    simp only at hx ⊢
    rw [hx]
    simp [hc, hn]

/-- C47 (partial).  With more than six contact rows from 6-D contacts every call is well-defined: it returns 0 or
1. -/
theorem C47_defined_partial (R : QPRobot n c) (hc6 : 6 < c) (h6 : ∀ l ∈ R.cs, l.type = .c6d)
    (hp : ∀ l ∈ R.cs, 0 < l.planeX ∧ 0 < l.planeY) (hc : c = 6 * (active R.cs).length) (solve : Solver)
    (ts : List (TaskReady (Fin n))) :
    ∃ v τt τc, calcTaskControlTorqueQP R solve ts = .ret v τt τc ∧ (v = 0 ∨ v = 1) := by
  obtain ⟨C, e, -⟩ := stackC_holds h6 hp hc
  have key : ∀ ts i N τt τc, ∃ v τt' τc', qpLoop R solve i N τt τc ts = .ret v τt' τc' ∧ (v = 0 ∨ v = 1) := by
    intro ts
    induction ts with
    | nil => intro i N τt τc; exact ⟨1, τt, τc, rfl, Or.inr rfl⟩
    | cons T rest ih =>
      intro i N τt τc
      rw [qpLoop, QPRobot.C, e]
      simp only
      cases solve i T.t (c - 6) (taskQP R C T N (R.τg + τt)) with
      | none => exact ⟨0, τt, τc, rfl, Or.inl rfl⟩
      | some x =>
        simp only [Nat.not_le.mpr hc6, false_and, if_false]
        exact ih _ _ _ _
  exact key ts 0 1 0 0

/-! ### A standing two-legged robot, used for satisfiability and for the negation of C11 -/

namespace Stand

/-- both feet press with unit force -/
def F : Fin 12 → ℝ := fun i => if i.val % 6 = 2 then -1 else 0

/-- the contact space of the example biped -/
theorem exists_S : ∃ S, contactSpace Ex.J Ex.A⁻¹ = some S :=
  Option.isSome_iff_exists.mp ((C02_finite_iff_independent Ex.hA).mpr Ex.J_ind)

/-- generalised gravity force for which `τ` balances the standing robot -/
def G (τ : Fin 6 → ℝ) : Fin 6 ⊕ Fin 6 → ℝ := actuate τ - Ex.Jᵀ *ᵥ F

theorem motion (τ : Fin 6 → ℝ) : Motion Ex.A Ex.J (G τ) τ 0 F := by
  constructor
  · unfold Dynamics G; simp
  · unfold ContactsFixed; simp

/-- both feet of the example are 6-D contacts on a flat floor -/
noncomputable def cs : List ContactLink := [exContact true, exContact true]

theorem cs_active : active cs = cs := by simp [active, cs, exContact]

theorem six : ∀ l ∈ cs, l.type = .c6d := by simp [cs, exContact]

theorem plane : ∀ l ∈ cs, 0 < l.planeX ∧ 0 < l.planeY := by simp [cs, exContact]

theorem dof : 12 = 6 * (active cs).length := by simp [active, cs, exContact]

theorem inFrame_one (w : Fin 6 → ℝ) : inFrame 1 w = w := by
  unfold inFrame
  simp only [transpose_one, one_mulVec]
  ext j
  fin_cases j <;> rfl

theorem hold_of {F : Fin 12 → ℝ}
    (h : ∀ i : Fin 2, F ⟨6 * i + 3, by omega⟩ = 0 ∧ F ⟨6 * i + 4, by omega⟩ = 0 ∧ F ⟨6 * i + 5, by omega⟩ = 0 ∧
      F ⟨6 * i + 2, by omega⟩ = -1 ∧ |F ⟨6 * i + 0, by omega⟩| ≤ 2 / 10 ∧ |F ⟨6 * i + 1, by omega⟩| ≤ 2 / 10) :
    ContactsHold cs (F ∘ Fin.cast dof.symm) := by
  intro i
  have hi : i.val < 2 := by have := i.isLt; have := dof; omega
  have hl : ∀ l ∈ active cs, l = exContact true := by
    rw [cs_active]; simp [cs]
  have hi' := hl _ (List.getElem_mem i.isLt)
  simp only [Fin.getElem_fin, hi']
  rw [show (exContact true).rotm = 1 from rfl, inFrame_one]
  obtain ⟨h3, h4, h5, h2, h0, h1⟩ := h ⟨i, hi⟩
  generalize hw : wrenchOf (F ∘ Fin.cast dof.symm) i = w
  have w3 : w 3 = 0 := by rw [← hw]; exact h3
  have w4 : w 4 = 0 := by rw [← hw]; exact h4
  have w5 : w 5 = 0 := by rw [← hw]; exact h5
  have w2 : w 2 = -1 := by rw [← hw]; exact h2
  have w0 : |w 0| ≤ 2 / 10 := by rw [← hw]; exact h0
  have w1 : |w 1| ≤ 2 / 10 := by rw [← hw]; exact h1
  have hx : (exContact true).planeX = 15 / 100 := rfl
  have hy : (exContact true).planeY = 75 / 1000 := rfl
  have hf : (exContact true).friction = 2 / 10 := rfl
  have hz : (exContact true).frictionZ = 2 / 10 := rfl
  rw [hx, hy, hf, hz]
  constructor
  · rw [noTip_iff (by norm_num) (by norm_num)]
    simp only [press, w2, w3, w4]
    norm_num
  · simp only [NoSlip, press, w2, w5]
    norm_num at w0 w1 ⊢
    exact ⟨w0, w1⟩

theorem hold : ContactsHold cs (F ∘ Fin.cast dof.symm) := by
  apply hold_of
  intro i
  fin_cases i <;> simp [F] <;> norm_num

/-- a solver that answers zero whenever zero is a solution, and otherwise any exact solution -/
noncomputable def solver : Solver := by
  classical
  exact fun _ _ _ d => if d.IsSolution 0 then some 0 else
    if h : ∃ x, d.IsSolution x then some h.choose else none

theorem solver_exact : solver.Exact := by
  intro i t k d x h
  unfold solver at h
  split_ifs at h with h0 h1
  · cases h; exact h0
  · cases h; exact h1.choose_spec

theorem solver_sound : solver.Sound := fun i t k d x h => (solver_exact i t k d x h).1

theorem solver_complete : solver.Complete := by
  intro i t k d h
  unfold solver
  split_ifs <;> rfl

/-- likewise for redistribution -/
noncomputable def rsolver : RSolver := by
  classical
  exact fun _ d => if d.IsSolution 0 then some 0 else
    if h : ∃ x, d.IsSolution x then some h.choose else none

theorem rsolver_exact : rsolver.Exact := by
  intro k d x h
  unfold rsolver at h
  split_ifs at h with h0 h1
  · cases h; exact h0
  · cases h; exact h1.choose_spec

theorem rsolver_complete : rsolver.Complete := by
  intro k d h
  unfold rsolver
  split_ifs <;> rfl

/-- the standing robot with holding torque `τ` and torque limit `L` -/
noncomputable def robot (S : ContactSpace 12 (Fin 6)) (NwJw : Matrix (Fin 6) (Fin 6) ℝ) (τ L : Fin 6 → ℝ) :
    QPRobot 6 12 :=
  { S := S, NwJw := NwJw, P := gravityForce S (G τ), τg := τ, limit := some L, cs := cs }

/-- QP control with one task that asks for no acceleration succeeds and adds no torque -/
theorem runs {S} (hS : contactSpace Ex.J Ex.A⁻¹ = some S) (NwJw : Matrix (Fin 6) (Fin 6) ℝ) {τ L : Fin 6 → ℝ}
    (hL : WithinLimit L τ) (T : TaskReady (Fin 6)) (hf : T.f = 0) :
    calcTaskControlTorqueQP (robot S NwJw τ L) solver [T] = .ret 1 0 0 := by
  obtain ⟨C, e, h'⟩ := stackC_holds six plane dof
  have hF := (C01_contact_force_exact Ex.hA hS (G τ) τ).2.1 _ _ (motion τ)
  have h0 : (taskQP (robot S NwJw τ L) C T 1 (τ + 0)).Feasible 0 := by
    rw [taskQP_feasible, hf]
    simp only [Pi.zero_apply]
    rw [show (fun _ : Fin T.t => (0 : ℝ)) = 0 from rfl, show (fun _ : Fin (12 - 6) => (0 : ℝ)) = 0 from rfl]
    simp only [add_zero, mulVec_zero]
    refine ⟨?_, (h' _).mpr ?_⟩
    · intro L' hL'
      have : L = L' := Option.some.inj hL'
      subst this
      exact hL
    · change ContactsHold cs (contactForce S (gravityForce S (G τ)) τ ∘ _)
      rw [← hF]; exact hold
  unfold calcTaskControlTorqueQP
  rw [qpLoop, show (robot S NwJw τ L).C = stackC cs 12 from rfl, e]
  have : solver 0 T.t (12 - 6) (taskQP (robot S NwJw τ L) C T 1 ((robot S NwJw τ L).τg + 0)) = some 0 := by
    unfold solver
    exact if_pos (taskQP_solution_zero _ _ _ _ _ h0)
  simp only [this]
  rw [if_neg (by norm_num), qpLoop, hf]
  have z1 : (fun _ : Fin T.t => (0 : ℝ)) = 0 := rfl
  have z2 : (fun _ : Fin (12 - 6) => (0 : ℝ)) = 0 := rfl
  simp only [Pi.zero_apply, z1, z2, add_zero, mulVec_zero]

/-- holding torque used in the examples -/
noncomputable def τ₀ : Fin 6 → ℝ := ![6 / 10, 0, -1, 0, 0, 0]

end Stand

/-- the hypotheses of C08 and C09 are met -/
example (T : TaskReady (Fin 6)) (hf : T.f = 0) : ∃ S, contactSpace Ex.J Ex.A⁻¹ = some S ∧
    Stand.solver.Sound ∧ WithinLimit 1 Stand.τ₀ ∧
    calcTaskControlTorqueQP (Stand.robot S 0 Stand.τ₀ 1) Stand.solver [T] = .ret 1 0 0 := by
  obtain ⟨S, hS⟩ := Stand.exists_S
  have hl : WithinLimit 1 Stand.τ₀ := by
    intro j
    fin_cases j <;> simp [Stand.τ₀, abs_le] <;> norm_num
  exact ⟨S, hS, Stand.solver_sound, hl, Stand.runs hS 0 hl T hf⟩

/-- C11 (partial).  A successful reduced redistribution enforces the lower torque limit and keeps every contact. -/
theorem C11_lower_partial {A : Matrix (Fin 6 ⊕ Fin n) (Fin 6 ⊕ Fin n) ℝ} {J : Matrix (Fin c) (Fin 6 ⊕ Fin n) ℝ}
    {G : Fin 6 ⊕ Fin n → ℝ} (hA : IsSPD A) (R : QPRobot n c) (hS : contactSpace J A⁻¹ = some R.S)
    (hP : R.P = gravityForce R.S G)
    (h6 : ∀ l ∈ R.cs, l.type = .c6d) (hp : ∀ l ∈ R.cs, 0 < l.planeX ∧ 0 < l.planeY)
    (hc : c = 6 * (active R.cs).length) (hc6 : 6 < c) (Wt : Matrix (Fin c) (Fin c) ℝ)
    {solve : RSolver} (hs : solve.Sound) {τin τc : Fin n → ℝ}
    (h : redistributeR R Wt solve τin = some (1, τc)) :
    (∀ L, R.limit = some L → ∀ j, -L j ≤ (τin + τc) j) ∧
    ∀ qdd F, Motion A J G (τin + τc) qdd F → ContactsHold R.cs (F ∘ Fin.cast hc.symm) := by
  obtain ⟨C, e, h'⟩ := stackC_holds h6 hp hc
  simp only [redistributeR, gt_iff_lt, hc6, if_true, QPRobot.C, e] at h
  split at h
  · rename_i q hq
    simp only [Option.some.injEq, Prod.mk.injEq, true_and] at h
    subst h
    have := (redistributeRQP_feasible R C Wt _ q).mp (hs _ _ _ hq)
    refine ⟨this.1, fun qdd F hM => ?_⟩
    rw [(C01_contact_force_exact hA hS G _).2.1 _ _ hM, ← hP]
    exact (h' _).mp this.2
  · simp at h

/-- place `6 i + j` -/
def wrenchPlace {k : ℕ} : Fin k × Fin 6 ≃ Fin (6 * k) := finProdFinEquiv.trans (finCongr (Nat.mul_comm k 6))

theorem wrenchPlace_val {k : ℕ} (i : Fin k) (j : Fin 6) : (wrenchPlace (i, j)).val = 6 * i + j := by
  simp [wrenchPlace, finProdFinEquiv]; omega

/-- C11, C59 (the weight).  The weighted contact force consists of the friction forces and the moments of every contact in its own
frame; the normal forces are left out. -/
theorem C11_weight {k : ℕ} (rot : Fin k → Matrix (Fin 3) (Fin 3) ℝ) (F : Fin (6 * k) → ℝ) :
    (∀ (i : Fin k) (j : Fin 6), (forceWeight k rot *ᵥ F) (wrenchPlace (i, j)) =
      if j = 2 then 0 else inFrame (rot i) (wrenchOf F i) j) ∧
    (forceWeight k rot *ᵥ F) ⬝ᵥ (forceWeight k rot *ᵥ F) =
      ∑ i, ∑ j ∈ ({0, 1, 3, 4, 5} : Finset (Fin 6)), inFrame (rot i) (wrenchOf F i) j ^ 2 := by
  have key : ∀ (i : Fin k) (j : Fin 6), (forceWeight k rot *ᵥ F) (wrenchPlace (i, j)) =
      if j = 2 then 0 else inFrame (rot i) (wrenchOf F i) j := by
    intro i j
    rw [mulVec, dotProduct, ← Equiv.sum_comp wrenchPlace, Fintype.sum_prod_type, Finset.sum_eq_single i]
    · have hF : ∀ l : Fin 6, F (wrenchPlace (i, l)) = wrenchOf F i l := by
        intro l
        unfold wrenchOf
        congr 1
        exact Fin.ext (wrenchPlace_val i l)
      simp only [forceWeight, of_apply, wrenchPlace_val, hF]
      generalize wrenchOf F i = w
      have hi : ∀ h : (6 * i.val + j.val) / 6 < k, (⟨(6 * i.val + j.val) / 6, h⟩ : Fin k) = i :=
        fun h => Fin.ext (by simp only; omega)
      simp only [hi]
      fin_cases j <;>
        simp [Fin.sum_univ_succ, inFrame, mulVec, dotProduct, show ∀ n : ℕ, (6 * n + 1) / 3 = 2 * n by omega,
          show ∀ n : ℕ, (6 * n + 2) / 3 = 2 * n by omega, show ∀ n : ℕ, (6 * n) / 3 = 2 * n by omega,
          show ∀ n : ℕ, (6 * n + 3) / 3 = 2 * n + 1 by omega, show ∀ n : ℕ, (6 * n + 4) / 3 = 2 * n + 1 by omega,
          show ∀ n : ℕ, (6 * n + 5) / 3 = 2 * n + 1 by omega, show ∀ n : ℕ, (6 * n + 1) % 3 = 1 by omega,
          show ∀ n : ℕ, (6 * n + 2) % 3 = 2 by omega, show ∀ n : ℕ, (6 * n) % 3 = 0 by omega,
          show ∀ n : ℕ, (6 * n + 3) % 3 = 0 by omega, show ∀ n : ℕ, (6 * n + 4) % 3 = 1 by omega,
          show ∀ n : ℕ, (6 * n + 5) % 3 = 2 by omega, show ∀ n : ℕ, (6 * n + 1) % 6 = 1 by omega,
          show ∀ n : ℕ, (6 * n + 2) % 6 = 2 by omega, show ∀ n : ℕ, (6 * n) % 6 = 0 by omega,
          show ∀ n : ℕ, (6 * n + 3) % 6 = 3 by omega, show ∀ n : ℕ, (6 * n + 4) % 6 = 4 by omega,
          show ∀ n : ℕ, (6 * n + 5) % 6 = 5 by omega] <;> ring_nf
    · intro b _ hb
      refine Finset.sum_eq_zero fun l _ => ?_
      simp only [forceWeight, of_apply, wrenchPlace_val]
      rw [if_neg (fun h => hb (Fin.ext (by omega))), zero_mul]
    · simp
  refine ⟨key, ?_⟩
  rw [dotProduct, ← Equiv.sum_comp wrenchPlace, Fintype.sum_prod_type]
  refine Finset.sum_congr rfl fun i _ => ?_
  simp only [key]
  simp [Fin.sum_univ_succ]
  ring

/-- C11 (partial).  With an exact and complete solver reduced redistribution succeeds precisely when some contact torque respects the
lower limit, keeps every contact and leaves the accelerations as they are; and among these torques the one found gives the least weighted
contact force (friction forces and moments for the weight the code uses, see `C11_weight`). -/
theorem C11_succeeds_iff_partial {A : Matrix (Fin 6 ⊕ Fin n) (Fin 6 ⊕ Fin n) ℝ} {J : Matrix (Fin c) (Fin 6 ⊕ Fin n) ℝ}
    {G : Fin 6 ⊕ Fin n → ℝ} (hA : IsSPD A) (R : QPRobot n c) (hS : contactSpace J A⁻¹ = some R.S)
    (hP : R.P = gravityForce R.S G)
    (h6 : ∀ l ∈ R.cs, l.type = .c6d) (hp : ∀ l ∈ R.cs, 0 < l.planeX ∧ 0 < l.planeY)
    (hc : c = 6 * (active R.cs).length) (hc6 : 6 < c) (Wt : Matrix (Fin c) (Fin c) ℝ)
    (cod : (W : Matrix (Fin n) (Fin n) ℝ) → CodNull W) {v k : ℕ} {V2 : Matrix (Fin k) (Fin n) ℝ}
    (hR : calculateContactConstraint J A⁻¹ cod = .ret v R.S (some ⟨k, V2, R.NwJw⟩))
    {solve : RSolver} (hs : solve.Exact) (hcomp : solve.Complete) (τin : Fin n → ℝ) :
    let Good : (Fin n → ℝ) → Prop := fun τ => (∀ L, R.limit = some L → ∀ j, -L j ≤ (τin + τ) j) ∧
      ∀ qdd F qdd' F', Motion A J G τin qdd F → Motion A J G (τin + τ) qdd' F' →
        qdd' = qdd ∧ ContactsHold R.cs (F' ∘ Fin.cast hc.symm)
    ((∃ τc, redistributeR R Wt solve τin = some (1, τc)) ↔ ∃ τ, Good τ) ∧
    ∀ τc, redistributeR R Wt solve τin = some (1, τc) → Good τc ∧
      ∀ τ, Good τ → ∀ qdd F qdd' F', Motion A J G (τin + τc) qdd F → Motion A J G (τin + τ) qdd' F' →
        (Wt *ᵥ F) ⬝ᵥ (Wt *ᵥ F) ≤ (Wt *ᵥ F') ⬝ᵥ (Wt *ᵥ F') := by
  intro Good
  obtain ⟨C, e, h'⟩ := stackC_holds h6 hp hc
  have hforce : ∀ τ qdd F, Motion A J G τ qdd F → F = contactForce R.S R.P τ := by
    intro τ qdd F hM
    rw [(C01_contact_force_exact hA hS G _).2.1 _ _ hM, ← hP]
  have hgood : ∀ τ, Good τ ↔ ∃ x, τ = R.NwJw *ᵥ x ∧ (redistributeRQP R C Wt τin).Feasible x := by
    intro τ
    constructor
    · rintro ⟨hl, hm⟩
      obtain ⟨qdd, hM⟩ := (C01_contact_force_exact hA hS G τin).1
      obtain ⟨qdd', hM'⟩ := (C01_contact_force_exact hA hS G (τin + τ)).1
      obtain ⟨rfl, hh⟩ := hm _ _ _ _ hM hM'
      have hδ := C04_every_internal_force hA hc6 cod hR G τin τ hM hM'
      refine ⟨_, hδ, (redistributeRQP_feasible R C Wt _ _).mpr ?_⟩
      rw [← hδ]
      refine ⟨hl, (h' _).mpr ?_⟩
      rw [← hforce _ _ _ hM']; exact hh
    · rintro ⟨x, rfl, hx⟩
      have hx := (redistributeRQP_feasible R C Wt _ x).mp hx
      refine ⟨hx.1, fun qdd F qdd' F' hM hM' => ⟨?_, ?_⟩⟩
      · exact (C04_internal_force hA hc6 cod hR G τin x hM hM').1
      · rw [hforce _ _ _ hM']; exact (h' _).mp hx.2
  have hval : ∀ τc, redistributeR R Wt solve τin = some (1, τc) →
      ∃ q, solve (c - 6) (redistributeRQP R C Wt τin) = some q ∧ τc = R.NwJw *ᵥ q := by
    intro τc h
    simp only [redistributeR, gt_iff_lt, hc6, if_true, QPRobot.C, e] at h
    split at h
    · rename_i q hq
      simp only [Option.some.injEq, Prod.mk.injEq, true_and] at h
      exact ⟨q, hq, h.symm⟩
    · simp at h
  refine ⟨⟨?_, ?_⟩, ?_⟩
  · rintro ⟨τc, h⟩
    obtain ⟨q, hq, rfl⟩ := hval τc h
    exact ⟨_, (hgood _).mpr ⟨q, rfl, (hs _ _ _ hq).1⟩⟩
  · rintro ⟨τ, h⟩
    obtain ⟨x, rfl, hx⟩ := (hgood τ).mp h
    obtain ⟨q, hq⟩ := Option.isSome_iff_exists.mp (hcomp _ _ (redistributeRQP_exists R C Wt τin hx))
    exact ⟨R.NwJw *ᵥ q, by simp only [redistributeR, gt_iff_lt, hc6, if_true, QPRobot.C, e, hq]⟩
  · intro τc h
    obtain ⟨q, hq, rfl⟩ := hval τc h
    have hsol := hs _ _ _ hq
    refine ⟨(hgood _).mpr ⟨q, rfl, hsol.1⟩, fun τ hτ qdd F qdd' F' hM hM' => ?_⟩
    obtain ⟨x, rfl, hx⟩ := (hgood τ).mp hτ
    have := hsol.2 x hx
    rw [redistributeRQP_cost, redistributeRQP_cost, ← hforce _ _ _ hM, ← hforce _ _ _ hM'] at this
    linarith

namespace Stand

/-- torque limit `0.5` on the first joint, `2` elsewhere -/
noncomputable def L₀ : Fin 6 → ℝ := fun j => if j = 0 then 1 / 2 else 2

/-- a motion after internal-force torque, spelled out on the example robot -/
theorem internal {S} (cod : (W : Matrix (Fin 6) (Fin 6) ℝ) → CodNull W) {v k : ℕ} {V2 : Matrix (Fin k) (Fin 6) ℝ}
    {NwJw : Matrix (Fin 6) (Fin 6) ℝ}
    (hR : calculateContactConstraint Ex.J Ex.A⁻¹ cod = .ret v S (some ⟨k, V2, NwJw⟩))
    (hS : contactSpace Ex.J Ex.A⁻¹ = some S) (τ q : Fin 6 → ℝ) :
    (∀ i : Fin 6, contactForce S (gravityForce S (G τ)) (τ + NwJw *ᵥ q) ⟨i, by omega⟩ = F ⟨i, by omega⟩ + q i) ∧
    (∀ i : Fin 6, contactForce S (gravityForce S (G τ)) (τ + NwJw *ᵥ q) ⟨6 + i, by omega⟩ = F ⟨6 + i, by omega⟩ - q i) ∧
    ∀ i : Fin 6, (τ + NwJw *ᵥ q) i = τ i - q i := by
  obtain ⟨qdd, hM⟩ := (C01_contact_force_exact Ex.hA hS (G τ) (τ + NwJw *ᵥ q)).1
  obtain ⟨h1, h2⟩ := C04_internal_force Ex.hA (by norm_num) cod hR (G τ) τ q (motion τ) hM
  subst h1
  generalize contactForce S (gravityForce S (G τ)) (τ + NwJw *ᵥ q) = F' at hM h2
  have hd := hM.1
  unfold Dynamics G at hd
  have e : Ex.Jᵀ *ᵥ (F' - F) = actuate (NwJw *ᵥ q) := by
    have ha : actuate (τ + NwJw *ᵥ q) = actuate τ + actuate (NwJw *ᵥ q) := by
      ext s; rcases s with s | s <;> simp [actuate]
    rw [mulVec_sub]
    rw [mulVec_zero, zero_add, ha] at hd
    linear_combination (exp := 1) hd
  have hb : ∀ i : Fin 6, (F' - F) ⟨i, by omega⟩ + (F' - F) ⟨6 + i, by omega⟩ = 0 := by
    intro i
    have := congrFun e (Sum.inl i)
    rw [show actuate (NwJw *ᵥ q) (Sum.inl i) = 0 from rfl] at this
    rw [← this]
    simp only [mulVec, dotProduct, Ex.J, transpose_apply, of_apply]
    rw [Fin.sum_univ_succ, Fin.sum_univ_succ, Fin.sum_univ_succ, Fin.sum_univ_succ, Fin.sum_univ_succ,
      Fin.sum_univ_succ, Fin.sum_univ_six]
    fin_cases i <;> simp <;> rfl
  have hj : ∀ i : Fin 6, (F' - F) ⟨6 + i, by omega⟩ = (NwJw *ᵥ q) i := by
    intro i
    have := congrFun e (Sum.inr i)
    rw [show actuate (NwJw *ᵥ q) (Sum.inr i) = (NwJw *ᵥ q) i from rfl] at this
    rw [← this]
    simp only [mulVec, dotProduct, Ex.J, transpose_apply, of_apply]
    rw [Finset.sum_eq_single (⟨6 + i, by omega⟩ : Fin 12)]
    · simp [add_comm]
    · intro b _ hb
      rw [if_neg, zero_mul]
      intro hh; apply hb; ext; simp; omega
    · simp
  have h2' : ∀ i : Fin 6, F' ⟨i, by omega⟩ = F ⟨i, by omega⟩ + q i := h2
  refine ⟨h2', fun i => ?_, fun i => ?_⟩
  · have := hb i
    simp only [Pi.sub_apply] at this
    linarith [h2' i]
  · have a := hb i
    have b := hj i
    simp only [Pi.sub_apply] at a b
    rw [Pi.add_apply, ← b]
    linarith [h2' i]

/-- the weight of the example (flat feet) -/
def Wt : Matrix (Fin 12) (Fin 12) ℝ := forceWeight 2 (fun _ => 1)

theorem Wt_F : Wt *ᵥ F = 0 := by
  ext r
  simp only [mulVec, dotProduct, Pi.zero_apply]
  apply Finset.sum_eq_zero
  intro s _
  simp only [Wt, forceWeight, of_apply, F, transpose_one]
  by_cases h : s.val % 6 = 2
  · rw [if_pos h]
    split_ifs with h2
    · rw [Matrix.one_apply, if_neg]
      · simp
      · intro h3
        have := congrArg Fin.val h3
        simp only at this
        have h4 : r.val / 3 = s.val / 3 := h2.1
        have h5 : r.val % 6 ≠ 2 := h2.2
        omega
    · simp
  · rw [if_neg h, mul_zero]

theorem Wt_zero (v : Fin 12 → ℝ) : (Wt *ᵥ v) 0 = v 0 := by
  simp only [mulVec, dotProduct]
  rw [Finset.sum_eq_single 0]
  · simp [Wt, forceWeight]
  · intro b _ hb
    rw [mul_eq_zero]; left
    simp only [Wt, forceWeight, of_apply, transpose_one]
    split_ifs with h
    · rw [Matrix.one_apply, if_neg]
      intro h3
      have := congrArg Fin.val h3
      have h4 : (0 : ℕ) / 3 = b.val / 3 := h.1
      have h5 : (0 : ℕ) % 3 = b.val % 3 := this
      apply hb; ext; simp; omega
    · rfl
  · simp

end Stand

/-- C11 (negation).  On the standing robot a torque that meets every limit and keeps both contacts can be reached by
redistribution, yet every exact solver makes the reduced redistribution report success with a torque above the
upper limit of the first joint; and such a success does happen. -/
theorem C11_upper_limit_violated (cod : (W : Matrix (Fin 6) (Fin 6) ℝ) → CodNull W) :
    ∃ S k V2 NwJw, calculateContactConstraint Ex.J Ex.A⁻¹ cod = .ret 1 S (some ⟨k, V2, NwJw⟩) ∧
      (∃ q, WithinLimit Stand.L₀ (Stand.τ₀ + NwJw *ᵥ q) ∧
        ContactsHold Stand.cs
          (contactForce S (gravityForce S (Stand.G Stand.τ₀)) (Stand.τ₀ + NwJw *ᵥ q) ∘ Fin.cast Stand.dof.symm)) ∧
      (∃ τc, redistributeR (Stand.robot S NwJw Stand.τ₀ Stand.L₀) Stand.Wt Stand.rsolver Stand.τ₀ = some (1, τc)) ∧
      ∀ solve : RSolver, solve.Exact → ∀ τc,
        redistributeR (Stand.robot S NwJw Stand.τ₀ Stand.L₀) Stand.Wt solve Stand.τ₀ = some (1, τc) →
        Stand.L₀ 0 < (Stand.τ₀ + τc) 0 := by
  obtain ⟨S, ⟨k, V2, NwJw⟩, hR⟩ := (C05_outcome Ex.hA Ex.J_ind (by norm_num) cod).1.mpr
    ⟨Ex.J_base, by
      have : lastSixBase (by norm_num) Ex.J = 1 := by
        ext i j; fin_cases i <;> fin_cases j <;> simp [lastSixBase, Ex.J]
      rw [this]; simp⟩
  have hS : contactSpace Ex.J Ex.A⁻¹ = some S := by
    obtain ⟨S', hS'⟩ := Stand.exists_S
    have := hR
    unfold calculateContactConstraint at this
    rw [hS'] at this
    simp only [gt_iff_lt] at this
    rw [if_pos (by norm_num)] at this
    split_ifs at this
    split at this
    · cases this
    · simp only [ContactResult.ret.injEq] at this
      rw [hS', this.2.1]
  have hint := Stand.internal cod hR hS Stand.τ₀
  have hF := (C01_contact_force_exact Ex.hA hS (Stand.G Stand.τ₀) Stand.τ₀).2.1 _ _ (Stand.motion Stand.τ₀)
  obtain ⟨C, e, h'⟩ := stackC_holds Stand.six Stand.plane Stand.dof
  set R := Stand.robot S NwJw Stand.τ₀ Stand.L₀ with hRdef
  have hH : (redistributeRQP R C Stand.Wt Stand.τ₀).H =
      (Stand.Wt * rightCols S * NwJw)ᵀ * (Stand.Wt * rightCols S * NwJw) := rfl
  have hg : (redistributeRQP R C Stand.Wt Stand.τ₀).g = 0 := by
    change (Stand.Wt *ᵥ contactForce S (gravityForce S (Stand.G Stand.τ₀)) Stand.τ₀) ᵥ* _ = 0
    rw [← hF, Stand.Wt_F, zero_vecMul]
  have hcost : ∀ q, (redistributeRQP R C Stand.Wt Stand.τ₀).cost q =
      (1 / 2) * (((Stand.Wt * rightCols S * NwJw) *ᵥ q) ⬝ᵥ ((Stand.Wt * rightCols S * NwJw) *ᵥ q)) := by
    intro q
    rw [QP.cost, hH, hg, zero_dotProduct, add_zero, ← mulVec_mulVec, dotProduct_mulVec, vecMul_transpose]
  have h0 : (redistributeRQP R C Stand.Wt Stand.τ₀).Feasible 0 := by
    rw [redistributeRQP_feasible, mulVec_zero, add_zero]
    refine ⟨?_, (h' _).mpr ?_⟩
    · intro L hL
      have : Stand.L₀ = L := Option.some.inj hL
      subst this
      intro j
      fin_cases j <;> simp [Stand.L₀, Stand.τ₀] <;> norm_num
    · change ContactsHold Stand.cs (contactForce S (gravityForce S (Stand.G Stand.τ₀)) Stand.τ₀ ∘ _)
      rw [← hF]; exact Stand.hold
  have hval : ∀ solve : RSolver, redistributeR R Stand.Wt solve Stand.τ₀ =
      match solve (12 - 6) (redistributeRQP R C Stand.Wt Stand.τ₀) with
      | some q => some (1, NwJw *ᵥ q)
      | none => some (0, 0) := by
    intro solve
    unfold redistributeR
    rw [if_pos (by norm_num), show R.C = stackC Stand.cs 12 from rfl, e]
    simp only
    cases solve (12 - 6) (redistributeRQP R C Stand.Wt Stand.τ₀) <;> rfl
  refine ⟨S, k, V2, NwJw, hR, ⟨fun i => if i = 0 then 1 / 10 else 0, ?_, ?_⟩, ?_, ?_⟩
  · intro j
    rw [(hint _).2.2 j]
    fin_cases j <;> simp [Stand.L₀, Stand.τ₀, abs_le] <;> norm_num
  · apply Stand.hold_of
    intro i
    have a := (hint (fun i => if i = 0 then 1 / 10 else 0)).1
    have b := (hint (fun i => if i = 0 then 1 / 10 else 0)).2.1
    generalize contactForce S (gravityForce S (Stand.G Stand.τ₀)) _ = F' at a b
    have a0 := a 0; have a1 := a 1; have a2 := a 2; have a3 := a 3; have a4 := a 4; have a5 := a 5
    have b0 := b 0; have b1 := b 1; have b2 := b 2; have b3 := b 3; have b4 := b 4; have b5 := b 5
    simp [Stand.F] at a0 a1 a2 a3 a4 a5 b0 b1 b2 b3 b4 b5
    fin_cases i
    · simp [a0, a1, a2, a3, a4, a5, abs_le]; norm_num
    · simp [b0, b1, b2, b3, b4, b5, abs_le]; norm_num
  · rw [hval]
    have : Stand.rsolver (12 - 6) (redistributeRQP R C Stand.Wt Stand.τ₀) = some 0 := by
      unfold Stand.rsolver
      refine if_pos ⟨h0, fun y _ => ?_⟩
      rw [hcost, hcost, mulVec_zero, zero_dotProduct, mul_zero]
      exact mul_nonneg (by norm_num) (dotProduct_self_nonneg _)
    rw [this]
    exact ⟨_, rfl⟩
  · intro solve hs τc h
    rw [hval] at h
    split at h
    · rename_i q hq
      simp only [Option.some.injEq, Prod.mk.injEq, true_and] at h
      subst h
      have h1 := (hs _ _ _ hq).2 0 h0
      rw [hcost, hcost, mulVec_zero, zero_dotProduct, mul_zero] at h1
      have h2 : (Stand.Wt * rightCols S * NwJw) *ᵥ q = 0 :=
        dotProduct_self_eq_zero.mp (le_antisymm (by linarith) (dotProduct_self_nonneg _))
      have h3 : (Stand.Wt *ᵥ (rightCols S *ᵥ (NwJw *ᵥ q))) 0 = 0 := by
        rw [mulVec_mulVec, mulVec_mulVec, h2]; rfl
      rw [Stand.Wt_zero] at h3
      have h4 := (hint q).1 0
      have h5 : contactForce S (gravityForce S (Stand.G Stand.τ₀)) (Stand.τ₀ + NwJw *ᵥ q) 0
          = Stand.F 0 + (rightCols S *ᵥ (NwJw *ᵥ q)) 0 := by
        rw [hF]
        unfold contactForce rightCols
        rw [mulVec_add]
        simp only [Pi.sub_apply, Pi.add_apply]
        ring
      have h6 : q 0 = 0 := by
        have : contactForce S (gravityForce S (Stand.G Stand.τ₀)) (Stand.τ₀ + NwJw *ᵥ q) 0 = Stand.F 0 + q 0 := h4
        linarith
      rw [(hint q).2.2 0, h6]
      simp [Stand.L₀, Stand.τ₀]
      norm_num
    · simp at h

/-- The hypotheses of C10 are met with a torque that has to change: the standing robot, whose holding torque exceeds the
limit of the first joint, is redistributed successfully. -/
theorem C10_hypotheses_met (cod : (W : Matrix (Fin 6) (Fin 6) ℝ) → CodNull W) :
    ∃ S k V2 NwJw τc', calculateContactConstraint Ex.J Ex.A⁻¹ cod = .ret 1 S (some ⟨k, V2, NwJw⟩) ∧
      contactSpace Ex.J Ex.A⁻¹ = some S ∧
      redistribute (Stand.robot S NwJw Stand.τ₀ Stand.L₀) Stand.rsolver (Stand.τ₀ + 0) 0 = some (1, τc') ∧ τc' ≠ 0 := by
  obtain ⟨S, k, V2, NwJw, hR, ⟨q, hl, hh⟩, -, -⟩ := C11_upper_limit_violated cod
  have hS : contactSpace Ex.J Ex.A⁻¹ = some S := by
    obtain ⟨S', hS'⟩ := Stand.exists_S
    have := hR
    unfold calculateContactConstraint at this
    rw [hS'] at this
    simp only [gt_iff_lt] at this
    rw [if_pos (by norm_num)] at this
    split_ifs at this
    split at this
    · cases this
    · simp only [ContactResult.ret.injEq] at this
      rw [hS', this.2.1]
  obtain ⟨τc', h⟩ := (C10_succeeds_iff Ex.hA (Stand.robot S NwJw Stand.τ₀ Stand.L₀) hS (G := Stand.G Stand.τ₀) rfl
    Stand.six Stand.plane Stand.dof (by norm_num) cod hR Stand.rsolver_exact Stand.rsolver_complete Stand.τ₀ 0).mpr
    ⟨NwJw *ᵥ q, by
      intro L hL
      have : Stand.L₀ = L := Option.some.inj hL
      subst this
      exact hl, by
      intro qdd F qdd' F' hM hM'
      refine ⟨?_, ?_⟩
      · rw [add_zero] at hM
        exact (C04_internal_force Ex.hA (by norm_num) cod hR _ _ _ hM hM').1
      · rw [(C01_contact_force_exact Ex.hA hS _ _).2.1 _ _ hM']
        exact hh⟩
  refine ⟨S, k, V2, NwJw, τc', hR, hS, h, ?_⟩
  rintro rfl
  have := (C10_safe Ex.hA (Stand.robot S NwJw Stand.τ₀ Stand.L₀) hS (G := Stand.G Stand.τ₀) rfl
    Stand.six Stand.plane Stand.dof (by norm_num) (fun k d x hx => (Stand.rsolver_exact k d x hx).1) h).1 Stand.L₀ rfl 0
  simp [Stand.τ₀, Stand.L₀, abs_le] at this
  norm_num at this

/-! ### C46: threaded control -/

/-- C46 (partial).  With one task, in single support, threaded control respects the limits and contacts whenever
its QP is solved. -/
theorem C46_one_task_partial {A : Matrix (Fin 6 ⊕ Fin n) (Fin 6 ⊕ Fin n) ℝ} {J : Matrix (Fin 6) (Fin 6 ⊕ Fin n) ℝ}
    {G : Fin 6 ⊕ Fin n → ℝ} (hA : IsSPD A) (R : QPRobot n 6) (hS : contactSpace J A⁻¹ = some R.S)
    (hP : R.P = gravityForce R.S G)
    (h6 : ∀ l ∈ R.cs, l.type = .c6d) (hp : ∀ l ∈ R.cs, 0 < l.planeX ∧ 0 < l.planeY)
    (hc : 6 = 6 * (active R.cs).length) {solve : Solver} (hs : solve.Sound) (T : TaskReady (Fin n))
    (hok : ∀ m (C : Matrix (Fin m) (Fin 6) ℝ), R.C = some ⟨m, C⟩ → (solve 0 T.t 0 (taskQP R C T 1 R.τg)).isSome)
    {τt : Fin n → ℝ} (h : calcThreaded R solve [T] = some τt) :
    (∀ L, R.limit = some L → WithinLimit L (R.τg + τt)) ∧
    ∀ qdd F, Motion A J G (R.τg + τt) qdd F → ContactsHold R.cs (F ∘ Fin.cast hc.symm) := by
  obtain ⟨C, e, h'⟩ := stackC_holds h6 hp hc
  obtain ⟨x, hx⟩ := Option.isSome_iff_exists.mp (hok _ C e)
  have hx' : solve 0 T.t (6 - 6) (taskQP R C T 1 R.τg) = some x := hx
  have := (taskQP_feasible R C T 1 _ x).mp (hs _ _ _ _ _ hx')
  rw [show (R.NwJw *ᵥ fun b => x (Sum.inr b)) = 0 from by ext j; simp [mulVec, dotProduct]] at this
  simp only [add_zero] at this
  simp only [calcThreaded, threadedLoop, QPRobot.C, e, hx', Option.getD_some, zero_add, Option.some.injEq] at h
  subst h
  refine ⟨this.1, fun qdd F hM => ?_⟩
  rw [(C01_contact_force_exact hA hS G _).2.1 _ _ hM, ← hP]
  exact (h' _).mp this.2

namespace ArmQP

/-- the arm stands on one foot and weighs one -/
def G : Fin 6 ⊕ Fin 2 → ℝ := Sum.elim (fun i => if i = 2 then 1 else 0) 0

noncomputable def cs : List ContactLink := [exContact true]

/-- limit one on both joints, no gravity torque -/
noncomputable def robot : QPRobot 2 6 :=
  { S := Arm.S, NwJw := 0, P := gravityForce Arm.S G, τg := 0, limit := some 1, cs := cs }

theorem dof : 6 = 6 * (active cs).length := by simp [active, cs, exContact]
theorem six : ∀ l ∈ cs, l.type = .c6d := by simp [cs, exContact]
theorem plane : ∀ l ∈ cs, 0 < l.planeX ∧ 0 < l.planeY := by simp [cs, exContact]

/-- the contact force does not depend on the torque -/
theorem force (τ : Fin 2 → ℝ) :
    contactForce Arm.S (gravityForce Arm.S G) τ = fun i => if i = 2 then -1 else 0 := by
  symm
  refine (C01_contact_force_exact Arm.hA Arm.hS G τ).2.1 (Sum.elim 0 τ) _ ⟨?_, ?_⟩
  · unfold Dynamics actuate
    ext s
    rcases s with s | s
    · simp [Arm.A, Arm.J, G, mulVec, dotProduct, eq_comm]
    · simp [Arm.A, Arm.J, G, mulVec, dotProduct]
  · unfold ContactsFixed
    ext i
    simp [Arm.J, mulVec, dotProduct]

theorem hold (τ : Fin 2 → ℝ) :
    ContactsHold cs (contactForce Arm.S (gravityForce Arm.S G) τ ∘ Fin.cast dof.symm) := by
  rw [force]
  intro i
  have hi : i.val = 0 := by have := i.isLt; have := dof; omega
  have hl : ∀ l ∈ active cs, l = exContact true := by simp [active, cs, exContact]
  have hi' := hl _ (List.getElem_mem i.isLt)
  simp only [Fin.getElem_fin, hi']
  rw [show (exContact true).rotm = 1 from rfl, Stand.inFrame_one]
  generalize hw : wrenchOf ((fun i => if i = 2 then (-1 : ℝ) else 0) ∘ Fin.cast dof.symm) i = w
  have hv : ∀ j : Fin 6, w j = if j = 2 then -1 else 0 := by
    intro j
    rw [← hw]
    simp only [wrenchOf, Function.comp]
    have : (Fin.cast dof.symm ⟨6 * i + j, by omega⟩ : Fin 6) = j := by ext; simp [hi]
    rw [this]
  have hx : (exContact true).planeX = 15 / 100 := rfl
  have hy : (exContact true).planeY = 75 / 1000 := rfl
  have hf : (exContact true).friction = 2 / 10 := rfl
  have hz : (exContact true).frictionZ = 2 / 10 := rfl
  rw [hx, hy, hf, hz]
  constructor
  · rw [noTip_iff (by norm_num) (by norm_num)]
    simp [press, hv]
    norm_num
  · simp [NoSlip, press, hv]
    norm_num

/-- an exact answer at a level whose own torque is within the limits is zero -/
theorem answer {m : ℕ} {C : Matrix (Fin m) (Fin 6) ℝ} (hC : robot.C = some ⟨m, C⟩) {solve : Solver}
    (hs : solve.Exact) (i : ℕ) (T : TaskReady (Fin 2)) (N : Matrix (Fin 2) (Fin 2) ℝ)
    (hl : WithinLimit 1 (N *ᵥ (T.Jkt *ᵥ (T.Λ *ᵥ T.f)))) :
    (solve i T.t (6 - 6) (taskQP robot C T N robot.τg)).getD 0 = 0 := by
  obtain ⟨C', e, h'⟩ := stackC_holds six plane dof
  rw [show robot.C = stackC cs 6 from rfl, e] at hC
  simp only [Option.some.injEq, Sigma.mk.injEq] at hC
  obtain ⟨rfl, hC⟩ := hC
  obtain rfl := eq_of_heq hC
  have h0 : (taskQP robot C' T N robot.τg).Feasible 0 := by
    rw [taskQP_feasible]
    have z : (fun _ : Fin T.t => (0 : ℝ)) = 0 := rfl
    simp only [Pi.zero_apply, z, add_zero]
    rw [show robot.NwJw = 0 from rfl, show robot.τg = 0 from rfl, zero_mulVec, zero_add, add_zero]
    refine ⟨?_, (h' _).mpr (hold _)⟩
    intro L hL
    have : 1 = L := Option.some.inj hL
    subst this
    exact hl
  cases hx : solve i T.t (6 - 6) (taskQP robot C' T N robot.τg) with
  | none => rfl
  | some x =>
    simp only [Option.getD_some]
    ext s
    rcases s with s | s
    · exact taskQP_solution_left _ _ _ _ _ h0 (hs _ _ _ _ _ hx) s
    · exact s.elim0

end ArmQP

/-- C46 (negation).  A two-joint robot with joint limits one, standing safely: every exact solver makes threaded
control with two tasks return the torque `(2, 0)`. -/
theorem C46_limit_violated {T₀ T₁ : TaskReady (Fin 2)} {solve : Solver} (hs : solve.Exact)
    (h₀ : calculateJKT Arm.S Arm.A⁻¹ (Arm.task ![1, 1] 2) = some T₀)
    (h₁ : calculateJKT Arm.S Arm.A⁻¹ (Arm.task ![1, 0] 2) = some T₁) :
    ∃ τt, calcThreaded ArmQP.robot solve [T₀, T₁] = some τt ∧ τt = ![2, 0] ∧
      ArmQP.robot.limit = some 1 ∧ ¬ WithinLimit 1 (ArmQP.robot.τg + τt) := by
  obtain ⟨C, e, h'⟩ := stackC_holds ArmQP.six ArmQP.plane ArmQP.dof
  have d0 : (![1, 1] : Fin 2 → ℝ) ⬝ᵥ ![1, 1] ≠ 0 := by norm_num [dotProduct, Fin.sum_univ_two]
  have d1 : (![1, 0] : Fin 2 → ℝ) ⬝ᵥ ![1, 0] ≠ 0 := by norm_num [dotProduct, Fin.sum_univ_two]
  have t1 : taskTorque Arm.S [T₁] = ![2, 0] := by
    rw [Arm.stack_cons _ _ d1 h₁]
    ext i; fin_cases i <;> simp [taskTorque, taskTorqueFrom]
  have t0 : taskTorque Arm.S [T₀] = ![1, 1] := by
    rw [Arm.stack_cons _ _ d0 h₀]
    ext i; fin_cases i <;> simp [taskTorque, taskTorqueFrom] <;> norm_num
  have t01 : taskTorque Arm.S [T₀, T₁] = ![2, 0] := by
    rw [Arm.stack_cons _ _ d0 h₀, t1]
    ext i; fin_cases i <;> simp
  have k0 : (1 : Matrix (Fin 2) (Fin 2) ℝ) *ᵥ (T₀.Jkt *ᵥ (T₀.Λ *ᵥ T₀.f)) = ![1, 1] := by
    simpa [taskTorque, taskTorqueFrom] using t0
  have k1 : taskNullSpace Arm.S T₀ 1 *ᵥ (T₁.Jkt *ᵥ (T₁.Λ *ᵥ T₁.f)) = ![1, -1] := by
    have : (1 : Matrix (Fin 2) (Fin 2) ℝ) *ᵥ (T₀.Jkt *ᵥ (T₀.Λ *ᵥ T₀.f))
        + taskNullSpace Arm.S T₀ 1 *ᵥ (T₁.Jkt *ᵥ (T₁.Λ *ᵥ T₁.f)) = ![2, 0] := by
      simpa [taskTorque, taskTorqueFrom] using t01
    rw [k0] at this
    rw [← eq_sub_iff_add_eq'] at this
    rw [this]
    ext i; fin_cases i <;> simp <;> norm_num
  have hC : ArmQP.robot.C = some ⟨_, C⟩ := e
  have a0 := ArmQP.answer hC hs 0 T₀ 1 (by
    rw [k0]; intro j; fin_cases j <;> simp)
  have a1 := ArmQP.answer hC hs 1 T₁ (taskNullSpace Arm.S T₀ 1) (by
    rw [k1]; intro j; fin_cases j <;> simp)
  refine ⟨![2, 0], ?_, rfl, rfl, ?_⟩
  · have z0 : (fun _ : Fin T₀.t => (0 : ℝ)) = 0 := rfl
    have z1 : (fun _ : Fin T₁.t => (0 : ℝ)) = 0 := rfl
    simp only [calcThreaded, threadedLoop, hC]
    rw [a0, show 0 + 1 = 1 from rfl]
    have e1 : ArmQP.robot.S = Arm.S := rfl
    rw [e1, a1]
    simp only [Pi.zero_apply, z0, z1, add_zero, zero_add]
    rw [k0, k1]
    congr 1
    ext i; fin_cases i <;> simp <;> norm_num
  · intro h
    have := h 0
    simp [ArmQP.robot] at this

/-- the two tasks of C46 exist -/
example : (∃ T₀, calculateJKT Arm.S Arm.A⁻¹ (Arm.task ![1, 1] 2) = some T₀) ∧
    (∃ T₁, calculateJKT Arm.S Arm.A⁻¹ (Arm.task ![1, 0] 2) = some T₁) ∧ Stand.solver.Exact :=
  ⟨Arm.ready_some _ _ (by norm_num [dotProduct, Fin.sum_univ_two]),
    Arm.ready_some _ _ (by norm_num [dotProduct, Fin.sum_univ_two]), Stand.solver_exact⟩

/-! ### C48: the QP only intervenes when it must -/

/-- C48.  If gravity plus the plain prioritised torque of every initial part of the task list already keeps the
limits and the contacts, QP control with an exact solver that reports success commands exactly the plain
prioritised torque. -/
theorem C48_command_kept {A : Matrix (Fin 6 ⊕ Fin n) (Fin 6 ⊕ Fin n) ℝ} {J : Matrix (Fin c) (Fin 6 ⊕ Fin n) ℝ}
    {G : Fin 6 ⊕ Fin n → ℝ} (hA : IsSPD A) (R : QPRobot n c) (hS : contactSpace J A⁻¹ = some R.S)
    (hP : R.P = gravityForce R.S G)
    (h6 : ∀ l ∈ R.cs, l.type = .c6d) (hp : ∀ l ∈ R.cs, 0 < l.planeX ∧ 0 < l.planeY)
    (hc : c = 6 * (active R.cs).length)
    {solve : Solver} (hs : solve.Exact) {ts : List (TaskReady (Fin n))}
    (hok : ∀ k, 1 ≤ k → k ≤ ts.length →
      (∀ L, R.limit = some L → WithinLimit L (R.τg + taskTorque R.S (ts.take k))) ∧
      ∀ qdd F, Motion A J G (R.τg + taskTorque R.S (ts.take k)) qdd F →
        ContactsHold R.cs (F ∘ Fin.cast hc.symm))
    {τt τc : Fin n → ℝ} (h : calcTaskControlTorqueQP R solve ts = .ret 1 τt τc) :
    τt = taskTorque R.S ts := by
  obtain ⟨C, e, h'⟩ := stackC_holds h6 hp hc
  have hC : R.C = some ⟨_, C⟩ := e
  have key : ∀ ts i N τ₀ τ₁,
      (∀ k, 1 ≤ k → k ≤ ts.length →
        (∀ L, R.limit = some L → WithinLimit L (R.τg + taskTorqueFrom R.S N τ₀ (ts.take k))) ∧
        ∀ qdd F, Motion A J G (R.τg + taskTorqueFrom R.S N τ₀ (ts.take k)) qdd F →
          ContactsHold R.cs (F ∘ Fin.cast hc.symm)) →
      qpLoop R solve i N τ₀ τ₁ ts = .ret 1 τt τc → τt = taskTorqueFrom R.S N τ₀ ts := by
    intro ts
    induction ts with
    | nil =>
      intro i N τ₀ τ₁ _ h
      simp only [qpLoop, CtrlResult.ret.injEq, true_and] at h
      exact h.1.symm
    | cons T rest ih =>
      intro i N τ₀ τ₁ hok h
      have h1 := hok 1 le_rfl (by simp)
      simp only [List.take_succ_cons, List.take_zero, taskTorqueFrom] at h1
      obtain ⟨qdd, hM⟩ := (C01_contact_force_exact hA hS G
        (R.τg + (τ₀ + N *ᵥ (T.Jkt *ᵥ (T.Λ *ᵥ T.f))))).1
      have h0 : (taskQP R C T N (R.τg + τ₀)).Feasible 0 := by
        rw [taskQP_feasible]
        have z1 : (fun _ : Fin T.t => (0 : ℝ)) = 0 := rfl
        have z2 : (fun _ : Fin (c - 6) => (0 : ℝ)) = 0 := rfl
        simp only [Pi.zero_apply, z1, z2, add_zero, mulVec_zero]
        rw [add_assoc]
        refine ⟨h1.1, (h' _).mpr ?_⟩
        rw [hP]
        exact h1.2 _ _ hM
      rw [qpLoop, hC] at h
      simp only at h
      split at h
      · simp at h
      · rename_i x hx
        have hx0 : (fun a => x (Sum.inl a)) = 0 := by
          ext a; exact taskQP_solution_left R C T N _ h0 (hs _ _ _ _ _ hx) a
        rw [hx0, add_zero] at h
        split_ifs at h
        refine ih _ _ _ _ (fun k hk hk' => ?_) h
        have := hok (k + 1) (by omega) (by simp; omega)
        simpa only [List.take_succ_cons, taskTorqueFrom] using this
  exact key ts 0 1 0 0 hok h

/-- the hypotheses of C48 are met by the standing robot with a task asking for nothing -/
example {S} (hS : contactSpace Ex.J Ex.A⁻¹ = some S) (T : TaskReady (Fin 6)) (hf : T.f = 0) (qdd F)
    (hM : Motion Ex.A Ex.J (Stand.G Stand.τ₀) (Stand.τ₀ + taskTorque S [T]) qdd F) :
    WithinLimit 1 (Stand.τ₀ + taskTorque S [T]) ∧ ContactsHold Stand.cs (F ∘ Fin.cast Stand.dof.symm) := by
  have ht : taskTorque S [T] = 0 := by simp [taskTorque, taskTorqueFrom, hf]
  rw [ht, add_zero] at hM ⊢
  constructor
  · intro j
    fin_cases j <;> simp [Stand.τ₀, abs_le] <;> norm_num
  · rw [(C01_contact_force_exact Ex.hA hS (Stand.G Stand.τ₀) Stand.τ₀).2.1 _ _ hM,
      ← (C01_contact_force_exact Ex.hA hS (Stand.G Stand.τ₀) Stand.τ₀).2.1 _ _ (Stand.motion Stand.τ₀)]
    exact Stand.hold

end Verif.Props
