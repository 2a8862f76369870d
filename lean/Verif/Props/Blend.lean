import Verif.Props.Loosen

/-!
# C96: blending commands, and room that is not used
-/

set_option linter.unusedSectionVars false

namespace Verif.Props
open Matrix Verif Verif.Spec Verif.Model

variable {n c : ℕ}

/-- No command was changed: with every task the change zero is recorded. -/
def AllFollowed (rs : List (TaskRecord n)) : Prop := ∀ r ∈ rs, miss r = 0

theorem okT_blend {R : QPRobot n c} {m : ℕ} {C : Matrix (Fin m) (Fin c) ℝ} {τ τ' : Fin n → ℝ} (h : OkT R C τ) (h' : OkT R C τ') {s : ℝ}
    (h0 : 0 ≤ s) (h1 : s ≤ 1) : OkT R C (τ + s • (τ' - τ)) := by
  refine ⟨fun L hL j => ?_, fun r => ?_⟩
  · have a := abs_le.mp (h.1 L hL j)
    have b := abs_le.mp (h'.1 L hL j)
    simp only [Pi.add_apply, Pi.smul_apply, Pi.sub_apply, smul_eq_mul]
    rw [abs_le]
    constructor <;> nlinarith
  · have e : contactForce R.S R.P (τ + s • (τ' - τ)) =
        contactForce R.S R.P τ + s • (contactForce R.S R.P τ' - contactForce R.S R.P τ) := by
      unfold contactForce
      rw [mulVec_add, mulVec_smul, mulVec_sub]
      module
    rw [e, mulVec_add, mulVec_smul, mulVec_sub]
    simp only [Pi.add_apply, Pi.smul_apply, Pi.sub_apply, smul_eq_mul]
    have a := h.2 r
    have b := h'.2 r
    nlinarith

/-- The tasks with the commands in between: the fraction `s` of the way from the task's own command to the other one. -/
def blended (s : ℝ) (p : Σ T : TaskReady (Fin n), Fin T.t → ℝ) : TaskReady (Fin n) := withCommand p.1 (p.1.f + s • (p.2 - p.1.f))

/-- The tasks with the other commands. -/
def other (p : Σ T : TaskReady (Fin n), Fin T.t → ℝ) : TaskReady (Fin n) := withCommand p.1 p.2

theorem miss_zero {t : ℕ} {x : Fin t → ℝ} (h : ∑ j, x j ^ 2 = 0) : x = 0 := by
  funext j
  have := (Finset.sum_eq_zero_iff_of_nonneg (fun j _ => sq_nonneg (x j))).mp h j (Finset.mem_univ j)
  exact pow_eq_zero_iff (two_ne_zero) |>.mp this

/-- a command that keeps limits and contacts is not changed -/
theorem level_zero {R : QPRobot n c} {m : ℕ} {C : Matrix (Fin m) (Fin c) ℝ} {T : TaskReady (Fin n)} {N : Matrix (Fin n) (Fin n) ℝ}
    {τ : Fin n → ℝ} {z : Fin (c - 6) → ℝ} (h : OkT R C (τ + N *ᵥ (T.Jkt *ᵥ (T.Λ *ᵥ T.f)) + R.NwJw *ᵥ z)) :
    (taskQP R C T N τ).Feasible (Sum.elim 0 z) ∧ ∀ y, (taskQP R C T N τ).IsSolution y → (fun a => y (Sum.inl a)) = (0 : Fin T.t → ℝ) := by
  have hy : (taskQP R C T N τ).Feasible (Sum.elim 0 z) := by
    rw [taskQP_feasible]
    have e : (T.f + fun j => (Sum.elim 0 z : Fin T.t ⊕ Fin (c - 6) → ℝ) (Sum.inl j)) = T.f := by ext j; simp
    rw [e]
    exact h
  refine ⟨hy, fun y sy => ?_⟩
  have hc0 := sy.2 _ hy
  rw [taskQP_cost, taskQP_cost] at hc0
  apply miss_zero
  refine le_antisymm ?_ (Finset.sum_nonneg fun j _ => sq_nonneg _)
  simp only [Sum.elim_inl, Pi.zero_apply, mul_zero, Finset.sum_const_zero] at hc0
  simp only [pow_two]
  have e0 : ∑ _ : Fin T.t, (0 : ℝ) ^ 2 = 0 := by simp
  linarith

theorem loop_blend {R : QPRobot n c} (hc6 : 6 < c) {m : ℕ} {C : Matrix (Fin m) (Fin c) ℝ} (hC : R.C = some ⟨m, C⟩)
    {solve solve' solve'' : Solver} (hs : solve.Sound) (hs' : solve'.Sound) (hs'' : solve''.Exact) (hcomp : solve''.Complete)
    {s : ℝ} (h0 : 0 ≤ s) (h1 : s ≤ 1)
    (ts : List (Σ T : TaskReady (Fin n), Fin T.t → ℝ)) (l l' l'' : List (TaskReady (Fin n) × TaskRecord n))
    (hl : l.map Prod.fst = ts.map (·.1)) (hl' : l'.map Prod.fst = ts.map other) (hl'' : l''.map Prod.fst = ts.map (blended s))
    (i : ℕ) (N : Matrix (Fin n) (Fin n) ℝ) (τ0 τ0' τ1 τ1' τ1'' : Fin n → ℝ) {τt τc τt' τc' : Fin n → ℝ} {rs rs' : List (TaskRecord n)}
    (h : qpLoopRec R solve i N τ0 τ1 l = (.ret 1 τt τc, rs)) (hf : AllFollowed rs)
    (h' : qpLoopRec R solve' i N τ0' τ1' l' = (.ret 1 τt' τc', rs')) (hf' : AllFollowed rs') :
    ∃ τc'' rs'', qpLoopRec R solve'' i N (τ0 + s • (τ0' - τ0)) τ1'' l'' = (.ret 1 (τt + s • (τt' - τt)) τc'', rs'') ∧
      AllFollowed rs'' := by
  induction ts generalizing l l' l'' i N τ0 τ0' τ1 τ1' τ1'' rs rs' with
  | nil =>
    obtain rfl : l = [] := by simpa using hl
    obtain rfl : l' = [] := by simpa using hl'
    obtain rfl : l'' = [] := by simpa using hl''
    simp only [qpLoopRec, Prod.mk.injEq, CtrlResult.ret.injEq, true_and] at h h'
    obtain ⟨⟨rfl, -⟩, -⟩ := h
    obtain ⟨⟨rfl, -⟩, -⟩ := h'
    exact ⟨τ1'', [], rfl, fun r hr => by simp at hr⟩
  | cons p ts ih =>
    obtain ⟨T, g⟩ := p
    rcases l with _ | ⟨⟨Ta, r⟩, l⟩
    · simp at hl
    rcases l' with _ | ⟨⟨Tb, r'⟩, l'⟩
    · simp at hl'
    rcases l'' with _ | ⟨⟨Tc, r''⟩, l''⟩
    · simp at hl''
    simp only [List.map_cons, List.cons.injEq] at hl hl' hl''
    obtain ⟨rfl, hl⟩ := hl
    obtain ⟨rfl, hl'⟩ := hl'
    obtain ⟨rfl, hl''⟩ := hl''
    simp only [qpLoopRec, hC] at h h' ⊢
    split at h
    · simp at h
    rename_i x hx
    split at h'
    · simp at h'
    rename_i x' hx'
    rw [if_neg (by omega)] at h h'
    rw [Prod.mk.injEq] at h h'
    obtain ⟨k1, rfl⟩ := h
    obtain ⟨k1', rfl⟩ := h'
    have ex : (fun a => x (Sum.inl a)) = (0 : Fin Ta.t → ℝ) :=
      miss_zero (hf _ (List.mem_cons_self ..))
    have ex' : (fun a => x' (Sum.inl a)) = (0 : Fin (other ⟨Ta, g⟩).t → ℝ) :=
      miss_zero (hf' _ (List.mem_cons_self ..))
    have o1 := (taskQP_feasible R C Ta N _ x).mp (hs _ _ _ _ _ hx)
    have o2 := (taskQP_feasible R C (other ⟨Ta, g⟩) N _ x').mp (hs' _ _ _ _ _ hx')
    obtain ⟨z, hz⟩ : ∃ z, (fun b => x (Sum.inr b)) = z := ⟨_, rfl⟩
    obtain ⟨z', hz'⟩ : ∃ z, (fun b => x' (Sum.inr b)) = z := ⟨_, rfl⟩
    rw [ex, hz, add_zero] at o1
    rw [ex', hz'] at o2
    have o2' : OkT R C (R.τg + τ0' + N *ᵥ (Ta.Jkt *ᵥ (Ta.Λ *ᵥ g)) + R.NwJw *ᵥ z') := by
      have : (other ⟨Ta, g⟩).f + (0 : Fin (other ⟨Ta, g⟩).t → ℝ) = g := add_zero g
      rw [this] at o2
      exact o2
    have o3 := okT_blend o1 o2' h0 h1
    have e3 : R.τg + τ0 + N *ᵥ (Ta.Jkt *ᵥ (Ta.Λ *ᵥ Ta.f)) + R.NwJw *ᵥ z + s • (R.τg + τ0' + N *ᵥ (Ta.Jkt *ᵥ (Ta.Λ *ᵥ g)) + R.NwJw *ᵥ z' -
        (R.τg + τ0 + N *ᵥ (Ta.Jkt *ᵥ (Ta.Λ *ᵥ Ta.f)) + R.NwJw *ᵥ z)) =
        R.τg + (τ0 + s • (τ0' - τ0)) + N *ᵥ (Ta.Jkt *ᵥ (Ta.Λ *ᵥ (Ta.f + s • (g - Ta.f)))) + R.NwJw *ᵥ (z + s • (z' - z)) := by
      simp only [mulVec_add, mulVec_smul, mulVec_sub]
      module
    rw [e3] at o3
    have o3' : OkT R C (R.τg + (τ0 + s • (τ0' - τ0)) + N *ᵥ ((blended s ⟨Ta, g⟩).Jkt *ᵥ ((blended s ⟨Ta, g⟩).Λ *ᵥ (blended s ⟨Ta, g⟩).f)) +
        R.NwJw *ᵥ (z + s • (z' - z))) := o3
    obtain ⟨hy, hzero⟩ := level_zero o3'
    obtain ⟨y, hyy⟩ := Option.isSome_iff_exists.mp (hcomp i _ _ _ (taskQP_exists R C (blended s ⟨Ta, g⟩) N _ hy))
    have ey := hzero y (hs'' _ _ _ _ _ hyy)
    simp only [hyy]
    rw [if_neg (by omega)]
    rw [ex, add_zero] at k1
    rw [ex'] at k1'
    have et : ((blended s ⟨Ta, g⟩).f + fun a => y (Sum.inl a)) = Ta.f + s • (g - Ta.f) := by
      rw [ey]; exact add_zero _
    have eo : (other ⟨Ta, g⟩).f + (0 : Fin (other ⟨Ta, g⟩).t → ℝ) = g := add_zero g
    rw [eo] at k1'
    have en : τ0 + s • (τ0' - τ0) + N *ᵥ (Ta.Jkt *ᵥ (Ta.Λ *ᵥ (Ta.f + s • (g - Ta.f)))) =
        τ0 + N *ᵥ (Ta.Jkt *ᵥ (Ta.Λ *ᵥ Ta.f)) + s • (τ0' + N *ᵥ (Ta.Jkt *ᵥ (Ta.Λ *ᵥ g)) - (τ0 + N *ᵥ (Ta.Jkt *ᵥ (Ta.Λ *ᵥ Ta.f)))) := by
      simp only [mulVec_add, mulVec_smul, mulVec_sub]
      module
    obtain ⟨τc'', rs'', q1, q2⟩ := ih l l' l'' hl hl' hl'' (i + 1) (taskNullSpace R.S Ta N) _ _ _ _ (R.NwJw *ᵥ fun b => y (Sum.inr b))
      (Prod.ext k1 rfl) (by
        intro r hr
        apply hf
        rw [ex, add_zero]
        exact List.mem_cons_of_mem _ hr)
      (Prod.ext k1' rfl) (by
        intro r hr
        apply hf'
        rw [ex', eo]
        exact List.mem_cons_of_mem _ hr)
    have q0 : qpLoopRec R solve'' (i + 1) (taskNullSpace R.S (blended s ⟨Ta, g⟩) N) (τ0 + s • (τ0' - τ0) + N *ᵥ
        ((blended s ⟨Ta, g⟩).Jkt *ᵥ ((blended s ⟨Ta, g⟩).Λ *ᵥ ((blended s ⟨Ta, g⟩).f + fun a => y (Sum.inl a)))))
        (R.NwJw *ᵥ fun b => y (Sum.inr b)) l'' = (.ret 1 (τt + s • (τt' - τt)) τc'', rs'') := by
      rw [et]
      refine Eq.trans ?_ q1
      exact congrArg (fun u => qpLoopRec R solve'' (i + 1) (taskNullSpace R.S Ta N) u _ l'') en
    rw [q0]
    refine ⟨τc'', _, rfl, fun r hr => ?_⟩
    rcases List.mem_cons.mp hr with rfl | hr
    · change ∑ j, y (Sum.inl j) ^ 2 = 0
      refine Finset.sum_eq_zero fun j _ => ?_
      have : y (Sum.inl j) = 0 := congrFun ey j
      rw [this]
      norm_num
    · exact q2 r hr

/-- the contact torque moves nothing -/
theorem loop_contact {R : QPRobot n c} {solve : Solver} (l : List (TaskReady (Fin n))) (i : ℕ) (N : Matrix (Fin n) (Fin n) ℝ)
    (τ0 τ1 : Fin n → ℝ) (h1 : ∃ z, τ1 = R.NwJw *ᵥ z) {v : ℕ} {τt τc : Fin n → ℝ} (h : qpLoop R solve i N τ0 τ1 l = .ret v τt τc) :
    ∃ z, τc = R.NwJw *ᵥ z := by
  induction l generalizing i N τ0 τ1 with
  | nil =>
    simp only [qpLoop, CtrlResult.ret.injEq] at h
    exact h.2.2 ▸ h1
  | cons T l ih =>
    rw [qpLoop] at h
    split at h
    · simp at h
    · split at h
      · simp only [CtrlResult.ret.injEq] at h
        exact h.2.2 ▸ h1
      · simp only at h
        split_ifs at h
        exact ih _ _ _ _ ⟨_, rfl⟩ h

/-- **C96 (commands in between).**  Two stacks of commands for the same tasks, both followed: QP task control succeeds and records no change
of any command.  Then it succeeds with every blend of the two stacks, records no change of any command, and the task torque is the blend of
the two task torques. -/
theorem C96_blend {R : QPRobot n c} (hc6 : 6 < c) {solve solve' solve'' : Solver} (hs : solve.Sound) (hs' : solve'.Sound)
    (hs'' : solve''.Exact) (hcomp : solve''.Complete) {s : ℝ} (h0 : 0 ≤ s) (h1 : s ≤ 1)
    (ts : List (Σ T : TaskReady (Fin n), Fin T.t → ℝ)) (l l' l'' : List (TaskReady (Fin n) × TaskRecord n))
    (hl : l.map Prod.fst = ts.map (·.1)) (hl' : l'.map Prod.fst = ts.map other) (hl'' : l''.map Prod.fst = ts.map (blended s))
    {τt τc τt' τc' : Fin n → ℝ} {rs rs' : List (TaskRecord n)}
    (h : taskControlQPRec R solve l = (.ret 1 τt τc, rs)) (hf : AllFollowed rs)
    (h' : taskControlQPRec R solve' l' = (.ret 1 τt' τc', rs')) (hf' : AllFollowed rs') :
    ∃ τc'' rs'', taskControlQPRec R solve'' l'' = (.ret 1 (τt + s • (τt' - τt)) τc'', rs'') ∧ AllFollowed rs'' := by
  rcases hC : R.C with _ | ⟨m, C⟩
  · rcases l with _ | ⟨p, l⟩
    · obtain rfl : ts = [] := by simpa using hl.symm
      obtain rfl : l' = [] := by simpa using hl'
      obtain rfl : l'' = [] := by simpa using hl''
      simp only [taskControlQPRec, qpLoopRec, Prod.mk.injEq, CtrlResult.ret.injEq, true_and] at h h'
      obtain ⟨⟨rfl, -⟩, -⟩ := h
      obtain ⟨⟨rfl, -⟩, -⟩ := h'
      exact ⟨0, [], by simp [taskControlQPRec, qpLoopRec], fun r hr => by simp at hr⟩
    · simp [taskControlQPRec, qpLoopRec, hC] at h
  · obtain ⟨τc'', rs'', k1, k2⟩ := loop_blend hc6 hC hs hs' hs'' hcomp h0 h1 ts l l' l'' hl hl' hl'' 0 1 0 0 0 0 0 h hf h' hf'
    rw [sub_zero, smul_zero, add_zero] at k1
    exact ⟨τc'', rs'', k1, k2⟩

section
variable {A : Matrix (Fin 6 ⊕ Fin n) (Fin 6 ⊕ Fin n) ℝ} {J : Matrix (Fin c) (Fin 6 ⊕ Fin n) ℝ} {G : Fin 6 ⊕ Fin n → ℝ} {R : QPRobot n c}

/-- blended torques give the blended motion -/
theorem motion_blend {τ τ' : Fin n → ℝ} {q q' : Fin 6 ⊕ Fin n → ℝ} {F F' : Fin c → ℝ} (h : Motion A J G τ q F) (h' : Motion A J G τ' q' F')
    (s : ℝ) : Motion A J G (τ + s • (τ' - τ)) (q + s • (q' - q)) (F + s • (F' - F)) := by
  have e : actuate (τ + s • (τ' - τ)) = actuate τ + s • (actuate τ' - actuate τ) := by
    funext i; rcases i with i | i <;> simp [actuate]
  have e1 : A *ᵥ q + Jᵀ *ᵥ F + G = actuate τ := h.1
  have e2 : A *ᵥ q' + Jᵀ *ᵥ F' + G = actuate τ' := h'.1
  have c1 : J *ᵥ q = 0 := h.2
  have c2 : J *ᵥ q' = 0 := h'.2
  refine ⟨?_, ?_⟩
  · change A *ᵥ _ + Jᵀ *ᵥ _ + G = _
    rw [e, ← e1, ← e2]
    simp only [mulVec_add, mulVec_smul, mulVec_sub]
    module
  · change J *ᵥ _ = 0
    rw [mulVec_add, mulVec_smul, mulVec_sub, c1, c2]
    simp

theorem loop_contact_still (hA : IsSPD A) (hc6 : 6 < c) (cod : (W : Matrix (Fin n) (Fin n) ℝ) → CodNull W) {v k : ℕ}
    {V2 : Matrix (Fin k) (Fin n) ℝ} (hS : contactSpace J A⁻¹ = some R.S)
    (hR : calculateContactConstraint J A⁻¹ cod = .ret v R.S (some ⟨k, V2, R.NwJw⟩)) {solve : Solver} {l : List (TaskReady (Fin n))} {w : ℕ}
    {τt τc : Fin n → ℝ} (h : calcTaskControlTorqueQP R solve l = .ret w τt τc) : MovesNothing A J G τc :=
  (movesNothing_iff hA hc6 cod hS hR τc).mpr (loop_contact l 0 1 0 0 ⟨0, (mulVec_zero _).symm⟩ h)

/-- **C96 (the motion in between).**  As `C96_blend`, for the robot: in every motion under the torque for the blend of the two stacks, the
acceleration of every joint is the blend of those of the two motions. -/
theorem C96_motion (hA : IsSPD A) (hc6 : 6 < c) (cod : (W : Matrix (Fin n) (Fin n) ℝ) → CodNull W) {v k : ℕ}
    {V2 : Matrix (Fin k) (Fin n) ℝ} (hS : contactSpace J A⁻¹ = some R.S)
    (hR : calculateContactConstraint J A⁻¹ cod = .ret v R.S (some ⟨k, V2, R.NwJw⟩)) {solve solve' solve'' : Solver} (hs : solve.Sound)
    (hs' : solve'.Sound) (hs'' : solve''.Exact) (hcomp : solve''.Complete) {s : ℝ} (h0 : 0 ≤ s) (h1 : s ≤ 1)
    (ts : List (Σ T : TaskReady (Fin n), Fin T.t → ℝ)) (l l' l'' : List (TaskReady (Fin n) × TaskRecord n))
    (hl : l.map Prod.fst = ts.map (·.1)) (hl' : l'.map Prod.fst = ts.map other) (hl'' : l''.map Prod.fst = ts.map (blended s))
    {τt τc τt' τc' : Fin n → ℝ} {rs rs' : List (TaskRecord n)}
    (h : taskControlQPRec R solve l = (.ret 1 τt τc, rs)) (hf : AllFollowed rs)
    (h' : taskControlQPRec R solve' l' = (.ret 1 τt' τc', rs')) (hf' : AllFollowed rs') :
    ∃ τt'' τc'' rs'', taskControlQPRec R solve'' l'' = (.ret 1 τt'' τc'', rs'') ∧ ∀ q q' q'' F F' F'',
      Motion A J G (R.τg + τt + τc) q F → Motion A J G (R.τg + τt' + τc') q' F' → Motion A J G (R.τg + τt'' + τc'') q'' F'' →
      q'' = q + s • (q' - q) := by
  obtain ⟨τc'', rs'', k1, -⟩ := C96_blend hc6 hs hs' hs'' hcomp h0 h1 ts l l' l'' hl hl' hl'' h hf h' hf'
  refine ⟨_, _, _, k1, fun q q' q'' F F' F'' hM hM' hM'' => ?_⟩
  have still : ∀ {sv : Solver} {m : List (TaskReady (Fin n) × TaskRecord n)} {a b : Fin n → ℝ} {os : List (TaskRecord n)},
      taskControlQPRec R sv m = (.ret 1 a b, os) → ∃ z, b = R.NwJw *ᵥ z := by
    intro sv m a b os hm
    have e := C92_result R sv m
    rw [hm] at e
    exact loop_contact (m.map Prod.fst) 0 1 0 0 ⟨0, (mulVec_zero _).symm⟩ e.symm
  obtain ⟨z, hz⟩ := still h
  obtain ⟨z', hz'⟩ := still h'
  obtain ⟨z'', hz''⟩ := still k1
  have hb := motion_blend hM hM' s
  have hm : MovesNothing A J G (τc'' - (τc + s • (τc' - τc))) := by
    refine (movesNothing_iff hA hc6 cod hS hR _).mpr ⟨z'' - (z + s • (z' - z)), ?_⟩
    rw [hz, hz', hz'', mulVec_sub, mulVec_add, mulVec_smul, mulVec_sub]
  refine hm _ _ _ _ F'' hb ?_
  have e : R.τg + τt + τc + s • (R.τg + τt' + τc' - (R.τg + τt + τc)) + (τc'' - (τc + s • (τc' - τc))) =
      R.τg + (τt + s • (τt' - τt)) + τc'' := by module
  rw [e]
  exact hM''

end

section
variable {A : Matrix (Fin 6 ⊕ Fin n) (Fin 6 ⊕ Fin n) ℝ} {J : Matrix (Fin c) (Fin 6 ⊕ Fin n) ℝ} {G : Fin 6 ⊕ Fin n → ℝ} {R : QPRobot n c}

/-- a robot that can stand still follows the commands to do nothing -/
theorem loop_still (hc6 : 6 < c) {m : ℕ} {C : Matrix (Fin m) (Fin c) ℝ} (hC : R.C = some ⟨m, C⟩) {solve : Solver} (hs : solve.Exact)
    (hcomp : solve.Complete) {z : Fin (c - 6) → ℝ} (l : List (TaskReady (Fin n) × TaskRecord n)) (hl : ∀ p ∈ l, p.1.f = 0) (i : ℕ)
    (N : Matrix (Fin n) (Fin n) ℝ) (τ0 τ1 : Fin n → ℝ) (hok : OkT R C (R.τg + τ0 + R.NwJw *ᵥ z)) :
    ∃ τc rs, qpLoopRec R solve i N τ0 τ1 l = (.ret 1 τ0 τc, rs) ∧ AllFollowed rs := by
  induction l generalizing i N τ1 with
  | nil => exact ⟨τ1, [], rfl, fun r hr => by simp at hr⟩
  | cons p l ih =>
    obtain ⟨T, r⟩ := p
    have hT : T.f = 0 := hl (T, r) (by simp)
    have o : OkT R C (R.τg + τ0 + N *ᵥ (T.Jkt *ᵥ (T.Λ *ᵥ T.f)) + R.NwJw *ᵥ z) := by
      rw [hT, mulVec_zero, mulVec_zero, mulVec_zero, add_zero]
      exact hok
    obtain ⟨hy, hzero⟩ := level_zero o
    obtain ⟨y, hyy⟩ := Option.isSome_iff_exists.mp (hcomp i _ _ _ (taskQP_exists R C T N _ hy))
    have ey := hzero y (hs _ _ _ _ _ hyy)
    obtain ⟨τc, rs, k1, k2⟩ := ih (fun p hp => hl p (List.mem_cons_of_mem _ hp)) (i + 1) (taskNullSpace R.S T N)
      (R.NwJw *ᵥ fun b => y (Sum.inr b))
    simp only [qpLoopRec, hC, hyy]
    rw [if_neg (by omega), ey, add_zero, hT, mulVec_zero, mulVec_zero, mulVec_zero, add_zero, k1]
    refine ⟨τc, _, rfl, fun r hr => ?_⟩
    rcases List.mem_cons.mp hr with rfl | hr
    · change ∑ j, y (Sum.inl j) ^ 2 = 0
      refine Finset.sum_eq_zero fun j _ => ?_
      have : y (Sum.inl j) = 0 := congrFun ey j
      rw [this]
      norm_num
    · exact k2 r hr

/-- **C96 (doing the same more slowly).**  If QP task control follows a stack of commands and the robot could safely stand still, it follows
the same commands scaled down by any factor, and the task torque is scaled by that factor. -/
theorem C96_scale (hA : IsSPD A) (cod : (W : Matrix (Fin n) (Fin n) ℝ) → CodNull W) {v k : ℕ} {V2 : Matrix (Fin k) (Fin n) ℝ}
    (hS : contactSpace J A⁻¹ = some R.S) (hR : calculateContactConstraint J A⁻¹ cod = .ret v R.S (some ⟨k, V2, R.NwJw⟩))
    (hP : R.P = Model.gravityForce R.S G) (h6 : ∀ l ∈ R.cs, l.type = .c6d) (hp : ∀ l ∈ R.cs, 0 < l.planeX ∧ 0 < l.planeY)
    (hc : c = 6 * (active R.cs).length) (hc6 : 6 < c) {solve solve' : Solver} (hs : solve.Sound) (hs' : solve'.Exact)
    (hcomp : solve'.Complete) {ν : Fin n → ℝ} (hν : MovesNothing A J G ν) (hstand : SafeTorque A J G R.limit R.cs hc (R.τg + ν)) {s : ℝ}
    (h0 : 0 ≤ s) (h1 : s ≤ 1) (l l' : List (TaskReady (Fin n) × TaskRecord n))
    (hl : l'.map Prod.fst = (l.map Prod.fst).map fun T => withCommand T (s • T.f)) {τt τc : Fin n → ℝ} {rs : List (TaskRecord n)}
    (h : taskControlQPRec R solve l = (.ret 1 τt τc, rs)) (hf : AllFollowed rs) :
    ∃ τc' rs', taskControlQPRec R solve' l' = (.ret 1 (s • τt) τc', rs') ∧ AllFollowed rs' := by
  obtain ⟨C, hC, hh⟩ := stackC_holds h6 hp hc
  obtain ⟨z, rfl⟩ := (movesNothing_iff hA hc6 cod hS hR ν).mp hν
  have hok : OkT R C (R.τg + 0 + R.NwJw *ᵥ z) := by
    rw [add_zero]
    exact (safe_iff hA hS hP hc hh _).mp hstand
  obtain ⟨τc0, rs0, g1, g2⟩ := loop_still hc6 hC hs' hcomp (l.map fun p => (withCommand p.1 0, p.2))
    (by
      intro p hp
      obtain ⟨q, -, rfl⟩ := List.mem_map.mp hp
      rfl) 0 1 0 0 hok
  obtain ⟨τc', rs', k1, k2⟩ := C96_blend hc6 (fun i t k d x hx => (hs' i t k d x hx).1) hs hs' hcomp h0 h1
    (l.map fun p => (⟨withCommand p.1 0, p.1.f⟩ : Σ T : TaskReady (Fin n), Fin T.t → ℝ)) _ l l'
    (by rw [List.map_map, List.map_map]; rfl)
    (by rw [List.map_map]; rfl)
    (by
      rw [hl, List.map_map, List.map_map]
      refine List.map_congr_left fun p _ => ?_
      have e : s • p.1.f = (0 : Fin p.1.t → ℝ) + s • (p.1.f - 0) := by rw [sub_zero, zero_add]
      exact congrArg (withCommand p.1) e) g1 g2 h hf
  rw [sub_zero, zero_add] at k1
  exact ⟨τc', rs', k1, k2⟩

end

/-! ### Room that is not used -/

section
variable {A : Matrix (Fin 6 ⊕ Fin n) (Fin 6 ⊕ Fin n) ℝ} {J : Matrix (Fin c) (Fin 6 ⊕ Fin n) ℝ} {G : Fin 6 ⊕ Fin n → ℝ} {R : QPRobot n c}
  {limit' : Option (Fin n → ℝ)} {cs' : List ContactLink}

theorem loop_unused (hc6 : 6 < c) {m m' : ℕ} {C : Matrix (Fin m) (Fin c) ℝ} {C' : Matrix (Fin m') (Fin c) ℝ} (hC : R.C = some ⟨m, C⟩)
    (hC' : (R.loosened limit' cs').C = some ⟨m', C'⟩) (hle : ∀ τ, OkT R C τ → OkT (R.loosened limit' cs') C' τ)
    {solve solve' : Solver} (hs : solve.Exact) (hcomp : solve.Complete) (hs' : solve'.Exact) (l : List (TaskReady (Fin n))) (i : ℕ)
    (N : Matrix (Fin n) (Fin n) ℝ) (τ0 τ1 τ1' : Fin n → ℝ)
    (hok : ∀ j, 1 ≤ j → j ≤ l.length → ∀ τ τ', qpLoop (R.loosened limit' cs') solve' i N τ0 τ1' (l.take j) = .ret 1 τ τ' →
      OkT R C (R.τg + τ + τ')) {τt' τc' : Fin n → ℝ} (h' : qpLoop (R.loosened limit' cs') solve' i N τ0 τ1' l = .ret 1 τt' τc') :
    ∃ τc, qpLoop R solve i N τ0 τ1 l = .ret 1 τt' τc := by
  induction l generalizing i N τ0 τ1 τ1' with
  | nil =>
    simp only [qpLoop, CtrlResult.ret.injEq, true_and] at h'
    exact ⟨τ1, by rw [qpLoop, h'.1]⟩
  | cons T l ih =>
    have key : ∀ l₁ τ τ', qpLoop (R.loosened limit' cs') solve' i N τ0 τ1' (T :: l₁) = .ret 1 τ τ' →
        ∃ x, solve' i T.t (c - 6) (taskQP (R.loosened limit' cs') C' T N ((R.loosened limit' cs').τg + τ0)) = some x ∧
        qpLoop (R.loosened limit' cs') solve' (i + 1) (taskNullSpace R.S T N)
          (τ0 + N *ᵥ (T.Jkt *ᵥ (T.Λ *ᵥ (T.f + fun a => x (Sum.inl a))))) (R.NwJw *ᵥ fun b => x (Sum.inr b)) l₁ = .ret 1 τ τ' := by
      intro l₁ τ τ' h
      rw [qpLoop, hC'] at h
      simp only at h
      split at h
      · simp at h
      rename_i x hx
      rw [if_neg (by omega)] at h
      exact ⟨x, hx, h⟩
    obtain ⟨x', hx', k'⟩ := key _ _ _ h'
    have back : ∀ l₁, qpLoop (R.loosened limit' cs') solve' i N τ0 τ1' (T :: l₁) =
        qpLoop (R.loosened limit' cs') solve' (i + 1) (taskNullSpace R.S T N)
          (τ0 + N *ᵥ (T.Jkt *ᵥ (T.Λ *ᵥ (T.f + fun a => x' (Sum.inl a))))) (R.NwJw *ᵥ fun b => x' (Sum.inr b)) l₁ := by
      intro l₁
      rw [qpLoop, hC']
      simp only [hx']
      rw [if_neg (by omega)]
      rfl
    have s2 := hs' _ _ _ _ _ hx'
    have f1 : (taskQP R C T N (R.τg + τ0)).Feasible x' := by
      rw [taskQP_feasible]
      have := hok 1 le_rfl (by simp) _ _ (by rw [List.take_succ_cons, List.take_zero, back, qpLoop])
      rw [← add_assoc] at this
      exact this
    obtain ⟨x, hx⟩ := Option.isSome_iff_exists.mp (hcomp i _ _ _ (taskQP_exists R C T N _ f1))
    have s1 := hs _ _ _ _ _ hx
    have s3 : (taskQP R C T N (R.τg + τ0)).IsSolution x' := by
      refine ⟨f1, fun y hy => ?_⟩
      have := s2.2 y (level_loosen hle T N _ hy)
      have e1 := taskQP_cost (R.loosened limit' cs') C' T N (R.τg + τ0) x'
      have e2 := taskQP_cost (R.loosened limit' cs') C' T N (R.τg + τ0) y
      rw [taskQP_cost, taskQP_cost]
      exact e1.symm.trans_le (this.trans_eq e2)
    have ex : (fun j => x (Sum.inl j)) = fun j => x' (Sum.inl j) := funext (taskQP_left_unique R C T N _ s1 s3)
    rw [qpLoop, hC]
    simp only [hx]
    rw [if_neg (by omega), ex]
    refine ih _ _ _ _ _ (fun j hj hjl τ τ' hτ => hok (j + 1) (by omega) (by simp; omega) τ τ' ?_) k'
    rw [List.take_succ_cons, back]
    exact hτ

/-- **C95 (room that is not used does not matter).**  QP task control of the robot with wider torque limits, larger feet and more friction
succeeds, and what it commands after each task of the list is safe even for the tighter limits, feet and friction.  Then the tighter robot
is commanded the same task torque, and moves in the same way. -/
theorem C95_unused_room (hA : IsSPD A) (cod : (W : Matrix (Fin n) (Fin n) ℝ) → CodNull W) {v k : ℕ} {V2 : Matrix (Fin k) (Fin n) ℝ}
    (hS : contactSpace J A⁻¹ = some R.S) (hR : calculateContactConstraint J A⁻¹ cod = .ret v R.S (some ⟨k, V2, R.NwJw⟩))
    (hP : R.P = Model.gravityForce R.S G) (h6 : ∀ l ∈ R.cs, l.type = .c6d) (hp : ∀ l ∈ R.cs, 0 < l.planeX ∧ 0 < l.planeY)
    (hc : c = 6 * (active R.cs).length) (hc6 : 6 < c) (hl : LimitLe R.limit limit') (hcs : List.Forall₂ ContactLe R.cs cs')
    {solve solve' : Solver} (hs : solve.Exact) (hcomp : solve.Complete) (hs' : solve'.Exact) {ts : List (TaskReady (Fin n))}
    (hok : ∀ j, 1 ≤ j → j ≤ ts.length → ∀ τ τ', calcTaskControlTorqueQP (R.loosened limit' cs') solve' (ts.take j) = .ret 1 τ τ' →
      SafeTorque A J G R.limit R.cs hc (R.τg + τ + τ'))
    {τt' τc' : Fin n → ℝ} (h' : calcTaskControlTorqueQP (R.loosened limit' cs') solve' ts = .ret 1 τt' τc') :
    ∃ τc, calcTaskControlTorqueQP R solve ts = .ret 1 τt' τc ∧ ∀ q q' F F', Motion A J G (R.τg + τt' + τc) q F →
      Motion A J G (R.τg + τt' + τc') q' F' → q' = q := by
  obtain ⟨h6', hp', hc'⟩ := loosen_contacts h6 hp hc hcs
  obtain ⟨C, hC, hh⟩ := stackC_holds h6 hp hc
  obtain ⟨C', hC', hh'⟩ := stackC_holds h6' hp' hc'
  have hle : ∀ τ, OkT R C τ → OkT (R.loosened limit' cs') C' τ := fun τ ⟨o1, o2⟩ =>
    ⟨limit_mono hl o1, (hh' _).mpr (contactsHold_mono hcs hc hc' ((hh _).mp o2))⟩
  obtain ⟨τc, h⟩ := loop_unused (R := R) hc6 hC hC' hle hs hcomp hs' ts 0 1 0 0 0
    (fun j hj hjl τ τ' hτ => (safe_iff hA hS hP hc hh _).mp (hok j hj hjl τ τ' hτ)) h'
  refine ⟨τc, h, fun q q' F F' hM hM' => ?_⟩
  obtain ⟨z, hz⟩ := loop_contact ts 0 1 0 0 ⟨0, (mulVec_zero _).symm⟩ h
  obtain ⟨z', hz'⟩ := loop_contact (R := R.loosened limit' cs') ts 0 1 0 0 ⟨0, (mulVec_zero _).symm⟩ h'
  have hm : MovesNothing A J G (τc' - τc) :=
    (movesNothing_iff hA hc6 cod hS hR _).mpr ⟨z' - z, by rw [hz, hz', mulVec_sub]; rfl⟩
  refine hm _ _ _ _ F' hM ?_
  rw [add_assoc, add_sub_cancel]
  exact hM'

end

end Verif.Props
