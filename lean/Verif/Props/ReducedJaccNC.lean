import Verif.Lemmas.ReducedJaccNC
import Verif.Props.ReducedJacc
import Verif.Props.ReducedTask
import Verif.Spec.TwoContacts

/-!
# C63: the joint-acceleration QP for the joints outside the contact chains
-/
set_option linter.unusedSectionVars false

namespace Verif.Props
open Matrix Verif Verif.Spec Verif.Model

section General
variable {ν : Type} [Fintype ν] [DecidableEq ν] {k c : ℕ}
variable {A : Matrix (RSys (Fin k) ν) (RSys (Fin k) ν) ℝ} {J : Matrix (Fin 6) ν ℝ} {G : RSys (Fin k) ν → ℝ} {D : Reduced (Fin k) ν}
  {Jc : Matrix (Fin c) (RSys (Fin k) ν) ℝ} {SI : Mat6} {R : Mat3} {solve : JSolver}

/-- A solver that answers every problem whose constraints can be met. -/
def Answers (solve : JSolver) : Prop :=
  ∀ (i : ℕ) (V Row : Type) [Fintype V] (d : BoxQP V Row), (∃ x, d.Feasible x) → solve i V Row d ≠ none

theorem ncShift_mulVec (r : Vec3) (w : Fin 6 → ℝ) :
    fpart (ncShift r *ᵥ w) = fpart w + crossProduct r (mpart w) ∧ mpart (ncShift r *ᵥ w) = mpart w := by
  have h : ∀ i : Fin 3 ⊕ Fin 3, (ncShift r *ᵥ w) (six i) = ((fromBlocks 1 (skew r) 0 1 : Mat6) *ᵥ fun x => w (six x)) i := fun i => by
    simp only [ncShift, mulVec, dotProduct, submatrix_apply, Equiv.symm_apply_apply]
    rw [← Equiv.sum_comp six]
    simp
  have hl : ∀ i : Fin 3, (ncShift r *ᵥ w) (six (.inl i)) = w (six (.inl i)) + crossProduct r (mpart w) i := fun i => by
    rw [h, ← skew_mulVec]
    simp only [mulVec, dotProduct, Fintype.sum_sum_type, fromBlocks_apply₁₁, fromBlocks_apply₁₂, Matrix.one_apply]
    simp only [ite_mul, one_mul, zero_mul, Finset.sum_ite_eq, Finset.mem_univ, if_true]
    congr 1
  have hr : ∀ i : Fin 3, (ncShift r *ᵥ w) (six (.inr i)) = w (six (.inr i)) := fun i => by
    rw [h]
    simp [mulVec, dotProduct, Fintype.sum_sum_type, Matrix.one_apply]
  constructor
  · ext i
    have := hl i
    fin_cases i <;> exact this
  · ext i
    have := hr i
    fin_cases i <;> exact this

theorem six_ext {v w : Fin 6 → ℝ} : v = w ↔ fpart v = fpart w ∧ mpart v = mpart w := by
  constructor
  · rintro rfl; exact ⟨rfl, rfl⟩
  · rintro ⟨h1, h2⟩
    ext i
    have a0 := congrFun h1 0; have a1 := congrFun h1 1; have a2 := congrFun h1 2
    have b0 := congrFun h2 0; have b1 := congrFun h2 1; have b2 := congrFun h2 2
    simp [fpart, mpart] at a0 a1 a2 b0 b1 b2
    fin_cases i <;> assumption

/-- a successful call with six task rows -/
theorem jaccNC_six {Rb : NCRobot ν} {j : ℕ} {Jt : Matrix (Fin 6) (RSys (Fin k) ν) ℝ} {f : Fin 6 → ℝ} {pos : Vec3} {q0 o0}
    {a : RSys (Fin k) (Fin 6) → ℝ} {e : Fin 6 → ℝ} {o : NCAnswer ν}
    (h : jaccNC Rb solve j ⟨6, Jt, f, pos, q0, o0⟩ (flatAcc a) = some (true, ⟨6, Jt, f, pos, some e, some o⟩)) :
    ∃ x, solve j _ _ (jaccNCQP Rb 6 (Jt.submatrix id ncOf) (fun s => a (ncOf s)) (ncShift (pos - Rb.base) *ᵥ (f - fun b => a (.inl b))))
        = some x ∧ (o.acc = fun i => x (.inl i)) ∧ (o.torque = fun i => x (.inr (.inl i))) ∧
        (o.gacc = fun s => x (.inr (.inr (.inl s)))) ∧ e = fun s => x (.inr (.inr (.inr s))) := by
  simp only [jaccNC, flatAcc, dite_true, Fin.cast_eq_self, Function.comp_apply, Equiv.symm_apply_apply] at h
  split at h
  · simp at h
  · rename_i x hx
    simp only [Option.some.injEq, Prod.mk.injEq, true_and, NCTask.store, NCTask.mk.injEq, heq_eq_eq] at h
    obtain ⟨rfl, rfl⟩ := h
    exact ⟨x, hx, rfl, rfl, rfl, rfl⟩

theorem jaccNC_sound (hs : solve.Sound) {base : Vec3} {j : ℕ} {Jt : Matrix (Fin 6) (RSys (Fin k) ν) ℝ} {f : Fin 6 → ℝ} {pos : Vec3} {q0 o0}
    {a : RSys (Fin k) (Fin 6) → ℝ} {e : Fin 6 → ℝ} {o : NCAnswer ν}
    (h : jaccNC (ncRobot A G D base) solve j ⟨6, Jt, f, pos, q0, o0⟩ (flatAcc a) = some (true, ⟨6, Jt, f, pos, some e, some o⟩)) :
    A.submatrix (ncOf (κ := Fin k)) ncOf *ᵥ o.acc + (fun j => G (ncOf j)) = o.torque ∧
      D.J *ᵥ o.acc = (fun s => a (ncOf s)) + o.gacc ∧
      Jt.submatrix id ncOf *ᵥ o.acc = ncShift (pos - base) *ᵥ (f - fun b => a (.inl b)) + e := by
  obtain ⟨x, hx, e1, e2, e3, e4⟩ := jaccNC_six h
  have := (jaccNCQP_feasible _ _ _ _ _ _).mp (hs _ _ _ _ _ hx)
  rw [← e1, ← e2, ← e3, ← e4] at this
  exact this

/-- C63 (refused inputs).  A vector of another size than that of the reduced system is refused and nothing is changed; this
is what the benchmark of the repository passes (six values). -/
theorem C63_wrong_size_refused (Rb : NCRobot ν) (solve : JSolver) (j : ℕ) (T : NCTask k ν) {m : ℕ} (v : Fin m → ℝ) (hm : m ≠ 6 + (k + 6)) :
    jaccNC Rb solve j T ⟨m, v⟩ = some (false, T) := by
  simp [jaccNC, hm]

/-- C63 (negation, tasks).  A task with another number of rows than six, for example a pure rotation, is undefined behaviour. -/
theorem C63_other_rows_undefined (Rb : NCRobot ν) (solve : JSolver) (j : ℕ) {T : NCTask k ν} (hT : T.t ≠ 6)
    (a : RSys (Fin k) (Fin 6) → ℝ) : jaccNC Rb solve j T (flatAcc a) = none := by
  simp [jaccNC, flatAcc, hT]

/-- C63 (success says nothing).  With a solver that answers whenever the constraints can be met, every call with a six-row task
succeeds, whatever is planned and commanded. -/
theorem C63_always_succeeds (hs : Answers solve) (Rb : NCRobot ν) (j : ℕ) (Jt : Matrix (Fin 6) (RSys (Fin k) ν) ℝ) (f : Fin 6 → ℝ)
    (pos : Vec3) (q0 o0) (a : RSys (Fin k) (Fin 6) → ℝ) :
    ∃ e o, jaccNC Rb solve j ⟨6, Jt, f, pos, q0, o0⟩ (flatAcc a) = some (true, ⟨6, Jt, f, pos, some e, some o⟩) := by
  set d := jaccNCQP Rb 6 (Jt.submatrix id ncOf) (fun s => a (ncOf s)) (ncShift (pos - Rb.base) *ᵥ (f - fun b => a (.inl b))) with hd
  have hf : ∃ x, d.Feasible x :=
    ⟨Sum.elim 0 (Sum.elim Rb.G (Sum.elim (-fun s => a (ncOf s)) (-(ncShift (pos - Rb.base) *ᵥ (f - fun b => a (.inl b)))))), by
      refine (jaccNCQP_feasible _ _ _ _ _ _).mpr ⟨?_, ?_, ?_⟩
      all_goals
        rw [show (fun i => Sum.elim (0 : ν → ℝ) (Sum.elim Rb.G (Sum.elim (-fun s => a (ncOf s))
          (-(ncShift (pos - Rb.base) *ᵥ (f - fun b => a (.inl b)))))) (.inl i)) = (0 : ν → ℝ) from rfl, mulVec_zero]
      · rw [zero_add]; rfl
      · exact (add_neg_cancel _).symm
      · exact (add_neg_cancel _).symm⟩
  obtain ⟨x, hx⟩ := Option.ne_none_iff_exists'.mp (hs j _ _ d hf)
  refine ⟨fun s => x (.inr (.inr (.inr s))), ⟨fun i => x (.inl i), fun i => x (.inr (.inl i)), fun s => x (.inr (.inr (.inl s)))⟩, ?_⟩
  simp only [jaccNC, flatAcc, dite_true, Fin.cast_eq_self, Function.comp_apply, Equiv.symm_apply_apply]
  rw [hd] at hx
  simp only [hx]
  rfl

/-- C63 (exact condition).  A motion `a` of the reduced system has been planned; the call for the joints outside the contact chains
succeeds with answer `o`.  Then the robot, with the planned torques on the contact chains and the torques of `o` on the other
joints, moves as planned, with the planned contact forces, exactly when the base is not to accelerate and the answer does not
deviate from the plan. -/
theorem C63_motion_iff (hA : IsSPD A) (hR : R * Rᵀ = 1) (hJ : jInc SI R (baseNc A) = some J)
    (hcpl : ∀ (i : Fin k) (j : ν), A (.inr (.inl i)) (.inr (.inr j)) = 0) (h : reduce vcOf ncOf A⁻¹ J G = some D)
    (h0 : ∀ r j, Jc r (ncOf j) = 0) (hs : solve.Sound) {τR : Fin k ⊕ Fin 6 → ℝ} {a : RSys (Fin k) (Fin 6) → ℝ} {F : Fin c → ℝ}
    (hm : Motion D.AR (jCR Jc) D.GR τR a F) {base : Vec3} {j : ℕ} {Jt : Matrix (Fin 6) (RSys (Fin k) ν) ℝ} {f : Fin 6 → ℝ}
    {pos : Vec3} {q0 o0} {e : Fin 6 → ℝ} {o : NCAnswer ν}
    (hcall : jaccNC (ncRobot A G D base) solve j ⟨6, Jt, f, pos, q0, o0⟩ (flatAcc a) = some (true, ⟨6, Jt, f, pos, some e, some o⟩)) :
    Motion A Jc G (joinedTorque τR o.torque) (joined a o.acc) F ↔ (∀ b, a (.inl b) = 0) ∧ o.gacc = 0 := by
  obtain ⟨h1, h2, -⟩ := jaccNC_sound hs hcall
  exact joined_motion_iff hA hR hJ hcpl h h0 hm h1 h2

/-- C63 (negation: accelerating base).  For every robot: if the base is to accelerate, the robot never moves as planned, whatever the
contact forces, and whatever the task: the torque of the free joints ignores their inertia under the base acceleration. -/
theorem C63_accelerating_base_fails (hA : IsSPD A) (hR : R * Rᵀ = 1) (hJ : jInc SI R (baseNc A) = some J)
    (hcpl : ∀ (i : Fin k) (j : ν), A (.inr (.inl i)) (.inr (.inr j)) = 0) (h : reduce vcOf ncOf A⁻¹ J G = some D)
    (h0 : ∀ r j, Jc r (ncOf j) = 0) (hs : solve.Sound) {a : RSys (Fin k) (Fin 6) → ℝ} {b : Fin 6} (hb : a (.inl b) ≠ 0)
    {base : Vec3} {j : ℕ} {Jt : Matrix (Fin 6) (RSys (Fin k) ν) ℝ} {f : Fin 6 → ℝ}
    {pos : Vec3} {q0 o0} {e : Fin 6 → ℝ} {o : NCAnswer ν}
    (hcall : jaccNC (ncRobot A G D base) solve j ⟨6, Jt, f, pos, q0, o0⟩ (flatAcc a) = some (true, ⟨6, Jt, f, pos, some e, some o⟩))
    {τR : Fin k ⊕ Fin 6 → ℝ} {qdd : RSys (Fin k) ν → ℝ} {F : Fin c → ℝ} (hM : Motion A Jc G (joinedTorque τR o.torque) qdd F) :
    qdd ≠ joined a o.acc := by
  rintro rfl
  exact hb (joined_base hA hR hJ hcpl h h0 (jaccNC_sound hs hcall).1 hM b)

/-- C63 (task).  When the base does not accelerate and the planned motion happens, the link, moved by joints outside the contact chains,
gets the commanded acceleration plus the reported deviation exactly when the commanded angular acceleration is parallel to the
vector from the base to the link. -/
theorem C63_task_iff (hs : solve.Sound) {a : RSys (Fin k) (Fin 6) → ℝ} (ha : ∀ b, a (.inl b) = 0)
    {base : Vec3} {j : ℕ} {Jt : Matrix (Fin 6) (RSys (Fin k) ν) ℝ} (hJt : ∀ r i, Jt r (.inr (.inl i)) = 0) {f : Fin 6 → ℝ}
    {pos : Vec3} {q0 o0} {e : Fin 6 → ℝ} {o : NCAnswer ν}
    (hcall : jaccNC (ncRobot A G D base) solve j ⟨6, Jt, f, pos, q0, o0⟩ (flatAcc a) = some (true, ⟨6, Jt, f, pos, some e, some o⟩)) :
    Jt *ᵥ joined a o.acc = f + e ↔ crossProduct (pos - base) (mpart f) = 0 := by
  obtain ⟨-, -, h3⟩ := jaccNC_sound hs hcall
  have e0 : (fun b => a (.inl b)) = 0 := funext ha
  rw [e0, sub_zero] at h3
  have e1 : Jt *ᵥ joined a o.acc = Jt.submatrix id ncOf *ᵥ o.acc := by
    ext r
    simp only [mulVec, dotProduct, Fintype.sum_sum_type, joined, Sum.elim_inl, Sum.elim_inr, ha, hJt, mul_zero, zero_mul,
      Finset.sum_const_zero, zero_add]
    rfl
  rw [e1, h3, add_left_inj, six_ext]
  obtain ⟨s1, s2⟩ := ncShift_mulVec (pos - base) f
  rw [s1, s2, add_eq_left]
  simp

/-- C63 (no deviation).  With exact answers nothing deviates exactly when some motion of the free joints meets both the plan and the
command as the QP reads it. -/
theorem C63_no_deviation_iff (hs : solve.Exact) {a : RSys (Fin k) (Fin 6) → ℝ}
    {base : Vec3} {j : ℕ} {Jt : Matrix (Fin 6) (RSys (Fin k) ν) ℝ} {f : Fin 6 → ℝ}
    {pos : Vec3} {q0 o0} {e : Fin 6 → ℝ} {o : NCAnswer ν}
    (hcall : jaccNC (ncRobot A G D base) solve j ⟨6, Jt, f, pos, q0, o0⟩ (flatAcc a) = some (true, ⟨6, Jt, f, pos, some e, some o⟩)) :
    (o.gacc = 0 ∧ e = 0) ↔ ∃ q, D.J *ᵥ q = (fun s => a (ncOf s)) ∧
      Jt.submatrix id ncOf *ᵥ q = ncShift (pos - base) *ᵥ (f - fun b => a (.inl b)) := by
  constructor
  · rintro ⟨h1, h2⟩
    obtain ⟨-, h3, h4⟩ := jaccNC_sound (fun i V Row _ d x hx => (hs i V Row d x hx).1) hcall
    rw [h1, add_zero] at h3
    rw [h2, add_zero] at h4
    exact ⟨o.acc, h3, h4⟩
  · rintro ⟨q, h1, h2⟩
    obtain ⟨x, hx, -, -, e3, e4⟩ := jaccNC_six hcall
    obtain ⟨z1, z2⟩ := jaccNCQP_exact (hs _ _ _ _ _ hx) q h1 h2
    exact ⟨e3.trans z1, e4.trans z2⟩

/-- C63 (negation: priority).  For every robot and every task with independent rows on the free joints, with exact answers: the answer
keeps to the plan exactly when it meets the command exactly.  A command that is not compatible with the plan therefore always
disturbs the planned motion, although the plan has the higher priority. -/
theorem C63_plan_kept_iff (hA : IsSPD A) (hR : R * Rᵀ = 1) (hJ : jInc SI R (baseNc A) = some J)
    (hcpl : ∀ (i : Fin k) (j : ν), A (.inr (.inl i)) (.inr (.inr j)) = 0) (h : reduce vcOf ncOf A⁻¹ J G = some D)
    (hs : solve.Exact) {a : RSys (Fin k) (Fin 6) → ℝ}
    {base : Vec3} {j : ℕ} {Jt : Matrix (Fin 6) (RSys (Fin k) ν) ℝ} (hJt : ∀ y, (Jt.submatrix id ncOf)ᵀ *ᵥ y = 0 → y = 0) {f : Fin 6 → ℝ}
    {pos : Vec3} {q0 o0} {e : Fin 6 → ℝ} {o : NCAnswer ν}
    (hcall : jaccNC (ncRobot A G D base) solve j ⟨6, Jt, f, pos, q0, o0⟩ (flatAcc a) = some (true, ⟨6, Jt, f, pos, some e, some o⟩)) :
    (o.gacc = 0 ↔ e = 0) ∧ (o.gacc = 0 ↔ ∃ q, D.J *ᵥ q = (fun s => a (ncOf s)) ∧
      Jt.submatrix id ncOf *ᵥ q = ncShift (pos - base) *ᵥ (f - fun b => a (.inl b))) := by
  have key : o.gacc = 0 ↔ e = 0 := by
    obtain ⟨x, hx, -, -, e3, e4⟩ := jaccNC_six hcall
    have hb := jaccNCQP_balance (hs _ _ _ _ _ hx)
    rw [← e3, ← e4] at hb
    have hb : D.Jᵀ *ᵥ o.gacc + (5 : ℝ) • ((Jt.submatrix id ncOf)ᵀ *ᵥ e) = 0 := hb
    constructor
    · intro hz
      rw [hz, mulVec_zero, zero_add, smul_eq_zero] at hb
      exact hJt _ (hb.resolve_left (by norm_num))
    · intro hz
      rw [hz, mulVec_zero, smul_zero, add_zero] at hb
      have h1 := congrArg (D.JinvT *ᵥ ·) hb
      have h2 : D.JinvT * D.Jᵀ = 1 := by
        have := congrArg transpose (J_mul_JinvT hA hR hJ hcpl h)
        rwa [transpose_mul, transpose_transpose, transpose_one] at this
      simpa [mulVec_mulVec, h2] using h1
  refine ⟨key, ?_⟩
  rw [← C63_no_deviation_iff hs hcall]
  exact ⟨fun hz => ⟨hz, key.mp hz⟩, fun hz => hz.1⟩

/-- C63 (partial).  The base is not to accelerate, the commanded angular acceleration is parallel to the vector from base to link,
and some motion of the free joints is compatible with both plan and command.  Then with exact answers the robot moves as planned,
with the planned contact forces, and the link gets exactly the commanded acceleration. -/
theorem C63_follows_partial (hA : IsSPD A) (hR : R * Rᵀ = 1) (hJ : jInc SI R (baseNc A) = some J)
    (hcpl : ∀ (i : Fin k) (j : ν), A (.inr (.inl i)) (.inr (.inr j)) = 0) (h : reduce vcOf ncOf A⁻¹ J G = some D)
    (h0 : ∀ r j, Jc r (ncOf j) = 0) (hs : solve.Exact) {τR : Fin k ⊕ Fin 6 → ℝ} {a : RSys (Fin k) (Fin 6) → ℝ} {F : Fin c → ℝ}
    (hm : Motion D.AR (jCR Jc) D.GR τR a F) (ha : ∀ b, a (.inl b) = 0) {base : Vec3} {j : ℕ}
    {Jt : Matrix (Fin 6) (RSys (Fin k) ν) ℝ} (hJt : ∀ r i, Jt r (.inr (.inl i)) = 0) {f : Fin 6 → ℝ} {pos : Vec3}
    (hf : crossProduct (pos - base) (mpart f) = 0) (hq : ∃ q, D.J *ᵥ q = (fun s => a (ncOf s)) ∧ Jt *ᵥ joined a q = f)
    {q0 o0} {e : Fin 6 → ℝ} {o : NCAnswer ν}
    (hcall : jaccNC (ncRobot A G D base) solve j ⟨6, Jt, f, pos, q0, o0⟩ (flatAcc a) = some (true, ⟨6, Jt, f, pos, some e, some o⟩)) :
    Motion A Jc G (joinedTorque τR o.torque) (joined a o.acc) F ∧
      ∀ qdd F', Motion A Jc G (joinedTorque τR o.torque) qdd F' → Jt *ᵥ qdd = f ∧ ∀ i, qdd (vcOf i) = a (vcOf i) := by
  have hsound : solve.Sound := fun i V Row _ d x hx => (hs i V Row d x hx).1
  have e0 : (fun b => a (.inl b)) = 0 := funext ha
  obtain ⟨q, hq1, hq2⟩ := hq
  have e1 : ∀ q, Jt *ᵥ joined a q = Jt.submatrix id ncOf *ᵥ q := fun q => by
    ext r
    simp only [mulVec, dotProduct, Fintype.sum_sum_type, joined, Sum.elim_inl, Sum.elim_inr, ha, hJt, mul_zero, zero_mul,
      Finset.sum_const_zero, zero_add]
    rfl
  have es : ncShift (pos - base) *ᵥ (f - fun b => a (.inl b)) = f := by
    rw [e0, sub_zero, six_ext]
    obtain ⟨s1, s2⟩ := ncShift_mulVec (pos - base) f
    exact ⟨by rw [s1, hf, add_zero], s2⟩
  obtain ⟨g1, g2⟩ := (C63_no_deviation_iff hs hcall).mpr ⟨q, hq1, by rw [← e1, hq2, es]⟩
  have hM := (C63_motion_iff hA hR hJ hcpl h h0 hsound hm hcall).mpr ⟨ha, g1⟩
  refine ⟨hM, fun qdd F' hM' => ?_⟩
  obtain ⟨rfl, -⟩ := motion_unique hA hM' hM
  refine ⟨?_, fun i => by rcases i with i | i <;> rfl⟩
  have := (C63_task_iff hsound ha hJt hcall).mpr hf
  rw [this, g2, add_zero]

/-- C63 (the command).  The base rows of the link's Jacobian are those of a rigid body: a base acceleration `(v, ω)`, `ω` in base
coordinates, moves the link with `v + (R ω) × r` and `R ω`.  The right-hand side used by the QP is then the commanded acceleration
less the part due to the base exactly when `R ω = ω` and `r × (f_ω - 2 ω) = 0`. -/
theorem C63_command_iff (R : Mat3) (r : Vec3) (f v : Fin 6 → ℝ) :
    (fpart (ncShift r *ᵥ (f - v)) = fpart f - (fpart v + crossProduct (R *ᵥ mpart v) r) ∧
      mpart (ncShift r *ᵥ (f - v)) = mpart f - R *ᵥ mpart v) ↔
      R *ᵥ mpart v = mpart v ∧ crossProduct r (mpart f - (2 : ℝ) • mpart v) = 0 := by
  obtain ⟨s1, s2⟩ := ncShift_mulVec r (f - v)
  have l1 : fpart (f - v) = fpart f - fpart v := by ext i; fin_cases i <;> rfl
  have l2 : mpart (f - v) = mpart f - mpart v := by ext i; fin_cases i <;> rfl
  rw [s1, s2, l1, l2]
  have hx : crossProduct (R *ᵥ mpart v) r = -crossProduct r (R *ᵥ mpart v) := (cross_anticomm r (R *ᵥ mpart v)).symm
  have key : crossProduct r (mpart f - (2 : ℝ) • mpart v) = crossProduct r (mpart f - mpart v) - crossProduct r (mpart v) := by
    rw [map_sub, map_sub, map_smul]
    module
  rw [key, hx]
  constructor
  · rintro ⟨h1, h2⟩
    have e2 : R *ᵥ mpart v = mpart v := (sub_right_inj.mp h2).symm
    refine ⟨e2, ?_⟩
    rw [e2] at h1
    rw [sub_eq_zero]
    have : fpart f - fpart v + crossProduct r (mpart f - mpart v) = fpart f - fpart v + crossProduct r (mpart v) := by
      rw [h1]; abel
    exact add_left_cancel this
  · rintro ⟨h1, h2⟩
    rw [h1]
    refine ⟨?_, rfl⟩
    rw [sub_eq_zero] at h2
    rw [h2]; abel

end General

/-! ## Examples -/
namespace FreeArm

/-- gravity that holds still the base of the example robot moving with `q` -/
noncomputable def G (q : RSys (Fin 6) (Fin 6) → ℝ) : RSys (Fin 6) (Fin 6) → ℝ := Sum.elim (fun b => -(exRed 6 *ᵥ q) (.inl b)) 0

theorem motion {q : RSys (Fin 6) (Fin 6) → ℝ} (hq : exFoot 6 *ᵥ q = 0) :
    Motion (exRed 6) (exFoot 6) (G q) (fun j => (exRed 6 *ᵥ q) (.inr j)) q 0 := by
  constructor
  · unfold Dynamics
    rw [mulVec_zero]
    ext i
    rcases i with i | i <;> simp [actuate, G]
  · exact hq

theorem jr {G : RSys (Fin 6) (Fin 6) → ℝ} {D : Reduced (Fin 6) (Fin 6)} (h : reduce vcOf ncOf (exRed 6)⁻¹ 1 G = some D) : D.JR = 1 := by
  rw [(reduce_eq_some h).2.1, jR_eq, blk_one]

theorem low {q : RSys (Fin 6) (Fin 6) → ℝ} (hq : exFoot 6 *ᵥ q = 0) {D : Reduced (Fin 6) (Fin 6)}
    (h : reduce vcOf ncOf (exRed 6)⁻¹ 1 (G q) = some D) : ∃ τR, Motion D.AR (jCR (exFoot 6)) D.GR τR q 0 := by
  have := motion_low exRed_spd (by simp) exRed_jInc exRed_coupling h (fun _ _ => rfl) (motion hq)
  rw [jr h, one_mulVec] at this
  exact ⟨_, this⟩

/-- the hand is at the base and moves with it and with the arm -/
def Jt : Matrix (Fin 6) (RSys (Fin 6) (Fin 6)) ℝ := exE 6

theorem Jt_nc : Jt.submatrix id (ncOf (κ := Fin 6)) = 1 := by
  ext r s
  simp [Jt, exE, ncOf, Matrix.one_apply]

theorem Jt_chain (r i : Fin 6) : Jt r (.inr (.inl i)) = 0 := rfl

/-- the arm moves -/
def moves : RSys (Fin 6) (Fin 6) → ℝ := Sum.elim 0 (Sum.elim 0 (Pi.single 0 1))
/-- the base moves on the fixed foot -/
def sways : RSys (Fin 6) (Fin 6) → ℝ := Sum.elim (Pi.single 0 1) (Sum.elim (-Pi.single 0 1) 0)

theorem moves_fixed : exFoot 6 *ᵥ moves = 0 := by
  rw [exFoot_mulVec]; ext s; simp [moves]

theorem sways_fixed : exFoot 6 *ᵥ sways = 0 := by
  rw [exFoot_mulVec]; ext s; simp [sways]

theorem anySolver_ok : Answers anySolver := anySolver_answers

/-- the free-joint QP of the example has an exact solution -/
theorem best (Gv : RSys (Fin 6) (Fin 6) → ℝ) {D : Reduced (Fin 6) (Fin 6)} (h : reduce vcOf ncOf (exRed 6)⁻¹ 1 Gv = some D) (g f : Fin 6 → ℝ) :
    ∃ x, (jaccNCQP (ncRobot (exRed 6) Gv D 0) 6 (1 : Matrix (Fin 6) (Fin 6) ℝ) g f).IsSolution x := by
  have hJ : D.J = 1 := (reduce_eq_some h).2.2.2.1
  set q : Fin 6 → ℝ := (1 / 6 : ℝ) • (g + (5 : ℝ) • f) with hq
  refine ⟨Sum.elim q (Sum.elim ((ncRobot (exRed 6) Gv D 0).A *ᵥ q + (ncRobot (exRed 6) Gv D 0).G) (Sum.elim (q - g) (q - f))), ?_, ?_⟩
  · refine (jaccNCQP_feasible _ _ _ _ _ _).mpr ⟨rfl, ?_, ?_⟩
    · show D.J *ᵥ q = g + (q - g)
      rw [hJ, one_mulVec]; abel
    · show (1 : Matrix (Fin 6) (Fin 6) ℝ) *ᵥ q = f + (q - f)
      rw [one_mulVec]; abel
  · intro y hy
    obtain ⟨-, h2, h3⟩ := (jaccNCQP_feasible _ _ _ _ _ _).mp hy
    have h2 : D.J *ᵥ (fun i => y (.inl i)) = g + fun s => y (.inr (.inr (.inl s))) := h2
    rw [hJ, one_mulVec] at h2
    rw [one_mulVec] at h3
    rw [jaccNCQP_cost, jaccNCQP_cost]
    show (1 / 2) * ∑ s, (q s - g s) ^ 2 + (5 / 2) * ∑ s, (q s - f s) ^ 2 ≤ _
    rw [Finset.mul_sum, Finset.mul_sum, Finset.mul_sum, Finset.mul_sum, ← Finset.sum_add_distrib, ← Finset.sum_add_distrib]
    refine Finset.sum_le_sum fun s _ => ?_
    have a1 := congrFun h2 s
    have a2 := congrFun h3 s
    simp only [Pi.add_apply] at a1 a2
    have e1 : y (.inr (.inr (.inl s))) = y (.inl s) - g s := by linarith
    have e2 : y (.inr (.inr (.inr s))) = y (.inl s) - f s := by linarith
    rw [e1, e2]
    have e3 : q s = (g s + 5 * f s) / 6 := by simp [hq]; ring
    rw [e3]
    nlinarith [sq_nonneg (6 * y (.inl s) - (g s + 5 * f s))]

theorem call (Gv : RSys (Fin 6) (Fin 6) → ℝ) {D : Reduced (Fin 6) (Fin 6)} (h : reduce vcOf ncOf (exRed 6)⁻¹ 1 Gv = some D)
    (a : RSys (Fin 6) (Fin 6) → ℝ) (f : Fin 6 → ℝ) :
    ∃ e o, jaccNC (ncRobot (exRed 6) Gv D 0) bestSolver 1 ⟨6, Jt, f, 0, none, none⟩ (flatAcc a)
      = some (true, ⟨6, Jt, f, 0, some e, some o⟩) := by
  have hx : ∃ x, bestSolver 1 _ _ (jaccNCQP (ncRobot (exRed 6) Gv D 0) 6 (Jt.submatrix id ncOf) (fun s => a (ncOf s))
      (ncShift (0 - 0) *ᵥ (f - fun b => a (.inl b)))) = some x := by
    unfold bestSolver
    rw [Jt_nc, dif_pos (best Gv h _ _)]
    exact ⟨_, rfl⟩
  obtain ⟨x, hx⟩ := hx
  refine ⟨fun s => x (.inr (.inr (.inr s))), ⟨fun i => x (.inl i), fun i => x (.inr (.inl i)), fun s => x (.inr (.inr (.inl s)))⟩, ?_⟩
  simp only [jaccNC, flatAcc, dite_true, Fin.cast_eq_self, Function.comp_apply, Equiv.symm_apply_apply]
  have hx' : bestSolver 1 _ _ (jaccNCQP (ncRobot (exRed 6) Gv D 0) 6 (Jt.submatrix id ncOf) (fun s => a (ncOf s))
      (ncShift (0 - (ncRobot (exRed 6) Gv D 0).base) *ᵥ (f - fun b => a (.inl b)))) = some x := hx
  simp only [hx']
  rfl

end FreeArm

/-- hypotheses of `C63_follows_partial` (and of `C63_motion_iff`, `C63_task_iff`, `C63_no_deviation_iff`, `C63_plan_kept_iff`) -/
example : ∃ D τR e o, reduce vcOf ncOf (exRed 6)⁻¹ 1 (FreeArm.G FreeArm.moves) = some D ∧
    Motion D.AR (jCR (exFoot 6)) D.GR τR FreeArm.moves (0 : Fin 6 → ℝ) ∧ (∀ b, FreeArm.moves (.inl b) = 0) ∧
    jaccNC (ncRobot (exRed 6) (FreeArm.G FreeArm.moves) D 0) bestSolver 1 ⟨6, FreeArm.Jt, Pi.single 0 1, 0, none, none⟩
      (flatAcc FreeArm.moves) = some (true, ⟨6, FreeArm.Jt, Pi.single 0 1, 0, some e, some o⟩) ∧
    Motion (exRed 6) (exFoot 6) (FreeArm.G FreeArm.moves) (joinedTorque τR o.torque) (joined FreeArm.moves o.acc) (0 : Fin 6 → ℝ) ∧
    FreeArm.Jt *ᵥ joined FreeArm.moves o.acc = Pi.single 0 1 := by
  obtain ⟨D, hD⟩ := exRed_reduce (k := 6) (FreeArm.G FreeArm.moves)
  obtain ⟨τR, hτ⟩ := FreeArm.low FreeArm.moves_fixed hD
  obtain ⟨e, o, ho⟩ := FreeArm.call _ hD FreeArm.moves (Pi.single 0 1)
  have hJ : D.J = 1 := (reduce_eq_some hD).2.2.2.1
  have h1 := C63_follows_partial exRed_spd (by simp) exRed_jInc exRed_coupling hD (fun _ _ => rfl) bestSolver_exact hτ (fun _ => rfl)
    FreeArm.Jt_chain (by simp) ⟨Pi.single 0 1, by rw [hJ, one_mulVec]; rfl, by
      ext r
      simp [mulVec, dotProduct, Fintype.sum_sum_type, FreeArm.Jt, exE, joined, FreeArm.moves]⟩ ho
  exact ⟨D, τR, e, o, hD, hτ, fun _ => rfl, ho, h1.1, (h1.2 _ _ h1.1).1⟩

/-- hypotheses of `C63_accelerating_base_fails`: the planned motion of a swaying base exists -/
example : ∃ D τR e o, reduce vcOf ncOf (exRed 6)⁻¹ 1 (FreeArm.G FreeArm.sways) = some D ∧
    Motion D.AR (jCR (exFoot 6)) D.GR τR FreeArm.sways (0 : Fin 6 → ℝ) ∧ FreeArm.sways (.inl 0) ≠ 0 ∧
    jaccNC (ncRobot (exRed 6) (FreeArm.G FreeArm.sways) D 0) bestSolver 1 ⟨6, FreeArm.Jt, Pi.single 0 1, 0, none, none⟩
      (flatAcc FreeArm.sways) = some (true, ⟨6, FreeArm.Jt, Pi.single 0 1, 0, some e, some o⟩) ∧
    ¬ Motion (exRed 6) (exFoot 6) (FreeArm.G FreeArm.sways) (joinedTorque τR o.torque) (joined FreeArm.sways o.acc) (0 : Fin 6 → ℝ) := by
  obtain ⟨D, hD⟩ := exRed_reduce (k := 6) (FreeArm.G FreeArm.sways)
  obtain ⟨τR, hτ⟩ := FreeArm.low FreeArm.sways_fixed hD
  obtain ⟨e, o, ho⟩ := FreeArm.call _ hD FreeArm.sways (Pi.single 0 1)
  have hb : FreeArm.sways (.inl 0) ≠ 0 := by simp [FreeArm.sways]
  exact ⟨D, τR, e, o, hD, hτ, hb, ho, fun hM => C63_accelerating_base_fails exRed_spd (by simp) exRed_jInc exRed_coupling hD
    (fun _ _ => rfl) (fun i V Row _ d x hx => (bestSolver_exact i V Row d x hx).1) hb ho hM rfl⟩

/-- C63 (negation, priority, concrete).  The robot is to stand still; a hand task asks for a unit acceleration.  Every exact answer
makes the robot leave the planned rest, so the foot no longer stays put under the planned forces. -/
theorem C63_task_disturbs_rest {solve : JSolver} (hs : solve.Exact) {D : Reduced (Fin 6) (Fin 6)}
    (hD : reduce vcOf ncOf (exRed 6)⁻¹ 1 (FreeArm.G 0) = some D) {τR : Fin 6 ⊕ Fin 6 → ℝ} {F : Fin 6 → ℝ}
    (hm : Motion D.AR (jCR (exFoot 6)) D.GR τR 0 F) {q0 o0} {e : Fin 6 → ℝ} {o : NCAnswer (Fin 6)}
    (hcall : jaccNC (ncRobot (exRed 6) (FreeArm.G 0) D 0) solve 1 ⟨6, FreeArm.Jt, Pi.single 0 1, 0, q0, o0⟩ (flatAcc (k := 6) 0)
      = some (true, ⟨6, FreeArm.Jt, Pi.single 0 1, 0, some e, some o⟩)) :
    ¬ Motion (exRed 6) (exFoot 6) (FreeArm.G 0) (joinedTorque τR o.torque) (joined 0 o.acc) F := by
  intro hM
  have hJ : D.J = 1 := (reduce_eq_some hD).2.2.2.1
  have h1 := ((C63_motion_iff exRed_spd (by simp) exRed_jInc exRed_coupling hD (fun _ _ => rfl)
    (fun i V Row _ d x hx => (hs i V Row d x hx).1) hm hcall).mp hM).2
  have hJt : ∀ y, (FreeArm.Jt.submatrix id (ncOf (κ := Fin 6)))ᵀ *ᵥ y = 0 → y = 0 := by
    rw [FreeArm.Jt_nc]
    intro y hy
    simpa using hy
  obtain ⟨q, hq1, hq2⟩ := (C63_plan_kept_iff exRed_spd (by simp) exRed_jInc exRed_coupling hD hs hJt hcall).2.mp h1
  rw [hJ, one_mulVec] at hq1
  rw [FreeArm.Jt_nc, one_mulVec, hq1] at hq2
  have hm := (ncShift_mulVec (0 - 0) ((Pi.single 0 1 : Fin 6 → ℝ) - fun b => (0 : RSys (Fin 6) (Fin 6) → ℝ) (.inl b))).1
  rw [← hq2] at hm
  have := congrFun hm 0
  simp [fpart] at this

/-- hypotheses of `C63_task_disturbs_rest` -/
example : ∃ D τR e o, reduce vcOf ncOf (exRed 6)⁻¹ 1 (FreeArm.G 0) = some D ∧
    Motion D.AR (jCR (exFoot 6)) D.GR τR 0 (0 : Fin 6 → ℝ) ∧
    jaccNC (ncRobot (exRed 6) (FreeArm.G 0) D 0) bestSolver 1 ⟨6, FreeArm.Jt, Pi.single 0 1, 0, none, none⟩
      (flatAcc (k := 6) 0) = some (true, ⟨6, FreeArm.Jt, Pi.single 0 1, 0, some e, some o⟩) := by
  obtain ⟨D, hD⟩ := exRed_reduce (k := 6) (FreeArm.G 0)
  obtain ⟨τR, hτ⟩ := FreeArm.low (q := 0) (by simp) hD
  obtain ⟨e, o, ho⟩ := FreeArm.call _ hD 0 (Pi.single 0 1)
  exact ⟨D, τR, e, o, hD, hτ, ho⟩

/-- C63 (negation, torque).  The arm needs a torque of 1000 to hang still; the function builds bounds of ±100 on these torques but
returns 1000, and reports success. -/
theorem C63_arm_torque_unbounded {solve : JSolver} (hs : solve.Exact) {D : Reduced (Fin 6) (Fin 6)}
    (hD : reduce vcOf ncOf (exRed 6)⁻¹ 1 HeavyArm.G = some D) {q0 o0} {e : Fin 6 → ℝ} {o : NCAnswer (Fin 6)}
    (hcall : jaccNC (ncRobot (exRed 6) HeavyArm.G D 0) solve 1 ⟨6, FreeArm.Jt, 0, 0, q0, o0⟩ (flatAcc (k := 6) 0)
      = some (true, ⟨6, FreeArm.Jt, 0, 0, some e, some o⟩)) : o.torque 0 = 1000 := by
  have hJ : D.J = 1 := (reduce_eq_some hD).2.2.2.1
  obtain ⟨g1, -⟩ := (C63_no_deviation_iff hs hcall).mpr ⟨0, by rw [mulVec_zero]; rfl, by
    rw [mulVec_zero, show ((0 : Fin 6 → ℝ) - fun b => (0 : RSys (Fin 6) (Fin 6) → ℝ) (.inl b)) = 0 from sub_self _, mulVec_zero]⟩
  obtain ⟨h1, h2, -⟩ := jaccNC_sound (fun i V Row _ d x hx => (hs i V Row d x hx).1) hcall
  rw [g1, add_zero, hJ, one_mulVec] at h2
  rw [h2, show (fun s => (0 : RSys (Fin 6) (Fin 6) → ℝ) (ncOf s)) = 0 from rfl, mulVec_zero, zero_add] at h1
  rw [← h1]
  simp [HeavyArm.G, ncOf]

example : ∃ D e o, reduce vcOf ncOf (exRed 6)⁻¹ 1 HeavyArm.G = some D ∧
    jaccNC (ncRobot (exRed 6) HeavyArm.G D 0) bestSolver 1 ⟨6, FreeArm.Jt, 0, 0, none, none⟩ (flatAcc (k := 6) 0)
      = some (true, ⟨6, FreeArm.Jt, 0, 0, some e, some o⟩) := by
  obtain ⟨D, hD⟩ := exRed_reduce (k := 6) HeavyArm.G
  obtain ⟨e, o, ho⟩ := FreeArm.call _ hD 0 0
  exact ⟨D, e, o, hD, ho⟩

/-- `C63_always_succeeds` -/
example : Answers anySolver := FreeArm.anySolver_ok

/-- `C63_command_iff`: a turning base, a link one metre ahead: the command is misread -/
example : crossProduct (![1, 0, 0] : Vec3) (mpart 0 - (2 : ℝ) • mpart (![0, 0, 0, 0, 0, 1] : Fin 6 → ℝ)) ≠ 0 := by
  intro h
  have := congrFun h 1
  simp [crossProduct, mpart] at this

end Verif.Props
