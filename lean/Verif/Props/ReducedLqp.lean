import Verif.Lemmas.ReducedLqp
import Verif.Props.ReducedJaccNC

/-!
# C64: the hierarchical controller on the reduced model
-/
set_option linter.unusedSectionVars false

namespace Verif.Props
open Matrix Verif Verif.Spec Verif.Model

section General
variable {ν : Type} [Fintype ν] [DecidableEq ν] {k c m : ℕ}
variable {A : Matrix (RSys (Fin k) ν) (RSys (Fin k) ν) ℝ} {J : Matrix (Fin 6) ν ℝ} {G : RSys (Fin k) ν → ℝ} {D : Reduced (Fin k) ν}
  {Jc : Matrix (Fin c) (RSys (Fin k) ν) ℝ} {C : Matrix (Fin m) (Fin c) ℝ} {SI : Mat6} {R : Mat3} {osqp : Osqp} {N : NullSpaceFn}
  {ts : List (RLTask k ν)}

/-! ## The reduced part -/

/-- The tasks that take part. -/
def chainTasks (ts : List (RLTask k ν)) : List (RLTask k ν) := ts.filter fun T => !T.noncont

theorem rlqpTasks_late {i n : ℕ} (hn : n < 2 + i) (ts : List (RLTask k ν)) :
    (rlqpTasks D i n ts = none ↔ ∃ T ∈ ts, T.noncont = false) ∧ ∀ L, rlqpTasks D i n ts = some L → L = [] := by
  induction ts generalizing i with
  | nil => simp [rlqpTasks]
  | cons T ts ih =>
    obtain ⟨h1, h2⟩ := ih (i := i + 1) (by omega)
    unfold rlqpTasks
    cases hT : T.noncont
    · have : ¬ 2 + i < n + 1 := by omega
      simp [this, hT]
    · simp only [if_true]
      exact ⟨by simp [h1, hT], h2⟩

theorem rlqpTasks_early (i : ℕ) (ts : List (RLTask k ν)) :
    (rlqpTasks D i (2 + i) ts = none ↔ ¬ ts.Pairwise fun T U => T.noncont = true → U.noncont = true) ∧
      ∀ L, rlqpTasks D i (2 + i) ts = some L → L = (chainTasks ts).map (rlqpLow D) := by
  induction ts generalizing i with
  | nil => simp [rlqpTasks, chainTasks]
  | cons T ts ih =>
    unfold rlqpTasks
    cases hT : T.noncont
    · obtain ⟨h1, h2⟩ := ih (i + 1)
      have e : 2 + i + 1 = 2 + (i + 1) := by omega
      have : 2 + i < 2 + (i + 1) := by omega
      simp only [Bool.false_eq_true, if_false, e, this, if_true]
      constructor
      · rw [Option.map_eq_none_iff, h1, List.pairwise_cons]
        simp [hT]
      · intro L hL
        obtain ⟨L', hL', rfl⟩ := Option.map_eq_some_iff.mp hL
        rw [h2 _ hL']
        simp [chainTasks, hT]
    · obtain ⟨h1, h2⟩ := rlqpTasks_late (D := D) (i := i + 1) (n := 2 + i) (by omega) ts
      simp only [if_true]
      constructor
      · rw [h1, List.pairwise_cons]
        simp only [hT, forall_const, not_and_or, not_forall, Bool.not_eq_true]
        constructor
        · rintro ⟨T, h, h'⟩
          exact .inl ⟨T, h, h'⟩
        · rintro (⟨T, h, h'⟩ | h)
          · exact ⟨T, h, h'⟩
          · by_contra hno
            push Not at hno
            exact h (List.pairwise_iff_getElem.mpr fun x y hx hy _ _ => by simpa using hno _ (List.getElem_mem hy))
      · intro L hL
        have hno : ∀ T ∈ ts, T.noncont = true := by
          intro T hT
          by_contra hh
          have := h1.mpr ⟨T, hT, by simpa using hh⟩
          rw [this] at hL
          cases hL
        rw [h2 _ hL]
        have : chainTasks (T :: ts) = [] := by
          simp only [chainTasks, List.filter_eq_nil_iff]
          intro U hU
          rcases List.mem_cons.mp hU with rfl | hU
          · simp [hT]
          · simp [hno U hU]
        rw [this]; rfl

/-- **C64 (order of the tasks).**  Configuring the reduced controller is undefined exactly when some task of the free joints comes
before a task of the contact chains. -/
theorem C64_undefined_iff :
    calcControlTorqueLQPR osqp N A D Jc C ts = none ↔
      ∃ (i j : ℕ) (T U : RLTask k ν), i < j ∧ ts[i]? = some T ∧ ts[j]? = some U ∧ T.noncont = true ∧ U.noncont = false := by
  rw [calcControlTorqueLQPR, Option.map_eq_none_iff, (rlqpTasks_early 0 ts).1, List.pairwise_iff_getElem]
  constructor
  · intro h
    push Not at h
    obtain ⟨i, j, hi, hj, hij, h1, h2⟩ := h
    exact ⟨i, j, ts[i], ts[j], hij, List.getElem?_eq_getElem hi, List.getElem?_eq_getElem hj, h1, by simpa using h2⟩
  · rintro ⟨i, j, T, U, hij, hi, hj, h1, h2⟩ h
    obtain ⟨hi', rfl⟩ := List.getElem?_eq_some_iff.mp hi
    obtain ⟨hj', rfl⟩ := List.getElem?_eq_some_iff.mp hj
    have := h i j hi' hj' hij h1
    rw [h2] at this
    cases this

theorem rlqp_eq {L : List (LevelAnswer (LqpVar (Fin k ⊕ Fin 6) c))} (h : calcControlTorqueLQPR osqp N A D Jc C ts = some L) :
    L = lqpRun osqp N (rlqpConf A D Jc C ((chainTasks ts).map (rlqpLow D))) := by
  obtain ⟨low, h1, rfl⟩ := Option.map_eq_some_iff.mp h
  rw [(rlqpTasks_early 0 ts).2 _ h1]

theorem rlqp_lim_nonneg (i : Fin k ⊕ Fin 6) : 0 ≤ rlqpLim i := by
  rcases i with i | i
  · show (0 : ℝ) ≤ 200; norm_num
  · show (0 : ℝ) ≤ if i = 2 then 600 else 200
    split_ifs <;> norm_num

theorem AR_spd (h : reduce vcOf ncOf A⁻¹ J G = some D) : IsSPD D.AR ∧ D.AR * D.ARinv = 1 := by
  obtain ⟨hS, -, e2, -, e4, -⟩ := reduce_eq_some h
  rw [e4, e2]
  exact ⟨hS.inv, nonsing_inv_mul _ hS.isUnit⟩

/-- **C64 (the reduced plan obeys the reduced dynamics).**  If the solver finds feasible points, every level's answer is an
acceleration and a contact force that obey the dynamics of the reduced model.  The torques of the contact-chain joints are within
200.  The six forces that stand for all other joints are within 200, the third within 600. -/
theorem C64_reduced_plan (hs : OsqpSound osqp) (hN : N.Correct) (h : reduce vcOf ncOf A⁻¹ J G = some D)
    {L : List (LevelAnswer (LqpVar (Fin k ⊕ Fin 6) c))} (hL : calcControlTorqueLQPR osqp N A D Jc C ts = some L) :
    L.length = (chainTasks ts).length + 2 ∧ ∀ r ∈ L, ∃ τR : Fin k ⊕ Fin 6 → ℝ,
      Dynamics D.AR (jCR Jc) D.GR τR (qddOf r.y) (forceOf r.y) ∧ (∀ i, |τR (.inl i)| ≤ 200) ∧
      (∀ s, s ≠ 2 → |τR (.inr s)| ≤ 200) ∧ |τR (.inr 2)| ≤ 600 := by
  obtain ⟨h1, h2⟩ := lqpRun_dynamics osqp hs N hN (rlqpConf A D Jc C ((chainTasks ts).map (rlqpLow D))) (AR_spd h).2 rlqp_lim_nonneg
  rw [← rlqp_eq hL] at h1 h2
  refine ⟨by rw [h1]; simp [rlqpConf], fun r hr => ?_⟩
  obtain ⟨d1, d2⟩ := h2 r hr
  refine ⟨fun i => demand (rlqpConf A D Jc C ((chainTasks ts).map (rlqpLow D))) r.y (.inr i), ?_, fun i => d2 (.inl i),
    fun s hs => ?_, ?_⟩
  · unfold Dynamics
    ext i
    rcases i with i | i
    · have := d1 i
      simp only [demand, rlqpConf, Pi.add_apply] at this
      simp only [Pi.add_apply, actuate, Sum.elim_inl, Pi.zero_apply]
      linarith
    · simp only [demand, rlqpConf, Pi.add_apply, actuate, Sum.elim_inr]
      ring
  · have := d2 (.inr s)
    simpa [rlqpConf, rlqpLim, hs] using this
  · have := d2 (.inr 2)
    simpa [rlqpConf, rlqpLim] using this

/-- **C64 (torques sent to the contact chains).** -/
theorem C64_chain_torque (hs : OsqpSound osqp) (hN : N.Correct) (h : reduce vcOf ncOf A⁻¹ J G = some D)
    {L : List (LevelAnswer (LqpVar (Fin k ⊕ Fin 6) c))} (hL : calcControlTorqueLQPR osqp N A D Jc C ts = some L)
    {r : LevelAnswer (LqpVar (Fin k ⊕ Fin 6) c)} (hr : r ∈ L) (Rb : NCRobot ν) (q : ν → ℝ) (i : Fin k) :
    |rlqpTorque D Jc Rb (qddOf r.y) (forceOf r.y) q (.inl i)| ≤ 200 := by
  obtain ⟨τ, hd, h1, -⟩ := (C64_reduced_plan hs hN h hL).2 r hr
  have e : rlqpTorque D Jc Rb (qddOf r.y) (forceOf r.y) q (.inl i) = τ (.inl i) := congrFun hd (.inr (.inl i))
  rw [e]; exact h1 i

/-- **C64 (what the reduced levels minimise).**  As for the full controller (C57), over the reduced model and the tasks of the
contact chains.  Missing: the miss alone is not minimised, and the torque bounds are not those of the robot's joints
(`C64_load_refused`). -/
theorem C64_levels_partial (hs : OsqpExact osqp) (hN : N.Correct) (h : reduce vcOf ncOf A⁻¹ J G = some D)
    {L : List (LevelAnswer (LqpVar (Fin k ⊕ Fin 6) c))} (hL : calcControlTorqueLQPR osqp N A D Jc C ts = some L) :
    let Q : LqpConf (Fin k ⊕ Fin 6) c m :=
      { M := D.AR, Minv := D.ARinv, h := D.GR, J := jCR Jc, C := C, lim := Sum.elim (fun _ => 200) fun s => if s = 2 then 600 else 200
        weight := 5 / Model.frobenius A, tasks := (chainTasks ts).map fun T => ⟨T.t, T.J * D.JRinvTᵀ, T.f⟩ }
    ∃ a b rs, L = a :: b :: rs ∧ rs.length = (chainTasks ts).length ∧
      (Moves Q b.y ∧ ∀ y', Moves Q y' → contactMiss Q b.y + energy Q b.y ≤ contactMiss Q y' + energy Q y') ∧
      ∀ j (r : LevelAnswer (LqpVar (Fin k ⊕ Fin 6) c)) T, rs[j]? = some r → (chainTasks ts)[j]? = some T →
        (Moves Q r.y ∧ KeepsContact Q b.y r.y ∧ KeepsTasks Q rs j r.y) ∧
        ∀ y', Moves Q y' → KeepsContact Q b.y y' → KeepsTasks Q rs j y' →
        taskMiss ⟨T.t, T.J * D.JRinvTᵀ, T.f⟩ r.y + energy Q r.y ≤ taskMiss ⟨T.t, T.J * D.JRinvTᵀ, T.f⟩ y' + energy Q y' := by
  intro Q
  obtain ⟨a, b, rs, h1, h2, h3, h4⟩ := lqp_levels osqp hs N hN Q (AR_spd h).1 (AR_spd h).2 rlqp_lim_nonneg
    (div_nonneg (by norm_num) (Real.sqrt_nonneg _))
  refine ⟨a, b, rs, (rlqp_eq hL).trans h1, by rw [h2]; simp [Q], h3, fun j r T hr hT => ?_⟩
  exact h4 j r _ hr (by simp [Q, List.getElem?_map, hT])

/-- **C64 (value of a task).**  Let the task depend on the free joints only through `J_I_nc_` (with `P = 0`: not at all).  If the free
joints reach the reduced acceleration up to `d`, the task acceleration differs from the planned one by `P d`. -/
theorem C64_task_value (hA : IsSPD A) (hR : R * Rᵀ = 1) (hJ : jInc SI R (baseNc A) = some J)
    (hcpl : ∀ (i : Fin k) (j : ν), A (.inr (.inl i)) (.inr (.inr j)) = 0) (h : reduce vcOf ncOf A⁻¹ J G = some D)
    (T : RLTask k ν) {P : Matrix (Fin T.t) (Fin 6) ℝ} (hP : T.J.submatrix id ncOf = P * D.J) {a : RSys (Fin k) (Fin 6) → ℝ}
    {q : ν → ℝ} {d : Fin 6 → ℝ} (hq : D.J *ᵥ q = (fun s => a (ncOf s)) + d) :
    T.J *ᵥ joined a q = (T.J * D.JRinvTᵀ) *ᵥ a + P *ᵥ d := by
  have hJJ := J_mul_JinvT hA hR hJ hcpl h
  obtain ⟨-, -, -, -, -, -, e6, -⟩ := reduce_eq_some h
  have sp : ∀ (r : Fin T.t) (x : RSys (Fin k) ν → ℝ), (T.J *ᵥ x) r = ∑ v, T.J r (vcOf v) * x (vcOf v) +
      (T.J.submatrix id ncOf *ᵥ fun j => x (ncOf j)) r := fun r x => by
    simp only [mulVec, dotProduct, Fintype.sum_sum_type, vcOf, ncOf, submatrix_apply, id]
    ring
  have e : ∀ r : Fin T.t, (T.J *ᵥ joined a q) r = ∑ v, T.J r (vcOf v) * a (vcOf v) + (T.J.submatrix id ncOf *ᵥ q) r := fun r => by
    have hjv : ∀ v, joined a q (vcOf v) = a (vcOf v) := fun v => by rcases v with v | v <;> rfl
    rw [sp]
    simp only [hjv]
    rfl
  have e2 : ∀ r, ((T.J * D.JRinvTᵀ) *ᵥ a) r = ∑ v, T.J r (vcOf v) * a (vcOf v) +
      ((T.J.submatrix id ncOf * D.JinvTᵀ) *ᵥ fun s => a (ncOf s)) r := fun r => by
    rw [e6, blk_transpose, ← mulVec_mulVec, sp, ← mulVec_mulVec]
    congr 1
    · refine Finset.sum_congr rfl fun v _ => ?_
      congr 1
      rcases v with v | v <;> simp [blk, mulVec, dotProduct, Fintype.sum_sum_type, Matrix.one_apply, vcOf]
    · congr 1
      congr 1
      ext j
      simp [blk, mulVec, dotProduct, Fintype.sum_sum_type, ncOf]
  ext r
  rw [e, Pi.add_apply, e2, hP, ← mulVec_mulVec, hq, mulVec_add, Pi.add_apply, Matrix.mul_assoc, hJJ, Matrix.mul_one]
  ring

/-! ## The free joints -/

/-- How far `q` is from the reduced acceleration `g`, and the free-joint torques from the bound 200. -/
noncomputable def planMiss (Rb : NCRobot ν) (g : Fin 6 → ℝ) (q : ν → ℝ) : ℝ :=
  ∑ s, ((Rb.J *ᵥ q) s - g s) ^ 2 + ∑ i, (max (|(Rb.A *ᵥ q + Rb.G) i| - 200) 0) ^ 2

/-- How far `q` is from the task, and from the acceleration bound 5. -/
noncomputable def freeMiss (Jt : Matrix (Fin 6) ν ℝ) (f : Fin 6 → ℝ) (q : ν → ℝ) : ℝ :=
  ∑ s, ((Jt *ᵥ q) s - f s) ^ 2 + ∑ i, (max (|q i| - 5) 0) ^ 2

noncomputable def freeEnergy (Rb : NCRobot ν) (q : ν → ℝ) : ℝ := 5 / frobenius Rb.A * (q ⬝ᵥ (Rb.A *ᵥ q))

/-- `q'` has the reduced acceleration of `q`, and torques above 200 only where and as far as `q` has. -/
def KeepsPlan (Rb : NCRobot ν) (q q' : ν → ℝ) : Prop :=
  Rb.J *ᵥ q' = Rb.J *ᵥ q ∧ ∀ i, (Rb.A *ᵥ q' + Rb.G) i ≤ max ((Rb.A *ᵥ q + Rb.G) i) 200 ∧
    -(Rb.A *ᵥ q' + Rb.G) i ≤ max (-(Rb.A *ᵥ q + Rb.G) i) 200

theorem max_sq_abs (x b : ℝ) (hb : 0 ≤ b) : (max (x - b) 0) ^ 2 + (max (-x - b) 0) ^ 2 = (max (|x| - b) 0) ^ 2 := by
  rcases le_total 0 x with h | h
  · rw [abs_of_nonneg h, max_eq_right (show -x - b ≤ 0 by linarith)]; ring
  · rw [abs_of_nonpos h, max_eq_right (show x - b ≤ 0 by linarith)]; ring

theorem ncCost_quad (Rb : NCRobot ν) (q : ν → ℝ) : q ⬝ᵥ (ncCost Rb *ᵥ q) = freeEnergy Rb q := by
  rw [ncCost, smul_mulVec, dotProduct_smul, smul_eq_mul, freeEnergy]

theorem ncLevel0_value (Rb : NCRobot ν) (g : Fin 6 → ℝ) (q : ν → ℝ) (i : ν) :
    (ncLevel0 Rb g).value q (Sum.inl i : ν ⊕ ν) = (Rb.A *ᵥ q + Rb.G) i - 200 ∧
      (ncLevel0 Rb g).value q (Sum.inr i : ν ⊕ ν) = -(Rb.A *ᵥ q + Rb.G) i - 200 := by
  constructor
  · show Rb.A i ⬝ᵥ q + (-200 + Rb.G i) = (Rb.A i ⬝ᵥ q + Rb.G i) - 200
    ring
  · show (-Rb.A i) ⬝ᵥ q + (-200 - Rb.G i) = -(Rb.A i ⬝ᵥ q + Rb.G i) - 200
    rw [neg_dotProduct]; ring

theorem ncLevel1_value (Rb : NCRobot ν) (Jt : Matrix (Fin 6) ν ℝ) (f : Fin 6 → ℝ) (q : ν → ℝ) (i : ν) :
    (ncLevel1 Rb Jt f).value q (Sum.inl i : ν ⊕ ν) = q i - 5 ∧ (ncLevel1 Rb Jt f).value q (Sum.inr i : ν ⊕ ν) = -q i - 5 := by
  constructor
  · show (Pi.single i 1 : ν → ℝ) ⬝ᵥ q + (-5) = _
    simp; ring
  · show (-Pi.single i 1 : ν → ℝ) ⬝ᵥ q + (-5) = _
    simp; ring

theorem ncLevel0_objective (Rb : NCRobot ν) (g : Fin 6 → ℝ) (q : ν → ℝ) :
    (ncLevel0 Rb g).objective q = (1 / 2) * (planMiss Rb g q + freeEnergy Rb q) := by
  have h1 : (ncLevel0 Rb g).residual q ⬝ᵥ (ncLevel0 Rb g).residual q = ∑ s, ((Rb.J *ᵥ q) s - g s) ^ 2 := by
    refine Finset.sum_congr rfl fun s _ => ?_
    show ((Rb.J *ᵥ q) s + -g s) * ((Rb.J *ᵥ q) s + -g s) = _
    ring
  have h2 : (∑ r, (max ((ncLevel0 Rb g).value q r) 0) ^ 2) = ∑ i, (max (|(Rb.A *ᵥ q + Rb.G) i| - 200) 0) ^ 2 := by
    refine (Fintype.sum_sum_type (fun r : ν ⊕ ν => (max ((ncLevel0 Rb g).value q r) 0) ^ 2)).trans ?_
    rw [← Finset.sum_add_distrib]
    refine Finset.sum_congr rfl fun i _ => ?_
    rw [(ncLevel0_value Rb g q i).1, (ncLevel0_value Rb g q i).2, max_sq_abs _ _ (by norm_num)]
  have h3 : ((ncLevel0 Rb g).H.elim 0 fun H => q ⬝ᵥ (H *ᵥ q)) = freeEnergy Rb q := ncCost_quad Rb q
  rw [Spec.Level.objective, h1, h2, h3, planMiss]
  ring

theorem ncLevel1_objective (Rb : NCRobot ν) (Jt : Matrix (Fin 6) ν ℝ) (f : Fin 6 → ℝ) (q : ν → ℝ) :
    (ncLevel1 Rb Jt f).objective q = (1 / 2) * (freeMiss Jt f q + freeEnergy Rb q) := by
  have h1 : (ncLevel1 Rb Jt f).residual q ⬝ᵥ (ncLevel1 Rb Jt f).residual q = ∑ s, ((Jt *ᵥ q) s - f s) ^ 2 := by
    refine Finset.sum_congr rfl fun s _ => ?_
    show ((Jt *ᵥ q) s + -f s) * ((Jt *ᵥ q) s + -f s) = _
    ring
  have h2 : (∑ r, (max ((ncLevel1 Rb Jt f).value q r) 0) ^ 2) = ∑ i, (max (|q i| - 5) 0) ^ 2 := by
    refine (Fintype.sum_sum_type (fun r : ν ⊕ ν => (max ((ncLevel1 Rb Jt f).value q r) 0) ^ 2)).trans ?_
    rw [← Finset.sum_add_distrib]
    refine Finset.sum_congr rfl fun i _ => ?_
    rw [(ncLevel1_value Rb Jt f q i).1, (ncLevel1_value Rb Jt f q i).2, max_sq_abs _ _ (by norm_num)]
  have h3 : ((ncLevel1 Rb Jt f).H.elim 0 fun H => q ⬝ᵥ (H *ᵥ q)) = freeEnergy Rb q := ncCost_quad Rb q
  rw [Spec.Level.objective, h1, h2, h3, freeMiss]
  ring

theorem ncCost_ok {Rb : NCRobot ν} (h : IsSPD Rb.A) : CostOk (ncCost Rb) := by
  have hw : 0 ≤ 5 / frobenius Rb.A := div_nonneg (by norm_num) (Real.sqrt_nonneg _)
  refine ⟨?_, fun x => ?_⟩
  · rw [ncCost, transpose_smul, h.symm]
  · rw [ncCost_quad]
    refine mul_nonneg hw ?_
    by_cases h0 : x = 0
    · rw [h0]; simp
    · exact (h.pos _ h0).le

/-- **C64 (free joints: undefined calls).**  The call is undefined unless the second task exists and has six rows; which tasks are
tasks of the free joints is not looked at. -/
theorem C64_free_undefined_iff (Rb : NCRobot ν) (a : RSys (Fin k) (Fin 6) → ℝ) :
    calcControlTorqueLQPRNC osqp N Rb ts a = none ↔ ∀ T, ts[1]? = some T → T.t ≠ 6 := by
  unfold calcControlTorqueLQPRNC
  cases h : ts[1]? with
  | none => simp
  | some T =>
    simp only [Option.some.injEq, forall_eq']
    split_ifs with h6
    · simp [h6]
    · simp [h6]

theorem nc_call {Rb : NCRobot ν} {a : RSys (Fin k) (Fin 6) → ℝ} {nc : Bool} {Jt : Matrix (Fin 6) (RSys (Fin k) ν) ℝ} {f : Fin 6 → ℝ}
    {pos : Vec3} (hT : ts[1]? = some ⟨nc, 6, Jt, f, pos⟩) :
    calcControlTorqueLQPRNC osqp N Rb ts a = some (solveSequential osqp N
      (solveFirst osqp (ncLevel0 Rb fun s => a (ncOf s)) (1 : Matrix (ν ⊕ ν) (ν ⊕ ν) ℝ) (1 : Matrix (Fin 6) (Fin 6) ℝ))
      [ncLevel1 Rb (Jt.submatrix id ncOf) (ncShift (pos - Rb.base) *ᵥ (f - fun b => a (.inl b)))]) := by
  unfold calcControlTorqueLQPRNC
  rw [hT]
  rfl

theorem nc_first (hs : OsqpExact osqp) {Rb : NCRobot ν} (hA : IsSPD Rb.A) (g : Fin 6 → ℝ) :
    ∃ r : LevelAnswer ν, solveFirst osqp (ncLevel0 Rb g) (1 : Matrix (ν ⊕ ν) (ν ⊕ ν) ℝ) (1 : Matrix (Fin 6) (Fin 6) ℝ) = r ∧
      r.l = ncLevel0 Rb g ∧ (∀ i, r.v i = max (r.l.value r.y i) 0) ∧ ∀ q, (ncLevel0 Rb g).objective r.y ≤ (ncLevel0 Rb g).objective q := by
  have hH : ∀ H ∈ (ncLevel0 Rb g).H, CostOk H := fun H hH => by
    have : ncCost Rb = H := by simpa [ncLevel0] using hH
    rw [← this]; exact ncCost_ok hA
  have h := @C33_first_level ν _ _ osqp (ncLevel0 Rb g) (inferInstanceAs (DecidableEq (ν ⊕ ν))) (instDecidableEqFin 6)
    (hs _ _ (@firstQP_exists ν _ _ (ncLevel0 Rb g) (inferInstanceAs (DecidableEq (ν ⊕ ν))) (instDecidableEqFin 6) hH))
  exact ⟨_, rfl, rfl, h.1, h.2⟩

theorem nc_keeps {Rb : NCRobot ν} {g : Fin 6 → ℝ} {r : LevelAnswer ν} (hrl : r.l = ncLevel0 Rb g)
    (hv : ∀ i, r.v i = max (r.l.value r.y i) 0) (q : ν → ℝ) : Keeps r q ↔ KeepsPlan Rb r.y q := by
  rw [keeps_iff hrl hv q]
  refine and_congr ?_ ?_
  · show Rb.J *ᵥ q + (-g : Fin 6 → ℝ) = Rb.J *ᵥ r.y + (-g : Fin 6 → ℝ) ↔ _
    rw [add_left_inj]
  · constructor
    · intro h i
      have h1 := h (Sum.inl i : ν ⊕ ν)
      have h2 := h (Sum.inr i : ν ⊕ ν)
      rw [(ncLevel0_value Rb g q i).1, (ncLevel0_value Rb g r.y i).1, le_max_iff] at h1
      rw [(ncLevel0_value Rb g q i).2, (ncLevel0_value Rb g r.y i).2, le_max_iff] at h2
      rw [le_max_iff, le_max_iff]
      exact ⟨h1.imp (fun h => by linarith) fun h => by linarith, h2.imp (fun h => by linarith) fun h => by linarith⟩
    · intro h i
      change ν ⊕ ν at i
      rcases i with i | i
      · rw [(ncLevel0_value Rb g q i).1, (ncLevel0_value Rb g r.y i).1, le_max_iff]
        exact (le_max_iff.mp (h i).1).imp (fun h => by linarith) fun h => by linarith
      · rw [(ncLevel0_value Rb g q i).2, (ncLevel0_value Rb g r.y i).2, le_max_iff]
        exact (le_max_iff.mp (h i).2).imp (fun h => by linarith) fun h => by linarith

theorem nc_rest (hs : OsqpExact osqp) (hN : N.Correct) {Rb : NCRobot ν} (hA : IsSPD Rb.A) {g : Fin 6 → ℝ} {r : LevelAnswer ν}
    (hrl : r.l = ncLevel0 Rb g) (hv : ∀ i, r.v i = max (r.l.value r.y i) 0) (Jt : Matrix (Fin 6) ν ℝ) (f : Fin 6 → ℝ) :
    ∃ r₁, solveSequential osqp N r [ncLevel1 Rb Jt f] = [r, r₁] ∧ KeepsPlan Rb r.y r₁.y ∧
      ∀ q, KeepsPlan Rb r.y q → freeMiss Jt f r₁.y + freeEnergy Rb r₁.y ≤ freeMiss Jt f q + freeEnergy Rb q := by
  obtain ⟨hmap, -, -, hhead⟩ := C32_residual_kept osqp N hN r [ncLevel1 Rb Jt f]
  have hex := C33_exact_solver osqp hs N hN r [ncLevel1 Rb Jt f] (by
    intro l' hl' H hH'
    obtain rfl := List.mem_singleton.mp hl'
    have : ncCost Rb = H := by simpa [ncLevel1] using hH'
    rw [← this]; exact ncCost_ok hA) (fun i => by rw [hv]; exact le_max_left _ _)
  generalize solveSequential osqp N r [ncLevel1 Rb Jt f] = L at *
  obtain ⟨r₁, rfl⟩ : ∃ r₁, L = [r, r₁] := by
    have hlen := congrArg List.length hmap
    simp only [List.length_map, List.length_cons, List.length_nil] at hlen
    obtain ⟨x, y, rfl⟩ := List.length_eq_two.mp hlen
    simp only [List.head?_cons, Option.some.injEq] at hhead
    exact ⟨y, by rw [hhead]⟩
  have h1 : r₁.l = ncLevel1 Rb Jt f := by
    simp only [List.map_cons, List.map_nil, List.cons.injEq, and_true] at hmap
    exact hmap.2
  obtain ⟨-, -, hk, ho⟩ := hex [r] r₁ [] rfl (by simp)
  refine ⟨r₁, rfl, (nc_keeps hrl hv _).mp (hk r (by simp)), fun q hq => ?_⟩
  have := ho q (by intro d hd; obtain rfl := List.mem_singleton.mp hd; exact (nc_keeps hrl hv q).mpr hq)
  rw [h1, ncLevel1_objective, ncLevel1_objective] at this
  linarith

/-- **C64 (free joints: what the two levels minimise).**  With an exact solver there are two answers.  The first minimises the miss of
the reduced acceleration, the torque excess and the energy, all added up.  The second keeps the reduced acceleration and the
torque excess of the first, and among all that do so has the least miss of the task, acceleration excess and energy. -/
theorem C64_free_levels_partial (hs : OsqpExact osqp) (hN : N.Correct) {Rb : NCRobot ν} (hA : IsSPD Rb.A) {a : RSys (Fin k) (Fin 6) → ℝ}
    {nc : Bool} {Jt : Matrix (Fin 6) (RSys (Fin k) ν) ℝ} {f : Fin 6 → ℝ} {pos : Vec3} (hT : ts[1]? = some ⟨nc, 6, Jt, f, pos⟩) :
    ∃ r₀ r₁, calcControlTorqueLQPRNC osqp N Rb ts a = some [r₀, r₁] ∧
      (∀ q, planMiss Rb (fun s => a (ncOf s)) r₀.y + freeEnergy Rb r₀.y ≤ planMiss Rb (fun s => a (ncOf s)) q + freeEnergy Rb q) ∧
      KeepsPlan Rb r₀.y r₁.y ∧
      ∀ q, KeepsPlan Rb r₀.y q →
        freeMiss (Jt.submatrix id ncOf) (ncShift (pos - Rb.base) *ᵥ (f - fun b => a (.inl b))) r₁.y + freeEnergy Rb r₁.y ≤
          freeMiss (Jt.submatrix id ncOf) (ncShift (pos - Rb.base) *ᵥ (f - fun b => a (.inl b))) q + freeEnergy Rb q := by
  obtain ⟨r, e, hrl, hv, hm⟩ := nc_first (osqp := osqp) hs hA fun s => a (ncOf s)
  obtain ⟨r₁, e1, h1, h2⟩ := nc_rest (N := N) hs hN hA hrl hv (Jt.submatrix id ncOf) (ncShift (pos - Rb.base) *ᵥ (f - fun b => a (.inl b)))
  refine ⟨r, r₁, by rw [nc_call hT, e, e1], fun q => ?_, h1, h2⟩
  have := hm q
  rw [ncLevel0_objective, ncLevel0_objective] at this
  linarith

/-- First-order condition of the first answer. -/
theorem nc_first_order {Rb : NCRobot ν} (hA : IsSPD Rb.A) {g : Fin 6 → ℝ} {q₀ : ν → ℝ}
    (hm : ∀ q, planMiss Rb g q₀ + freeEnergy Rb q₀ ≤ planMiss Rb g q + freeEnergy Rb q)
    (hin : ∀ j, |(Rb.A *ᵥ q₀ + Rb.G) j| ≤ 200) : Rb.Jᵀ *ᵥ (Rb.J *ᵥ q₀ - g) + ncCost Rb *ᵥ q₀ = 0 := by
  have h := objective_stationary (l := ncLevel0 Rb g) (H := ncCost Rb) (y := q₀) rfl (ncCost_ok hA).1 (fun q => by
    rw [ncLevel0_objective, ncLevel0_objective]
    linarith [hm q]) (fun i => by
    change ν ⊕ ν at i
    rcases i with i | i
    · rw [(ncLevel0_value Rb g q₀ i).1]; linarith [(abs_le.mp (hin i)).2]
    · rw [(ncLevel0_value Rb g q₀ i).2]; linarith [(abs_le.mp (hin i)).1])
  have e : (ncLevel0 Rb g).residual q₀ = Rb.J *ᵥ q₀ - g := by
    show Rb.J *ᵥ q₀ + (-g : Fin 6 → ℝ) = _
    rw [sub_eq_add_neg]
  rw [e] at h
  exact h

theorem free_weight {Rb : NCRobot ν} (hA : IsSPD Rb.A) [Nonempty ν] : 0 < 5 / frobenius Rb.A :=
  div_pos (by norm_num) (frobenius_pos hA)

theorem freeEnergy_nonneg {Rb : NCRobot ν} (hA : IsSPD Rb.A) (q : ν → ℝ) : 0 ≤ freeEnergy Rb q := by
  rw [← ncCost_quad]; exact (ncCost_ok hA).2 q

theorem freeEnergy_zero {Rb : NCRobot ν} (hA : IsSPD Rb.A) {q : ν → ℝ} (h : freeEnergy Rb q ≤ 0) : q = 0 := by
  by_contra h0
  rcases isEmpty_or_nonempty ν with hν | hν
  · exact h0 (Subsingleton.elim _ _)
  have := mul_pos (free_weight hA) (hA.pos q h0)
  unfold freeEnergy at h
  linarith

/-- The two answers of a call. -/
theorem nc_answers (hs : OsqpExact osqp) (hN : N.Correct) {Rb : NCRobot ν} (hA : IsSPD Rb.A) {a : RSys (Fin k) (Fin 6) → ℝ}
    {nc : Bool} {Jt : Matrix (Fin 6) (RSys (Fin k) ν) ℝ} {f : Fin 6 → ℝ} {pos : Vec3} (hT : ts[1]? = some ⟨nc, 6, Jt, f, pos⟩)
    {r₀ r₁ : LevelAnswer ν} (hcall : calcControlTorqueLQPRNC osqp N Rb ts a = some [r₀, r₁]) :
      (∀ q, planMiss Rb (fun s => a (ncOf s)) r₀.y + freeEnergy Rb r₀.y ≤ planMiss Rb (fun s => a (ncOf s)) q + freeEnergy Rb q) ∧
      KeepsPlan Rb r₀.y r₁.y ∧
      ∀ q, KeepsPlan Rb r₀.y q →
        freeMiss (Jt.submatrix id ncOf) (ncShift (pos - Rb.base) *ᵥ (f - fun b => a (.inl b))) r₁.y + freeEnergy Rb r₁.y ≤
          freeMiss (Jt.submatrix id ncOf) (ncShift (pos - Rb.base) *ᵥ (f - fun b => a (.inl b))) q + freeEnergy Rb q := by
  obtain ⟨x, y, h, h1⟩ := C64_free_levels_partial (N := N) hs hN hA (a := a) hT
  rw [hcall] at h
  simp only [Option.some.injEq, List.cons.injEq, and_true] at h
  obtain ⟨rfl, rfl⟩ := h
  exact h1

/-- **C64 (the joined plan).**  Join a plan `(a, F)` of the reduced controller, which obeys the reduced dynamics by
`C64_reduced_plan`, with the answer `q` of the free-joint controller.  If the first free-joint answer needs torques within 200, the
torques made from the two plans produce the planned motion exactly when the contacts are planned not to move, and neither the base
nor the free joints taken together (the six last coordinates of the reduced model) are planned to accelerate. -/
theorem C64_motion_iff (hA : IsSPD A) (hR : R * Rᵀ = 1) (hJ : jInc SI R (baseNc A) = some J)
    (hcpl : ∀ (i : Fin k) (j : ν), A (.inr (.inl i)) (.inr (.inr j)) = 0) (h : reduce vcOf ncOf A⁻¹ J G = some D)
    (h0 : ∀ r j, Jc r (ncOf j) = 0) (hs : OsqpExact osqp) (hN : N.Correct)
    {a : RSys (Fin k) (Fin 6) → ℝ} {F : Fin c → ℝ} {τ : Fin k ⊕ Fin 6 → ℝ} (hd : Dynamics D.AR (jCR Jc) D.GR τ a F) {base : Vec3}
    {nc : Bool} {Jt : Matrix (Fin 6) (RSys (Fin k) ν) ℝ} {f : Fin 6 → ℝ} {pos : Vec3} (hT : ts[1]? = some ⟨nc, 6, Jt, f, pos⟩)
    {r₀ r₁ : LevelAnswer ν} (hcall : calcControlTorqueLQPRNC osqp N (ncRobot A G D base) ts a = some [r₀, r₁])
    (hin : ∀ j, |(A.submatrix ncOf ncOf *ᵥ r₀.y) j + G (ncOf j)| ≤ 200) :
    Motion A Jc G (rlqpTorque D Jc (ncRobot A G D base) a F r₁.y) (joined a r₁.y) F ↔
      jCR Jc *ᵥ a = 0 ∧ (∀ b, a (.inl b) = 0) ∧ ∀ s, a (ncOf s) = 0 := by
  have hAn : IsSPD (ncRobot A G D base).A := isSPD_nn hA
  obtain ⟨hm, hk, -⟩ := nc_answers hs hN hAn hT hcall
  have hfo := nc_first_order hAn hm hin
  have hτ : rlqpTorque D Jc (ncRobot A G D base) a F r₁.y
      = joinedTorque τ (A.submatrix (ncOf (κ := Fin k)) ncOf *ᵥ r₁.y + fun j => G (ncOf j)) := by
    ext i
    rcases i with i | i
    · exact congrFun hd (.inr (.inl i))
    · rfl
  have hcon : Jc *ᵥ joined a r₁.y = jCR Jc *ᵥ a := by
    ext i
    simp only [mulVec, dotProduct, Fintype.sum_sum_type, jCR, joined]
    have z : (∑ x : ν, Jc i (.inr (.inr x)) * r₁.y x : ℝ) = 0 := Finset.sum_eq_zero fun x _ => by
      have := h0 i x
      simp only [ncOf] at this
      rw [this, zero_mul]
    simp [z, vcOf]
  have hJk : D.J *ᵥ r₁.y = D.J *ᵥ r₀.y := hk.1
  have key : jCR Jc *ᵥ a = 0 → (Motion A Jc G (joinedTorque τ (A.submatrix (ncOf (κ := Fin k)) ncOf *ᵥ r₁.y + fun j => G (ncOf j)))
      (joined a r₁.y) F ↔ (∀ b, a (.inl b) = 0) ∧ D.J *ᵥ r₀.y - (fun s => a (ncOf s)) = 0) := fun hc =>
    joined_motion_iff hA hR hJ hcpl h h0 ⟨hd, hc⟩ rfl (by rw [hJk]; abel)
  have hfree : D.J *ᵥ r₀.y - (fun s => a (ncOf s)) = 0 ↔ ∀ s, a (ncOf s) = 0 := by
    constructor
    · intro hz s
      have hfo' := hfo
      change D.Jᵀ *ᵥ (D.J *ᵥ r₀.y - fun s => a (ncOf s)) + _ = 0 at hfo'
      rw [hz, mulVec_zero, zero_add] at hfo'
      have hE : freeEnergy (ncRobot A G D base) r₀.y ≤ 0 := by
        rw [← ncCost_quad, hfo', dotProduct_zero]
      rw [freeEnergy_zero hAn hE, mulVec_zero, zero_sub] at hz
      have := congrFun hz s
      simpa using this
    · intro hz
      have hz' : (fun s => a (ncOf s)) = (0 : Fin 6 → ℝ) := funext hz
      have hfo' := hfo
      change D.Jᵀ *ᵥ (D.J *ᵥ r₀.y - fun s => a (ncOf s)) + _ = 0 at hfo'
      rw [hz', sub_zero] at hfo' ⊢
      have e := congrArg (r₀.y ⬝ᵥ ·) hfo'
      simp only [dotProduct_add, dotProduct_zero] at e
      rw [ncCost_quad, dotProduct_mulVec, vecMul_transpose] at e
      have e1 := freeEnergy_nonneg hAn r₀.y
      have e2 : 0 ≤ (D.J *ᵥ r₀.y) ⬝ᵥ (D.J *ᵥ r₀.y) := Finset.sum_nonneg fun i _ => mul_self_nonneg _
      exact dotProduct_self_eq_zero.mp (by linarith)
  rw [hτ]
  constructor
  · intro hM
    have hc : jCR Jc *ᵥ a = 0 := by rw [← hcon]; exact hM.2
    obtain ⟨h1, h2⟩ := (key hc).mp hM
    exact ⟨hc, h1, hfree.mp h2⟩
  · rintro ⟨hc, h1, h2⟩
    exact (key hc).mpr ⟨h1, hfree.mpr h2⟩

/-- **C64 (a load that is never held).**  The force the free joints' weight exerts, as seen by the reduced model, is bounded like a
joint torque.  If it exceeds the bound, no answer of the reduced controller is at rest, whatever the joints can carry. -/
theorem C64_load_refused (hs : OsqpSound osqp) (hN : N.Correct) (h : reduce vcOf ncOf A⁻¹ J G = some D)
    {L : List (LevelAnswer (LqpVar (Fin k ⊕ Fin 6) c))} (hL : calcControlTorqueLQPR osqp N A D Jc C ts = some L) {s : Fin 6}
    (hload : (if s = 2 then 600 else 200) < |(D.JinvT *ᵥ fun j => G (ncOf j)) s|) {r : LevelAnswer (LqpVar (Fin k ⊕ Fin 6) c)}
    (hr : r ∈ L) : qddOf r.y ≠ 0 := by
  intro hq
  obtain ⟨τ, hd, -, h1, h2⟩ := (C64_reduced_plan hs hN h hL).2 r hr
  have e := congrFun hd (ncOf s)
  rw [hq, mulVec_zero, zero_add, Pi.add_apply] at e
  have e1 : ((jCR Jc)ᵀ *ᵥ forceOf r.y) (ncOf s) = 0 := by
    simp [mulVec, dotProduct, jCR, ncOf]
  have e2 : D.GR (ncOf s) = (D.JinvT *ᵥ fun j => G (ncOf j)) s := by
    rw [(reduce_eq_some h).2.2.2.2.2.2.2.1]; rfl
  have e3 : actuate τ (ncOf s) = τ (.inr s) := rfl
  rw [e1, e2, e3, zero_add] at e
  rw [e] at hload
  split_ifs at hload with h3
  · subst h3; linarith
  · linarith [h1 s h3]

/-- **C64 (rest is kept).**  If a contact force exists that holds the robot at rest, admissible at the contacts and with the torques
of the contact chains and the load of the free joints within the bounds, then the contact level plans no acceleration.
Missing: this concerns the contact level; see `C64_levels_partial` for the tasks. -/
theorem C64_rest_held_partial (hA : IsSPD A) (hs : OsqpExact osqp) (hN : N.Correct) (h : reduce vcOf ncOf A⁻¹ J G = some D)
    {L : List (LevelAnswer (LqpVar (Fin k ⊕ Fin 6) c))} (hL : calcControlTorqueLQPR osqp N A D Jc C ts = some L)
    {τR : Fin k ⊕ Fin 6 → ℝ} {F : Fin c → ℝ} (hd : Dynamics D.AR (jCR Jc) D.GR τR 0 F) (h1 : ∀ i, |τR (.inl i)| ≤ 200)
    (h2 : ∀ s, |τR (.inr s)| ≤ if s = 2 then 600 else 200) (hF : ∀ i, (C *ᵥ F) i ≤ 0) : ∃ a b rs, L = a :: b :: rs ∧ qddOf b.y = 0 := by
  obtain ⟨a, b, rs, e, -, ⟨-, hm⟩, -⟩ := C64_levels_partial hs hN h hL
  refine ⟨a, b, rs, e, ?_⟩
  set Q := rlqpConf A D Jc C ((chainTasks ts).map (rlqpLow D)) with hQ
  replace hm : ∀ y', Moves Q y' → contactMiss Q b.y + energy Q b.y ≤ contactMiss Q y' + energy Q y' := hm
  have hq : qddOf (Sum.elim 0 F : LqpVar (Fin k ⊕ Fin 6) c → ℝ) = 0 := rfl
  have hf : forceOf (Sum.elim 0 F : LqpVar (Fin k ⊕ Fin 6) c → ℝ) = F := rfl
  have hdem : demand Q (Sum.elim 0 F) = actuate τR := by
    rw [demand, hq, hf, ← hd]
    show D.AR *ᵥ 0 + D.GR + (jCR Jc)ᵀ *ᵥ F = _
    abel
  have hw : 0 < Q.weight := div_pos (by norm_num) (frobenius_pos hA)
  have := hm (Sum.elim 0 F) ⟨fun i => by rw [hdem]; rfl, fun i => by
    rw [hdem]
    show |τR i| ≤ rlqpLim i
    rcases i with i | s
    · exact h1 i
    · exact h2 s⟩
  have hc : contactMiss Q (Sum.elim 0 F) = 0 := contactMiss_ok ⟨by rw [hq, mulVec_zero], fun i => hF i, fun i => by rw [hq]; simp⟩
  have he : energy Q (Sum.elim 0 F) = 0 := by rw [energy, hq]; simp
  rw [hc, he] at this
  have hcb : 0 ≤ contactMiss Q b.y := by
    unfold contactMiss
    have s1 : 0 ≤ ∑ r, ((Q.J *ᵥ qddOf b.y) r / rowLen (Q.J r)) ^ 2 := Finset.sum_nonneg fun _ _ => sq_nonneg _
    have s2 : 0 ≤ ∑ r, (max ((Q.C *ᵥ forceOf b.y) r) 0 / rowLen (Q.C r)) ^ 2 := Finset.sum_nonneg fun _ _ => sq_nonneg _
    have s3 : 0 ≤ ∑ i, ((max (qddOf b.y (Sum.inr i) - 5) 0) ^ 2 + (max (-qddOf b.y (Sum.inr i) - 5) 0) ^ 2) :=
      Finset.sum_nonneg fun _ _ => add_nonneg (sq_nonneg _) (sq_nonneg _)
    linarith
  by_contra hne
  have hp := mul_pos hw ((AR_spd h).1.pos _ hne)
  have : energy Q b.y ≤ 0 := by linarith
  have e2 : energy Q b.y = Q.weight * (qddOf b.y ⬝ᵥ (D.AR *ᵥ qddOf b.y)) := rfl
  linarith

/-- **C64 (the task of the free joints is missed).**  If the first answer needs torques within 200 and accelerations within 5, the
second answer reaches the task exactly only if it is the first answer, that is, if the task was reached before it was looked at. -/
theorem C64_task_missed (hs : OsqpExact osqp) (hN : N.Correct) {Rb : NCRobot ν} (hA : IsSPD Rb.A) {a : RSys (Fin k) (Fin 6) → ℝ}
    {nc : Bool} {Jt : Matrix (Fin 6) (RSys (Fin k) ν) ℝ} {f : Fin 6 → ℝ} {pos : Vec3} (hT : ts[1]? = some ⟨nc, 6, Jt, f, pos⟩)
    {r₀ r₁ : LevelAnswer ν} (hcall : calcControlTorqueLQPRNC osqp N Rb ts a = some [r₀, r₁])
    (hin : ∀ j, |(Rb.A *ᵥ r₀.y + Rb.G) j| ≤ 200) (hacc : ∀ j, |r₀.y j| ≤ 5)
    (hmet : Jt.submatrix id ncOf *ᵥ r₁.y = ncShift (pos - Rb.base) *ᵥ (f - fun b => a (.inl b))) : r₁.y = r₀.y := by
  obtain ⟨hm, hk, ho⟩ := nc_answers hs hN hA hT hcall
  have hfo := nc_first_order hA hm hin
  set f' := ncShift (pos - Rb.base) *ᵥ (f - fun b => a (.inl b)) with hf'
  set M := Jt.submatrix id ncOf
  set e : ν → ℝ := r₀.y - r₁.y with he
  set B : ℝ := (ncCost Rb *ᵥ r₁.y) ⬝ᵥ e with hB
  -- moving a little towards the first answer
  have key : ∀ t : ℝ, 0 ≤ t → t ≤ 1 → 0 ≤ 2 * t * B + t ^ 2 * (freeEnergy Rb e + ∑ s, ((M *ᵥ e) s) ^ 2) := by
    intro t t0 t1
    have hc : ∀ P : Matrix ν ν ℝ, P *ᵥ (r₁.y + t • e) = (1 - t) • (P *ᵥ r₁.y) + t • (P *ᵥ r₀.y) := fun P => by
      rw [mulVec_add, mulVec_smul, he, mulVec_sub]
      module
    have hkeep : KeepsPlan Rb r₀.y (r₁.y + t • e) := by
      refine ⟨?_, fun i => ?_⟩
      · rw [mulVec_add, mulVec_smul, he, mulVec_sub, hk.1]; simp
      · have := hk.2 i
        have e1 : (Rb.A *ᵥ (r₁.y + t • e) + Rb.G) i = (1 - t) * (Rb.A *ᵥ r₁.y + Rb.G) i + t * (Rb.A *ᵥ r₀.y + Rb.G) i := by
          rw [hc]; simp only [Pi.add_apply, Pi.smul_apply, smul_eq_mul]; ring
        rw [e1]
        have m1 := le_max_left ((Rb.A *ᵥ r₀.y + Rb.G) i) 200
        have m2 := le_max_left (-(Rb.A *ᵥ r₀.y + Rb.G) i) 200
        constructor
        · nlinarith [this.1]
        · nlinarith [this.2]
    have h := ho _ hkeep
    have e2 : freeEnergy Rb (r₁.y + t • e) = freeEnergy Rb r₁.y + 2 * t * B + t ^ 2 * freeEnergy Rb e := by
      have hsym : r₁.y ⬝ᵥ (ncCost Rb *ᵥ e) = (ncCost Rb *ᵥ r₁.y) ⬝ᵥ e := by
        rw [dotProduct_mulVec, ← mulVec_transpose, (ncCost_ok hA).1]
      rw [← ncCost_quad, ← ncCost_quad, ← ncCost_quad]
      simp only [mulVec_add, mulVec_smul, add_dotProduct, dotProduct_add, smul_dotProduct, dotProduct_smul, smul_eq_mul]
      rw [hsym, dotProduct_comm e (ncCost Rb *ᵥ r₁.y), ← hB]
      ring
    have e3 : ∑ s, ((M *ᵥ (r₁.y + t • e)) s - f' s) ^ 2 = t ^ 2 * ∑ s, ((M *ᵥ e) s) ^ 2 := by
      rw [Finset.mul_sum]
      refine Finset.sum_congr rfl fun s _ => ?_
      rw [mulVec_add, mulVec_smul, hmet]
      simp only [Pi.add_apply, Pi.smul_apply, smul_eq_mul]
      ring
    have e4 : ∑ s, ((M *ᵥ r₁.y) s - f' s) ^ 2 = 0 := Finset.sum_eq_zero fun s _ => by rw [hmet]; ring
    have e5 : ∑ i, (max (|(r₁.y + t • e) i| - 5) 0) ^ 2 ≤ ∑ i, (max (|r₁.y i| - 5) 0) ^ 2 := by
      refine Finset.sum_le_sum fun i _ => ?_
      refine pow_le_pow_left₀ (le_max_right _ _) ?_ 2
      have e6 : (r₁.y + t • e) i = (1 - t) * r₁.y i + t * r₀.y i := by
        simp only [he, Pi.add_apply, Pi.smul_apply, Pi.sub_apply, smul_eq_mul]; ring
      have e7 : |(r₁.y + t • e) i| ≤ (1 - t) * |r₁.y i| + t * |r₀.y i| := by
        rw [e6]
        refine (abs_add_le _ _).trans ?_
        rw [abs_mul, abs_mul, abs_of_nonneg t0, abs_of_nonneg (by linarith : 0 ≤ 1 - t)]
      have e8 := hacc i
      rcases le_total (|r₁.y i|) 5 with h5 | h5
      · rw [max_eq_right (by linarith : |r₁.y i| - 5 ≤ 0), max_le_iff]
        exact ⟨by nlinarith, le_rfl⟩
      · rw [max_eq_left (by linarith : 0 ≤ |r₁.y i| - 5), max_le_iff]
        exact ⟨by nlinarith, by linarith⟩
    unfold freeMiss at h
    rw [e2, e3, e4] at h
    linarith
  have hBn : 0 ≤ B := by
    set cc := freeEnergy Rb e + ∑ s, ((M *ᵥ e) s) ^ 2 with hcc
    have hc0 : 0 ≤ cc := add_nonneg (freeEnergy_nonneg hA e) (Finset.sum_nonneg fun _ _ => sq_nonneg _)
    by_contra hlt
    push Not at hlt
    have hp : 0 < cc - B := by linarith
    have h1 := key (-B / (cc - B)) (by apply div_nonneg <;> linarith) (by rw [div_le_one hp]; linarith)
    have : 2 * (-B / (cc - B)) * B + (-B / (cc - B)) ^ 2 * cc = B ^ 2 * (2 * B - cc) / (cc - B) ^ 2 := by
      field_simp
      ring
    rw [this] at h1
    have h2 : B ^ 2 * (2 * B - cc) < 0 := mul_neg_of_pos_of_neg (sq_pos_of_neg hlt) (by linarith)
    have h3 := div_neg_of_neg_of_pos h2 (by positivity : 0 < (cc - B) ^ 2)
    linarith
  have hz : (ncCost Rb *ᵥ r₀.y) ⬝ᵥ e = 0 := by
    have h1 : ncCost Rb *ᵥ r₀.y = -(Rb.Jᵀ *ᵥ (Rb.J *ᵥ r₀.y - fun s => a (ncOf s))) := by
      rw [eq_neg_iff_add_eq_zero, add_comm]; exact hfo
    rw [h1, neg_dotProduct, mulVec_transpose, ← dotProduct_mulVec, he, mulVec_sub, hk.1, sub_self, dotProduct_zero, neg_zero]
  have hE : freeEnergy Rb e ≤ 0 := by
    rw [← ncCost_quad, dotProduct_comm]
    have : ncCost Rb *ᵥ e = ncCost Rb *ᵥ r₀.y - ncCost Rb *ᵥ r₁.y := by rw [he, mulVec_sub]
    rw [this, sub_dotProduct, hz]
    linarith
  have := freeEnergy_zero hA hE
  exact (sub_eq_zero.mp this).symm

end General

namespace FreeLqp

theorem nn : (exRed 6).submatrix (ncOf (κ := Fin 6)) ncOf = (2 : ℝ) • 1 := by
  ext i j
  by_cases h : i = j
  · subst h
    simp [exRed, ncOf, exE, Matrix.mul_apply, one_add_one_eq_two]
  · have : (ncOf i : RSys (Fin 6) (Fin 6)) ≠ ncOf j := fun e => h (by simpa [ncOf] using e)
    simp [exRed, ncOf, exE, Matrix.mul_apply, Matrix.one_apply, h, Ne.symm h]

theorem len : Model.frobenius ((2 : ℝ) • (1 : Matrix (Fin 6) (Fin 6) ℝ)) ≤ 5 := by
  unfold Model.frobenius
  rw [show (∑ i : Fin 6, ∑ j : Fin 6, ((2 : ℝ) • (1 : Matrix (Fin 6) (Fin 6) ℝ)) i j ^ 2) = 24 by
    simp [Matrix.one_apply, ite_pow, mul_pow, Finset.sum_ite_eq]; norm_num]
  exact Real.sqrt_le_iff.mpr ⟨by norm_num, by norm_num⟩

/-- an answer that costs no more than 1 is small -/
theorem small {G : RSys (Fin 6) (Fin 6) → ℝ} {D : Reduced (Fin 6) (Fin 6)} {g q : Fin 6 → ℝ}
    (h : planMiss (ncRobot (exRed 6) G D 0) g q + freeEnergy (ncRobot (exRed 6) G D 0) q ≤ 1) (j : Fin 6) : |q j| ≤ 1 := by
  have hA : (ncRobot (exRed 6) G D 0).A = (2 : ℝ) • 1 := nn
  have hF : 0 < Model.frobenius ((2 : ℝ) • (1 : Matrix (Fin 6) (Fin 6) ℝ)) := by
    rw [← nn]; exact frobenius_pos (isSPD_nn exRed_spd)
  have h1 : 1 ≤ 5 / Model.frobenius ((2 : ℝ) • (1 : Matrix (Fin 6) (Fin 6) ℝ)) := by
    rw [le_div_iff₀ hF]; linarith [len]
  have h2 : 0 ≤ planMiss (ncRobot (exRed 6) G D 0) g q := by
    unfold planMiss
    exact add_nonneg (Finset.sum_nonneg fun _ _ => sq_nonneg _) (Finset.sum_nonneg fun _ _ => sq_nonneg _)
  have h3 : q j * q j ≤ q ⬝ᵥ q :=
    Finset.single_le_sum (f := fun i => q i * q i) (fun i _ => mul_self_nonneg _) (Finset.mem_univ j)
  have h4 : freeEnergy (ncRobot (exRed 6) G D 0) q = 5 / Model.frobenius ((2 : ℝ) • (1 : Matrix (Fin 6) (Fin 6) ℝ)) * (2 * (q ⬝ᵥ q)) := by
    rw [freeEnergy, hA, smul_mulVec, one_mulVec, dotProduct_smul, smul_eq_mul]
  rw [h4] at h
  have h5 : 0 ≤ q j * q j := mul_self_nonneg _
  have h6 : q j * q j ≤ 1 := by nlinarith
  exact abs_le_one_iff_mul_self_le_one.mpr h6

/-- a command list whose second task is the hand's -/
def tasks (f : Fin 6 → ℝ) : List (RLTask 6 (Fin 6)) := [⟨false, 6, exFoot 6, 0, 0⟩, ⟨true, 6, FreeArm.Jt, f, 0⟩]

/-- the free-joint call on the example robot: its first answer needs little torque -/
theorem call {osqp : Osqp} {N : NullSpaceFn} (hs : OsqpExact osqp) (hN : N.Correct) {G : RSys (Fin 6) (Fin 6) → ℝ}
    (hG : ∀ j, G (ncOf j) = 0) (D : Reduced (Fin 6) (Fin 6)) {a : RSys (Fin 6) (Fin 6) → ℝ} (f : Fin 6 → ℝ)
    (ha : ∑ s, a (ncOf s) ^ 2 ≤ 1) : ∃ r₀ r₁,
      calcControlTorqueLQPRNC osqp N (ncRobot (exRed 6) G D 0) (tasks f) a = some [r₀, r₁] ∧
      (∀ j, |((exRed 6).submatrix (ncOf (κ := Fin 6)) ncOf *ᵥ r₀.y) j + G (ncOf j)| ≤ 200) ∧ ∀ j, |r₀.y j| ≤ 5 := by
  obtain ⟨r₀, r₁, hc, hm, -, -⟩ := C64_free_levels_partial (osqp := osqp) (N := N) hs hN
    (Rb := ncRobot (exRed 6) G D 0) (isSPD_nn exRed_spd) (a := a) (ts := tasks f) (nc := true) (Jt := FreeArm.Jt) (f := f) (pos := 0) rfl
  have h0 := hm 0
  have hz : planMiss (ncRobot (exRed 6) G D 0) (fun s => a (ncOf s)) 0 = ∑ s, a (ncOf s) ^ 2 := by
    unfold planMiss
    have hG' : ∀ i, (ncRobot (exRed 6) G D 0).G i = 0 := hG
    simp [mulVec_zero, hG']
  have he : freeEnergy (ncRobot (exRed 6) G D 0) (0 : Fin 6 → ℝ) = 0 := by simp [freeEnergy]
  rw [hz, he, add_zero] at h0
  have hsm := small (h0.trans ha)
  refine ⟨r₀, r₁, hc, fun j => ?_, fun j => (hsm j).trans (by norm_num)⟩
  rw [nn, smul_mulVec, one_mulVec, hG, add_zero, Pi.smul_apply, smul_eq_mul, abs_mul, abs_of_pos (by norm_num : (0 : ℝ) < 2)]
  linarith [hsm j]

theorem JinvT {G : RSys (Fin 6) (Fin 6) → ℝ} {D : Reduced (Fin 6) (Fin 6)} (h : reduce vcOf ncOf (exRed 6)⁻¹ 1 G = some D) :
    D.JinvT = 1 := by
  have e := J_mul_JinvT exRed_spd (R := 1) (by simp) exRed_jInc exRed_coupling h
  rw [show D.J = 1 from (reduce_eq_some h).2.2.2.1, Matrix.one_mul] at e
  simpa using congrArg transpose e

end FreeLqp

/-- **C64 (negation, planned motion).**  The arm is planned to move, base and foot at rest, and the hand task asks for just that.
Every exact answer makes the robot move otherwise than planned. -/
theorem C64_plan_lost {osqp : Osqp} {N : NullSpaceFn} (hs : OsqpExact osqp) (hN : N.Correct) :
    ∃ D τR, reduce vcOf ncOf (exRed 6)⁻¹ 1 (FreeArm.G FreeArm.moves) = some D ∧
      Motion D.AR (jCR (exFoot 6)) D.GR τR FreeArm.moves (0 : Fin 6 → ℝ) ∧
      ∃ r₀ r₁, calcControlTorqueLQPRNC osqp N (ncRobot (exRed 6) (FreeArm.G FreeArm.moves) D 0) (FreeLqp.tasks (Pi.single 0 1))
        FreeArm.moves = some [r₀, r₁] ∧
      ¬ Motion (exRed 6) (exFoot 6) (FreeArm.G FreeArm.moves)
        (rlqpTorque D (exFoot 6) (ncRobot (exRed 6) (FreeArm.G FreeArm.moves) D 0) FreeArm.moves (0 : Fin 6 → ℝ) r₁.y)
        (joined FreeArm.moves r₁.y) (0 : Fin 6 → ℝ) := by
  obtain ⟨D, hD⟩ := exRed_reduce (k := 6) (FreeArm.G FreeArm.moves)
  obtain ⟨τR, hτ⟩ := FreeArm.low FreeArm.moves_fixed hD
  obtain ⟨r₀, r₁, hc, hin, -⟩ := FreeLqp.call (osqp := osqp) (N := N) hs hN (G := FreeArm.G FreeArm.moves) (fun _ => rfl) D
    (a := FreeArm.moves) (Pi.single 0 1) (by simp [FreeArm.moves, ncOf, Pi.single_apply])
  refine ⟨D, τR, hD, hτ, r₀, r₁, hc, fun hM => ?_⟩
  have := ((C64_motion_iff exRed_spd (R := 1) (by simp) exRed_jInc exRed_coupling hD (fun _ _ => rfl) hs hN hτ.1 rfl hc hin).mp hM).2.2 0
  simp [FreeArm.moves, ncOf] at this

/-- **C64 (negation, task).**  The robot stands still.  No command but 0 to the hand is ever carried out, although the arm is free
to move, nothing is loaded and no bound is near. -/
theorem C64_hand_stays {osqp : Osqp} {N : NullSpaceFn} (hs : OsqpExact osqp) (hN : N.Correct) (f : Fin 6 → ℝ) :
    ∃ D, reduce vcOf ncOf (exRed 6)⁻¹ 1 (FreeArm.G 0) = some D ∧
      ∃ r₀ r₁, calcControlTorqueLQPRNC osqp N (ncRobot (exRed 6) (FreeArm.G 0) D 0) (FreeLqp.tasks f) 0 = some [r₀, r₁] ∧
      (FreeArm.Jt *ᵥ joined (0 : RSys (Fin 6) (Fin 6) → ℝ) r₁.y = f → f = 0) := by
  obtain ⟨D, hD⟩ := exRed_reduce (k := 6) (FreeArm.G 0)
  obtain ⟨r₀, r₁, hc, hin, h5⟩ := FreeLqp.call (osqp := osqp) (N := N) hs hN (G := FreeArm.G 0) (fun _ => rfl) D (a := 0) f (by simp)
  refine ⟨D, hD, r₀, r₁, hc, fun hf => ?_⟩
  have hAn : IsSPD (ncRobot (exRed 6) (FreeArm.G 0) D 0).A := isSPD_nn exRed_spd
  have hj : FreeArm.Jt *ᵥ joined (0 : RSys (Fin 6) (Fin 6) → ℝ) r₁.y = r₁.y := by
    ext s
    simp [mulVec, dotProduct, Fintype.sum_sum_type, FreeArm.Jt, exE, joined]
  have hsh : ncShift ((0 : Vec3) - (ncRobot (exRed 6) (FreeArm.G 0) D 0).base)
      *ᵥ (f - fun b => (0 : RSys (Fin 6) (Fin 6) → ℝ) (.inl b)) = f := by
    have e : (f - fun b => (0 : RSys (Fin 6) (Fin 6) → ℝ) (.inl b)) = f := by ext; simp
    rw [e, show (0 : Vec3) - (ncRobot (exRed 6) (FreeArm.G 0) D 0).base = 0 from sub_self 0]
    obtain ⟨s1, s2⟩ := ncShift_mulVec 0 f
    exact six_ext.mpr ⟨by rw [s1]; simp, s2⟩
  have hq : r₁.y = r₀.y := C64_task_missed hs hN hAn (ts := FreeLqp.tasks f) rfl hc hin h5 (by
    rw [hsh, FreeArm.Jt_nc, one_mulVec, ← hj, hf])
  have hm := (nc_answers hs hN hAn (ts := FreeLqp.tasks f) rfl hc).1 0
  have hz : planMiss (ncRobot (exRed 6) (FreeArm.G 0) D 0) (fun s => (0 : RSys (Fin 6) (Fin 6) → ℝ) (ncOf s)) 0 = 0 := by
    unfold planMiss
    have hG' : ∀ i, (ncRobot (exRed 6) (FreeArm.G 0) D 0).G i = 0 := fun _ => rfl
    simp [mulVec_zero, hG']
  have he : freeEnergy (ncRobot (exRed 6) (FreeArm.G 0) D 0) (0 : Fin 6 → ℝ) = 0 := by simp [freeEnergy]
  have hp : 0 ≤ planMiss (ncRobot (exRed 6) (FreeArm.G 0) D 0) (fun s => (0 : RSys (Fin 6) (Fin 6) → ℝ) (ncOf s)) r₀.y := by
    unfold planMiss
    exact add_nonneg (Finset.sum_nonneg fun _ _ => sq_nonneg _) (Finset.sum_nonneg fun _ _ => sq_nonneg _)
  rw [hz, he] at hm
  rw [← hf, hj, hq]
  exact freeEnergy_zero hAn (by linarith)

/-- hypotheses of `C64_plan_lost` and `C64_hand_stays` -/
example : OsqpExact chooseSolution ∧ projNull.Correct := ⟨chooseSolution_exact, projNull_correct⟩

/-- hypotheses of `C64_load_refused`: an arm that weighs 1000 at its first joint -/
example : ∃ D L, reduce vcOf ncOf (exRed 6)⁻¹ 1 HeavyArm.G = some D ∧
    calcControlTorqueLQPR chooseFeasible projNull (exRed 6) D (exFoot 6) (0 : Matrix (Fin 1) (Fin 6) ℝ) (FreeLqp.tasks 0) = some L ∧
    (if (0 : Fin 6) = 2 then 600 else 200) < |(D.JinvT *ᵥ fun j => HeavyArm.G (ncOf j)) 0| ∧ L.length = 3 ∧
    ∀ r ∈ L, qddOf r.y ≠ 0 := by
  obtain ⟨D, hD⟩ := exRed_reduce (k := 6) HeavyArm.G
  have hl : (if (0 : Fin 6) = 2 then 600 else 200) < |(D.JinvT *ᵥ fun j => HeavyArm.G (ncOf j)) 0| := by
    rw [FreeLqp.JinvT hD, one_mulVec]
    rw [if_neg (by decide)]
    norm_num [HeavyArm.G, ncOf]
  have hn : calcControlTorqueLQPR chooseFeasible projNull (exRed 6) D (exFoot 6) (0 : Matrix (Fin 1) (Fin 6) ℝ) (FreeLqp.tasks 0) ≠ none := by
    rw [Ne, C64_undefined_iff]
    rintro ⟨i, j, T, U, hij, h1, h2, h3, h4⟩
    match i, j with
    | 0, _ => simp only [FreeLqp.tasks, List.getElem?_cons_zero, Option.some.injEq] at h1; subst h1; exact absurd h3 (by decide)
    | 1, 0 => omega
    | 1, j + 2 => simp [FreeLqp.tasks] at h2
    | i + 2, _ => simp [FreeLqp.tasks] at h1
  obtain ⟨L, hL⟩ := Option.ne_none_iff_exists'.mp hn
  exact ⟨D, L, hD, hL, hl, (C64_reduced_plan chooseFeasible_sound projNull_correct hD hL).1,
    fun r hr => C64_load_refused chooseFeasible_sound projNull_correct hD hL hl hr⟩

/-- hypotheses of `C64_rest_held_partial`: the arm weighs 550 along the third axis, the base 50, held by the foot pushing 50 -/
example : ∃ G D τR, reduce vcOf ncOf (exRed 6)⁻¹ 1 G = some D ∧ G (ncOf 2) = 550 ∧
    Dynamics D.AR (jCR (exFoot 6)) D.GR τR 0 (fun s => if s = 2 then -50 else 0) ∧ (∀ i, |τR (.inl i)| ≤ 200) ∧
    (∀ s, |τR (.inr s)| ≤ if s = 2 then 600 else 200) ∧
    ∀ i, ((!![0, 0, 1, 0, 0, 0] : Matrix (Fin 1) (Fin 6) ℝ) *ᵥ fun s => if s = 2 then -50 else 0) i ≤ 0 := by
  obtain ⟨D, hD⟩ := exRed_reduce (k := 6)
    (Sum.elim (fun s => if s = 2 then 50 else 0) (Sum.elim 0 fun s => if s = 2 then 550 else 0) : RSys (Fin 6) (Fin 6) → ℝ)
  refine ⟨_, D, Sum.elim (fun s => if s = 2 then -50 else 0) (fun s => if s = 2 then 550 else 0), hD, by simp [ncOf], ?_, ?_, ?_, ?_⟩
  · have hj : (jCR (exFoot 6))ᵀ *ᵥ (fun s : Fin 6 => if s = 2 then (-50 : ℝ) else 0) =
        Sum.elim (fun s => if s = 2 then -50 else 0) (Sum.elim (fun s => if s = 2 then -50 else 0) 0) := by
      ext i
      rcases i with i | i | i
      · by_cases h : i = 2 <;> simp [mulVec, dotProduct, jCR, exFoot, vcOf, eq_comm (a := (2 : Fin 6)), h]
      · by_cases h : i = 2 <;> simp [mulVec, dotProduct, jCR, exFoot, vcOf, eq_comm (a := (2 : Fin 6)), h]
        simpa [Fin.ext_iff] using h
      · simp [mulVec, dotProduct, jCR, ncOf]
    unfold Dynamics
    rw [mulVec_zero, zero_add, hj, (reduce_eq_some hD).2.2.2.2.2.2.2.1, FreeLqp.JinvT hD, one_mulVec]
    ext i
    rcases i with i | i | i
    · by_cases h : i = 2 <;> simp [actuate, vcOf, h]
    · by_cases h : i = 2 <;> simp [actuate, vcOf, h]
    · by_cases h : i = 2 <;> simp [actuate, ncOf, h]
  · intro i
    by_cases h : i = 2 <;> simp [h] <;> norm_num
  · intro i
    by_cases h : i = 2 <;> simp [h]; norm_num
  · intro i
    fin_cases i
    simp [mulVec, dotProduct, Fin.sum_univ_succ]

/-- `C64_undefined_iff`: the hand's task put first -/
example : calcControlTorqueLQPR chooseFeasible projNull (exRed 6) (Classical.choose (exRed_reduce (k := 6) 0)) (exFoot 6)
    (0 : Matrix (Fin 1) (Fin 6) ℝ) [⟨true, 6, FreeArm.Jt, 0, 0⟩, ⟨false, 6, exFoot 6, 0, 0⟩] = none :=
  C64_undefined_iff.mpr ⟨0, 1, _, _, by norm_num, rfl, rfl, rfl, rfl⟩

end Verif.Props
