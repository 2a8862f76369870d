import Verif.Lemmas.JaccStack
import Verif.Props.QPControl

/-!
# C35: the joint-acceleration QP
-/
set_option linter.unusedSectionVars false

namespace Verif.Props
open Matrix Verif Verif.Spec Verif.Model

variable {ι : Type} [Fintype ι] [DecidableEq ι] {c : ℕ}

/-- An answer is admissible: acceleration, torque and contact force are a motion of the robot with its contacts fixed,
torques are within ±200, joint accelerations within ±10, and no active contact tips or slips. -/
structure JAdmissible (R : JRobot ι c) (hc : c = 6 * (active R.cs).length) (o : JAnswer ι c) : Prop where
  motion : Motion R.A R.Jc R.G o.torque o.acc o.force
  torque : ∀ i, |o.torque i| ≤ 200
  acc : ∀ i, |o.acc (.inr i)| ≤ 10
  contacts : ContactsHold R.cs (o.force ∘ Fin.cast hc.symm)

theorem jContactRows_six {cs : List ContactLink} (h6 : ∀ l ∈ cs, l.type = .c6d)
    (hp : ∀ l ∈ cs, 0 < l.planeX ∧ 0 < l.planeY) (hc : c = 6 * (active cs).length) :
    ∃ M, jContactRows cs c = some ⟨10 * (active cs).length, M⟩ ∧
      ∀ F : Fin c → ℝ, (∀ r, (M *ᵥ F) r ≤ 0) ↔ ContactsHold cs (F ∘ Fin.cast hc.symm) := by
  subst hc
  obtain ⟨M, e, h⟩ := C28_constraint_matrix cs h6 hp
  obtain ⟨C, e2, -⟩ := stackC_spec cs h6 rfl
  have hall : All6 (active cs) := fun l hl => by
    have := List.mem_filter.mp hl
    exact ⟨this.2, h6 l this.1⟩
  refine ⟨M, ?_, h⟩
  have hm : ∃ Q, constraintMats cs = some Q := by
    rcases hQ : constraintMats cs with _ | Q
    · simp [stackC, hQ] at e2
    · exact ⟨Q, rfl⟩
  obtain ⟨Q, hQ⟩ := hm
  have ht : totalConstraints cs = some (10 * (active cs).length) := by
    rw [totalConstraints_filter, totalConstraints_six hall]
  unfold jContactRows
  rw [ht, e, hQ]
  simp

theorem jAdmissible_iff {R : JRobot ι c} {hc : c = 6 * (active R.cs).length} {o : JAnswer ι c} :
    JAdm (fun _ => some 200) (fun F => ContactsHold R.cs (F ∘ Fin.cast hc.symm)) R o ↔ JAdmissible R hc o :=
  ⟨fun h => ⟨h.motion, fun i => h.torque i 200 rfl, h.acc, h.contacts⟩,
    fun h => ⟨h.motion, fun i b hb => by cases hb; exact h.torque i, h.acc, h.contacts⟩⟩

/-- C35 (partial: 6-D contacts, and the torque bound is ±200 whatever limits were set).  If the levels `0 … k-1` of a
task stack are solved in order and every call returns 1, then every level's stored answer satisfies the full dynamics
with its torque, zero contact acceleration, the torque and joint acceleration bounds and the contact conditions, and
gives every level above exactly the task acceleration that level had achieved itself. -/
theorem C35_stack_partial {R : JRobot ι c} (h6 : ∀ l ∈ R.cs, l.type = .c6d)
    (hp : ∀ l ∈ R.cs, 0 < l.planeX ∧ 0 < l.planeY) (hc : c = 6 * (active R.cs).length)
    {solve : JSolver} (hs : solve.Sound) {ts ts' : List (JTask ι c)} {k : ℕ}
    (h : jaccPass R solve ts k = some (true, ts')) :
    ∃ o : ℕ → JAnswer ι c, (∀ j < k, ∃ T', ts'[j]? = some T' ∧ T'.out = some (o j)) ∧
      ∀ j < k, JAdmissible R hc (o j) ∧
        ∀ i ≤ j, ∀ T, ts[i]? = some T → T.J *ᵥ (o j).acc = T.J *ᵥ (o i).acc := by
  obtain ⟨M, hM, hMF⟩ := jContactRows_six h6 hp hc
  unfold jaccPass jaccCall at h
  rw [hM] at h
  obtain ⟨o, h1, h2⟩ := jaccPassWith_stack hMF hs h
  exact ⟨o, h1, fun j hj => ⟨jAdmissible_iff.mp (h2 j hj).1, (h2 j hj).2⟩⟩

/-- C35.  Levels never block each other: once the levels `0 … k-1` (`k ≥ 1`) have been solved, the QP of level `k` is
defined and has a feasible point, so a solver that answers whenever the problem is feasible succeeds again. -/
theorem C35_next_level_feasible {R : JRobot ι c} (h6 : ∀ l ∈ R.cs, l.type = .c6d)
    (hp : ∀ l ∈ R.cs, 0 < l.planeX ∧ 0 < l.planeY) (hc : c = 6 * (active R.cs).length)
    {solve : JSolver} (hs : solve.Sound) {ts ts' : List (JTask ι c)} {k : ℕ} (hk : 0 < k) (hlen : k < ts'.length)
    (h : jaccPass R solve ts k = some (true, ts'))
    (hans : ∀ (i : ℕ) (V Row : Type) [Fintype V] (d : BoxQP V Row), (∃ x, d.Feasible x) → solve i V Row d ≠ none) :
    ∃ ts'', jaccPass R solve ts (k + 1) = some (true, ts'') ∧ ts''.length = ts'.length := by
  obtain ⟨M, hM, hMF⟩ := jContactRows_six h6 hp hc
  unfold jaccPass jaccCall at h ⊢
  rw [hM] at h ⊢
  exact jaccPassWith_next hMF hs hk hlen h fun i _ _ _ _ => hans i _ _ _

/-- C35.  The QP excludes nothing else, and an exact answer is the best one: among all admissible motions that keep the
accelerations of the levels above, it minimises `½ q̈ᵀ A q̈ + 50 ‖J q̈ - f‖²`. -/
theorem C35_best {R : JRobot ι c} (h6 : ∀ l ∈ R.cs, l.type = .c6d)
    (hp : ∀ l ∈ R.cs, 0 < l.planeX ∧ 0 < l.planeY) (hc : c = 6 * (active R.cs).length)
    {solve : JSolver} (hs : solve.Exact) {ts ts' : List (JTask ι c)} {j : ℕ}
    (h : jaccCall R solve ts j = some (true, ts')) :
    ∃ (T T' : JTask ι c) (o : JAnswer ι c), ts[j]? = some T ∧ ts'[j]? = some T' ∧ T'.out = some o ∧
      JAdmissible R hc o ∧
      ∀ o', JAdmissible R hc o' →
        (∀ (i : ℕ) (P : JTask ι c) (q : Fin P.t → ℝ), i < j → ts[i]? = some P → P.fqp = some q →
          P.J *ᵥ o'.acc = P.f + q) →
        jaccEffort R T o.acc ≤ jaccEffort R T o'.acc := by
  obtain ⟨M, hM, hMF⟩ := jContactRows_six h6 hp hc
  unfold jaccCall at h
  rw [hM] at h
  obtain ⟨T, T', o, h1, h2, h3, h4, h5⟩ := jaccCallWith_best hMF hs h
  exact ⟨T, T', o, h1, h2, h3, jAdmissible_iff.mp h4, fun o' ho' hq => h5 o' (jAdmissible_iff.mpr ho') hq⟩

/-- C35 (negation for point contacts).  If any active contact is a point contact the call is undefined: the block of
contact inequalities is assigned a matrix of another size. -/
theorem C35_point_contact_undefined (R : JRobot ι c) (h : ∃ l ∈ R.cs, l.contact = true ∧ l.type = .point)
    (solve : JSolver) (ts : List (JTask ι c)) (j : ℕ) : jaccCall R solve ts j = none := by
  unfold jaccCall jaccCallWith
  rw [jContactRows_point h]
  split
  · rfl
  · split
    · simp_all
    · rfl

/-- C35.  A level is undefined while a level above it has never been solved (its `f_star_qp_` was never sized). -/
theorem C35_needs_levels_above (R : JRobot ι c) (solve : JSolver) (ts : List (JTask ι c)) {i j : ℕ} (hij : i < j)
    {P : JTask ι c} (hP : ts[i]? = some P) (hq : P.fqp = none) : jaccCall R solve ts j = none := by
  unfold jaccCall jaccCallWith
  split
  · rfl
  split
  · rename_i prev m M hp _
    obtain ⟨q, e, -⟩ := (jPrevs_eq _ _ hp).2 i P (by rw [List.getElem?_take_of_lt hij]; exact hP)
    rw [hq] at e
    cases e
  · rfl

open Classical in
/-- A solver that answers with an exact solution whenever there is one. -/
noncomputable def bestSolver : JSolver := fun _ _ _ _ d => if h : ∃ x, d.IsSolution x then some h.choose else none

theorem bestSolver_exact : bestSolver.Exact := by
  intro i V R _ d x h
  unfold bestSolver at h
  split at h
  · rename_i he
    simp only [Option.some.injEq] at h
    rw [← h]; exact he.choose_spec
  · cases h

/-- A floating base with one joint, unit inertia, no gravity, no contact, and torque limit 1. -/
def exJ : JRobot (Fin 1) 0 := { A := 1, G := 0, Jc := 0, cs := [], limit := some 1 }

/-- The acceleration of the joint. -/
def exJJ : Matrix (Fin 1) (Fin 6 ⊕ Fin 1) ℝ := Matrix.of fun _ => Sum.elim 0 1

theorem exJJ_mul (a : Fin 6 ⊕ Fin 1 → ℝ) : exJJ *ᵥ a = fun _ => a (.inr 0) := by
  funext k
  simp [exJJ, mulVec, dotProduct, Fintype.sum_sum_type]

/-- The joint is to accelerate with 5. -/
abbrev exJT : JTask (Fin 1) 0 := { t := 1, J := exJJ, f := fun _ => 5, fqp := none, out := none }

theorem exJ_effort (a : Fin 6 ⊕ Fin 1 → ℝ) (τ : Fin 1 → ℝ) (F : Fin 0 → ℝ) (h : Motion exJ.A exJ.Jc exJ.G τ a F) :
    a = actuate τ ∧ jaccEffort exJ exJT a = (1 / 2) * (τ 0 * τ 0) + 50 * ((τ 0 - 5) * (τ 0 - 5)) := by
  have ha : a = actuate τ := by
    have := h.1
    simpa [Dynamics, exJ] using this
  refine ⟨ha, ?_⟩
  subst ha
  unfold jaccEffort
  rw [exJJ_mul]
  simp [exJ, dotProduct, actuate, Fintype.sum_sum_type]

/-- C35 (negation: torque limits).  The torque limits set by the user are ignored: for a robot with torque limit 1,
every exact solver that answers at all stores a torque beyond the limit. -/
theorem C35_limit_ignored {solve : JSolver} (hs : solve.Exact) {ts' : List (JTask (Fin 1) 0)}
    (h : jaccCall exJ solve [exJT] 0 = some (true, ts')) :
    ∃ T' o, ts'[0]? = some T' ∧ T'.out = some o ∧ exJ.limit = some 1 ∧ ¬ WithinLimit 1 o.torque := by
  obtain ⟨T, T', o, hT, hT', ho, hadm, hbest⟩ := C35_best (R := exJ) (by simp [exJ]) (by simp [exJ])
    (by simp [exJ, active]) hs h
  simp only [List.getElem?_cons_zero, Option.some.injEq] at hT
  subst hT
  refine ⟨T', o, hT', ho, rfl, fun hl => ?_⟩
  have hw : JAdmissible exJ (by simp [exJ, active]) (⟨actuate 5, 5, 0⟩ : JAnswer (Fin 1) 0) := by
    refine ⟨⟨?_, ?_⟩, ?_, ?_, ?_⟩
    · simp [Dynamics, exJ]
    · simp [ContactsFixed, exJ]
    · intro i; simp; norm_num
    · intro i; simp [actuate]; norm_num
    · intro i; exact absurd i.isLt (by simp [exJ, active])
  have := hbest _ hw (fun i P q hi => absurd hi (Nat.not_lt_zero _))
  rw [(exJ_effort _ _ _ hadm.motion).2, (exJ_effort _ _ _ hw.motion).2] at this
  have h1 := hl 0
  simp only [Pi.one_apply, abs_le] at h1
  simp only [Pi.ofNat_apply] at this
  nlinarith [h1.1, h1.2]

/-! ### The hypotheses are met -/

/-- the example has an exact answer, so the pass succeeds with the exact solver -/
theorem exJ_pass : ∃ ts', jaccPass exJ bestSolver [exJT] 1 = some (true, ts') ∧
    jaccCall exJ bestSolver [exJT] 0 = some (true, ts') := by
  obtain ⟨M, hM, -⟩ := jContactRows_six (c := 0) (cs := exJ.cs) (by simp [exJ]) (by simp [exJ]) (by simp [exJ, active])
  have hex : ∃ x, (jaccQP (fun _ => some 200) exJ M [] 1 exJJ (fun _ => 5)).IsSolution x := by
    refine ⟨jCols (actuate fun _ => 500 / 101) (fun _ => 500 / 101) 0 (fun _ => -5 / 101), ?_, fun y hy => ?_⟩
    · refine (jaccQP_feasible _ exJ M [] _ _ _ _).mpr ⟨⟨?_, ?_⟩, fun i => absurd i.isLt (by simp), ?_,
        fun r => absurd r.isLt (by simp [exJ, active]), fun j => ?_, fun j => ?_⟩
      · simp [Dynamics, exJ, jCols]
      · simp [ContactsFixed, exJ, jCols]
      · rw [exJJ_mul]
        funext k
        simp [jCols, actuate]
        norm_num
      · simp [jCols]; norm_num [abs_le]
      · simp [jCols, actuate]; norm_num [abs_le]
    · obtain ⟨h1, -, h3, -⟩ := (jaccQP_feasible _ exJ M [] _ _ _ _).mp hy
      obtain ⟨ha, -⟩ := exJ_effort _ _ _ h1
      have h3' := congrFun h3 0
      have hs : y (.inr (.inr (.inr 0))) = y (.inr (.inl 0)) - 5 := by
        rw [ha, exJJ_mul] at h3'
        simp [actuate] at h3'
        linarith
      rw [jaccQP_cost, jaccQP_cost, ha]
      simp only [exJ, one_mulVec]
      have e2 : ∀ v : Fin 1 → ℝ, actuate v ⬝ᵥ actuate v = v 0 * v 0 := fun v => by
        simp [actuate, dotProduct, Fintype.sum_sum_type]
      have e3 : ∀ v : Fin 1 → ℝ, v ⬝ᵥ v = v 0 * v 0 := fun v => by
        simp [dotProduct]
      rw [e2, e3, e3]
      have e4 : ((fun i => jCols (actuate fun _ => (500 / 101 : ℝ)) (fun _ => 500 / 101) (0 : Fin 0 → ℝ)
          (fun _ : Fin 1 => (-5 / 101 : ℝ)) (.inl i)) : Fin 6 ⊕ Fin 1 → ℝ) = actuate fun _ => 500 / 101 := rfl
      rw [e4, e2]
      simp only [jCols, Sum.elim_inr]
      erw [hs]
      nlinarith [sq_nonneg (y (.inr (.inl 0)) - 500 / 101)]
  have hb : ∃ x, bestSolver 0 _ _ (jaccQP (fun _ => some 200) exJ M [] 1 exJJ (fun _ => 5)) = some x := by
    unfold bestSolver
    rw [dif_pos hex]
    exact ⟨_, rfl⟩
  obtain ⟨x, hx⟩ := hb
  have hcall : jaccCall exJ bestSolver [exJT] 0 = some (true, [exJT].set 0 (exJT.store x)) := by
    unfold jaccCall jaccCallWith
    simp only [List.getElem?_cons_zero, List.take_zero, jPrevs]
    rw [hM]
    simp only []
    rw [hx]
  refine ⟨_, ?_, hcall⟩
  simp [jaccPass, jaccPassWith, hcall]

example : ∃ ts' T' o, jaccCall exJ bestSolver [exJT] 0 = some (true, ts') ∧ ts'[0]? = some T' ∧ T'.out = some o ∧
    ¬ WithinLimit 1 o.torque := by
  obtain ⟨ts', -, h⟩ := exJ_pass
  obtain ⟨T', o, a, b, -, d⟩ := C35_limit_ignored bestSolver_exact h
  exact ⟨ts', T', o, h, a, b, d⟩

open Classical in
/-- A solver that answers with some feasible point whenever there is one. -/
noncomputable def anySolver : JSolver := fun _ _ _ _ d => if h : ∃ x, d.Feasible x then some h.choose else none

theorem anySolver_sound : anySolver.Sound := by
  intro i V R _ d x h
  unfold anySolver at h
  split at h
  · rename_i he
    simp only [Option.some.injEq] at h
    rw [← h]; exact he.choose_spec
  · cases h

theorem anySolver_answers (i : ℕ) (V Row : Type) [Fintype V] (d : BoxQP V Row) (h : ∃ x, d.Feasible x) :
    anySolver i V Row d ≠ none := by
  unfold anySolver
  rw [dif_pos h]; simp

/-- A robot of weight 500 standing on one foot (the base is the foot), with one joint. -/
noncomputable abbrev exStand : JRobot (Fin 1) 6 :=
  { A := 1, G := Sum.elim ![0, 0, 500, 0, 0, 0] 0, Jc := Matrix.of fun i => Sum.elim ((1 : Matrix (Fin 6) (Fin 6) ℝ) i) 0
    cs := [exContact true], limit := none }

/-- the whole stack of two levels is solved on a robot standing on its foot -/
example : ∃ ts', jaccPass exStand anySolver
    [⟨1, exJJ, fun _ => 5, none, none⟩, ⟨1, exJJ, fun _ => 7, none, none⟩] 2 = some (true, ts') := by
  have hc : 6 = 6 * (active exStand.cs).length := by simp [exStand, exContact, active]
  have h6 : ∀ l ∈ exStand.cs, l.type = .c6d := by simp [exStand, exContact]
  have hp : ∀ l ∈ exStand.cs, 0 < l.planeX ∧ 0 < l.planeY := by simp [exStand, exContact]
  obtain ⟨M, hM, hMF⟩ := jContactRows_six h6 hp hc
  have hfeas : ∃ x, (jaccQP (fun _ => some 200) exStand M [] 1 exJJ (fun _ => 5)).Feasible x := by
    refine ⟨jCols 0 0 ![0, 0, -500, 0, 0, 0] (fun _ => -5), (jaccQP_feasible _ exStand M [] _ _ _ _).mpr
      ⟨⟨?_, ?_⟩, fun i => absurd i.isLt (by simp), ?_, (hMF _).mpr fun i => ?_, fun j => by simp [jCols],
        fun j => by simp [jCols]⟩⟩
    · funext i
      rcases i with i | i
      · fin_cases i <;> simp [jCols, actuate, mulVec, dotProduct, Fin.sum_univ_succ, Matrix.one_apply]
      · simp [jCols, actuate, mulVec, dotProduct]
    · funext i
      simp [jCols, mulVec, dotProduct]
    · rw [exJJ_mul]
      funext k
      simp [jCols]
    · have e : (active exStand.cs)[i] = exContact true := by
        have : active exStand.cs = [exContact true] := by simp [exStand, exContact, active]
        have hm := List.getElem_mem (l := active exStand.cs) i.isLt
        have h2 : ∀ x ∈ active exStand.cs, x = exContact true := by rw [this]; simp
        exact h2 _ hm
      have ei : i.val = 0 := by omega
      rw [e, noTip_iff (by simp [exContact]) (by simp [exContact])]
      simp [exContact, inFrame, wrenchOf, NoSlip, press, jCols, ei, Fin.cast, Matrix.transpose_one]
  obtain ⟨x, hx⟩ := Option.ne_none_iff_exists'.mp (anySolver_answers 0 _ _ _ hfeas)
  obtain ⟨ts1, h1, hl⟩ : ∃ ts1, jaccPass exStand anySolver
      [⟨1, exJJ, fun _ => 5, none, none⟩, ⟨1, exJJ, fun _ => 7, none, none⟩] 1 = some (true, ts1) ∧ 1 < ts1.length := by
    simp only [jaccPass, jaccPassWith, jaccCall, jaccCallWith, List.getElem?_cons_zero, List.take_zero, jPrevs, hM, hx, Bool.and_self]
    exact ⟨_, rfl, by simp⟩
  obtain ⟨ts'', h2, -⟩ := C35_next_level_feasible h6 hp hc anySolver_sound Nat.one_pos hl h1 anySolver_answers
  exact ⟨ts'', h2⟩

end Verif.Props
