import Verif.Lemmas.HqpObject
import Verif.Props.Lqp

/-!
# C65: configuring one hierarchical controller object several times
-/
set_option linter.unusedSectionVars false

namespace Verif.Props
open Matrix Verif Verif.Spec Verif.Model Verif.Lemmas

variable {n c m : ℕ}

theorem dynSlot_level (hn : 0 < n) (R : LqpRobot n c m) : (dynSlot R).l = normalizeRows (lqpDynamics R.conf) := by
  simp only [dynSlot, storedLevel]
  rw [if_pos (by omega)]
  rfl

theorem freshSlots_levels (hn : 0 < n) (R : LqpRobot n c m) :
    (freshSlots R).map (·.l) = normalizeRows (lqpDynamics R.conf) :: lqpLevels R.conf := by
  have h2 : (contactSlot R).l = normalizeRows (lqpContact R.conf) := by
    simp only [contactSlot, storedLevel]
    rw [if_pos (by omega)]
    rfl
  simp only [freshSlots, List.map_cons, dynSlot_level hn, h2, lqpLevels, List.map_map]
  rfl

theorem runSlots_append {osqp : Osqp} {N : NullSpaceFn} (hn : 0 < n) (R : LqpRobot n c m) (X : List (Slot (LqpVar (Fin n) c))) :
    runSlots osqp N R (freshSlots R ++ X) = solveSequential osqp N (lqpStart R.conf) (lqpLevels R.conf ++ X.map (·.l)) := by
  have h := freshSlots_levels hn R
  simp only [freshSlots, List.map_cons, List.cons.injEq] at h
  obtain ⟨h1, h2⟩ := h
  have h3 : ((contactSlot R :: R.tasks.map (taskSlot R)) ++ X).map (·.l) = lqpLevels R.conf ++ X.map (·.l) := by
    rw [List.map_append, ← h2]; rfl
  show solveSequential osqp N { l := (dynSlot R).l, y := Sum.elim (-(R.Minv *ᵥ R.h)) 0, v := 0, w := 0 }
    (((contactSlot R :: R.tasks.map (taskSlot R)) ++ X).map (·.l)) = _
  rw [h3]
  generalize (dynSlot R).l = l at h1
  subst h1
  rfl

theorem solveRest_append {V : Type} [Fintype V] [DecidableEq V] (osqp : Osqp) (N : NullSpaceFn) (ls ls' : List (Level V)) :
    ∀ (Z : Basis V) (y : V → ℝ) (done : List (LevelAnswer V)), solveRest osqp N Z y done ls <+: solveRest osqp N Z y done (ls ++ ls') := by
  induction ls with
  | nil => intro Z y done; exact solveRest_prefix osqp N ls' Z y done
  | cons l ls ih => intro Z y done; exact ih _ _ _

/-- **C65 (a new object).**  The first configuration of an object is always accepted, and the controller computes what
`calcControlTorqueLQP` describes. -/
theorem C65_new_object (hn : 0 < n) (R : LqpRobot n c m) : ∃ slots, HqpObj.after n [⟨c, m, R⟩] = some ⟨c, slots⟩ ∧
    ∀ osqp N, runSlots osqp N R slots = calcControlTorqueLQP osqp N R := by
  refine ⟨freshSlots R, ?_, fun osqp N => ?_⟩
  · simp [HqpObj.after, HqpObj.configure, HqpObj.new, configureAt_new]
  · have := runSlots_append (osqp := osqp) (N := N) hn R []
    simp only [List.append_nil, List.map_nil] at this
    rw [this]; rfl

theorem configure_shaped {d : List ℕ} {slots : List (Slot (LqpVar (Fin n) c))} (hs : Shaped m d slots) (R : LqpRobot n c m) (hd : dims R <+: d) :
    HqpObj.configure ⟨c, slots⟩ ⟨c, m, R⟩ = some ⟨c, freshSlots R ++ slots.drop (2 + R.tasks.length) ++ blankSlots R⟩ := by
  have h0 : slots ≠ [] := by
    obtain ⟨_, _, _, _, rfl, -⟩ := hs
    simp
  simp only [HqpObj.configure]
  rw [if_neg h0, dif_pos trivial, configureAt_fit R hs hd]
  rfl

theorem configure_refused {d : List ℕ} {slots : List (Slot (LqpVar (Fin n) c))} (hn : 0 < n) (hm : 0 < m) (hs : Shaped m d slots) (k : LqpCall n)
    (h : ¬ (k.c = c ∧ k.m = m ∧ dims k.R <+: d)) : HqpObj.configure ⟨c, slots⟩ k = none := by
  have h0 : slots ≠ [] := by
    obtain ⟨_, _, _, _, rfl, -⟩ := hs
    simp
  obtain ⟨c', m', R⟩ := k
  simp only [HqpObj.configure]
  rw [if_neg h0]
  split_ifs with hc
  · subst hc
    rw [configureAt_misfit R hn hm hs fun h' => h ⟨rfl, h'.1, h'.2⟩]
    rfl
  · rfl

theorem fold_shaped (hn : 0 < n) (hm : 0 < m) {d : List ℕ} : ∀ (ks : List (LqpCall n)) (slots : List (Slot (LqpVar (Fin n) c))) (o : HqpObj n),
    Shaped m d slots → ks.foldlM HqpObj.configure ⟨c, slots⟩ = some o →
    ∃ slots', o = ⟨c, slots'⟩ ∧ Shaped m d slots' ∧ slots'.length = slots.length + (ks.map fun k => 2 + k.R.tasks.length).sum := by
  intro ks
  induction ks with
  | nil =>
    intro slots o hs h
    simp only [List.foldlM_nil, pure, Option.some.injEq] at h
    exact ⟨slots, h.symm, hs, by simp⟩
  | cons k ks ih =>
    intro slots o hs h
    rw [List.foldlM_cons] at h
    by_cases hk : k.c = c ∧ k.m = m ∧ dims k.R <+: d
    · obtain ⟨c', m', R⟩ := k
      obtain ⟨h1, h2, h3⟩ := hk
      simp only at h1 h2
      subst h1 h2
      rw [configure_shaped hs R h3] at h
      obtain ⟨s', rfl, h4, h5⟩ := ih _ _ (shaped_next R hs h3) h
      refine ⟨s', rfl, h4, ?_⟩
      have hl : R.tasks.length ≤ slots.length - 2 := by
        obtain ⟨_, _, rest, E, rfl, -, -, -, hr, -⟩ := hs
        have e1 := congrArg List.length hr
        have e2 := h3.length_le
        simp [dims] at e1 e2 ⊢
        omega
      have hl' : 2 ≤ slots.length := by
        obtain ⟨_, _, rest, E, rfl, -⟩ := hs
        simp
      rw [h5]
      simp [freshSlots, blankSlots]
      omega
    · rw [configure_refused hn hm hs k hk] at h
      cases h

theorem after_shaped (hn : 0 < n) {R₁ : LqpRobot n c m} (hm : 0 < m) {ks : List (LqpCall n)} {o : HqpObj n}
    (h : HqpObj.after n (⟨c, m, R₁⟩ :: ks) = some o) : ∃ slots, o = ⟨c, slots⟩ ∧ Shaped m (dims R₁) slots ∧
      slots.length = ((⟨c, m, R₁⟩ :: ks).map fun k => 2 + k.R.tasks.length).sum := by
  have h1 : HqpObj.configure (.new n) ⟨c, m, R₁⟩ = some ⟨c, freshSlots R₁⟩ := by
    simp [HqpObj.configure, HqpObj.new, configureAt_new]
  rw [HqpObj.after, List.foldlM_cons, h1] at h
  obtain ⟨s, h2, h3, h4⟩ := fold_shaped hn hm ks _ o (shaped_new R₁) h
  refine ⟨s, h2, h3, ?_⟩
  rw [h4]
  simp [freshSlots]
  omega

/-- **C65 (which configurations an object accepts).**  Take an object first configured for a robot in contact, and then any number of
times more.  A further configuration passes the checks of the code exactly if it has the contact size and the number of contact rows
of the first one, and its tasks have, one by one, the row counts of the first tasks of the first configuration.  In every other case,
for instance after a contact is made or broken or a task is added, an assertion fails. -/
theorem C65_accepts_iff (hn : 0 < n) {R₁ : LqpRobot n c m} (hm : 0 < m) {ks : List (LqpCall n)} {o : HqpObj n}
    (h : HqpObj.after n (⟨c, m, R₁⟩ :: ks) = some o) (k : LqpCall n) :
    (∃ o', o.configure k = some o') ↔ k.c = c ∧ k.m = m ∧ k.R.tasks.map (·.1) <+: R₁.tasks.map (·.1) := by
  obtain ⟨slots, rfl, hs, -⟩ := after_shaped hn hm h
  constructor
  · rintro ⟨o', ho⟩
    by_contra hc
    rw [configure_refused hn hm hs k hc] at ho
    cases ho
  · obtain ⟨c', m', R⟩ := k
    rintro ⟨h1, h2, h3⟩
    simp only at h1 h2
    subst h1 h2
    exact ⟨_, configure_shaped hs R h3⟩

/-- **C65 (no configuration is forgotten).**  The object keeps growing: it has the levels of all configurations. -/
theorem C65_level_count (hn : 0 < n) {R₁ : LqpRobot n c m} (hm : 0 < m) {ks : List (LqpCall n)} {o : HqpObj n}
    (h : HqpObj.after n (⟨c, m, R₁⟩ :: ks) = some o) :
    o.slots.length = ((⟨c, m, R₁⟩ :: ks).map fun k => 2 + k.R.tasks.length).sum := by
  obtain ⟨slots, rfl, -, hl⟩ := after_shaped hn hm h
  exact hl

/-- **C65 (the first answers are right).**  After any accepted sequence of configurations the first answers are those a new object
would give for the last configuration.  Missing: more answers follow them, and the last one is what callers read
(`C65_removed_task_followed`). -/
theorem C65_first_answers_partial (hn : 0 < n) {R₁ : LqpRobot n c m} (hm : 0 < m) {ks : List (LqpCall n)}
    {slots slots' : List (Slot (LqpVar (Fin n) c))} (h : HqpObj.after n (⟨c, m, R₁⟩ :: ks) = some ⟨c, slots⟩) {m' : ℕ} (R : LqpRobot n c m')
    (h' : HqpObj.configure ⟨c, slots⟩ ⟨c, m', R⟩ = some ⟨c, slots'⟩) (osqp : Osqp) (N : NullSpaceFn) :
    calcControlTorqueLQP osqp N R <+: runSlots osqp N R slots' ∧
      slots'.map (·.l) = (normalizeRows (lqpDynamics R.conf) :: lqpLevels R.conf) ++ (slots.drop (2 + R.tasks.length)).map (·.l)
        ++ (blankSlots R).map (·.l) ∧
      (runSlots osqp N R slots').length = slots.length + (2 + R.tasks.length) := by
  obtain ⟨s, e, hs, -⟩ := after_shaped hn hm h
  simp only [HqpObj.mk.injEq, heq_eq_eq, true_and] at e
  subst e
  obtain ⟨-, h2, h3⟩ := (C65_accepts_iff hn hm h ⟨c, m', R⟩).mp ⟨_, h'⟩
  simp only at h2 h3
  subst h2
  rw [configure_shaped hs R h3] at h'
  simp only [Option.some.injEq, HqpObj.mk.injEq, heq_eq_eq, true_and] at h'
  subst h'
  refine ⟨?_, ?_, ?_⟩
  · rw [List.append_assoc, runSlots_append hn]
    exact solveRest_append osqp N _ _ _ _ _
  · rw [List.map_append, List.map_append, freshSlots_levels hn]
  · rw [List.append_assoc, runSlots_append hn]
    have := congrArg List.length (solveRest_levels osqp N (lqpLevels R.conf ++ (slots.drop (2 + R.tasks.length) ++ blankSlots R).map (·.l))
      (firstZ N (lqpStart R.conf).l) (lqpStart R.conf).y [lqpStart R.conf])
    rw [List.length_map] at this
    rw [solveSequential, this]
    have hl : 2 + R.tasks.length ≤ slots.length := by
      obtain ⟨_, _, rest, E, rfl, -, -, -, hr, -⟩ := hs
      have e1 := congrArg List.length hr
      have e2 := h3.length_le
      simp [dims] at e1 e2 ⊢
      omega
    have ht : R.conf.tasks.length = R.tasks.length := rfl
    simp [lqpLevels, blankSlots, ht]
    omega

/-- the robot of `C57_task_missed` without its task -/
noncomputable abbrev idle : LqpRobot 1 0 0 := { reach with tasks := [] }

/-- **C65 (negation).**  A one-joint robot is controlled with a task that asks for acceleration 1, then the task is removed and the
controller configured again.  A new object leaves the joint at rest.  The old one still follows the removed task: its last
answer accelerates the joint, by the very amount it did with the task, for every exact solver. -/
theorem C65_removed_task_followed (osqp : Osqp) (hs : OsqpExact osqp) (N : NullSpaceFn) (hN : N.Correct) :
    ∃ slots, HqpObj.after 1 [⟨0, 0, reach⟩, ⟨0, 0, idle⟩] = some ⟨0, slots⟩ ∧
      (∀ r ∈ (calcControlTorqueLQP osqp N idle).getLast?, qddOf r.y (Sum.inr 0) = 0) ∧
      ∀ r ∈ (runSlots osqp N idle slots).getLast?, qddOf r.y (Sum.inr 0) = 1 / (1 + 5 / √7) := by
  have hf : HqpObj.after 1 [⟨0, 0, reach⟩, ⟨0, 0, idle⟩] = some ⟨0, freshSlots idle ++ (freshSlots reach).drop 2 ++ blankSlots idle⟩ := by
    have h1 : HqpObj.configure (.new 1) ⟨0, 0, reach⟩ = some ⟨0, freshSlots reach⟩ := by
      simp [HqpObj.configure, HqpObj.new, configureAt_new]
    rw [HqpObj.after, List.foldlM_cons, h1]
    show (HqpObj.configure ⟨0, freshSlots reach⟩ ⟨0, 0, idle⟩ >>= fun o => [].foldlM HqpObj.configure o) = _
    rw [configure_shaped (shaped_new reach) idle List.nil_prefix]
    rfl
  refine ⟨_, hf, ?_, ?_⟩
  · obtain ⟨a, b, rs, hrun, hlen, ⟨-, hb⟩, -⟩ := C57_levels_partial osqp hs N hN idle reach_spd (by simp)
    obtain rfl : rs = [] := List.length_eq_zero_iff.mp hlen
    rw [hrun]
    intro r hr
    have hbr : b = r := by simpa using hr
    subst hbr
    have h0 := hb (reachY 0) (reach_moves (by norm_num))
    have hc : contactMiss idle.conf (reachY 0) = 0 := contactMiss_ok (reach_contactOk (by norm_num))
    have he : energy idle.conf (reachY 0) = 0 := by
      have := reach_energy (reachY 0)
      rw [show energy idle.conf (reachY 0) = energy reach.conf (reachY 0) from rfl, this]
      simp [qddOf, reachY]
    have hcb : 0 ≤ contactMiss idle.conf b.y := by
      unfold contactMiss
      refine add_nonneg (add_nonneg ?_ ?_) ?_
      · exact Finset.sum_nonneg fun _ _ => sq_nonneg _
      · exact Finset.sum_nonneg fun _ _ => sq_nonneg _
      · exact Finset.sum_nonneg fun _ _ => add_nonneg (sq_nonneg _) (sq_nonneg _)
    rw [hc, he, show energy idle.conf b.y = energy reach.conf b.y from rfl, reach_energy] at h0
    have h7 : 0 < 5 / √(7 : ℝ) := div_pos (by norm_num) (Real.sqrt_pos.mpr (by norm_num))
    have hq : qddOf b.y ⬝ᵥ qddOf b.y ≤ 0 := by
      by_contra hlt
      have := mul_pos h7 (not_le.mp hlt)
      linarith
    have hn : 0 ≤ qddOf b.y ⬝ᵥ qddOf b.y := Finset.sum_nonneg fun _ _ => mul_self_nonneg _
    exact congrFun (dotProduct_self_eq_zero.mp (le_antisymm hq hn)) _
  · obtain ⟨-, -, -, a, b, r, hrun, hr, -⟩ := C57_task_missed osqp hs N hN
    have hrs : runSlots osqp N idle (freshSlots idle ++ (freshSlots reach).drop 2 ++ blankSlots idle) =
        solveSequential osqp N (lqpStart reach.conf) (lqpLevels reach.conf ++ (blankSlots idle).map (·.l)) := by
      rw [List.append_assoc, runSlots_append one_pos]
      rfl
    rw [hrs]
    obtain ⟨hl, hp, -⟩ := C32_residual_kept osqp N hN (lqpStart reach.conf) (lqpLevels reach.conf ++ (blankSlots idle).map (·.l))
    obtain ⟨X, hX⟩ := solveRest_append osqp N (lqpLevels reach.conf) ((blankSlots idle).map (·.l)) (firstZ N (lqpStart reach.conf).l)
      (lqpStart reach.conf).y [lqpStart reach.conf]
    have hX' : solveSequential osqp N (lqpStart reach.conf) (lqpLevels reach.conf ++ (blankSlots idle).map (·.l)) = [a, b, r] ++ X := by
      rw [solveSequential, ← hX, ← hrun]; rfl
    rw [hX'] at hp hl ⊢
    simp only [List.map_append, List.map_cons, List.map_nil, List.cons_append, List.nil_append, lqpLevels, List.cons.injEq] at hl
    have hl3 : r.l :: X.map (·.l) = [normalizeRows (lqpTask reach.conf ⟨1, Matrix.of fun _ => Pi.single (Sum.inr 0) 1, fun _ => 1⟩)] ++
      (blankSlots idle).map (·.l) := hl.2.2
    have hrl := (List.cons.inj hl3).1
    have hXl := (List.cons.inj hl3).2
    intro x hx
    have hX0 : X ≠ [] := by
      rintro rfl
      simp [blankSlots] at hXl
    rw [List.getLast?_append_of_ne_nil _ hX0] at hx
    have hxX := List.mem_of_getLast? hx
    have hres : r.l.residual x.y = r.l.residual r.y := by
      simp only [List.cons_append, List.nil_append, List.pairwise_cons] at hp
      exact hp.2.2.1 x hxX
    rw [← hr]
    have e : ∀ (l : Level (LqpVar (Fin 1) 0)) (y y' : LqpVar (Fin 1) 0 → ℝ),
        l = normalizeRows (lqpTask reach.conf ⟨1, Matrix.of fun _ => Pi.single (Sum.inr 0) 1, fun _ => 1⟩) → l.residual y = l.residual y' →
        qddOf y (Sum.inr 0) = qddOf y' (Sum.inr 0) := by
      intro l y y' hle h
      subst hle
      have h := congrFun h (0 : Fin 1)
      set row : LqpVar (Fin 1) 0 → ℝ := Sum.elim (Pi.single (Sum.inr 0) 1) 0 with hrow
      have hn : rowScale row = 1 := by
        have : rowNorm row = 1 := by simp [rowNorm, hrow, dotProduct, Fintype.sum_sum_type]
        rw [rowScale, this]; norm_num
      have hv : ∀ z : LqpVar (Fin 1) 0 → ℝ, row ⬝ᵥ z = qddOf z (Sum.inr 0) := fun z => by
        simp [hrow, dotProduct, Fintype.sum_sum_type, qddOf]
      have h' : (rowScale row • row) ⬝ᵥ y + rowScale row * -1 = (rowScale row • row) ⬝ᵥ y' + rowScale row * -1 := h
      rw [hn, one_smul, hv, hv] at h'
      linarith
    exact e r.l x.y r.y hrl hres

/-- hypotheses of `C65_accepts_iff`, `C65_level_count` and `C65_first_answers_partial` -/
example : ∃ o o', HqpObj.after 1 [⟨1, 1, push⟩] = some o ∧ o.configure ⟨1, 1, push⟩ = some o' ∧ o'.slots.length = 4 := by
  obtain ⟨slots, h, -⟩ := C65_new_object (n := 1) one_pos push
  obtain ⟨o', ho⟩ := (C65_accepts_iff one_pos one_pos h ⟨1, 1, push⟩).mpr ⟨rfl, rfl, List.prefix_rfl⟩
  refine ⟨_, o', h, ho, ?_⟩
  have : HqpObj.after 1 [⟨1, 1, push⟩, ⟨1, 1, push⟩] = some o' := by
    simp only [HqpObj.after, List.foldlM_cons, List.foldlM_nil] at h ⊢
    cases hc : HqpObj.configure (.new 1) ⟨1, 1, push⟩ with
    | none => rw [hc] at h; cases h
    | some x =>
      rw [hc] at h
      obtain rfl : x = ⟨1, slots⟩ := by simpa using h
      simp [ho]
  exact C65_level_count one_pos one_pos this

/-- `C65_accepts_iff`: lifting the contact is refused -/
example : ∃ o, HqpObj.after 1 [⟨1, 1, push⟩] = some o ∧ o.configure ⟨0, 0, idle⟩ = none := by
  obtain ⟨slots, h, -⟩ := C65_new_object (n := 1) one_pos push
  refine ⟨_, h, Option.eq_none_iff_forall_ne_some.mpr fun o' ho => ?_⟩
  have := ((C65_accepts_iff one_pos one_pos h ⟨0, 0, idle⟩).mp ⟨o', ho⟩).1
  simp at this


end Verif.Props
