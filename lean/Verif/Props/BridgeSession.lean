import Verif.Model.BridgeSession
import Verif.Props.Session
import Verif.Props.Task
import Verif.Props.ClosedForm

/-!
# C75: torque limits and the Python bridge
-/

set_option linter.unusedSectionVars false

namespace Verif.Props
open Matrix Verif Verif.Model Verif.Spec

variable {X : Type*} {n : ℕ} {E : ControlEnv X n} {x0 : X} {cc : List ContactLink} {ts : List ℕ} {limit : Option (Fin n → ℝ)}

/-- A call without quadratic programmes. -/
def Plain : ControlCall X → Prop
  | .taskTorque b => b = false
  | .redistribute b => b = false
  | _ => True

/-- The same robot with other torque limits. -/
def _root_.Verif.Model.Session.withLimit (s : Session X n) (L : Option (Fin n → ℝ)) : Session X n := { s with limit := L }

theorem step_limit (s : Session X n) (L : Option (Fin n → ℝ)) {o : ControlCall X} (ho : Plain o) :
    (s.withLimit L).step E o = (s.step E o).map (·.withLimit L) := by
  have hu : ∀ s : Session X n, (s.withLimit L).updateContacts E = (s.updateContacts E).map (·.withLimit L) := by
    intro s
    rcases hd : s.contactDof with _ | d
    · simp [Session.updateContacts, Session.withLimit, hd]
    · by_cases h : s.cc.all (fun l => l.type == .c6d) = true
      · simp only [Session.updateContacts, Session.withLimit, hd, h, if_true, Option.map_some]
      · simp only [Session.updateContacts, Session.withLimit, hd, h]
        rfl
  cases o with
  | update x => rfl
  | setContact v =>
    simp only [Session.step, Session.setContact]
    by_cases h : s.cc.length < v.length
    · rw [if_pos h, if_pos (by exact h)]
      exact hu s
    · rw [if_neg h, if_neg (by exact h)]
      exact hu { s with cc := Session.setFlags s.cc v, contactDof := some (6 * v.count true) }
  | updateContacts => exact hu s
  | calcContact =>
    simp only [Session.step, calcContact_eq, Option.map_map]
    rfl
  | grav =>
    simp only [Session.step, Session.grav, Session.withLimit]
    rcases s.space with _ | m <;> rfl
  | gravInto =>
    simp only [Session.step, Session.gravInto, Session.withLimit]
    rcases s.space with _ | m <;> rfl
  | setTask i f =>
    by_cases h : i < s.ts.length
    · refine (if_pos h).trans ?_
      rw [Session.step, Session.setTask, if_pos h]
      rfl
    · refine (if_neg h).trans ?_
      rw [Session.step, Session.setTask, if_neg h]
      rfl
  | taskTorque b =>
    have : b = false := ho
    subst this
    simp only [Session.step, Session.taskTorque, Session.withLimit, Session.taskInputs]
    rcases s.space with _ | m
    · rfl
    · simp only
      rcases calcTaskSpace m.S s.Ainv _ with _ | t <;> rfl
  | redistribute b =>
    have : b = false := ho
    subst this
    simp only [Session.step, Session.redistribute, Session.withLimit, Bool.false_eq_true, if_false]
    rcases s.contactDof with _ | d
    · rfl
    · simp only
      split
      · rcases s.space with _ | ⟨c, S, N, _ | P⟩
        · rfl
        · rfl
        · simp only [Session.closedForm]
          split <;> rfl
      · rfl

theorem run_limit (s : Session X n) (L : Option (Fin n → ℝ)) {os : List (ControlCall X)} (ho : ∀ o ∈ os, Plain o) :
    (s.withLimit L).run E os = (s.run E os).map (·.withLimit L) := by
  induction os generalizing s with
  | nil => rfl
  | cons o os ih =>
    simp only [Session.run, step_limit s L (ho o (by simp))]
    rcases s.step E o with _ | s'
    · rfl
    · exact ih s' fun o' h => ho o' (by simp [h])

theorem bridgeStep_limit (s : Session X n) (L : Option (Fin n → ℝ)) (o : BridgeCall X) :
    (s.withLimit L).bridgeStep E o = (s.bridgeStep E o).map (·.withLimit L) := by
  cases o with
  | update x => rfl
  | setContact l r =>
    simp only [Session.bridgeStep]
    rw [run_limit s L (by simp [Plain])]
    rcases s.run E [.setContact [l, r], .calcContact] with _ | s'
    · rfl
    · simp only [Option.map_some, Option.bind_some, Session.calcTask, Session.withLimit, Session.taskInputs]
      rcases hs : s'.space with _ | m
      · rfl
      · simp only
        rcases calcTaskSpace m.S s'.Ainv _ with _ | t
        · rfl
        · simp [hs]
  | setTask i f => exact run_limit s L (by simp [Plain])
  | calcTorque => exact run_limit s L (by simp [Plain])

theorem bridgeRun_limit (s : Session X n) (L : Option (Fin n → ℝ)) (os : List (BridgeCall X)) :
    (s.withLimit L).bridgeRun E os = (s.bridgeRun E os).map (·.withLimit L) := by
  induction os generalizing s with
  | nil => rfl
  | cons o os ih =>
    simp only [Session.bridgeRun, bridgeStep_limit]
    rcases s.bridgeStep E o with _ | s'
    · rfl
    · exact ih s'

/-- C75 (negation).  The torque limit set on the robot of the bridge never has an effect: after any calls the command is that of a robot
with any other limit, or with none. -/
theorem C75_limit_ignored (L L' : Option (Fin n → ℝ)) (os : List (BridgeCall X)) :
    ((Session.loaded x0 cc ts L).bridgeRun E os).map Session.command =
      ((Session.loaded x0 cc ts L').bridgeRun E os).map Session.command := by
  have h := bridgeRun_limit (E := E) (Session.loaded x0 cc ts L') L os
  have e : (Session.loaded x0 cc ts L').withLimit L = Session.loaded x0 cc ts L := rfl
  rw [← e, h, Option.map_map]
  rfl

/-- The control calls behind a bridge call. -/
def bridgeCalls : BridgeCall X → List (ControlCall X)
  | .update x => [.update x]
  | .setContact l r => [.setContact [l, r], .calcContact]
  | .setTask i f => [.setTask i f]
  | .calcTorque => [.grav, .taskTorque false, .redistribute false]

theorem run_of_bridgeRun {s s' : Session X n} {os : List (BridgeCall X)} (h : s.bridgeRun E os = some s') :
    s.run E (os.flatMap bridgeCalls) = some s' := by
  induction os generalizing s with
  | nil => exact h
  | cons o os ih =>
    rw [Session.bridgeRun] at h
    obtain ⟨s1, h1, h2⟩ := Option.bind_eq_some_iff.mp h
    rw [List.flatMap_cons, run_append]
    have : s.run E (bridgeCalls o) = some s1 := by
      cases o with
      | setContact l r =>
        obtain ⟨s2, h3, h4⟩ := Option.bind_eq_some_iff.mp h1
        have : s2 = s1 := by
          simp only [Session.calcTask] at h4
          split at h4
          · cases h4
          · split at h4 <;> cases h4
            rfl
        rw [← this]
        exact h3
      | update x => exact h1
      | setTask i f => exact h1
      | calcTorque => exact h1
    rw [this, Option.bind_some, ih h2]

/-- One cycle on the bridge: state, contacts, a command for every task, torque. -/
def bridgeCycle (x : X) (l r : Bool) (fs : List (ℕ → ℝ)) : List (BridgeCall X) :=
  [.update x, .setContact l r] ++ fs.mapIdx (fun i f => .setTask i f) ++ [.calcTorque]

theorem bridgeCycle_calls (x : X) (l r : Bool) (fs : List (ℕ → ℝ)) :
    (bridgeCycle x l r fs).flatMap bridgeCalls = controlCycle x [l, r] fs false := by
  have : ∀ (g : ℕ → ℕ) (fs : List (ℕ → ℝ)), (fs.mapIdx fun i f => (BridgeCall.setTask (g i) f : BridgeCall X)).flatMap bridgeCalls =
      fs.mapIdx fun i f => ControlCall.setTask (g i) f := by
    intro g fs
    induction fs generalizing g with
    | nil => rfl
    | cons f fs ih =>
      simp only [List.mapIdx_cons, List.flatMap_cons]
      rw [ih fun i => g (i + 1)]
      rfl
  rw [bridgeCycle, List.flatMap_append, List.flatMap_append, this fun i => i]
  rfl

/-- The cycle without quadratic programmes: gravity and task torque, then a torque that does not change the motion. -/
theorem plain_cycle {hist : List (ControlCall X)} {s : Session X n} {x : X} {v : List Bool} {fs : List (ℕ → ℝ)}
    (hh : (Session.loaded x0 cc ts limit).run E (hist ++ controlCycle x v fs false) = some s)
    (hv : v.length ≤ cc.length) (hf : fs.length = ts.length) (hA : IsSPD (E.mass x)) :
    ∃ S rs, contactSpace (Session.stackJac E x (switchedOn v)) (E.mass x)⁻¹ = some S ∧
      calcTaskSpace S (E.mass x)⁻¹ ((commanded (ts.map fun t => ⟨t, 0⟩) fs).mapIdx fun i T => ⟨T.t, E.taskJac i x T.t, T.f⟩) =
        some rs ∧
      ∀ qdd F, Motion (E.mass x) (Session.stackJac E x (switchedOn v)) (E.gravity x) s.command qdd F →
        ∃ F', Motion (E.mass x) (Session.stackJac E x (switchedOn v)) (E.gravity x)
          (gravityTorque S (E.mass x)⁻¹ (E.gravity x) + Model.taskTorque S rs) qdd F' := by
  have h1 : (Session.loaded x0 cc ts limit).run E (controlCycle x v fs false) = some s := by
    rw [← hh]
    rcases h0 : (Session.loaded x0 cc ts limit).run E hist with _ | s0
    · rw [run_append, h0] at hh
      cases hh
    · exact (C74_history_independent h0 x false hv hf).symm
  rw [run_cycle _ x false (by simpa [Session.loaded] using hv) (by simpa [Session.loaded] using hf)] at h1
  split at h1
  swap
  · cases h1
  have hJ : jacAt E (Session.loaded (n := n) x0 cc ts limit).cc x v = ⟨_, Session.stackJac E x (switchedOn v)⟩ := by
    rw [← activeIdx_contactsNow (E := E) x hv, ← contactsAt_eq]
    rfl
  simp only [readyAt, hJ] at h1
  obtain ⟨m, hm, h1⟩ := Option.bind_eq_some_iff.mp h1
  obtain ⟨S, N, rfl, hS⟩ := membersOf_some hm
  clear hm
  refine ⟨S, ?_⟩
  simp only [Session.run, Session.step, Session.taskTorque, Session.taskInputs, Session.loaded] at h1
  rcases hr : calcTaskSpace S (E.mass x)⁻¹ ((commanded (ts.map fun t => ⟨t, 0⟩) fs).mapIdx fun i T =>
    ⟨T.t, E.taskJac i x T.t, T.f⟩) with _ | rs
  · simp only [hr] at h1
    cases h1
  refine ⟨rs, hS, hr, ?_⟩
  simp only [hr, Bool.false_eq_true, if_false, Session.redistribute] at h1
  generalize Session.stackJac E x (switchedOn v) = J at *
  generalize 6 * (switchedOn v).length = c at *
  split at h1
  · cases h1
  rename_i s2 hd
  cases h1
  split at hd
  · split at hd
    · cases hd
    · rename_i τc he
      cases hd
      simp only [Session.closedForm] at he
      split at he
      · rename_i hc
        subst hc
        simp only [cast_eq] at he
        intro qdd F hM
        obtain ⟨⟨qdd', hM'⟩, -, -⟩ := C01_contact_force_exact hA hS (E.gravity x)
          (gravityTorque S (E.mass x)⁻¹ (E.gravity x) + Model.taskTorque S rs)
        rw [add_zero] at he
        obtain ⟨rfl, -⟩ := C49_second_contact hA hS _ he hM' hM
        exact ⟨_, hM'⟩
      · cases he
  · cases hd
    intro qdd F hM
    refine ⟨F, ?_⟩
    simpa [Session.command] using hM

/-- C75 (partial).  After any bridge calls, a cycle on the bridge that is defined makes the robot, standing on the contacts switched on,
follow the command of the first task exactly. -/
theorem C75_task_followed_partial {hist : List (BridgeCall X)} {s : Session X n} {x : X} {l r : Bool} {f : ℕ → ℝ}
    {fs : List (ℕ → ℝ)} {t : ℕ}
    (hh : (Session.loaded x0 cc (t :: ts) limit).bridgeRun E (hist ++ bridgeCycle x l r (f :: fs)) = some s)
    (hv : 2 ≤ cc.length) (hf : fs.length = ts.length) (hA : IsSPD (E.mass x))
    (hB : BaseDetermined (Session.stackJac E x (switchedOn [l, r]))) {qdd : Fin 6 ⊕ Fin n → ℝ}
    {F : Fin (6 * (switchedOn [l, r]).length) → ℝ}
    (hM : Motion (E.mass x) (Session.stackJac E x (switchedOn [l, r])) (E.gravity x) s.command qdd F) :
    E.taskJac 0 x t *ᵥ qdd = fun j : Fin t => f j := by
  have h := run_of_bridgeRun hh
  rw [List.flatMap_append, bridgeCycle_calls] at h
  obtain ⟨S, rs, hS, hr, hm⟩ := plain_cycle h (by simpa using hv) (by simpa using hf) hA
  obtain ⟨F', hM'⟩ := hm _ _ hM
  simp only [calcTaskSpace, commanded, List.map_cons, List.zipWith_cons_cons, List.mapIdx_cons, List.mapM_cons] at hr
  obtain ⟨R, hR, hr⟩ := Option.bind_eq_some_iff.mp hr
  obtain ⟨lower, -, hr⟩ := Option.bind_eq_some_iff.mp hr
  cases hr
  exact C07_top_priority_partial hA hS hB hR lower hM'

/-- C75 (negation).  In no state and on no contacts is there any bound on the torque the bridge commands: if a cycle is defined for every
command of a first task with at least one row, some command gives a torque beyond any bound, whatever the limit set. -/
theorem C75_unbounded {hist : List (BridgeCall X)} {x : X} {l r : Bool} {fs : List (ℕ → ℝ)} {t : ℕ} (ht : 0 < t)
    (hd : ∀ f, ((Session.loaded x0 cc (t :: ts) limit).bridgeRun E (hist ++ bridgeCycle x l r (f :: fs))).isSome)
    (hv : 2 ≤ cc.length) (hf : fs.length = ts.length) (hA : IsSPD (E.mass x))
    (hB : BaseDetermined (Session.stackJac E x (switchedOn [l, r]))) (B : ℝ) :
    ∃ f s, (Session.loaded x0 cc (t :: ts) limit).bridgeRun E (hist ++ bridgeCycle x l r (f :: fs)) = some s ∧
      ∃ j, B < |s.command j| := by
  by_contra hcon
  push Not at hcon
  obtain ⟨s0, h0⟩ := Option.isSome_iff_exists.mp (hd 0)
  have h := run_of_bridgeRun h0
  rw [List.flatMap_append, bridgeCycle_calls] at h
  obtain ⟨S, -, hS, -, -⟩ := plain_cycle h (by simpa using hv) (by simpa using hf) hA
  set a : Fin 6 ⊕ Fin n → ℝ := (E.taskJac 0 x t * S.AinvNc) ⟨0, ht⟩ with ha
  set K := (∑ j : Fin n, |a (.inr j)| * B) + |a ⬝ᵥ E.gravity x| with hK
  have key : ∀ f : ℕ → ℝ, f 0 ≤ K := by
    intro f
    obtain ⟨s, hs⟩ := Option.isSome_iff_exists.mp (hd f)
    obtain ⟨⟨qdd, hM⟩, -, -⟩ := C01_contact_force_exact hA hS (E.gravity x) s.command
    have h1 := congrFun (C75_task_followed_partial hs hv hf hA hB hM) ⟨0, ht⟩
    rw [((motion_iff hA hS _ _ _ _).mp hM).1, mulVec_mulVec] at h1
    have h2 : f 0 = a ⬝ᵥ (actuate s.command - E.gravity x) := h1.symm
    rw [h2, dotProduct_sub, hK]
    have h3 : a ⬝ᵥ actuate s.command ≤ ∑ j : Fin n, |a (.inr j)| * B := by
      simp only [dotProduct, Fintype.sum_sum_type, actuate, Sum.elim_inl, Sum.elim_inr, Pi.zero_apply, mul_zero,
        Finset.sum_const_zero, zero_add]
      refine Finset.sum_le_sum fun j _ => (le_abs_self _).trans ?_
      rw [abs_mul]
      exact mul_le_mul_of_nonneg_left (hcon f s hs j) (abs_nonneg _)
    have h4 := neg_abs_le (a ⬝ᵥ E.gravity x)
    linarith
  have := key fun _ => K + 1
  linarith

namespace BridgeArm

/-- A robot with one joint standing on its first foot, fixed to the base; the task is the joint. -/
noncomputable def env (solve : Solver) (rsolve : RSolver) (cod : (W : Matrix (Fin 1) (Fin 1) ℝ) → CodNull W) : ControlEnv ℝ 1 :=
  { StaleContact.env solve rsolve cod with taskJac := fun _ _ _ => Matrix.of fun _ s => match s with
      | .inl _ => 0
      | .inr _ => 1 }

/-- A cycle standing on the first foot is defined for every command. -/
theorem defined (solve : Solver) (rsolve : RSolver) (cod : (W : Matrix (Fin 1) (Fin 1) ℝ) → CodNull W) (L : Fin 1 → ℝ) (f : ℕ → ℝ) :
    ((Session.loaded 0 [exContact false, exContact false] [1] (some L)).bridgeRun (env solve rsolve cod)
      (bridgeCycle 0 true false [f])).isSome := by
  obtain ⟨S, hR⟩ := C05_few_rows StaleContact.spd (StaleContact.foot_ind 0) le_rfl cod
  have hS : contactSpace (StaleContact.foot 0) 1⁻¹ = some S := by
    unfold calculateContactConstraint at hR
    split at hR
    · cases hR
    · rename_i S' e
      rw [e]
      simp at hR
      rw [hR]
  have ht : ∀ g, ∃ R, calculateJKT S 1⁻¹ (⟨1, Matrix.of fun _ s => match s with | .inl _ => 0 | .inr _ => 1, g⟩ : TaskIn (Fin 1)) =
      some R := by
    intro g
    refine Option.isSome_iff_exists.mp ((C06_finite_iff StaleContact.spd hS _).mpr ?_)
    rintro y ⟨F, hF⟩
    have := congrFun hF (.inr 0)
    simp [mulVec, dotProduct, StaleContact.foot] at this
    ext j
    have hj : j = (0 : Fin 1) := Subsingleton.elim _ _
    rw [hj]
    exact this.symm
  have hst : Session.stackJac (env solve rsolve cod) 0 [0] = StaleContact.foot 0 := StaleContact.stack solve rsolve cod 0
  have e : membersOf (env solve rsolve cod) (some (6 * List.count true [true, false]))
      ⟨_, Session.stackJac (env solve rsolve cod) 0 [0]⟩ 1⁻¹ = some ⟨6, S, 0, none⟩ := by
    rw [hst]
    have : 6 * List.count true [true, false] = 6 := rfl
    simp only [membersOf, this, lt_irrefl, if_false, env, StaleContact.env]
    erw [hR]
    rfl
  obtain ⟨R0, hR0⟩ := ht 0
  obtain ⟨R1, hR1⟩ := ht fun _ => f 0
  have hstart : ∃ s, (Session.loaded 0 [exContact false, exContact false] [1] (some L)).run (env solve rsolve cod)
      [.update 0, .setContact [true, false], .calcContact] = some s ∧ s.space = some ⟨6, S, 0, none⟩ ∧ s.ts = [⟨1, 0⟩] ∧
      s.contactDof = some 6 ∧ s.Ainv = 1⁻¹ := by
    rw [run_prep _ _ (by simp [Session.loaded])]
    simp only [Session.loaded, exContact, List.all_cons, beq_self_eq_true, List.all_nil, Bool.and_self, if_true, Session.setFlags,
      posed, List.mapIdx_cons, List.mapIdx_nil, Session.run, Session.step, calcContact_eq]
    erw [e]
    exact ⟨_, rfl, rfl, rfl, rfl, rfl⟩
  obtain ⟨s, hs, hsp, hts, hcd, hAi⟩ := hstart
  have h1 : (Session.loaded 0 [exContact false, exContact false] [1] (some L)).bridgeRun (env solve rsolve cod)
      [.update 0, .setContact true false] = some s := by
    have hs' : Session.run (env solve rsolve cod)
        ((Session.loaded 0 [exContact false, exContact false] [1] (some L)).update (env solve rsolve cod) 0)
        [.setContact [true, false], .calcContact] = some s := hs
    have hc : s.calcTask (env solve rsolve cod) = some s := by
      have : calcTaskSpace S s.Ainv (s.taskInputs (env solve rsolve cod)) = some [R0] := by
        simp only [Session.taskInputs, hts, hAi, List.mapIdx_cons, List.mapIdx_nil, calcTaskSpace, List.mapM_cons, List.mapM_nil]
        erw [hR0]
        rfl
      simp only [Session.calcTask, hsp, this]
    simp only [Session.bridgeRun, Session.bridgeStep, Session.run, Session.step, Option.bind_some]
    simp only [Session.run, Session.step] at hs'
    rw [hs', Option.bind_some, hc, Option.bind_some]
  have h2 : ∃ s', s.bridgeRun (env solve rsolve cod) [.setTask 0 f, .calcTorque] = some s' := by
    have : calcTaskSpace S s.Ainv [⟨1, (env solve rsolve cod).taskJac 0 s.x 1, fun _ => f 0⟩] = some [R1] := by
      simp only [hAi, calcTaskSpace, List.mapM_cons, List.mapM_nil]
      erw [hR1]
      rfl
    simp [Session.bridgeRun, Session.bridgeStep, Session.run, Session.step, Session.setTask, hts, Session.grav, hsp,
      Session.taskTorque, Session.taskInputs, this, Session.redistribute, hcd]
  obtain ⟨s', h2⟩ := h2
  have hap : ∀ (a b : List (BridgeCall ℝ)) (u : Session ℝ 1), u.bridgeRun (env solve rsolve cod) (a ++ b) =
      (u.bridgeRun (env solve rsolve cod) a).bind fun u' => u'.bridgeRun (env solve rsolve cod) b := by
    intro a
    induction a with
    | nil => intro b u; rfl
    | cons o a ih =>
      intro b u
      simp only [List.cons_append, Session.bridgeRun, ih, Option.bind_assoc]
  have : bridgeCycle (0 : ℝ) true false [f] = [.update 0, .setContact true false] ++ [.setTask 0 f, .calcTorque] := rfl
  rw [this, hap, h1, Option.bind_some, h2]
  rfl

end BridgeArm

/-- The hypotheses of C75_unbounded and C75_task_followed_partial are met: with the limit of 300 of the bridge's constructor, standing on
one foot, commands beyond 1000 happen. -/
example (solve : Solver) (rsolve : RSolver) (cod : (W : Matrix (Fin 1) (Fin 1) ℝ) → CodNull W) :
    ∃ f s, (Session.loaded 0 [exContact false, exContact false] [1] (some fun _ => 300)).bridgeRun (BridgeArm.env solve rsolve cod)
      (bridgeCycle 0 true false [f]) = some s ∧ ∃ j, 1000 < |s.command j| :=
  C75_unbounded (hist := []) (ts := []) (fs := []) (by norm_num) (fun f => BridgeArm.defined solve rsolve cod _ f) (by simp) rfl
    StaleContact.spd (by
      have : Session.stackJac (BridgeArm.env solve rsolve cod) 0 (switchedOn [true, false]) = StaleContact.foot 0 :=
        StaleContact.stack solve rsolve cod 0
      rw [this]
      exact StaleContact.foot_base 0) 1000

end Verif.Props
