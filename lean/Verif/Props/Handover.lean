import Verif.Lemmas.HandoverRobot
import Mathlib.Tactic.NormNum

/-!
# C79: handing the state to a control thread and the command back
-/

set_option linter.unusedSectionVars false

namespace Verif.Props
open Verif Verif.Spec Verif.Model

section
variable {R : Type*} {J : Job R} {o : Objects R}

/-- C79, no simultaneous access.  Under every schedule the two threads are never in the middle of calls on the shared object at
the same time. -/
theorem C79_exclusive (h0 : 0 < J.runs) (sched : List Thread) :
    ¬ (((Threads.start J o).run J sched).mUsesShared ∧ ((Threads.start J o).run J sched).cUsesShared) := by
  have h := Handover.inv_run (Handover.inv_start (o := o) h0) sched
  revert h
  generalize (Threads.start J o).run J sched = s
  rintro h ⟨h1, h2⟩
  unfold Threads.mUsesShared at h1
  unfold Threads.cUsesShared at h2
  cases h with
  | cclear2 i m h hm => rcases h2 with ⟨k, h2⟩ | ⟨k, h2⟩ <;> cases h2
  | answered i m h hm => rcases hm with rfl | rfl <;> rcases h1 with ⟨k, h1⟩ | ⟨k, h1⟩ <;> cases h1
  | accept i k h hk =>
    simp only [Handover.idle] at h2
    split_ifs at h2 <;> rcases h2 with ⟨k, h2⟩ | ⟨k, h2⟩ <;> cases h2
  | put i k h hk => rcases h2 with ⟨k, h2⟩ | ⟨k, h2⟩ <;> cases h2
  | _ => rcases h1 with ⟨k, h1⟩ | ⟨k, h1⟩ <;> cases h1

/-- C79, threads make no difference.  Under every schedule, and however finely a copy is divided into steps, the three
objects are, whenever the measuring thread begins a cycle or has ended, exactly those of the sequential program. -/
theorem C79_sequential (h0 : 0 < J.runs) (sched : List Thread)
    (hm : ((Threads.start J o).run J sched).m = .measure ∨ ((Threads.start J o).run J sched).m = .done) :
    ((Threads.start J o).run J sched).obj = J.sequential o ((Threads.start J o).run J sched).mCount := by
  have h := Handover.inv_run (Handover.inv_start (o := o) h0) sched
  revert h hm
  generalize (Threads.start J o).run J sched = s
  intro hm h
  cases h with
  | measure i h => rfl
  | done => rfl
  | answered i m h h' => rcases h' with rfl | rfl <;> rcases hm with hm | hm <;> cases hm
  | cclear2 i m h h' => rcases h' with rfl | rfl <;> rcases hm with hm | hm <;> cases hm
  | _ => rcases hm with hm | hm <;> cases hm

/-- C79, the control thread computes with a complete state of the current cycle: when it begins its computation, its object
holds what the two copies of the sequential cycle leave there, and the measuring thread is in the same cycle. -/
theorem C79_current (h0 : 0 < J.runs) (sched : List Thread) (hc : ((Threads.start J o).run J sched).c = .control) :
    let s := (Threads.start J o).run J sched
    let b := J.sequential o s.cCount
    let p := J.put.perform (J.measure s.cCount b.mine, b.shared)
    s.mCount = s.cCount ∧ s.obj.mine = p.1 ∧ s.obj.ctrl = (J.fetch.perform (p.2, b.ctrl)).2 := by
  have h := Handover.inv_run (Handover.inv_start (o := o) h0) sched
  revert h hc
  generalize (Threads.start J o).run J sched = s
  intro hc h
  cases h with
  | control i h => exact ⟨rfl, rfl, rfl⟩
  | clear1 i c h h' => rcases h' with rfl | rfl <;> cases hc
  | ready i c h h' => rcases h' with rfl | rfl <;> cases hc
  | answered i m h h' => simp only [Handover.idle] at hc; split_ifs at hc
  | dec2 i h => simp only [Handover.idle] at hc; split_ifs at hc
  | accept i k h hk => simp only [Handover.idle] at hc; split_ifs at hc
  | mclear2 i h => simp only [Handover.idle] at hc; split_ifs at hc
  | _ => cases hc

/-- C79, neither thread gets ahead: the control thread has completed as many cycles as the measuring thread or one more, and
the eight-bit counters stay 0 or 1. -/
theorem C79_lockstep (h0 : 0 < J.runs) (sched : List Thread) :
    let s := (Threads.start J o).run J sched
    (s.cCount = s.mCount ∨ s.cCount = s.mCount + 1) ∧ s.mCount ≤ J.runs ∧ s.cCount ≤ J.runs ∧
      (s.t1.counter = 0 ∨ s.t1.counter = 1) ∧ (s.t2.counter = 0 ∨ s.t2.counter = 1) := by
  have h := Handover.inv_run (Handover.inv_start (o := o) h0) sched
  revert h
  generalize (Threads.start J o).run J sched = s
  intro h
  cases h <;> simp only [Handover.off] <;> refine ⟨by simp, by omega, by omega, by simp, by simp⟩

/-- C79, no deadlock.  While the program has not ended one of the threads can go on. -/
theorem C79_no_deadlock (h0 : 0 < J.runs) (sched : List Thread) (hf : ¬ ((Threads.start J o).run J sched).finished) :
    ∃ t, ((Threads.start J o).run J sched).step J t ≠ (Threads.start J o).run J sched :=
  Handover.not_stuck (Handover.inv_run (Handover.inv_start h0) sched) hf

/-- C79, the program ends.  Cut the schedule into rounds in each of which both threads run at least once: after as many rounds
as the program has steps, both threads have ended, with the objects of the sequential program. -/
theorem C79_finishes (h0 : 0 < J.runs) (rounds : List (List Thread))
    (hr : ∀ r ∈ rounds, Thread.measuring ∈ r ∧ Thread.controlling ∈ r)
    (hn : J.runs * (20 + J.put.length + J.fetch.length + J.answer.length + J.accept.length) < rounds.length) :
    ((Threads.start J o).run J rounds.flatten).finished ∧
      ((Threads.start J o).run J rounds.flatten).obj = J.sequential o J.runs := by
  have hs := Handover.inv_start (o := o) h0
  have hi := Handover.inv_run hs rounds.flatten
  have hf : ((Threads.start J o).run J rounds.flatten).finished := by
    rcases Handover.rounds_finish rounds hr hs with e | e
    · exact e
    · have := Handover.prog_le hi
      have e2 : Handover.lenM J + Handover.lenC J =
          20 + J.put.length + J.fetch.length + J.answer.length + J.accept.length := by
        unfold Handover.lenM Handover.lenC; omega
      rw [e2] at this
      omega
  refine ⟨hf, ?_⟩
  revert hi hf
  generalize (Threads.start J o).run J rounds.flatten = s
  intro hi hf
  obtain ⟨h1, h2⟩ := hf
  cases hi with
  | done => rfl
  | answered i m h h' => rcases h' with rfl | rfl <;> cases h1
  | cclear2 i m h h' => rcases h' with rfl | rfl <;> cases h1
  | _ => cases h1

/-- C79, under every fair schedule (each thread runs again and again) the program ends. -/
theorem C79_fair (h0 : 0 < J.runs) (sched : ℕ → Thread) (hM : ∀ n, ∃ k, n ≤ k ∧ sched k = .measuring)
    (hC : ∀ n, ∃ k, n ≤ k ∧ sched k = .controlling) :
    ∃ n, ((Threads.start J o).run J ((List.range n).map sched)).finished := by
  have key : ∀ N, ∃ (n : ℕ) (rounds : List (List Thread)), rounds.length = N ∧ rounds.flatten = (List.range n).map sched ∧
      ∀ r ∈ rounds, Thread.measuring ∈ r ∧ Thread.controlling ∈ r := by
    intro N
    induction N with
    | zero => exact ⟨0, [], rfl, rfl, by simp⟩
    | succ N ih =>
      obtain ⟨n, rounds, hl, hfl, hr⟩ := ih
      obtain ⟨a, ha, ha'⟩ := hM n
      obtain ⟨b, hb, hb'⟩ := hC n
      refine ⟨n + (max a b + 1 - n), rounds ++ [(List.range (max a b + 1 - n)).map fun j => sched (n + j)], by simp [hl], ?_, ?_⟩
      · rw [List.flatten_append, hfl, List.range_add, List.map_append]
        simp
      · intro r hr'
        rcases List.mem_append.mp hr' with hr' | hr'
        · exact hr r hr'
        · rw [List.mem_singleton.mp hr']
          refine ⟨List.mem_map.mpr ⟨a - n, ?_, ?_⟩, List.mem_map.mpr ⟨b - n, ?_, ?_⟩⟩
          · rw [List.mem_range]; have := le_max_left a b; omega
          · rw [← ha']; congr 1; omega
          · rw [List.mem_range]; have := le_max_right a b; omega
          · rw [← hb']; congr 1; omega
  obtain ⟨n, rounds, hl, hfl, hr⟩ :=
    key (J.runs * (20 + J.put.length + J.fetch.length + J.answer.length + J.accept.length) + 1)
  exact ⟨n, hfl ▸ (C79_finishes (o := o) h0 rounds hr (by omega)).1⟩

end

section
variable {V M L Jt C T Q : Type*} {l0 : L} {c0 : C} {t0 : T} {k0 : Q} {runs : ℕ}
  {upd : ℕ → KinState V M L Jt C T Q → KinState V M L Jt C T Q}
  {ctl : ℕ → CmdRobot V M L Jt C T Q → Option (CmdRobot V M L Jt C T Q)}
  {o : Objects (Option (CmdRobot V M L Jt C T Q))} {r : CmdRobot V M L Jt C T Q} {i : ℕ}

/-- Two copies one after the other. -/
theorem twice_measured {a g k K G1 G2 Lk : KinState V M L Jt C T Q} (h1 : copyKinematics l0 c0 t0 k0 a g = some (K, G1))
    (h2 : copyKinematics l0 c0 t0 k0 G1 k = some (G2, Lk)) :
    SameMeasured a K ∧ SameMeasured a Lk ∧ Lk.comPos = k.comPos ∧ Lk.joint = k.joint := by
  obtain ⟨e1, e2⟩ := copyKinematics_some h1
  obtain ⟨-, e4⟩ := copyKinematics_some h2
  have d1 : K.cc.map (·.data) = a.cc.map (·.data) := by rw [e1]; exact Handover.sourceContacts_data _ _
  have d2 : Lk.cc.map (·.data) = a.cc.map (·.data) := by
    rw [e4]
    refine (Handover.sourceContacts_data _ _).trans ?_
    rw [e2]
    exact Handover.sourceContacts_data _ _
  refine ⟨⟨?_, d1⟩, ⟨?_, d2⟩, by rw [e4], by rw [e4]⟩
  · rw [e1]
    exact ⟨rfl, rfl, rfl, rfl, rfl, ⟨rfl, rfl⟩, ⟨rfl, rfl⟩, rfl, rfl, rfl, rfl, rfl, rfl⟩
  · rw [e4, e2]
    exact ⟨rfl, rfl, rfl, rfl, rfl, ⟨rfl, rfl⟩, ⟨rfl, rfl⟩, rfl, rfl, rfl, rfl, rfl, rfl⟩

/-- C79, the state the control thread computes with.  Under every schedule, when the control thread begins its `i`-th
computation, its robot and that of the measuring thread hold the state of the `i`-th measurement.  Missing: the centre of mass
position and the joint table, which the copy leaves out (`C79_com_stale`), and the contact switches (`C79_switches_lost`). -/
theorem C79_state_partial (h0 : 0 < runs) (sched : List Thread)
    (hc : ((Threads.start (robotJob l0 c0 t0 k0 runs upd ctl) o).run (robotJob l0 c0 t0 k0 runs upd ctl) sched).c = .control)
    (hr : ((Threads.start (robotJob l0 c0 t0 k0 runs upd ctl) o).run (robotJob l0 c0 t0 k0 runs upd ctl) sched).obj.ctrl =
      some r) :
    let J := robotJob l0 c0 t0 k0 runs upd ctl
    let s := (Threads.start J o).run J sched
    ∃ prev now, (J.sequential o s.cCount).mine = some prev ∧ s.obj.mine = some now ∧
      SameMeasured (upd s.cCount prev.kin) now.kin ∧ SameMeasured (upd s.cCount prev.kin) r.kin := by
  intro J s
  obtain ⟨h1, h2, h3⟩ := C79_current (J := J) (o := o) h0 sched hc
  change s.obj.mine = (Handover.put J o s.cCount).1 at h2
  change s.obj.ctrl = (Handover.fetch J o s.cCount).2 at h3
  obtain ⟨a, g, k, K, G1, G2, Lk, q1, q2, q3, q4, q5, q6⟩ := Handover.fetch_some (h3.symm.trans hr)
  obtain ⟨w1, w2, -, -⟩ := twice_measured q2 q3
  refine ⟨a, { a with kin := K }, congrArg Objects.mine q1, h2.trans (congrArg Prod.fst q4), w1, ?_⟩
  rw [q6]
  exact w2

/-- C79, the command.  Under every schedule, when the measuring thread has completed its `i`-th cycle (unless a call was
undefined), its robot holds the state of the `i`-th measurement together with the command the control thread's `i`-th
computation made of that state. -/
theorem C79_command (h0 : 0 < runs) (sched : List Thread)
    (hm : ((Threads.start (robotJob l0 c0 t0 k0 runs upd ctl) o).run (robotJob l0 c0 t0 k0 runs upd ctl) sched).m = .measure ∨
      ((Threads.start (robotJob l0 c0 t0 k0 runs upd ctl) o).run (robotJob l0 c0 t0 k0 runs upd ctl) sched).m = .done)
    (hi : ((Threads.start (robotJob l0 c0 t0 k0 runs upd ctl) o).run (robotJob l0 c0 t0 k0 runs upd ctl) sched).mCount = i + 1)
    (hr : ((Threads.start (robotJob l0 c0 t0 k0 runs upd ctl) o).run (robotJob l0 c0 t0 k0 runs upd ctl) sched).obj.mine =
      some r) :
    ∃ prev fetched result, ((robotJob l0 c0 t0 k0 runs upd ctl).sequential o i).mine = some prev ∧
      SameMeasured (upd i prev.kin) r.kin ∧ SameMeasured (upd i prev.kin) fetched.kin ∧ ctl i fetched = some result ∧
      r.command = result.command := by
  have h := C79_sequential (J := robotJob l0 c0 t0 k0 runs upd ctl) (o := o) h0 sched hm
  rw [h, hi] at hr
  obtain ⟨a, g, k, k', K, G1, G2, Lk, q1, q2, q3, q4, q5, q6, q7⟩ := Handover.cycle_some hr
  obtain ⟨w1, w2, -, -⟩ := twice_measured q2 q3
  refine ⟨a, { k with kin := Lk }, k', congrArg Objects.mine q1, ?_, w2, q5, ?_⟩
  · rw [q6]; exact w1
  · rw [q6]

/-- C79, negation: the centre of mass.  If the control thread does not itself compute it, the position of the centre of mass
in its robot is the one from before the program, in every cycle and under every schedule; the joint table likewise. -/
theorem C79_com_stale (h0 : 0 < runs) (hctl : ∀ i k k', ctl i k = some k' → k'.kin.comPos = k.kin.comPos ∧ k'.kin.joint = k.kin.joint)
    {k : CmdRobot V M L Jt C T Q} (ho : o.ctrl = some k) (sched : List Thread)
    (hc : ((Threads.start (robotJob l0 c0 t0 k0 runs upd ctl) o).run (robotJob l0 c0 t0 k0 runs upd ctl) sched).c = .control)
    (hr : ((Threads.start (robotJob l0 c0 t0 k0 runs upd ctl) o).run (robotJob l0 c0 t0 k0 runs upd ctl) sched).obj.ctrl =
      some r) : r.kin.comPos = k.kin.comPos ∧ r.kin.joint = k.kin.joint := by
  obtain ⟨h1, h2, h3⟩ := C79_current (J := robotJob l0 c0 t0 k0 runs upd ctl) (o := o) h0 sched hc
  change _ = (Handover.fetch _ o _).2 at h3
  have h4 := h3.symm.trans hr
  clear h1 h2 h3 hc hr
  generalize ((Threads.start (robotJob l0 c0 t0 k0 runs upd ctl) o).run (robotJob l0 c0 t0 k0 runs upd ctl) sched).cCount = n at h4
  have key : ∀ n (a g k1 : CmdRobot V M L Jt C T Q), Handover.s0 (robotJob l0 c0 t0 k0 runs upd ctl) o n =
      ⟨some a, some g, some k1⟩ → k1.kin.comPos = k.kin.comPos ∧ k1.kin.joint = k.kin.joint := by
    intro n
    induction n with
    | zero =>
      intro a g k1 h
      have : o.ctrl = some k1 := congrArg Objects.ctrl h
      rw [ho] at this
      cases this
      exact ⟨rfl, rfl⟩
    | succ n ih =>
      intro a g k1 h
      obtain ⟨a, g, k2, k', K, G1, G2, Lk, q1, q2, q3, q4, q5, q6, q7⟩ := Handover.cycle_some (congrArg Objects.mine h)
      rw [h] at q7
      have : k1 = k' := by simpa using congrArg Objects.ctrl q7
      obtain ⟨e1, e2⟩ := hctl n _ _ q5
      obtain ⟨-, -, w1, w2⟩ := twice_measured q2 q3
      obtain ⟨i1, i2⟩ := ih _ _ _ q1
      rw [this, e1, e2]
      exact ⟨w1.trans i1, w2.trans i2⟩
  obtain ⟨a, g, k1, K, G1, G2, Lk, q1, q2, q3, q4, q5, q6⟩ := Handover.fetch_some h4
  obtain ⟨-, -, w1, w2⟩ := twice_measured q2 q3
  obtain ⟨i1, i2⟩ := key _ _ _ _ q1
  rw [q6]
  exact ⟨w1.trans i1, w2.trans i2⟩

/-- C79, negation: the control thread's own tasks.  If measuring leaves the task table alone, then under every schedule the
control thread begins each computation with exactly the tasks the measuring thread's robot had before the program: tasks it
added in an earlier cycle are gone. -/
theorem C79_own_tasks_lost (h0 : 0 < runs) (hupd : ∀ i s, (upd i s).ts = s.ts) {a : CmdRobot V M L Jt C T Q}
    (ho : o.mine = some a) (sched : List Thread)
    (hc : ((Threads.start (robotJob l0 c0 t0 k0 runs upd ctl) o).run (robotJob l0 c0 t0 k0 runs upd ctl) sched).c = .control)
    (hr : ((Threads.start (robotJob l0 c0 t0 k0 runs upd ctl) o).run (robotJob l0 c0 t0 k0 runs upd ctl) sched).obj.ctrl =
      some r) : r.kin.ts = a.kin.ts := by
  obtain ⟨prev, now, h1, -, -, h2⟩ := C79_state_partial h0 sched hc hr
  have key : ∀ n (b : CmdRobot V M L Jt C T Q), (Handover.s0 (robotJob l0 c0 t0 k0 runs upd ctl) o n).mine = some b →
      b.kin.ts = a.kin.ts := by
    intro n
    induction n with
    | zero =>
      intro b h
      have : o.mine = some b := h
      rw [ho] at this
      cases this
      rfl
    | succ n ih =>
      intro b h
      obtain ⟨a, g, k2, k', K, G1, G2, Lk, q1, q2, q3, q4, q5, q6, q7⟩ := Handover.cycle_some h
      obtain ⟨w, -, -, -⟩ := twice_measured q2 q3
      rw [q6]
      exact w.1.tasks.trans ((hupd _ _).trans (ih _ (congrArg Objects.mine q1)))
  exact h2.1.tasks.trans ((hupd _ _).trans (key _ _ h1))

/-- C79, negation: the contact switches.  The shared robot and the control thread's start without contacts, as after loading.
Then under every schedule the control thread begins each computation with indeterminate contact switches, whatever the
measuring thread had switched on, and whatever it switched itself in earlier cycles; and the switches of the measuring
thread's robot are indeterminate as well. -/
theorem C79_switches_lost (h0 : 0 < runs) (hupd : ∀ i s, (upd i s).cc = s.cc)
    (hctl : ∀ i k k', ctl i k = some k' → k'.kin.cc.length = k.kin.cc.length)
    {a g k : CmdRobot V M L Jt C T Q} (ho : o = ⟨some a, some g, some k⟩) (hg : g.kin.cc = []) (hk : k.kin.cc = [])
    (sched : List Thread)
    (hc : ((Threads.start (robotJob l0 c0 t0 k0 runs upd ctl) o).run (robotJob l0 c0 t0 k0 runs upd ctl) sched).c = .control)
    (hr : ((Threads.start (robotJob l0 c0 t0 k0 runs upd ctl) o).run (robotJob l0 c0 t0 k0 runs upd ctl) sched).obj.ctrl =
      some r) :
    (∀ x ∈ r.kin.cc, x.on = none) ∧
    ∃ now, ((Threads.start (robotJob l0 c0 t0 k0 runs upd ctl) o).run (robotJob l0 c0 t0 k0 runs upd ctl) sched).obj.mine =
      some now ∧ ∀ x ∈ now.kin.cc, x.on = none := by
  obtain ⟨h1, h2, h3⟩ := C79_current (J := robotJob l0 c0 t0 k0 runs upd ctl) (o := o) h0 sched hc
  change _ = (Handover.fetch _ o _).2 at h3
  change _ = (Handover.put _ o _).1 at h2
  have h4 := h3.symm.trans hr
  rw [h2]
  clear h1 h2 h3 hc hr
  generalize ((Threads.start (robotJob l0 c0 t0 k0 runs upd ctl) o).run (robotJob l0 c0 t0 k0 runs upd ctl) sched).cCount = n at h4 ⊢
  have one : ∀ {n : ℕ} {a g k : CmdRobot V M L Jt C T Q} {K G1 G2 Lk : KinState V M L Jt C T Q},
      copyKinematics l0 c0 t0 k0 (upd n a.kin) g.kin = some (K, G1) →
      copyKinematics l0 c0 t0 k0 G1 k.kin = some (G2, Lk) →
      (g.kin.cc = [] ∧ k.kin.cc = [] ∨ g.kin.cc.length = a.kin.cc.length ∧ k.kin.cc.length = a.kin.cc.length ∧
        ∀ x ∈ a.kin.cc, x.on = none) →
      (∀ x ∈ K.cc, x.on = none) ∧ (∀ x ∈ Lk.cc, x.on = none) ∧ K.cc.length = a.kin.cc.length ∧
        G2.cc.length = a.kin.cc.length ∧ Lk.cc.length = a.kin.cc.length := by
    intro n a g k K G1 G2 Lk q2 q3 hh
    obtain ⟨e1, e2⟩ := copyKinematics_some q2
    obtain ⟨e3, e4⟩ := copyKinematics_some q3
    have c1 : K.cc = sourceContacts c0 a.kin.cc g.kin.cc := by rw [← hupd n a.kin, e1]
    have c2 : G1.cc = sourceContacts c0 a.kin.cc g.kin.cc := by rw [← hupd n a.kin, e2]
    have c3 : G2.cc = sourceContacts c0 G1.cc k.kin.cc := by rw [e3]
    have c4 : Lk.cc = sourceContacts c0 G1.cc k.kin.cc := by rw [e4]
    have u1 : ∀ x ∈ sourceContacts c0 a.kin.cc g.kin.cc, x.on = none :=
      Handover.sourceContacts_unknown (hh.elim (fun h => Or.inl h.1) fun h => Or.inr ⟨h.1, h.2.2⟩)
    have l1 : G1.cc.length = a.kin.cc.length := by rw [c2, sourceContacts_length]
    refine ⟨by rw [c1]; exact u1, ?_, by rw [c1, sourceContacts_length], by rw [c3, sourceContacts_length, l1],
      by rw [c4, sourceContacts_length, l1]⟩
    rw [c4]
    refine Handover.sourceContacts_unknown (hh.elim (fun h => Or.inl h.2) fun h => Or.inr ⟨h.2.1.trans l1.symm, ?_⟩)
    rw [c2]
    exact u1
  have key : ∀ n (a g k : CmdRobot V M L Jt C T Q), Handover.s0 (robotJob l0 c0 t0 k0 runs upd ctl) o n =
      ⟨some a, some g, some k⟩ → (g.kin.cc = [] ∧ k.kin.cc = [] ∨ g.kin.cc.length = a.kin.cc.length ∧
        k.kin.cc.length = a.kin.cc.length ∧ ∀ x ∈ a.kin.cc, x.on = none) := by
    intro n
    induction n with
    | zero =>
      intro a' g' k' h
      have : o = ⟨some a', some g', some k'⟩ := h
      rw [ho] at this
      cases this
      exact Or.inl ⟨hg, hk⟩
    | succ n ih =>
      intro a' g' k1 h
      obtain ⟨a, g, k2, k', K, G1, G2, Lk, q1, q2, q3, q4, q5, q6, q7⟩ := Handover.cycle_some (congrArg Objects.mine h)
      rw [h] at q7
      have hk1 : k1 = k' := by simpa using congrArg Objects.ctrl q7
      have hg1 : g' = ⟨G2, k'.command⟩ := by simpa using congrArg Objects.shared q7
      obtain ⟨p1, p2, p3, p4, p5⟩ := one q2 q3 (ih _ _ _ q1)
      right
      rw [hk1, hg1, q6, hctl n _ _ q5]
      exact ⟨p4.trans p3.symm, p5.trans p3.symm, p1⟩
  obtain ⟨a, g, k1, K, G1, G2, Lk, q1, q2, q3, q4, q5, q6⟩ := Handover.fetch_some h4
  obtain ⟨p1, p2, -, -, -⟩ := one q2 q3 (key _ _ _ _ q1)
  rw [q6, q4]
  exact ⟨p2, _, rfl, p1⟩

/-! ## A program as in tests/test_thread.cpp

A robot with one contact, switched on, and one task; measuring writes the number of the cycle into `q` and the centre of mass;
the control thread switches its contacts on, adds a task in the first cycle and commands twice the position it sees. -/

/-- the measuring thread's robot before the program -/
def exMine : CmdRobot ℝ Unit ℕ ℕ ℕ ℕ ℕ :=
  ⟨⟨0, 1, 1, 1, true, 1, (), 1, 1, 1, 1, 1, 1, [1], [1], [⟨1, some true⟩], [7], [1]⟩, 0⟩
/-- a robot just loaded -/
def exFresh : CmdRobot ℝ Unit ℕ ℕ ℕ ℕ ℕ := ⟨⟨0, 0, 0, 0, false, 0, (), 0, 0, 0, 0, 0, 0, [1], [1], [], [], []⟩, 0⟩
def exUpd (i : ℕ) (s : KinState ℝ Unit ℕ ℕ ℕ ℕ ℕ) : KinState ℝ Unit ℕ ℕ ℕ ℕ ℕ := { s with q := i + 1, comPos := i + 1 }
def exCtl (i : ℕ) (k : CmdRobot ℝ Unit ℕ ℕ ℕ ℕ ℕ) : Option (CmdRobot ℝ Unit ℕ ℕ ℕ ℕ ℕ) :=
  some ⟨{ k.kin with
    cc := k.kin.cc.map fun c => { c with on := some true }
    ts := if i = 0 then k.kin.ts ++ [8] else k.kin.ts
    qp := if i = 0 then k.kin.qp ++ [8] else k.kin.qp }, 2 * k.kin.q⟩
def exTwoRuns : Job (Option (CmdRobot ℝ Unit ℕ ℕ ℕ ℕ ℕ)) := robotJob 0 0 0 0 2 exUpd exCtl
def exObjects : Objects (Option (CmdRobot ℝ Unit ℕ ℕ ℕ ℕ ℕ)) := ⟨some exMine, some exFresh, some exFresh⟩

/-- a schedule that brings the control thread to its second computation -/
def exSched : List Thread := List.replicate 8 .measuring ++ List.replicate 14 .controlling ++ List.replicate 16 .measuring ++
  List.replicate 6 .controlling

/-- The two runs: at the second computation the control thread's robot holds the second measurement, the centre of mass from
before the program, an indeterminate contact switch and only the measuring thread's task; at the end the measuring thread has the
command for the second measurement. -/
theorem C79_hypotheses_met : ∃ r, ((Threads.start exTwoRuns exObjects).run exTwoRuns exSched).c = .control ∧
    ((Threads.start exTwoRuns exObjects).run exTwoRuns exSched).obj.ctrl = some r ∧
    ((Threads.start exTwoRuns exObjects).run exTwoRuns exSched).cCount = 1 ∧ r.kin.q = 2 ∧ r.kin.comPos = 0 ∧
    r.kin.cc = [⟨1, none⟩] ∧ r.kin.ts = [7] ∧
    (∃ e, (exTwoRuns.sequential exObjects 2).mine = some e ∧ e.command = 4 ∧ e.kin.q = 2 ∧ e.kin.comPos = 2) := by
  refine ⟨_, rfl, rfl, rfl, ?_, rfl, rfl, rfl, _, rfl, ?_, ?_, ?_⟩
  · show ((1 : ℕ) : ℝ) + 1 = 2
    norm_num
  · show (2 : ℝ) * (((1 : ℕ) : ℝ) + 1) = 4
    norm_num
  · show ((1 : ℕ) : ℝ) + 1 = 2
    norm_num
  · show ((1 : ℕ) : ℝ) + 1 = 2
    norm_num


/-- The program meets the hypotheses of the theorems above. -/
example : 0 < exTwoRuns.runs ∧ (∀ i s, (exUpd i s).cc = s.cc ∧ (exUpd i s).ts = s.ts) ∧
    (∀ i k k', exCtl i k = some k' → k'.kin.cc.length = k.kin.cc.length ∧ k'.kin.comPos = k.kin.comPos ∧
      k'.kin.joint = k.kin.joint) ∧
    exObjects = ⟨some exMine, some exFresh, some exFresh⟩ ∧ exFresh.kin.cc = [] ∧ exMine.kin.cc = [⟨1, some true⟩] := by
  refine ⟨by decide, fun i s => ⟨rfl, rfl⟩, ?_, rfl, rfl, rfl⟩
  intro i k k' h
  simp only [exCtl, Option.some.injEq] at h
  subst h
  exact ⟨by simp, rfl, rfl⟩

end

end Verif.Props
