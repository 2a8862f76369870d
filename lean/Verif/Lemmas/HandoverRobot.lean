import Verif.Lemmas.Handover
import Verif.Lemmas.CopyKin
import Verif.Model.HandoverRobot

/-! # Cycles of the two threads with robot objects -/

set_option linter.unusedSectionVars false

namespace Verif.Handover
open Verif.Spec Verif.Model

variable {V M L Jt C T Q : Type*} {l0 : L} {c0 : C} {t0 : T} {k0 : Q} {runs : ℕ}
  {upd : ℕ → KinState V M L Jt C T Q → KinState V M L Jt C T Q}
  {ctl : ℕ → CmdRobot V M L Jt C T Q → Option (CmdRobot V M L Jt C T Q)}
  {o : Objects (Option (CmdRobot V M L Jt C T Q))} {i : ℕ} {r : CmdRobot V M L Jt C T Q}

theorem copyCall_some {p : Option (CmdRobot V M L Jt C T Q) × Option (CmdRobot V M L Jt C T Q)}
    (h : (copyCall l0 c0 t0 k0 p).2 = some r) : ∃ a b a' b', p = (some a, some b) ∧
      copyKinematics l0 c0 t0 k0 a.kin b.kin = some (a', b') ∧ r = { b with kin := b' } ∧
      copyCall l0 c0 t0 k0 p = (some { a with kin := a' }, some { b with kin := b' }) := by
  obtain ⟨a, b⟩ := p
  cases a with
  | none => simp [copyCall] at h
  | some a =>
    cases b with
    | none => simp [copyCall] at h
    | some b =>
      rcases e : copyKinematics l0 c0 t0 k0 a.kin b.kin with _ | ⟨a', b'⟩
      · simp [copyCall, e] at h
      · simp only [copyCall, e, Option.some.injEq] at h
        exact ⟨a, b, a', b', rfl, e, h.symm, by simp only [copyCall, e]⟩

/-- What is known when the control thread has fetched a state in cycle `i`. -/
theorem fetch_some (h : (fetch (robotJob l0 c0 t0 k0 runs upd ctl) o i).2 = some r) :
    ∃ (a g k : CmdRobot V M L Jt C T Q) (K G1 G2 Lk : KinState V M L Jt C T Q),
      (s0 (robotJob l0 c0 t0 k0 runs upd ctl) o i) = ⟨some a, some g, some k⟩ ∧
      copyKinematics l0 c0 t0 k0 (upd i a.kin) g.kin = some (K, G1) ∧
      copyKinematics l0 c0 t0 k0 G1 k.kin = some (G2, Lk) ∧
      put (robotJob l0 c0 t0 k0 runs upd ctl) o i = (some { a with kin := K }, some { g with kin := G1 }) ∧
      fetch (robotJob l0 c0 t0 k0 runs upd ctl) o i = (some { g with kin := G2 }, some { k with kin := Lk }) ∧
      r = { k with kin := Lk } := by
  set J := robotJob l0 c0 t0 k0 runs upd ctl with hJ
  have e1 : fetch J o i = copyCall l0 c0 t0 k0 ((put J o i).2, (s0 J o i).ctrl) := rfl
  rw [e1] at h
  obtain ⟨g1, k, G2, Lk, hp, hc, hr, hcall⟩ := copyCall_some h
  have hput : (put J o i).2 = some g1 := congrArg Prod.fst hp
  have hctrl : (s0 J o i).ctrl = some k := congrArg Prod.snd hp
  have e2 : put J o i = copyCall l0 c0 t0 k0 (m1 J o i, (s0 J o i).shared) := rfl
  rw [e2] at hput
  obtain ⟨b, g, K, G1, hp', hc', hr', hcall'⟩ := copyCall_some hput
  have hm : m1 J o i = some b := congrArg Prod.fst hp'
  have hsh : (s0 J o i).shared = some g := congrArg Prod.snd hp'
  have e3 : m1 J o i = (s0 J o i).mine.map fun r => { r with kin := upd i r.kin } := rfl
  rw [e3] at hm
  obtain ⟨a, ha, rfl⟩ := Option.map_eq_some_iff.mp hm
  subst hr'
  refine ⟨a, g, k, K, G1, G2, Lk, ?_, hc', hc, ?_, ?_, hr⟩
  · rw [← ha, ← hsh, ← hctrl]
  · rw [e2, hcall']
  · rw [e1, hcall]

theorem commandCall_some {p : Option (CmdRobot V M L Jt C T Q) × Option (CmdRobot V M L Jt C T Q)}
    (h : (commandCall p).2 = some r) : ∃ a b, p = (some a, some b) ∧ r = { b with command := a.command } ∧
      commandCall p = (some a, some { b with command := a.command }) := by
  obtain ⟨a, b⟩ := p
  cases a with
  | none => simp [commandCall] at h
  | some a =>
    cases b with
    | none => simp [commandCall] at h
    | some b =>
      simp only [commandCall, Option.some.injEq] at h
      exact ⟨a, b, rfl, h.symm, rfl⟩

/-- What is known when the measuring thread has completed cycle `i`. -/
theorem cycle_some (h : (s0 (robotJob l0 c0 t0 k0 runs upd ctl) o (i + 1)).mine = some r) :
    ∃ (a g k k' : CmdRobot V M L Jt C T Q) (K G1 G2 Lk : KinState V M L Jt C T Q),
      (s0 (robotJob l0 c0 t0 k0 runs upd ctl) o i) = ⟨some a, some g, some k⟩ ∧
      copyKinematics l0 c0 t0 k0 (upd i a.kin) g.kin = some (K, G1) ∧
      copyKinematics l0 c0 t0 k0 G1 k.kin = some (G2, Lk) ∧
      (fetch (robotJob l0 c0 t0 k0 runs upd ctl) o i).2 = some { k with kin := Lk } ∧
      ctl i { k with kin := Lk } = some k' ∧ r = ⟨K, k'.command⟩ ∧
      s0 (robotJob l0 c0 t0 k0 runs upd ctl) o (i + 1) = ⟨some r, some ⟨G2, k'.command⟩, some k'⟩ := by
  set J := robotJob l0 c0 t0 k0 runs upd ctl with hJ
  rw [s0_succ] at h
  have e1 : accept J o i = commandCall ((answer J o i).2, (put J o i).1) := rfl
  simp only at h
  rw [e1] at h
  obtain ⟨g', b, hp, hr, hcall⟩ := commandCall_some h
  have e2 : answer J o i = commandCall (l2 J o i, (fetch J o i).1) := rfl
  have h2 : (answer J o i).2 = some g' := congrArg Prod.fst hp
  rw [e2] at h2
  obtain ⟨k', g2, hp2, hr2, hcall2⟩ := commandCall_some h2
  have h3 : l2 J o i = some k' := congrArg Prod.fst hp2
  have e3 : l2 J o i = (fetch J o i).2.bind (ctl i) := rfl
  rw [e3] at h3
  obtain ⟨r1, hf, hctl⟩ := Option.bind_eq_some_iff.mp h3
  obtain ⟨a, g, k, K, G1, G2, Lk, q1, q2, q3, q4, q5, q6⟩ := fetch_some hf
  subst q6
  have hb : b = { a with kin := K } := by
    have : (put J o i).1 = some b := congrArg Prod.snd hp
    rw [q4] at this
    simpa using this.symm
  have hg2 : g2 = { g with kin := G2 } := by
    have : (fetch J o i).1 = some g2 := congrArg Prod.snd hp2
    rw [q5] at this
    simpa using this.symm
  subst hb hg2 hr2
  refine ⟨a, g, k, k', K, G1, G2, Lk, q1, q2, q3, hf, hctl, hr, ?_⟩
  rw [s0_succ, e1, hcall, e2, hcall2, hr]

theorem zip_data {Cc : Type*} : ∀ a b : List (KinContact Cc), b.length = a.length →
    (List.zipWith (fun (s t : KinContact Cc) => { s with on := t.on }) a b).map (·.data) = a.map (·.data)
  | [], _, _ => by simp
  | x :: a, [], h => by simp at h
  | x :: a, y :: b, h => by
    simp only [List.zipWith_cons_cons, List.map_cons, List.cons.injEq, true_and]
    exact zip_data a b (by simpa using h)

theorem sourceContacts_data (a b : List (KinContact C)) : (sourceContacts c0 a b).map (·.data) = a.map (·.data) := by
  unfold sourceContacts
  split_ifs with h
  · exact zip_data _ _ (resizeTo_length _ _ _)
  · rfl

theorem zip_unknown {Cc : Type*} : ∀ a b : List (KinContact Cc), (∀ c ∈ b, c.on = none) →
    ∀ c ∈ List.zipWith (fun (s t : KinContact Cc) => { s with on := t.on }) a b, c.on = none
  | [], _, _ => by simp
  | x :: a, [], _ => by simp
  | x :: a, y :: b, h => by
    intro c hc
    rw [List.zipWith_cons_cons] at hc
    rcases List.mem_cons.mp hc with rfl | hc
    · exact h y (by simp)
    · exact zip_unknown a b (fun c hc => h c (List.mem_cons_of_mem _ hc)) c hc

/-- After a copy to an object without contacts, or between two with indeterminate switches, all switches are indeterminate. -/
theorem sourceContacts_unknown {a b : List (KinContact C)}
    (h : b = [] ∨ b.length = a.length ∧ ∀ c ∈ a, c.on = none) : ∀ c ∈ sourceContacts c0 a b, c.on = none := by
  unfold sourceContacts
  split_ifs with e
  · refine zip_unknown _ _ ?_
    rcases h with rfl | ⟨h, -⟩
    · intro c hc
      simp only [resizeTo, List.take_nil, List.nil_append, List.mem_replicate] at hc
      rw [hc.2]
    · exact absurd h e
  · rcases h with rfl | ⟨-, h⟩
    · have : a = [] := List.length_eq_zero_iff.mp (by simpa using (not_not.mp e).symm)
      simp [this]
    · exact h

end Verif.Handover
