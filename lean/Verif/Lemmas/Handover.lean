import Verif.Model.Handover
import Mathlib.Tactic.Linarith

/-! # The states the two threads can reach -/

set_option linter.unusedSectionVars false

namespace Verif.Handover
open Verif.Spec Verif.Model

variable {R : Type*} (J : Job R) (o : Objects R)

/-- stages of the sequential cycle `i` -/
def s0 (i : ℕ) : Objects R := J.sequential o i
def m1 (i : ℕ) : R := J.measure i (s0 J o i).mine
def putK (i k : ℕ) : R × R := Action.perform (J.put.take k) (m1 J o i, (s0 J o i).shared)
def put (i : ℕ) : R × R := J.put.perform (m1 J o i, (s0 J o i).shared)
def fetchK (i k : ℕ) : R × R := Action.perform (J.fetch.take k) ((put J o i).2, (s0 J o i).ctrl)
def fetch (i : ℕ) : R × R := J.fetch.perform ((put J o i).2, (s0 J o i).ctrl)
def l2 (i : ℕ) : R := J.control i (fetch J o i).2
def answerK (i k : ℕ) : R × R := Action.perform (J.answer.take k) (l2 J o i, (fetch J o i).1)
def answer (i : ℕ) : R × R := J.answer.perform (l2 J o i, (fetch J o i).1)
def acceptK (i k : ℕ) : R × R := Action.perform (J.accept.take k) ((answer J o i).2, (put J o i).1)
def accept (i : ℕ) : R × R := J.accept.perform ((answer J o i).2, (put J o i).1)

theorem s0_succ (i : ℕ) : s0 J o (i + 1) = ⟨(accept J o i).2, (accept J o i).1, (answer J o i).1⟩ := rfl

theorem perform_zero (a : Action R) (p : R × R) : Action.perform (a.take 0) p = p := rfl

theorem perform_succ {a : Action R} {k : ℕ} {f : R × R → R × R} (h : a[k]? = some f) (p : R × R) :
    Action.perform (a.take (k + 1)) p = f (Action.perform (a.take k) p) := by
  unfold Action.perform
  rw [List.take_add_one, h]
  simp [List.foldl_append]

theorem perform_end {a : Action R} {k : ℕ} (h : a[k]? = none) (p : R × R) : Action.perform (a.take k) p = a.perform p := by
  rw [List.take_of_length_le (by simpa using h)]

/-- where the control thread is after `j` cycles -/
def idle (j : ℕ) : CPc := if j = J.runs then .done else .test1

abbrev off : TLock := ⟨false, 0⟩

/-- The reachable states: the two threads are at matching points of one sequential execution. -/
inductive Inv : Threads R → Prop
  | measure (i) (h : i < J.runs) : Inv ⟨s0 J o i, off, off, .measure, .test1, i, i⟩
  | lock1 (i) (h : i < J.runs) : Inv ⟨⟨m1 J o i, (s0 J o i).shared, (s0 J o i).ctrl⟩, off, off, .lock1, .test1, i, i⟩
  | put (i k) (h : i < J.runs) (hk : k ≤ J.put.length) :
      Inv ⟨⟨(putK J o i k).1, (putK J o i k).2, (s0 J o i).ctrl⟩, ⟨true, 0⟩, off, .put k, .test1, i, i⟩
  | inc1 (i) (h : i < J.runs) : Inv ⟨⟨(put J o i).1, (put J o i).2, (s0 J o i).ctrl⟩, ⟨true, 0⟩, off, .inc1, .test1, i, i⟩
  | clear1 (i) (c) (h : i < J.runs) (hc : c = .test1 ∨ c = .lock1) :
      Inv ⟨⟨(put J o i).1, (put J o i).2, (s0 J o i).ctrl⟩, ⟨true, 1⟩, off, .clear1, c, i, i⟩
  | ready (i) (c) (h : i < J.runs) (hc : c = .test1 ∨ c = .lock1) :
      Inv ⟨⟨(put J o i).1, (put J o i).2, (s0 J o i).ctrl⟩, ⟨false, 1⟩, off, .test2, c, i, i⟩
  | dec1 (i) (h : i < J.runs) : Inv ⟨⟨(put J o i).1, (put J o i).2, (s0 J o i).ctrl⟩, ⟨true, 1⟩, off, .test2, .dec1, i, i⟩
  | fetch (i k) (h : i < J.runs) (hk : k ≤ J.fetch.length) :
      Inv ⟨⟨(put J o i).1, (fetchK J o i k).1, (fetchK J o i k).2⟩, ⟨true, 0⟩, off, .test2, .fetch k, i, i⟩
  | cclear1 (i) (h : i < J.runs) :
      Inv ⟨⟨(put J o i).1, (fetch J o i).1, (fetch J o i).2⟩, ⟨true, 0⟩, off, .test2, .clear1, i, i⟩
  | control (i) (h : i < J.runs) :
      Inv ⟨⟨(put J o i).1, (fetch J o i).1, (fetch J o i).2⟩, off, off, .test2, .control, i, i⟩
  | clock2 (i) (h : i < J.runs) :
      Inv ⟨⟨(put J o i).1, (fetch J o i).1, l2 J o i⟩, off, off, .test2, .lock2, i, i⟩
  | answer (i k) (h : i < J.runs) (hk : k ≤ J.answer.length) :
      Inv ⟨⟨(put J o i).1, (answerK J o i k).2, (answerK J o i k).1⟩, off, ⟨true, 0⟩, .test2, .answer k, i, i⟩
  | inc2 (i) (h : i < J.runs) :
      Inv ⟨⟨(put J o i).1, (answer J o i).2, (answer J o i).1⟩, off, ⟨true, 0⟩, .test2, .inc2, i, i⟩
  | cclear2 (i) (m) (h : i < J.runs) (hm : m = .test2 ∨ m = .lock2) :
      Inv ⟨⟨(put J o i).1, (answer J o i).2, (answer J o i).1⟩, off, ⟨true, 1⟩, m, .clear2, i, i⟩
  | answered (i) (m) (h : i < J.runs) (hm : m = .test2 ∨ m = .lock2) :
      Inv ⟨⟨(put J o i).1, (answer J o i).2, (answer J o i).1⟩, off, ⟨false, 1⟩, m, idle J (i + 1), i, i + 1⟩
  | dec2 (i) (h : i < J.runs) :
      Inv ⟨⟨(put J o i).1, (answer J o i).2, (answer J o i).1⟩, off, ⟨true, 1⟩, .dec2, idle J (i + 1), i, i + 1⟩
  | accept (i k) (h : i < J.runs) (hk : k ≤ J.accept.length) :
      Inv ⟨⟨(acceptK J o i k).2, (acceptK J o i k).1, (answer J o i).1⟩, off, ⟨true, 0⟩, .accept k, idle J (i + 1), i, i + 1⟩
  | mclear2 (i) (h : i < J.runs) :
      Inv ⟨s0 J o (i + 1), off, ⟨true, 0⟩, .clear2, idle J (i + 1), i, i + 1⟩
  | done : Inv ⟨s0 J o J.runs, off, off, .done, .done, J.runs, J.runs⟩

variable {J o}

theorem inv_start (h : 0 < J.runs) : Inv J o (Threads.start J o) := by
  unfold Threads.start
  rw [if_pos h]
  exact .measure 0 h

/-- a control thread that waits for the next state, with an empty counter, waits -/
theorem stepC_idle {s : Threads R} {j : ℕ} (hc : s.c = idle J j) (h1 : s.t1.counter = 0) : s.stepC J = s := by
  unfold idle at hc
  unfold Threads.stepC
  split_ifs at hc <;> rw [hc] <;> simp [h1]

theorem inv_stepM {s : Threads R} (h : Inv J o s) : Inv J o (s.stepM J) := by
  cases h with
  | measure i h => exact .lock1 i h
  | lock1 i h => exact .put i 0 h (Nat.zero_le _)
  | put i k h hk =>
    simp only [Threads.stepM]
    rcases e : J.put[k]? with _ | f
    · simp only [putK, perform_end e]
      exact .inc1 i h
    · have := Inv.put (o := o) i (k + 1) h (by have := (List.getElem?_eq_some_iff.mp e).1; omega)
      simp only [putK, perform_succ e] at this ⊢
      exact this
  | inc1 i h => exact .clear1 i .test1 h (Or.inl rfl)
  | clear1 i c h hc => exact .ready i c h hc
  | ready i c h hc => exact .ready i c h hc
  | dec1 i h => exact .dec1 i h
  | fetch i k h hk => exact .fetch i k h hk
  | cclear1 i h => exact .cclear1 i h
  | control i h => exact .control i h
  | clock2 i h => exact .clock2 i h
  | answer i k h hk => exact .answer i k h hk
  | inc2 i h => exact .inc2 i h
  | cclear2 i m h hm =>
    rcases hm with rfl | rfl
    · exact .cclear2 i .lock2 h (Or.inr rfl)
    · exact .cclear2 i .lock2 h (Or.inr rfl)
  | answered i m h hm =>
    rcases hm with rfl | rfl
    · exact .answered i .lock2 h (Or.inr rfl)
    · exact .dec2 i h
  | dec2 i h => exact .accept i 0 h (Nat.zero_le _)
  | accept i k h hk =>
    simp only [Threads.stepM]
    rcases e : J.accept[k]? with _ | f
    · simp only [acceptK, perform_end e]
      exact .mclear2 i h
    · have := Inv.accept (o := o) i (k + 1) h (by have := (List.getElem?_eq_some_iff.mp e).1; omega)
      simp only [acceptK, perform_succ e] at this ⊢
      exact this
  | mclear2 i h =>
    simp only [Threads.stepM]
    by_cases e : i + 1 < J.runs
    · rw [if_pos e, idle, if_neg (by omega)]
      exact .measure (i + 1) e
    · have e' : i + 1 = J.runs := by omega
      rw [if_neg e, idle, if_pos e', e']
      exact .done
  | done => exact .done

theorem inv_stepC {s : Threads R} (h : Inv J o s) : Inv J o (s.stepC J) := by
  cases h with
  | measure i h => exact .measure i h
  | lock1 i h => exact .lock1 i h
  | put i k h hk => exact .put i k h hk
  | inc1 i h => exact .inc1 i h
  | clear1 i c h hc => rcases hc with rfl | rfl <;> exact .clear1 i .lock1 h (Or.inr rfl)
  | ready i c h hc =>
    rcases hc with rfl | rfl
    · exact .ready i .lock1 h (Or.inr rfl)
    · exact .dec1 i h
  | dec1 i h => exact .fetch i 0 h (Nat.zero_le _)
  | fetch i k h hk =>
    simp only [Threads.stepC]
    rcases e : J.fetch[k]? with _ | f
    · simp only [fetchK, perform_end e]
      exact .cclear1 i h
    · have := Inv.fetch (o := o) i (k + 1) h (by have := (List.getElem?_eq_some_iff.mp e).1; omega)
      simp only [fetchK, perform_succ e] at this ⊢
      exact this
  | cclear1 i h => exact .control i h
  | control i h => exact .clock2 i h
  | clock2 i h => exact .answer i 0 h (Nat.zero_le _)
  | answer i k h hk =>
    simp only [Threads.stepC]
    rcases e : J.answer[k]? with _ | f
    · simp only [answerK, perform_end e]
      exact .inc2 i h
    · have := Inv.answer (o := o) i (k + 1) h (by have := (List.getElem?_eq_some_iff.mp e).1; omega)
      simp only [answerK, perform_succ e] at this ⊢
      exact this
  | inc2 i h => exact .cclear2 i .test2 h (Or.inl rfl)
  | cclear2 i m h hm => exact .answered i m h hm
  | answered i m h hm =>
    rw [stepC_idle (j := i + 1) rfl rfl]
    exact .answered i m h hm
  | dec2 i h =>
    rw [stepC_idle (j := i + 1) rfl rfl]
    exact .dec2 i h
  | accept i k h hk =>
    rw [stepC_idle (j := i + 1) rfl rfl]
    exact .accept i k h hk
  | mclear2 i h =>
    rw [stepC_idle (j := i + 1) rfl rfl]
    exact .mclear2 i h
  | done => exact .done

theorem inv_step {s : Threads R} (h : Inv J o s) (t : Thread) : Inv J o (s.step J t) := by
  cases t
  · exact inv_stepM h
  · exact inv_stepC h

theorem inv_run {s : Threads R} (h : Inv J o s) (l : List Thread) : Inv J o (s.run J l) := by
  induction l generalizing s with
  | nil => exact h
  | cons t l ih => exact ih (inv_step h t)

/-! ## Progress -/

/-- steps the measuring thread makes in a cycle -/
def lenM (J : Job R) : ℕ := 10 + J.put.length + J.accept.length
/-- steps the control thread makes in a cycle -/
def lenC (J : Job R) : ℕ := 10 + J.fetch.length + J.answer.length

def posM (J : Job R) : MPc → ℕ
  | .measure => 0
  | .lock1 => 1
  | .put k => 2 + k
  | .inc1 => 3 + J.put.length
  | .clear1 => 4 + J.put.length
  | .test2 => 5 + J.put.length
  | .lock2 => 6 + J.put.length
  | .dec2 => 7 + J.put.length
  | .accept k => 8 + J.put.length + k
  | .clear2 => 9 + J.put.length + J.accept.length
  | .done => 0

def posC (J : Job R) : CPc → ℕ
  | .test1 => 0
  | .lock1 => 1
  | .dec1 => 2
  | .fetch k => 3 + k
  | .clear1 => 4 + J.fetch.length
  | .control => 5 + J.fetch.length
  | .lock2 => 6 + J.fetch.length
  | .answer k => 7 + J.fetch.length + k
  | .inc2 => 8 + J.fetch.length + J.answer.length
  | .clear2 => 9 + J.fetch.length + J.answer.length
  | .done => 0

/-- steps made so far, spinning not counted -/
def prog (J : Job R) (s : Threads R) : ℕ :=
  (s.mCount * lenM J + posM J s.m) + (s.cCount * lenC J + posC J s.c)

theorem posC_idle (j : ℕ) : posC J (idle J j) = 0 := by unfold idle; split_ifs <;> rfl

theorem stepM_prog {s : Threads R} (h : Inv J o s) : s.stepM J = s ∨ prog J (s.stepM J) = prog J s + 1 := by
  cases h with
  | measure i h => right; simp only [Threads.stepM, prog, posM]; omega
  | lock1 i h => right; simp only [Threads.stepM, prog, posM]; simp; omega
  | put i k h hk =>
    right
    simp only [Threads.stepM]
    rcases e : J.put[k]? with _ | f
    · have := List.getElem?_eq_none_iff.mp e
      simp only [prog, posM]; omega
    · simp only [prog, posM]; omega
  | inc1 i h => right; simp only [Threads.stepM, prog, posM]; omega
  | clear1 i c h hc => right; simp only [Threads.stepM, prog, posM]; omega
  | ready i c h hc => left; rfl
  | dec1 i h => left; rfl
  | fetch i k h hk => left; rfl
  | cclear1 i h => left; rfl
  | control i h => left; rfl
  | clock2 i h => left; rfl
  | answer i k h hk => left; rfl
  | inc2 i h => left; rfl
  | cclear2 i m h hm =>
    rcases hm with rfl | rfl
    · right; simp [Threads.stepM, prog, posM]; omega
    · left; rfl
  | answered i m h hm =>
    right
    rcases hm with rfl | rfl <;> simp [Threads.stepM, prog, posM] <;> omega
  | dec2 i h => right; simp only [Threads.stepM, prog, posM]; omega
  | accept i k h hk =>
    right
    simp only [Threads.stepM]
    rcases e : J.accept[k]? with _ | f
    · have := List.getElem?_eq_none_iff.mp e
      simp only [prog, posM]; omega
    · simp only [prog, posM]; omega
  | mclear2 i h =>
    right
    have : posM J (if i + 1 < J.runs then .measure else .done) = 0 := by split_ifs <;> rfl
    simp only [Threads.stepM, prog, this, Nat.add_mul]
    simp only [posM, lenM]
    omega
  | done => left; rfl

theorem stepC_prog {s : Threads R} (h : Inv J o s) : s.stepC J = s ∨ prog J (s.stepC J) = prog J s + 1 := by
  cases h with
  | measure i h => left; rfl
  | lock1 i h => left; rfl
  | put i k h hk => left; rfl
  | inc1 i h => left; rfl
  | clear1 i c h hc =>
    rcases hc with rfl | rfl
    · right; simp [Threads.stepC, prog, posC]; omega
    · left; rfl
  | ready i c h hc => right; rcases hc with rfl | rfl <;> simp [Threads.stepC, prog, posC] <;> omega
  | dec1 i h => right; simp only [Threads.stepC, prog, posC]; omega
  | fetch i k h hk =>
    right
    simp only [Threads.stepC]
    rcases e : J.fetch[k]? with _ | f
    · have := List.getElem?_eq_none_iff.mp e
      simp only [prog, posC]; omega
    · simp only [prog, posC]; omega
  | cclear1 i h => right; simp only [Threads.stepC, prog, posC]; omega
  | control i h => right; simp only [Threads.stepC, prog, posC]; omega
  | clock2 i h => right; simp [Threads.stepC, prog, posC]; omega
  | answer i k h hk =>
    right
    simp only [Threads.stepC]
    rcases e : J.answer[k]? with _ | f
    · have := List.getElem?_eq_none_iff.mp e
      simp only [prog, posC]; omega
    · simp only [prog, posC]; omega
  | inc2 i h => right; simp only [Threads.stepC, prog, posC]; omega
  | cclear2 i m h hm =>
    right
    have : posC J (if i + 1 = J.runs then .done else .test1) = 0 := by split_ifs <;> rfl
    simp only [Threads.stepC, prog, this, Nat.add_mul]
    simp only [posC, lenC]
    omega
  | answered i m h hm => left; exact stepC_idle (j := i + 1) rfl rfl
  | dec2 i h => left; exact stepC_idle (j := i + 1) rfl rfl
  | accept i k h hk => left; exact stepC_idle (j := i + 1) rfl rfl
  | mclear2 i h => left; exact stepC_idle (j := i + 1) rfl rfl
  | done => left; rfl

theorem step_prog {s : Threads R} (h : Inv J o s) (t : Thread) : s.step J t = s ∨ prog J (s.step J t) = prog J s + 1 := by
  cases t
  · exact stepM_prog h
  · exact stepC_prog h

theorem prog_le {s : Threads R} (h : Inv J o s) : prog J s ≤ J.runs * (lenM J + lenC J) := by
  have key : ∀ i j a b, (i < J.runs ∧ a ≤ lenM J ∨ i = J.runs ∧ a = 0) → (j < J.runs ∧ b ≤ lenC J ∨ j = J.runs ∧ b = 0) →
      (i * lenM J + a) + (j * lenC J + b) ≤ J.runs * (lenM J + lenC J) := by
    intro i j a b h1 h2
    rw [Nat.mul_add]
    refine Nat.add_le_add ?_ ?_
    · rcases h1 with ⟨h, ha⟩ | ⟨rfl, rfl⟩
      · calc i * lenM J + a ≤ (i + 1) * lenM J := by rw [Nat.add_mul]; omega
          _ ≤ J.runs * lenM J := Nat.mul_le_mul_right _ h
      · exact le_rfl
    · rcases h2 with ⟨h, ha⟩ | ⟨rfl, rfl⟩
      · calc j * lenC J + b ≤ (j + 1) * lenC J := by rw [Nat.add_mul]; omega
          _ ≤ J.runs * lenC J := Nat.mul_le_mul_right _ h
      · exact le_rfl
  unfold prog
  have h0 : ∀ i, i < J.runs → (i + 1 < J.runs ∧ posC J (idle J (i + 1)) ≤ lenC J ∨ i + 1 = J.runs ∧ posC J (idle J (i + 1)) = 0) := by
    intro i hi
    rw [posC_idle]
    by_cases e : i + 1 = J.runs
    · exact Or.inr ⟨e, rfl⟩
    · exact Or.inl ⟨by omega, Nat.zero_le _⟩
  cases h with
  | clear1 i c h hc => rcases hc with rfl | rfl <;> exact key _ _ _ _ (Or.inl ⟨h, by simp only [posM, lenM]; omega⟩) (Or.inl ⟨h, by simp only [posC, lenC]; omega⟩)
  | ready i c h hc => rcases hc with rfl | rfl <;> exact key _ _ _ _ (Or.inl ⟨h, by simp only [posM, lenM]; omega⟩) (Or.inl ⟨h, by simp only [posC, lenC]; omega⟩)
  | cclear2 i m h hm => rcases hm with rfl | rfl <;> exact key _ _ _ _ (Or.inl ⟨h, by simp only [posM, lenM]; omega⟩) (Or.inl ⟨h, by simp only [posC, lenC]; omega⟩)
  | answered i m h hm => rcases hm with rfl | rfl <;> exact key _ _ _ _ (Or.inl ⟨h, by simp only [posM, lenM]; omega⟩) (h0 i h)
  | dec2 i h => exact key _ _ _ _ (Or.inl ⟨h, by simp only [posM, lenM]; omega⟩) (h0 i h)
  | accept i k h hk => exact key _ _ _ _ (Or.inl ⟨h, by simp only [posM, lenM]; omega⟩) (h0 i h)
  | mclear2 i h => exact key _ _ _ _ (Or.inl ⟨h, by simp only [posM, lenM]; omega⟩) (h0 i h)
  | done => exact key _ _ _ _ (Or.inr ⟨rfl, rfl⟩) (Or.inr ⟨rfl, rfl⟩)
  | _ => exact key _ _ _ _ (Or.inl ⟨by assumption, by simp only [posM, lenM]; omega⟩) (Or.inl ⟨by assumption, by simp only [posC, lenC]; omega⟩)

theorem not_stuck {s : Threads R} (h : Inv J o s) (hf : ¬ s.finished) : ∃ t, s.step J t ≠ s := by
  have hM : prog J (s.stepM J) ≠ prog J s → ∃ t, s.step J t ≠ s := fun e => ⟨.measuring, fun e' => e (congrArg (prog J) e')⟩
  have hC : prog J (s.stepC J) ≠ prog J s → ∃ t, s.step J t ≠ s := fun e => ⟨.controlling, fun e' => e (congrArg (prog J) e')⟩
  have mM : (s.stepM J).m ≠ s.m → ∃ t, s.step J t ≠ s := fun e => ⟨.measuring, fun e' => e (congrArg Threads.m e')⟩
  have mC : (s.stepC J).c ≠ s.c → ∃ t, s.step J t ≠ s := fun e => ⟨.controlling, fun e' => e (congrArg Threads.c e')⟩
  cases h with
  | measure i h => exact mM (by simp [Threads.stepM])
  | lock1 i h => exact mM (by simp [Threads.stepM])
  | put i k h hk =>
    refine mM ?_
    simp only [Threads.stepM]
    rcases e : J.put[k]? with _ | f <;> simp
  | inc1 i h => exact mM (by simp [Threads.stepM])
  | clear1 i c h hc => exact mM (by simp [Threads.stepM])
  | ready i c h hc => exact mC (by rcases hc with rfl | rfl <;> simp [Threads.stepC])
  | dec1 i h => exact mC (by simp [Threads.stepC])
  | fetch i k h hk =>
    refine mC ?_
    simp only [Threads.stepC]
    rcases e : J.fetch[k]? with _ | f <;> simp
  | cclear1 i h => exact mC (by simp [Threads.stepC])
  | control i h => exact mC (by simp [Threads.stepC])
  | clock2 i h => exact mC (by simp [Threads.stepC])
  | answer i k h hk =>
    refine mC ?_
    simp only [Threads.stepC]
    rcases e : J.answer[k]? with _ | f <;> simp
  | inc2 i h => exact mC (by simp [Threads.stepC])
  | cclear2 i m h hm => refine mC ?_; simp only [Threads.stepC]; split_ifs <;> simp
  | answered i m h hm => exact mM (by rcases hm with rfl | rfl <;> simp [Threads.stepM])
  | dec2 i h => exact mM (by simp [Threads.stepM])
  | accept i k h hk =>
    refine mM ?_
    simp only [Threads.stepM]
    rcases e : J.accept[k]? with _ | f <;> simp
  | mclear2 i h => refine mM ?_; simp only [Threads.stepM]; split_ifs <;> simp
  | done => exact absurd ⟨rfl, rfl⟩ hf

theorem run_append (s : Threads R) (l l' : List Thread) : s.run J (l ++ l') = (s.run J l).run J l' := by
  simp [Threads.run, List.foldl_append]

theorem run_prog {s : Threads R} (h : Inv J o s) (l : List Thread) :
    (∀ t ∈ l, s.step J t = s) ∨ prog J s < prog J (s.run J l) := by
  induction l generalizing s with
  | nil => left; simp
  | cons t l ih =>
    show _ ∨ prog J s < prog J ((s.step J t).run J l)
    rcases step_prog h t with e | e
    · rw [e]
      rcases ih h with e' | e'
      · exact Or.inl fun t' ht' => (List.mem_cons.mp ht').elim (fun h => h ▸ e) (e' t')
      · exact Or.inr e'
    · right
      have := ih (inv_step h t)
      rcases this with e' | e'
      · have hr : (s.step J t).run J l = s.step J t := by
          clear ih e
          generalize s.step J t = s' at e'
          induction l with
          | nil => rfl
          | cons a l ih =>
            have ha : s'.run J (a :: l) = (s'.step J a).run J l := rfl
            rw [ha, e' a (by simp)]
            exact ih fun t ht => e' t (List.mem_cons_of_mem _ ht)
        rw [hr, e]
        omega
      · omega

theorem finished_step {s : Threads R} (hf : s.finished) (t : Thread) : s.step J t = s := by
  obtain ⟨h1, h2⟩ := hf
  cases t
  · simp [Threads.step, Threads.stepM, h1]
  · simp [Threads.step, Threads.stepC, h2]

theorem finished_run {s : Threads R} (hf : s.finished) (l : List Thread) : s.run J l = s := by
  induction l with
  | nil => rfl
  | cons t l ih =>
    have ha : s.run J (t :: l) = (s.step J t).run J l := rfl
    rw [ha, finished_step hf]
    exact ih

theorem rounds_finish (rounds : List (List Thread)) (hr : ∀ r ∈ rounds, Thread.measuring ∈ r ∧ Thread.controlling ∈ r)
    {s : Threads R} (h : Inv J o s) :
    (s.run J rounds.flatten).finished ∨ prog J s + rounds.length ≤ prog J (s.run J rounds.flatten) := by
  induction rounds generalizing s with
  | nil => right; simp [Threads.run]
  | cons r l ih =>
    rw [List.flatten_cons, run_append]
    rcases ih (fun r hr' => hr r (List.mem_cons_of_mem _ hr')) (inv_run h r) with e | e
    · exact Or.inl e
    · by_cases hf : s.finished
      · left
        rw [finished_run hf, finished_run hf]
        exact hf
      · right
        rcases run_prog h r with e' | e'
        · obtain ⟨t, ht⟩ := not_stuck h hf
          refine absurd (e' t ?_) ht
          cases t
          · exact (hr r (by simp)).1
          · exact (hr r (by simp)).2
        · rw [List.length_cons]
          omega

end Verif.Handover
