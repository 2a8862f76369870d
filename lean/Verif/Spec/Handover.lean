import Mathlib.Data.List.Basic

/-!
# Specification: one robot measured by one thread and controlled by another

What the measuring and the controlling program do, one after the other, without threads, locks or counters.
-/

namespace Verif.Spec

/-- A call that changes two objects, as the list of the single changes it makes (the compiler is free to choose how fine). -/
abbrev Action (R : Type*) := List (R × R → R × R)

/-- All changes, one after the other. -/
def Action.perform {R : Type*} (a : Action R) (p : R × R) : R × R := a.foldl (fun p f => f p) p

/-- What the two threads of a control program do with robot objects of type `R`. -/
structure Job (R : Type*) where
  /-- number of control cycles -/
  runs : ℕ
  /-- the measuring thread's work before handing over, in cycle `i` -/
  measure : ℕ → R → R
  /-- hand the state over: measuring thread's object → shared object -/
  put : Action R
  /-- fetch the state: shared object → control thread's object -/
  fetch : Action R
  /-- the control thread's computation in its `i`-th cycle -/
  control : ℕ → R → R
  /-- hand the command back: control thread's object → shared object -/
  answer : Action R
  /-- fetch the command: shared object → measuring thread's object -/
  accept : Action R

/-- The three objects: of the measuring thread, the shared one, of the control thread. -/
structure Objects (R : Type*) where
  mine : R
  shared : R
  ctrl : R

/-- One control cycle done sequentially. -/
def Job.cycle {R : Type*} (J : Job R) (i : ℕ) (o : Objects R) : Objects R :=
  let p := J.put.perform (J.measure i o.mine, o.shared)
  let f := J.fetch.perform (p.2, o.ctrl)
  let a := J.answer.perform (J.control i f.2, f.1)
  let r := J.accept.perform (a.2, p.1)
  ⟨r.2, r.1, a.1⟩

/-- The objects after `n` cycles done sequentially. -/
def Job.sequential {R : Type*} (J : Job R) (o : Objects R) : ℕ → Objects R
  | 0 => o
  | n + 1 => J.cycle n (J.sequential o n)

end Verif.Spec
