import Verif.Spec.Handover
import Mathlib.Data.Int.Basic

/-!
# Handing the state of the robot to a control thread (tests/test_thread.cpp 10-230)

`CopyKinematicsData` is the library's call for handing a robot's state to another thread; how the threads take turns is left
to the user, and tests/test_thread.cpp shows how it is meant to be done: a measuring thread (`producer`, 79-151) and a control
thread (`consumer`, 153-213) with a third object `global_rd` between them and two objects of class `tlocker` (10-54).  Each
thread is a program counter; a step of the machine is a step of one thread, in any order.  Operations on `std::atomic_flag`
and on the counter are single steps; a copy is as many steps as it makes single changes.  Interleavings of the threads'
steps are the executions C++ allows because no two threads access the same object at once (`C79_exclusive`).
-/

namespace Verif.Model
open Verif.Spec

/-- tests/test_thread.cpp 52-53: members of `tlocker`. -/
structure TLock where
  locked : Bool
  /-- `std::atomic_int8_t counter` -/
  counter : ℤ
  deriving DecidableEq

/-- `counter++` on an `atomic_int8_t` (lines 23): wraps around. -/
def inc8 (c : ℤ) : ℤ := if c = 127 then -128 else c + 1
/-- `counter--` (line 38). -/
def dec8 (c : ℤ) : ℤ := if c = -128 then 127 else c - 1

/-- Where the measuring thread is (tests/test_thread.cpp 109-147). -/
inductive MPc
  /-- `UpdateKinematics` (122) -/
  | measure
  /-- `tlock1.producer_lock()`: spinning (124, 15) -/
  | lock1
  /-- `CopyKinematicsData(global_rd)` (125), `k` single changes made -/
  | put (k : ℕ)
  /-- `counter++` in `tlock1.producer_ready()` (126, 23) -/
  | inc1
  /-- `lock.clear` in `tlock1.producer_ready()` (126, 24) -/
  | clear1
  /-- `tlock2.consumer_wait()`: before the test of the counter (128, 31) -/
  | test2
  /-- spinning on the flag (33-36) -/
  | lock2
  /-- `counter--` (38) -/
  | dec2
  /-- `mrd.torque_command_ = global_rd.torque_command_` (129) -/
  | accept (k : ℕ)
  /-- `tlock2.consumer_done()` (130) -/
  | clear2
  | done
  deriving DecidableEq

/-- Where the control thread is (tests/test_thread.cpp 169-209). -/
inductive CPc
  /-- `tlock1.consumer_wait()`: before the test of the counter (171, 31) -/
  | test1
  | lock1
  | dec1
  /-- `global_rd.CopyKinematicsData(local_rd)` (172) -/
  | fetch (k : ℕ)
  /-- `tlock1.consumer_done()` (173) -/
  | clear1
  /-- lines 177-195 -/
  | control
  /-- `tlock2.producer_lock()` (197) -/
  | lock2
  /-- `global_rd.torque_command_ = local_rd.torque_command_` (198) -/
  | answer (k : ℕ)
  /-- `counter++` in `tlock2.producer_ready()` (199) -/
  | inc2
  /-- `lock.clear` in `tlock2.producer_ready()` (199) -/
  | clear2
  | done
  deriving DecidableEq

/-- The whole program: the three objects, the two lockers, the two threads with the cycles they have completed. -/
structure Threads (R : Type*) where
  obj : Objects R
  t1 : TLock
  t2 : TLock
  m : MPc
  c : CPc
  /-- `t_count` -/
  mCount : ℕ
  /-- `c_count` -/
  cCount : ℕ

variable {R : Type*} (J : Job R)

/-- tests/test_thread.cpp 51-57, 100, 155, 453-454: flags clear, counters zero. -/
def Threads.start (o : Objects R) : Threads R :=
  ⟨o, ⟨false, 0⟩, ⟨false, 0⟩, if 0 < J.runs then .measure else .done, .test1, 0, 0⟩

/-- A step of the measuring thread (tests/test_thread.cpp 109-147). -/
def Threads.stepM (s : Threads R) : Threads R :=
  match s.m with
  | .measure => { s with obj := { s.obj with mine := J.measure s.mCount s.obj.mine }, m := .lock1 }
  | .lock1 => if s.t1.locked then s else { s with t1 := { s.t1 with locked := true }, m := .put 0 }
  | .put k => match J.put[k]? with
    | some f =>
      let p := f (s.obj.mine, s.obj.shared)
      { s with obj := { s.obj with mine := p.1, shared := p.2 }, m := .put (k + 1) }
    | none => { s with m := .inc1 }
  | .inc1 => { s with t1 := { s.t1 with counter := inc8 s.t1.counter }, m := .clear1 }
  | .clear1 => { s with t1 := { s.t1 with locked := false }, m := .test2 }
  | .test2 => if 0 < s.t2.counter then { s with m := .lock2 } else s
  | .lock2 => if s.t2.locked then s else { s with t2 := { s.t2 with locked := true }, m := .dec2 }
  | .dec2 => { s with t2 := { s.t2 with counter := dec8 s.t2.counter }, m := .accept 0 }
  | .accept k => match J.accept[k]? with
    | some f =>
      let p := f (s.obj.shared, s.obj.mine)
      { s with obj := { s.obj with mine := p.2, shared := p.1 }, m := .accept (k + 1) }
    | none => { s with m := .clear2 }
  | .clear2 =>
    { s with t2 := { s.t2 with locked := false }, mCount := s.mCount + 1,
             m := if s.mCount + 1 < J.runs then .measure else .done }
  | .done => s

/-- A step of the control thread (tests/test_thread.cpp 169-209).  `c_count` is counted together with the release of the
flag: only this thread reads it. -/
def Threads.stepC (s : Threads R) : Threads R :=
  match s.c with
  | .test1 => if 0 < s.t1.counter then { s with c := .lock1 } else s
  | .lock1 => if s.t1.locked then s else { s with t1 := { s.t1 with locked := true }, c := .dec1 }
  | .dec1 => { s with t1 := { s.t1 with counter := dec8 s.t1.counter }, c := .fetch 0 }
  | .fetch k => match J.fetch[k]? with
    | some f =>
      let p := f (s.obj.shared, s.obj.ctrl)
      { s with obj := { s.obj with shared := p.1, ctrl := p.2 }, c := .fetch (k + 1) }
    | none => { s with c := .clear1 }
  | .clear1 => { s with t1 := { s.t1 with locked := false }, c := .control }
  | .control => { s with obj := { s.obj with ctrl := J.control s.cCount s.obj.ctrl }, c := .lock2 }
  | .lock2 => if s.t2.locked then s else { s with t2 := { s.t2 with locked := true }, c := .answer 0 }
  | .answer k => match J.answer[k]? with
    | some f =>
      let p := f (s.obj.ctrl, s.obj.shared)
      { s with obj := { s.obj with shared := p.2, ctrl := p.1 }, c := .answer (k + 1) }
    | none => { s with c := .inc2 }
  | .inc2 => { s with t2 := { s.t2 with counter := inc8 s.t2.counter }, c := .clear2 }
  | .clear2 =>
    { s with t2 := { s.t2 with locked := false }, cCount := s.cCount + 1,
             c := if s.cCount + 1 = J.runs then .done else .test1 }
  | .done => s

inductive Thread
  | measuring | controlling
  deriving DecidableEq

def Threads.step (t : Thread) (s : Threads R) : Threads R :=
  match t with
  | .measuring => s.stepM J
  | .controlling => s.stepC J

/-- The program under a schedule: which thread makes the 1st, 2nd, … step. -/
def Threads.run (s : Threads R) (sched : List Thread) : Threads R := sched.foldl (fun s t => s.step J t) s

/-- Thread `measuring` is in the middle of a call that touches the shared object. -/
def Threads.mUsesShared (s : Threads R) : Prop := (∃ k, s.m = .put k) ∨ ∃ k, s.m = .accept k
/-- Thread `controlling` is in the middle of a call that touches the shared object. -/
def Threads.cUsesShared (s : Threads R) : Prop := (∃ k, s.c = .fetch k) ∨ ∃ k, s.c = .answer k

/-- Both threads have left their loops. -/
def Threads.finished (s : Threads R) : Prop := s.m = .done ∧ s.c = .done

end Verif.Model
