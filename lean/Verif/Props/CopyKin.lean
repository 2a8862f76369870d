import Verif.Lemmas.CopyKin

/-!
# C45: copying the kinematic state
-/

namespace Verif.Props
open Verif Verif.Model Verif.Spec

variable {V M L J C T Q : Type*} {l0 : L} {c0 : C} {t0 : T} {k0 : Q} {src target src' target' : KinState V M L J C T Q}

/-- C45, what holds.  Between two objects with the same number of contacts (and, if the number of tasks agrees, no fewer QP
solvers in the target) the copy is defined, leaves the source unchanged, and the target then has the same kinematic state
whenever its joint table and centre of mass already agreed. -/
theorem C45_copy_partial (hc : target.cc.length = src.cc.length)
    (hq : target.ts.length = src.ts.length → src.qp.length ≤ target.qp.length) :
    ∃ target', copyKinematics l0 c0 t0 k0 src target = some (src, target') ∧
      (target.comPos = src.comPos → target.joint = src.joint → SameKinematics src target') := by
  have hs : sourceContacts c0 src.cc target.cc = src.cc := by unfold sourceContacts; rw [if_neg (by simp [hc])]
  have hdef : ∃ r, copyKinematics l0 c0 t0 k0 src target = some r := by
    have hqp : ∃ x, stdCopy src.qp (if target.ts.length ≠ src.ts.length then resizeTo src.qp.length k0 target.qp
        else target.qp) = some x := by
      unfold stdCopy
      split_ifs with h1 h2 h3
      · exact ⟨_, rfl⟩
      · exact absurd (by rw [resizeTo_length]) h2
      · exact ⟨_, rfl⟩
      · exact absurd (hq (not_not.mp h1)) h3
    obtain ⟨x, hx⟩ := hqp
    unfold copyKinematics
    rw [hs]
    simp only [stdCopy_ite, hx]
    exact ⟨_, rfl⟩
  obtain ⟨⟨s', t'⟩, hr⟩ := hdef
  obtain ⟨e1, e2⟩ := copyKinematics_some hr
  rw [hs] at e1 e2
  refine ⟨t', ?_, fun hp hj => ?_⟩
  · rw [hr, e1]
  · rw [e2]
    exact ⟨rfl, rfl, rfl, rfl, rfl, ⟨rfl, rfl⟩, ⟨rfl, rfl⟩, rfl, hp, rfl, hj, rfl, rfl⟩

/-- C45, negation: the source is damaged.  When the target has another number of contacts, the copy replaces every contact
switch of the *source* by that of the target's contact with the same number, or by an indeterminate value. -/
theorem C45_source_damaged (hc : target.cc.length ≠ src.cc.length)
    (h : copyKinematics l0 c0 t0 k0 src target = some (src', target')) (i : ℕ) (hi : i < src.cc.length) :
    (src'.cc[i]?).map (·.on) = some (match target.cc[i]? with | some c => c.on | none => none) := by
  obtain ⟨e1, -⟩ := copyKinematics_some h
  rw [e1]
  simp only [sourceContacts, if_pos hc]
  rw [List.getElem?_zipWith, List.getElem?_eq_getElem hi]
  unfold resizeTo
  by_cases ht : i < target.cc.length
  · rw [List.getElem?_append_left (by simp; omega), List.getElem?_take, if_pos hi, List.getElem?_eq_getElem ht]
    rfl
  · rw [List.getElem?_append_right (by simp; omega), List.getElem?_replicate, if_pos (by simp; omega),
      List.getElem?_eq_none (by omega)]
    rfl

/-- C45, negation, the usual first use: the target has no contacts yet.  The copy is defined, every contact switch of the
source becomes indeterminate, and so do those of the target. -/
theorem C45_fresh_target (hc : target.cc = []) (hne : src.cc ≠ []) (hts : target.ts = []) (hqp : target.qp = [])
    (hq : src.ts = [] → src.qp = []) :
    ∃ src' target', copyKinematics l0 c0 t0 k0 src target = some (src', target') ∧
      src'.cc = src.cc.map (fun c => { c with on := none }) ∧ target'.cc = src'.cc := by
  have hdef : ∃ r, copyKinematics l0 c0 t0 k0 src target = some r := by
    have hq1 : ∃ x, stdCopy src.qp (if target.ts.length ≠ src.ts.length then resizeTo src.qp.length k0 target.qp
        else target.qp) = some x := by
      unfold stdCopy
      split_ifs with h1 h2 h3
      · exact ⟨_, rfl⟩
      · exact absurd (by rw [resizeTo_length]) h2
      · exact ⟨_, rfl⟩
      · rw [hts] at h1
        simp at h1
        exact absurd (by rw [hq (List.length_eq_zero_iff.mp h1.symm)]; simp) h3
    obtain ⟨x, hx⟩ := hq1
    unfold copyKinematics
    have hcc : stdCopy (sourceContacts c0 src.cc target.cc)
        (if target.cc.length ≠ src.cc.length then resizeTo src.cc.length ⟨c0, none⟩ target.cc else target.cc) =
        some (sourceContacts c0 src.cc target.cc) := by
      refine stdCopy_same ?_
      rw [sourceContacts_length]
      split_ifs with e
      · exact resizeTo_length _ _ _
      · exact not_not.mp e
    simp only [stdCopy_ite, hcc, hx]
    exact ⟨_, rfl⟩
  obtain ⟨⟨s', t'⟩, hr⟩ := hdef
  obtain ⟨e1, e2⟩ := copyKinematics_some hr
  refine ⟨s', t', hr, ?_, by rw [e1, e2]⟩
  rw [e1, hc]
  have hl : 0 < src.cc.length := List.length_pos_iff.mpr hne
  simp only [sourceContacts, List.length_nil]
  rw [if_pos (by omega)]
  simp only [resizeTo, List.take_nil, List.nil_append, List.length_nil, Nat.sub_zero]
  generalize src.cc = cs
  induction cs with
  | nil => rfl
  | cons x xs ih => simp [List.replicate_succ, ih]

/-- C45, negation: the target's centre of mass position and joint table are not copied. -/
theorem C45_not_copied (h : copyKinematics l0 c0 t0 k0 src target = some (src', target')) :
    target'.comPos = target.comPos ∧ target'.joint = target.joint := by
  obtain ⟨-, e2⟩ := copyKinematics_some h
  rw [e2]
  exact ⟨rfl, rfl⟩

/-- C45.  Whenever the copy is defined, the target has the source's torque limits and, in the first places, its QP solvers. -/
theorem C45_limits_solvers (h : copyKinematics l0 c0 t0 k0 src target = some (src', target')) :
    target'.torqueLimitSet = src.torqueLimitSet ∧ target'.torqueLimit = src.torqueLimit ∧
      target'.qp.take src.qp.length = src.qp := by
  refine ⟨by rw [(copyKinematics_some h).2], by rw [(copyKinematics_some h).2], ?_⟩
  have key : ∀ (a b x : List Q), stdCopy a b = some x → x.take a.length = a := by
    intro a b x hx
    unfold stdCopy at hx
    split_ifs at hx
    cases hx
    simp
  unfold copyKinematics at h
  simp only at h
  split at h
  · rename_i hq
    simp only [Option.some.injEq, Prod.mk.injEq] at h
    obtain ⟨-, rfl⟩ := h
    exact key _ _ _ hq
  · cases h

/-- C45.  The copy is undefined exactly when the task tables have equal length and the target has fewer QP solvers. -/
theorem C45_undefined_iff : copyKinematics l0 c0 t0 k0 src target = none ↔
    target.ts.length = src.ts.length ∧ target.qp.length < src.qp.length := by
  have hcc : stdCopy (sourceContacts c0 src.cc target.cc)
      (if target.cc.length ≠ src.cc.length then resizeTo src.cc.length ⟨c0, none⟩ target.cc else target.cc) =
      some (sourceContacts c0 src.cc target.cc) := by
    refine stdCopy_same ?_
    rw [sourceContacts_length]
    split_ifs with e
    · exact resizeTo_length _ _ _
    · exact not_not.mp e
  unfold copyKinematics
  simp only [stdCopy_ite, hcc]
  unfold stdCopy
  by_cases h1 : target.ts.length = src.ts.length
  · by_cases h2 : src.qp.length ≤ target.qp.length
    · simp [h1, h2]
    · simp [h1, h2]; omega
  · simp [h1, resizeTo_length]

/-- Two objects as in `C45_copy_partial`. -/
example : ∃ src target : KinState ℝ Unit ℕ ℕ ℕ ℕ ℕ, target.cc.length = src.cc.length ∧ src.cc ≠ [] ∧
    (target.ts.length = src.ts.length → src.qp.length ≤ target.qp.length) :=
  ⟨⟨0, 1, 1, 1, true, 1, (), 1, 1, 1, 1, 1, 1, [1], [1], [⟨1, some true⟩], [1], [1]⟩,
    ⟨0, 0, 0, 0, true, 1, (), 1, 1, 1, 1, 1, 0, [1], [1], [⟨1, some false⟩], [1], [1]⟩, rfl, by simp, by simp⟩

/-- Two objects as in `C45_source_damaged` and `C45_fresh_target`: a source standing on one contact, a fresh target. -/
example : ∃ src target : KinState ℝ Unit ℕ ℕ ℕ ℕ ℕ, target.cc.length ≠ src.cc.length ∧ target.cc = [] ∧ src.cc ≠ [] ∧
    target.ts = [] ∧ target.qp = [] ∧ (src.ts = [] → src.qp = []) ∧ src.cc.map (·.on) = [some true] :=
  ⟨⟨0, 1, 1, 1, true, 1, (), 1, 1, 1, 1, 1, 1, [1], [1], [⟨1, some true⟩], [1], [1]⟩,
    ⟨0, 0, 0, 0, true, 1, (), 1, 1, 1, 1, 1, 0, [1], [1], [], [], []⟩, by simp, rfl, by simp, rfl, rfl, by simp, rfl⟩

end Verif.Props
