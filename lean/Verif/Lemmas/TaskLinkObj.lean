import Verif.Spec.TaskLinkObj
import Verif.Lemmas.TaskPD

set_option linter.unusedSectionVars false

namespace Verif
open Verif.Model Verif.Spec

theorem latest_snoc_some {α : Type*} {f : TaskLinkOp → Option α} {ops : List TaskLinkOp} {op : TaskLinkOp} {a b : α}
    (h : f op = some a) (hl : Latest f (ops ++ [op]) b) : b = a := by
  obtain ⟨pre, op', post, e, hf, hp⟩ := hl
  rcases List.eq_nil_or_concat post with rfl | ⟨post', o, rfl⟩
  · obtain ⟨-, e⟩ := List.append_inj' e rfl
    obtain rfl := (List.cons.inj e).1
    exact Option.some.inj (hf.symm.trans h)
  · have : o = op := by
      have e' : ops ++ [op] = (pre ++ op' :: post') ++ [o] := by rw [e]; simp
      exact (List.cons.inj (List.append_inj' e' rfl).2).1.symm
    subst this
    rw [hp o (by simp)] at h
    cases h

theorem latest_snoc_none {α : Type*} {f : TaskLinkOp → Option α} {ops : List TaskLinkOp} {op : TaskLinkOp} {b : α}
    (h : f op = none) (hl : Latest f (ops ++ [op]) b) : Latest f ops b := by
  obtain ⟨pre, op', post, e, hf, hp⟩ := hl
  rcases List.eq_nil_or_concat post with rfl | ⟨post', o, rfl⟩
  · obtain ⟨-, e⟩ := List.append_inj' e rfl
    obtain rfl := (List.cons.inj e).1
    rw [hf] at h; cases h
  · rw [List.concat_eq_append] at e hp
    have e' : ops ++ [op] = (pre ++ op' :: post') ++ [o] := by rw [e]; simp
    obtain ⟨e1, -⟩ := List.append_inj' e' rfl
    exact ⟨pre, op', post', e1, hf, fun x hx => hp x (by simp [hx])⟩

/-- One member of the object and the calls that write it. -/
theorem run_member {α : Type*} (mode : ℕ) (f : TaskLinkOp → Option α) (get : TaskLinkObj → Option α)
    (hs : ∀ (o : TaskLinkObj) op a, f op = some a → get (o.step op) = some a) (hn : ∀ (o : TaskLinkObj) op, f op = none → get (o.step op) = get o)
    (ops : List TaskLinkOp) :
    (∀ a, Latest f ops a → get (TaskLinkObj.run mode ops) = some a) ∧
      (NeverSet f ops → get (TaskLinkObj.run mode ops) = get (TaskLinkObj.fresh mode)) := by
  induction ops using List.reverseRecOn with
  | nil =>
    refine ⟨?_, fun _ => rfl⟩
    rintro a ⟨pre, op, post, e, -⟩
    simp at e
  | append_singleton ops op ih =>
    have e : TaskLinkObj.run mode (ops ++ [op]) = (TaskLinkObj.run mode ops).step op := by
      simp [TaskLinkObj.run]
    rw [e]
    constructor
    · intro a ha
      cases h : f op with
      | none => rw [hn _ _ h]; exact ih.1 a (latest_snoc_none h ha)
      | some b => rw [latest_snoc_some h ha]; exact hs _ _ _ h
    · intro hne
      rw [hn _ _ (hne op (by simp))]
      exact ih.2 fun o ho => hne o (by simp [ho])

theorem run_mode (mode : ℕ) (ops : List TaskLinkOp) : (TaskLinkObj.run mode ops).mode = mode := by
  unfold TaskLinkObj.run
  induction ops using List.reverseRecOn with
  | nil => rfl
  | append_singleton ops op ih =>
    simp only [List.foldl_append, List.foldl_cons, List.foldl_nil]
    cases op <;> exact ih

theorem run_window (mode : ℕ) (ops : List TaskLinkOp) {w : ℝ × ℝ} (h : Latest anyWindow ops w) :
    (TaskLinkObj.run mode ops).window = some w :=
  (run_member mode anyWindow (·.window) (by intro o op a h; cases op <;> simp_all [anyWindow, TaskLinkObj.step])
    (by intro o op h; cases op <;> simp_all [anyWindow, TaskLinkObj.step]) ops).1 w h

theorem run_pos (mode : ℕ) (ops : List TaskLinkOp) :
    (∀ g, Latest posCall ops g → (TaskLinkObj.run mode ops).pos = some g.2) ∧
      (NeverSet posCall ops → (TaskLinkObj.run mode ops).pos = none) := by
  have := run_member mode (fun op => (posCall op).map (·.2)) (·.pos)
    (by intro o op a h; cases op <;> simp_all [posCall, TaskLinkObj.step])
    (by intro o op h; cases op <;> simp_all [posCall, TaskLinkObj.step]) ops
  refine ⟨?_, fun h => this.2 fun o ho => by simp [h o ho]⟩
  rintro g ⟨pre, op, post, e, hf, hp⟩
  exact this.1 g.2 ⟨pre, op, post, e, by simp [hf], fun o ho => by simp [hp o ho]⟩

theorem run_rot (mode : ℕ) (ops : List TaskLinkOp) :
    (∀ g, Latest rotCall ops g → (TaskLinkObj.run mode ops).rot = some g.2) ∧
      (NeverSet rotCall ops → (TaskLinkObj.run mode ops).rot = none) := by
  have := run_member mode (fun op => (rotCall op).map (·.2)) (·.rot)
    (by intro o op a h; cases op <;> simp_all [rotCall, TaskLinkObj.step])
    (by intro o op h; cases op <;> simp_all [rotCall, TaskLinkObj.step]) ops
  refine ⟨?_, fun h => this.2 fun o ho => by simp [h o ho]⟩
  rintro g ⟨pre, op, post, e, hf, hp⟩
  exact this.1 g.2 ⟨pre, op, post, e, by simp [hf], fun o ho => by simp [hp o ho]⟩

theorem run_gains (mode : ℕ) (ops : List TaskLinkOp) :
    (∀ g, Latest gainCall ops g → (TaskLinkObj.run mode ops).gains = g) ∧
      (NeverSet gainCall ops → (TaskLinkObj.run mode ops).gains = {}) := by
  have := run_member mode gainCall (fun o => some o.gains)
    (by intro o op a h; cases op <;> simp_all [gainCall, TaskLinkObj.step])
    (by intro o op h; cases op <;> simp_all [gainCall, TaskLinkObj.step]) ops
  exact ⟨fun g h => Option.some.inj (this.1 g h), fun h => Option.some.inj (this.2 h)⟩

/-- Apart from the stored limits, the object does not depend on the regulation calls. -/
theorem run_limits_free (mode : ℕ) (ops : List TaskLinkOp) :
    ∃ L, TaskLinkObj.run mode ops =
      { TaskLinkObj.run mode (ops.filter fun o => (limitCall o).isNone) with limits := L } := by
  induction ops using List.reverseRecOn with
  | nil => exact ⟨none, rfl⟩
  | append_singleton ops op ih =>
    obtain ⟨L, ih⟩ := ih
    have e : TaskLinkObj.run mode (ops ++ [op]) = (TaskLinkObj.run mode ops).step op := by simp [TaskLinkObj.run]
    rw [e, ih]
    cases op with
    | regulate p d => exact ⟨some (p, d), by simp [limitCall, TaskLinkObj.step]⟩
    | quintic t0 tf g => exact ⟨L, by simp [limitCall, TaskLinkObj.step, TaskLinkObj.run]⟩
    | rotation t0 tf g => exact ⟨L, by simp [limitCall, TaskLinkObj.step, TaskLinkObj.run]⟩
    | gain g => exact ⟨L, by simp [limitCall, TaskLinkObj.step, TaskLinkObj.run]⟩

end Verif
