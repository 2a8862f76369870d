import Verif.Lemmas.TaskRegistry

/-!
# C29: task registry
-/

set_option linter.unusedSectionVars false

namespace Verif.Props
open Verif Verif.Model Verif.Spec Verif.Model.TaskReg

/-- The number of rows of a task link mode (include/dwbc_task.h 23-33): the three six-dimensional modes come first, then three
position and two rotation modes. -/
def LinkRows (mode : ℤ) (d : ℕ) : Prop := (mode ∈ [0, 1, 2] ∧ d = 6) ∨ (mode ∈ [3, 4, 5, 6, 7] ∧ d = 3)

/-- C29.  After any history of calls: one QP object per task, every task carries its own position as priority, no link
belongs to two tasks (or twice to one), and the dimension of a task made from links is the sum of its links' dimensions. -/
theorem C29_registry (links : List String) (h : List TaskCall) {s : TaskReg} (e : (TaskReg.loaded links).calls h = some s) :
    s.qps = s.ts.length ∧ (∀ (i : ℕ) (t : TaskRec), s.ts[i]? = some t → t.hier = i) ∧
    (s.ts.flatMap fun t => t.links.map TaskLinkRec.link).Nodup ∧
    ∀ t ∈ s.ts, t.custom = false → ∀ dims : List ℕ, List.Forall₂ (fun l d => LinkRows l.mode d) t.links dims →
      t.dof = some dims.sum := by
  have ok := taskCalls_ok (loaded_ok links) e
  refine ⟨ok.qps, ok.hier, ok.links, fun t ht hc dims hd => ?_⟩
  rw [ok.dof t ht hc]
  generalize t.links = ls at hd
  induction hd with
  | nil => rfl
  | @cons l d ls ds h1 _ ih =>
    have : modeDof l.mode = some d := by
      unfold modeDof
      rcases h1 with ⟨h1, rfl⟩ | ⟨h1, rfl⟩
      · rw [if_pos (by simp at h1; omega)]
      · rw [if_neg (by simp at h1; omega), if_pos (by simp at h1; omega)]
    simp [linkDofs, this, ih]

/-- C29.  No call except clearing removes or reorders tasks: each task keeps its position, its priority and its links (new
links come after). -/
theorem C29_tasks_kept : ∀ (h : List TaskCall) {s t : TaskReg}, TaskCall.clear ∉ h → s.calls h = some t →
    ∀ (i : ℕ) (x : TaskRec), s.ts[i]? = some x →
      ∃ y, t.ts[i]? = some y ∧ y.hier = x.hier ∧ x.links <+: y.links
  | [], s, t, _, e, i, x, hx => by
    simp [TaskReg.calls] at e; subst e; exact ⟨x, hx, rfl, List.prefix_rfl⟩
  | c :: cs, s, t, hc, e, i, x, hx => by
    unfold TaskReg.calls at e
    split at e
    · simp at e
    · rename_i s' hs
      obtain ⟨y, hy, h1, -, h3⟩ := change_extends (call_change hs (fun k => hc (by simp [k]))) i x hx
      obtain ⟨z, hz, k1, k3⟩ := C29_tasks_kept cs (fun k => hc (by simp [k])) e i y hy
      exact ⟨z, hz, by rw [k1, h1], h3.trans k3⟩

/-- C29.  Registration by name honours the requested priority when that is at most one past the last task: afterwards the
link belongs to exactly the task at that position; the position one past the last is a new lowest-priority task. -/
theorem C29_add_by_name (s : TaskReg) {h : ℕ} (hh : h ≤ s.ts.length) {name : String} {k : ℕ}
    (hk : FirstNamed s.links name k) (hn : (k : ℤ) ∉ s.ts.flatMap fun t => t.links.map TaskLinkRec.link) (m : ℤ)
    (p : Fin 3 → ℝ) :
    ∃ t x, s.addName h m name p = some t ∧ t.ts[h]? = some x ∧ x.links.getLast? = some ⟨m, k, p⟩ ∧
      t.ts.length = max s.ts.length (h + 1) ∧ ∀ i, i ≠ h → t.ts[i]? = s.ts[i]? := by
  unfold addName
  rw [linkIndex_some.mpr hk]
  have hl : s.hasLink k = false := hasLink_false.mpr hn
  simp only [hl, Bool.false_eq_true, if_false]
  by_cases e : h = s.ts.length
  · subst e
    rw [if_pos rfl]
    refine ⟨_, linkTask m s.ts.length k p, rfl, by simp, by simp [linkTask], by simp, ?_⟩
    intro i hi
    simp only
    rcases Nat.lt_or_gt_of_ne hi with hi | hi
    · rw [List.getElem?_append_left hi]
    · rw [List.getElem?_eq_none (by simp; omega), List.getElem?_eq_none (by omega)]
  · have hlt : h < s.ts.length := by omega
    rw [if_neg (by omega), if_pos (by omega)]
    unfold addLinkAt
    rw [if_neg (by omega)]
    simp only [Int.toNat_natCast, List.getElem?_eq_getElem hlt]
    refine ⟨_, addLinkTo s.ts[h] m k p, rfl, by simp [hlt], by simp [addLinkTo], by simp; omega, ?_⟩
    intro i hi
    simp [List.getElem?_set, Ne.symm hi]

/-- C29 (negation).  Registration by name with a priority further past the end is dropped without any message. -/
theorem C29_add_by_name_dropped (s : TaskReg) {h : ℤ} (hh : (s.ts.length : ℤ) < h) (name : String) (m : ℤ)
    (p : Fin 3 → ℝ) : s.addName h m name p = some s := by
  unfold addName
  split
  · rfl
  · split
    · rfl
    · rw [if_neg (by omega), if_neg (by omega)]

/-- C29 (negation).  Registration by dimension or by link number ignores the requested priority: the new task always
becomes the last one. -/
theorem C29_priority_ignored (s : TaskReg) (h : ℤ) (d : ℕ) (m l : ℤ) (p : Fin 3 → ℝ)
    (hn : l ∉ s.ts.flatMap fun t => t.links.map TaskLinkRec.link) :
    (∃ x, (s.addDof h d).ts = s.ts ++ [x] ∧ x.dof = some d) ∧
    (∃ x, (s.addNumber h m l p).ts = s.ts ++ [x] ∧ x.links = [⟨m, l, p⟩]) := by
  refine ⟨⟨_, rfl, rfl⟩, ?_⟩
  have hl : s.hasLink l = false := hasLink_false.mpr hn
  exact ⟨linkTask m s.ts.length l p, by simp [addNumber, hl], rfl⟩

/-- C29.  A target acceleration for an existing task is stored, with its Jacobian, in that task only. -/
theorem C29_set_target (s : TaskReg) {h : ℕ} {x : TaskRec} (hx : s.ts[h]? = some x) {d : ℕ} (hd : x.dof = some d)
    (f : List ℝ) (J : DynMat) :
    ∃ t, s.setTaskSpace h f J = some t ∧ t.ts[h]? = some { x with fstar := some f, jtask := some J } ∧
      ∀ i, i ≠ h → t.ts[i]? = s.ts[i]? := by
  have hlt := (List.getElem?_eq_some_iff.mp hx).1
  refine ⟨{ s with ts := s.ts.set h { x with fstar := some f, jtask := some J } }, ?_, by simp [hlt], ?_⟩
  · unfold setTaskSpace
    rw [if_neg (by omega)]
    simp [hx, hd]
  · intro i hi
    simp [List.getElem?_set, Ne.symm hi]

/-- C29 (negation).  A target for a task that does not exist is not rejected: its dimension is read outside the table first. -/
theorem C29_set_target_out_of_range_undefined (s : TaskReg) {h : ℤ} (hh : h < 0 ∨ (s.ts.length : ℤ) ≤ h) (f : List ℝ)
    (J : DynMat) : s.setTaskSpace h f J = none := by
  unfold setTaskSpace
  split
  · rfl
  · rw [List.getElem?_eq_none (by omega)]

/-- C29 (negation).  A target of the wrong dimension is stored all the same. -/
theorem C29_wrong_dimension_accepted : ∃ s t : TaskReg, (TaskReg.loaded ["pelvis"]).calls [.addName 0 0 "pelvis" 0] = some s ∧
    (∃ x, s.ts = [x] ∧ x.dof = some 6) ∧ s.setTaskSpace 0 [1, 2, 3] (.zero 3 7) = some t ∧
    ∃ y, t.ts = [y] ∧ y.dof = some 6 ∧ y.fstar = some [1, 2, 3] := by
  have e : (TaskReg.loaded ["pelvis"]).linkIndex "pelvis" = some 0 := by decide
  refine ⟨⟨["pelvis"], [linkTask 0 0 0 0], 1⟩,
    ⟨["pelvis"], [{ linkTask 0 0 0 0 with fstar := some [1, 2, 3], jtask := some (.zero 3 7) }], 1⟩, ?_, ?_, ?_, ?_⟩
  · simp only [TaskReg.calls, TaskReg.call, addName, e]
    simp [TaskReg.loaded, hasLink]
  · exact ⟨_, rfl, rfl⟩
  · simp [setTaskSpace, linkTask, modeDof]
  · exact ⟨_, rfl, rfl, rfl⟩

/-- a call that gives a target only to a task of that dimension -/
def Matching (s : TaskReg) : TaskCall → Prop
  | .setTask h f _ => ∀ x, s.ts[h.toNat]? = some x → x.dof = some f.length
  | _ => True

/-- a history of such calls -/
def AllMatching (s : TaskReg) : List TaskCall → Prop
  | [] => True
  | c :: cs => Matching s c ∧ ∀ t, s.call c = some t → AllMatching t cs

/-- C29.  When targets are always given in the task's dimension, the stored target of a task made from links always has
exactly the dimension of the task, also after links were added. -/
theorem C29_target_dimension (links : List String) (h : List TaskCall) (hm : AllMatching (TaskReg.loaded links) h)
    {s : TaskReg} (e : (TaskReg.loaded links).calls h = some s) :
    ∀ t ∈ s.ts, t.custom = false → ∀ d, t.dof = some d → ∃ f, t.fstar = some f ∧ f.length = d := by
  have step : ∀ {s t : TaskReg} {c : TaskCall}, s.call c = some t → Matching s c →
      (∀ x ∈ s.ts, x.custom = false → ∀ d, x.dof = some d → ∃ f, x.fstar = some f ∧ f.length = d) →
      ∀ x ∈ t.ts, x.custom = false → ∀ d, x.dof = some d → ∃ f, x.fstar = some f ∧ f.length = d := by
    intro s t c hc hmt ih
    by_cases hcl : c = .clear
    · subst hcl
      simp [TaskReg.call, TaskReg.clear] at hc; subst hc; simp
    · have hch := call_change hc hcl
      intro x hx hcu d hd
      cases hch with
      | same h => subst h; exact ih x hx hcu d hd
      | custom dd h =>
        subst h
        rcases List.mem_append.mp hx with hx | hx
        · exact ih x hx hcu d hd
        · simp at hx; subst hx; simp [customTask] at hcu
      | push m l p hl h =>
        subst h
        rcases List.mem_append.mp hx with hx | hx
        · exact ih x hx hcu d hd
        · simp at hx; subst hx
          simp only [linkTask] at hd ⊢
          exact ⟨List.replicate d 0, by simp [hd], by simp⟩
      | link i y hi m l p hl h =>
        subst h
        rcases List.mem_or_eq_of_mem_set hx with hx | rfl
        · exact ih x hx hcu d hd
        · simp only [addLinkTo] at hd ⊢
          exact ⟨List.replicate d 0, by simp [hd], by simp⟩
      | target i y hi f J hk h =>
        obtain ⟨k, rfl, rfl⟩ := hk
        subst h
        rcases List.mem_or_eq_of_mem_set hx with hx | rfl
        · exact ih x hx hcu d hd
        · refine ⟨f, rfl, ?_⟩
          have := hmt y hi
          simp only at hd
          rw [hd] at this
          exact (Option.some.inj this).symm
  have key : ∀ (h : List TaskCall) (s t : TaskReg), AllMatching s h → s.calls h = some t →
      (∀ x ∈ s.ts, x.custom = false → ∀ d, x.dof = some d → ∃ f, x.fstar = some f ∧ f.length = d) →
      ∀ x ∈ t.ts, x.custom = false → ∀ d, x.dof = some d → ∃ f, x.fstar = some f ∧ f.length = d := by
    intro h
    induction h with
    | nil => intro s t _ e ih; simp [TaskReg.calls] at e; subst e; exact ih
    | cons c cs ihh =>
      intro s t hm e ih
      unfold TaskReg.calls at e
      split at e
      · simp at e
      · rename_i s' hs
        exact ihh s' t (hm.2 s' hs) e (step hs hm.1 ih)
  exact key h _ s hm e (by simp [TaskReg.loaded])

/-! ### The hypotheses are met -/

/-- a history with two tasks, one of them with two links, and a target -/
example : ∃ s, (TaskReg.loaded ["pelvis", "hand", "COM"]).calls [.addName 0 0 "PELVIS" 0, .addName 1 3 "com" 0,
    .addName 1 6 "hand" 0, .addName 5 6 "pelvis" 0, .setTask 1 [1, 2, 3, 4, 5, 6] (.zero 6 8)] = some s ∧
    s.ts.length = 2 ∧ s.ts.map TaskRec.dof = [some 6, some 6] ∧ s.qps = 2 := by
  have e1 : List.findIdx? (fun m => Robot.strcaseEq m "PELVIS") ["pelvis", "hand", "COM"] = some 0 := by decide
  have e2 : List.findIdx? (fun m => Robot.strcaseEq m "com") ["pelvis", "hand", "COM"] = some 2 := by decide
  have e3 : List.findIdx? (fun m => Robot.strcaseEq m "hand") ["pelvis", "hand", "COM"] = some 1 := by decide
  have e4 : List.findIdx? (fun m => Robot.strcaseEq m "pelvis") ["pelvis", "hand", "COM"] = some 0 := by decide
  simp [TaskReg.calls, TaskReg.call, TaskReg.loaded, addName, linkIndex, e1, e2, e3, e4, hasLink, linkTask, addLinkAt,
    addLinkTo, modeDof, setTaskSpace]

/-- targets of matching dimension -/
example : AllMatching (TaskReg.loaded ["pelvis"]) [.addDof 0 2, .setTask 0 [1, 2] (.zero 2 7)] := by
  simp [AllMatching, Matching, TaskReg.call, TaskReg.loaded, addDof, customTask]

end Verif.Props
