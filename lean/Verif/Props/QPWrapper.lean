import Verif.Lemmas.QPWrapper
import Mathlib.Tactic.Linarith
import Mathlib.Tactic.NormNum

/-!
# C31: the QP wrapper solves the latest problem
-/

set_option linter.unusedSectionVars false

namespace Verif.Props
open Verif Verif.Model Verif.Spec Verif.Model.QPObj Verif.Lemmas.QPWrapper

variable {Q : Oases}

/-- C31 (partial: without the upper-bound-only rows, which are undefined behaviour, see `C31_upper_rows_undefined`).  For every
history of calls after a problem size was set, with any mixture of solves, solver failures and restarts, whatever was done
before: when `SolveQPoases` returns 1, its answer solves exactly the problem stated since: the latest objective, the latest
rows unless deleted, the latest bounds unless deleted. -/
theorem C31_latest_problem_partial (hQ : Q.Sound) (before h : List QPCall) (nv nc : ℕ) (hub : ∀ A u, QPCall.axUb A u ∉ h)
    {s t : QPObj Q} (e : (QPObj.new Q).calls (before ++ .size nv nc :: h) = some s) {k : ℤ} {m : Bool} {x : List ℝ}
    (hs : s.solve k m = some (t, true, some x)) :
    (stated ⟨.zero nv nv, List.replicate nv 0, none, none⟩ (h.flatMap QPCall.statement)).IsSolution x := by
  rw [calls_append] at e
  cases hb : (QPObj.new Q).calls before with
  | none => rw [hb] at e; simp at e
  | some s0 =>
    rw [hb] at e
    simp only [Option.bind_some, QPObj.calls, QPObj.call] at e
    have h0 : Holds (s0.initializeProblemSize nv nc) ⟨.zero nv nv, List.replicate nv 0, none, none⟩ :=
      ⟨rfl, rfl, rfl, .inl ⟨rfl, rfl⟩, .inl ⟨rfl, rfl⟩⟩
    have := calls_holds h h0 hub e
    exact solve_sound hQ (fun d hd => gather_holds this hd) hs

/-- C31.  Returning 1 means the solution was read; a solve always leaves the problem data as they were. -/
theorem C31_solve_keeps_problem {s t : QPObj Q} {k : ℤ} {m : Bool} {ok : Bool} {x : Option (List ℝ)}
    (hs : s.solve k m = some (t, ok, x)) : (ok = true → x.isSome) ∧ t.gather = s.gather := by
  unfold QPObj.solve at hs
  split at hs
  · simp at hs
  · simp only [Option.some.injEq, Prod.mk.injEq] at hs
    obtain ⟨rfl, h2, rfl⟩ := hs
    refine ⟨fun h => ?_, rfl⟩
    rw [h] at h2
    simp only [Bool.and_eq_true] at h2
    exact h2.2

/-- C31.  A history of correctly sized statements after a size is never undefined, whatever the solver answers. -/
theorem C31_defined (s : QPObj Q) (nv nc : ℕ) {H A : DynMat} {g l u lb ub : List ℝ} (hH : H.rows = nv ∧ H.cols = nv)
    (hg : g.length = nv) (hA : A.rows = nc ∧ A.cols = nv) (hl : l.length = nc ∧ u.length = nc)
    (hb : lb.length = nv ∧ ub.length = nv) (k : ℤ) (m : Bool) (h : List (ℤ × Bool)) :
    ∃ t, s.calls ([.size nv nc, .min H g, .ax A l u, .x lb ub] ++ h.map fun p => .solve p.1 p.2) = some t ∧
      t.gather = some ⟨H, g, some (A, l, u), some (lb, ub)⟩ := by
  have key : ∀ (h : List (ℤ × Bool)) (s : QPObj Q), s.gather = some ⟨H, g, some (A, l, u), some (lb, ub)⟩ →
      ∃ t, s.calls (h.map fun p => .solve p.1 p.2) = some t ∧ t.gather = some ⟨H, g, some (A, l, u), some (lb, ub)⟩ := by
    intro h
    induction h with
    | nil => intro s hs; exact ⟨s, rfl, hs⟩
    | cons p h ih =>
      intro s hs
      simp only [List.map_cons, QPObj.calls, QPObj.call]
      cases e : s.solve p.1 p.2 with
      | none => simp [QPObj.solve, hs] at e
      | some r =>
        obtain ⟨t, ok, x⟩ := r
        exact ih t (by rw [(C31_solve_keeps_problem e).2, hs])
  simp only [List.cons_append, List.nil_append, QPObj.calls, QPObj.call]
  apply key
  simp [gather, gatherRows, gatherBox, updateSubjectToX, updateSubjectToAx, updateMinProblem, initializeProblemSize,
    hH, hg, hA, hl, hb]

/-- C31 (negation).  After rows with an upper bound only, a solve hands the solver an array that was never written. -/
theorem C31_upper_rows_undefined (s : QPObj Q) (A : DynMat) (u : List ℝ) (k : ℤ) (m : Bool) :
    (s.updateSubjectToAxUb A u).solve k m = none := by
  exact solve_none rfl k m

/-- C31 (negation).  The stale flag survives: once upper-bound-only rows have been used, stating two-sided rows afterwards
(also after deleting the rows) does not help, until the problem size is set again. -/
theorem C31_stale_upper_flag (s : QPObj Q) (A A' : DynMat) (u l' u' : List ℝ) (k : ℤ) (m : Bool) :
    ((s.updateSubjectToAxUb A u).updateSubjectToAx A' l' u').solve k m = none ∧
    (((s.updateSubjectToAxUb A u).deleteSubjectToAx).updateSubjectToAx A' l' u').solve k m = none := by
  exact ⟨solve_none rfl k m, solve_none rfl k m⟩

/-- C31 (negation).  A solve before the problem size was set reads flags that were never set, unless both kinds of
constraints were stated or deleted. -/
theorem C31_before_size_undefined (H : DynMat) (g : List ℝ) (k : ℤ) (m : Bool) :
    ((QPObj.new Q).updateMinProblem H g).solve k m = none := by
  exact solve_none rfl k m

/-! ### The hypotheses are met -/

open Classical in
/-- a solver that finds a solution whenever there is one (hot starts always fail, so the restart is exercised) -/
noncomputable def exOases : Oases where
  Obj := Option (List ℝ)
  default := none
  fresh := fun _ _ => none
  init := fun _ _ d k => if h : ∃ x, d.IsSolution x then (some h.choose, true, k) else (none, false, k)
  hotstart := fun _ _ _ k => (none, false, k)
  primal := id

theorem exOases_sound : exOases.Sound := by
  constructor
  · intro o m d k hok x hx
    simp only [exOases] at hok hx
    split at hok
    · rename_i h
      simp only [h, ↓reduceDIte, id, Option.some.injEq] at hx
      rw [← hx]; exact h.choose_spec
    · simp at hok
  · intro o m d k hok
    simp [exOases] at hok

/-- minimise ½x² with 2 ≤ x: solved twice, the second time by a restart, the answer is a solution -/
example : ∃ s t x, (QPObj.new exOases).calls ([] ++ .size 1 1 ::
      [.min ⟨1, 1, fun _ _ => 1⟩ [0], .ax ⟨1, 1, fun _ _ => 1⟩ [2] [3], .deleteX, .solve 10 true]) = some s ∧
    s.solve 10 true = some (t, true, some x) := by
  have hsol : ∃ x, (⟨⟨1, 1, fun _ _ => 1⟩, [0], some (⟨1, 1, fun _ _ => 1⟩, [2], [3]), none⟩ : QPData).IsSolution x := by
    refine ⟨[2], ⟨rfl, ?_, by simp⟩, ?_⟩
    · intro A l u h
      simp only [Option.some.injEq, Prod.mk.injEq] at h
      obtain ⟨rfl, rfl, rfl⟩ := h
      intro r hr
      have : r = 0 := by simp only at hr; omega
      subst this
      simp [QPData.rowValue]; norm_num
    · rintro y ⟨hl, hr, -⟩
      have h1 := hr _ _ _ rfl 0 (by simp)
      obtain ⟨a, rfl⟩ := List.length_eq_one_iff.mp hl
      simp [QPData.rowValue, QPData.cost] at h1 ⊢
      nlinarith
  simp only [List.nil_append, QPObj.calls, QPObj.call, QPObj.solve, gather, gatherRows, gatherBox, updateSubjectToAx,
    updateMinProblem, initializeProblemSize, deleteSubjectToX, retry, start, exOases]
  simp [hsol]

end Verif.Props
