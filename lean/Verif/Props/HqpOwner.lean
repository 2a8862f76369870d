import Verif.Lemmas.HqpOwner
import Mathlib.Data.Finset.Card

/-! # C67: ownership of the solvers of a hierarchy -/

namespace Verif.Props
open Verif Verif.Model Verif.Spec

variable {P : Type}

/-- **C67 (no misuse of memory).**  Whatever a program does with hierarchical solvers (objects made, levels added, objects copied and
destroyed in any order, levels solved), no solver is deleted twice and none is used after its deletion. -/
theorem C67_safe (ops : List (HqpOp P)) : ∃ s, HqpHeap.run ops = some s :=
  (heap_run_ok ops _ heap_init_ok).imp fun _ h => h.1

/-- **C67 (what is left behind).**  No solver is ever released: after any history all solvers made are still there. -/
theorem C67_all_alive (ops : List (HqpOp P)) {s : HqpHeap P} (h : HqpHeap.run ops = some s) : s.live.card = s.made ∧ ∀ i < s.made, i ∈ s.live := by
  obtain ⟨s', h1, h2⟩ := heap_run_ok ops _ (heap_init_ok (P := P))
  obtain rfl : s = s' := Option.some.inj (h.symm.trans h1)
  rw [h2.live]
  exact ⟨Finset.card_range _, fun i hi => Finset.mem_range.mpr hi⟩

/-- **C67 (negation, release).**  An object with `n` levels is made and destroyed; nothing exists any more, but `n` solvers remain in memory.
(`solver_init`, which the destructor reads, is never set.) -/
theorem C67_never_released (bs : List Bool) :
    ∃ s : HqpHeap P, HqpHeap.run (.make 0 :: bs.map (HqpOp.add 0) ++ [.destroy 0]) = some s ∧ (∀ h, s.objs h = none) ∧ s.live.card = bs.length := by
  obtain ⟨s₁, h1, h2, -⟩ := heap_step_ok (P := P) heap_init_ok (.make 0)
  have ho : s₁.objs 0 = some [] := by
    have := h1
    simp only [HqpHeap.step, HqpHeap.init] at this
    obtain rfl := Option.some.inj this
    simp
  have hm : s₁.made = 0 ∧ ∀ k, k ≠ 0 → s₁.objs k = none := by
    have := h1
    simp only [HqpHeap.step, HqpHeap.init] at this
    obtain rfl := Option.some.inj this
    exact ⟨rfl, fun k hk => by simp [hk]⟩
  obtain ⟨s₂, ls, e1, e2, e3, e4, e5⟩ := adds_from 0 bs s₁ [] h2 ho
  have h3 : s₂.step (.destroy 0) = some { s₂ with objs := Function.update s₂.objs 0 none } := by
    simp only [HqpHeap.step, e3, destroyLevels_idle _ _ fun l hl => (e2.lvl 0 ls e3 l hl).2]
  refine ⟨{ s₂ with objs := Function.update s₂.objs 0 none }, ?_, fun k => ?_, ?_⟩
  · rw [HqpHeap.run, List.cons_append, List.foldlM_cons, h1]
    show List.foldlM HqpHeap.step s₁ _ = _
    rw [List.foldlM_append, e1]
    show List.foldlM HqpHeap.step s₂ [.destroy 0] = _
    rw [List.foldlM_cons, h3]
    rfl
  · by_cases hk : k = 0
    · subst hk; simp
    · simp only
      rw [Function.update_of_ne hk, e5 k hk, hm.2 k hk]
  · show s₂.live.card = _
    rw [e2.live, Finset.card_range, e4, hm.1, Nat.zero_add]

/-! ## Sharing -/

/-- **C67 (independence without copies).**  In a program that never copies a hierarchical solver, solving a level hands the problem to that
level's solver and leaves the problems of all other levels, of this and of all other objects, as they were. -/
theorem C67_independent_partial (ops : List (HqpOp P)) (hc : ∀ op ∈ ops, ∀ h k, op ≠ .copy h k) {s : HqpHeap P} (hr : HqpHeap.run ops = some s)
    {h i : ℕ} {ls : List OwnLevel} (ho : s.objs h = some ls) (hi : i < ls.length) (p : P) :
    ∃ s', s.step (.solve h i p) = some s' ∧ problemOf s' h i = some p ∧
      ∀ k j, (k, j) ≠ (h, i) → problemOf s' k j = problemOf s k j := by
  obtain ⟨s₁, h1, h2⟩ := heap_run_ok ops _ (heap_init_ok (P := P))
  obtain rfl : s = s₁ := Option.some.inj (hr.symm.trans h1)
  have hp : Private s := heap_run_private ops _ s heap_init_ok (fun _ _ _ _ _ h => by simp [solverOf, HqpHeap.init] at h) (fun op hop => by
    cases op with
    | copy a b => exact absurd rfl (hc _ hop a b)
    | _ => rfl) hr
  have hn : solverOf s h i = some (ls[i]).solver := by simp [solverOf, ho, List.getElem?_eq_getElem hi]
  obtain ⟨s', e1, e2, e3⟩ := solve_effect h2 hn p
  have e4 : ∀ k j, solverOf s' k j = solverOf s k j := fun k j => by rw [solverOf, solverOf, e2]
  refine ⟨s', e1, ?_, fun k j hkj => ?_⟩
  · simp [problemOf, e4, hn, e3]
  · rw [problemOf, problemOf, e4]
    rcases hm : solverOf s k j with _ | m
    · rfl
    · simp only [Option.bind_some]
      rw [e3, Function.update_of_ne]
      rintro rfl
      obtain ⟨rfl, rfl⟩ := hp k j h i _ hm hn
      exact hkj rfl

/-- **C67 (negation, copies).**  A copy of a hierarchical solver is not independent: in every state a program can reach, after copying `h` to
a new object `k`, solving a level of `k` replaces the problem held by the same level of `h`. -/
theorem C67_copy_shares (ops : List (HqpOp P)) {s : HqpHeap P} (hr : HqpHeap.run ops = some s) {h k i : ℕ} {ls : List OwnLevel}
    (ho : s.objs h = some ls) (hk : s.objs k = none) (hi : i < ls.length) (p : P) :
    ∃ s', HqpHeap.run (ops ++ [.copy h k, .solve k i p]) = some s' ∧ problemOf s' h i = some p := by
  obtain ⟨s₁, h1, h2⟩ := heap_run_ok ops _ (heap_init_ok (P := P))
  obtain rfl : s = s₁ := Option.some.inj (hr.symm.trans h1)
  have hhk : h ≠ k := by rintro rfl; rw [ho] at hk; cases hk
  have hcp : s.step (.copy h k) = some { s with objs := Function.update s.objs k (some ls) } := by simp only [HqpHeap.step, ho, hk]
  obtain ⟨s₂, h3, h4, -⟩ := heap_step_ok h2 (.copy h k)
  rw [hcp] at h3
  obtain rfl := Option.some.inj h3
  have hn : solverOf { s with objs := Function.update s.objs k (some ls) } k i = some (ls[i]).solver := by
    simp [solverOf, List.getElem?_eq_getElem hi]
  obtain ⟨s', e1, e2, e3⟩ := solve_effect h4 hn p
  refine ⟨s', ?_, ?_⟩
  · rw [HqpHeap.run] at hr ⊢
    rw [List.foldlM_append, hr]
    show List.foldlM HqpHeap.step s [.copy h k, .solve k i p] = _
    rw [List.foldlM_cons, hcp]
    show List.foldlM HqpHeap.step { s with objs := Function.update s.objs k (some ls) } [.solve k i p] = _
    rw [List.foldlM_cons, e1]
    rfl
  · have : solverOf s' h i = some (ls[i]).solver := by
      simp only [solverOf, e2]
      rw [Function.update_of_ne hhk, ho]
      simp [List.getElem?_eq_getElem hi]
    simp [problemOf, this, e3]

/-! ## The hypotheses are met -/

/-- Two objects, three levels, one reallocation; a level of the first has been solved. -/
example : ∃ s : HqpHeap ℕ, HqpHeap.run [.make 0, .add 0 true, .add 0 true, .make 1, .add 1 false, .solve 0 1 7] = some s ∧
    (∃ ls, s.objs 0 = some ls ∧ ls.length = 2) ∧ s.objs 2 = none ∧ problemOf s 0 1 = some 7 ∧ problemOf s 1 0 = none :=
  ⟨_, rfl, ⟨_, rfl, rfl⟩, rfl, rfl, rfl⟩

end Verif.Props
