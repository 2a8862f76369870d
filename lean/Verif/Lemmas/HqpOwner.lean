import Verif.Spec.HqpOwner
import Mathlib.Data.Finset.Range
import Mathlib.Tactic.SplitIfs

/-! # Lemmas for C67 -/

namespace Verif
open Verif.Model Verif.Spec

variable {P : Type}

/-- every solver made is alive, every level refers to one of them, and no level ever deletes it -/
structure HeapOk (s : HqpHeap P) : Prop where
  live : s.live = Finset.range s.made
  lvl : ∀ h ls, s.objs h = some ls → ∀ l ∈ ls, l.solver < s.made ∧ l.solverInit = false

theorem destroyLevels_idle (ls : List OwnLevel) : ∀ (live : Finset ℕ), (∀ l ∈ ls, l.solverInit = false) → destroyLevels live ls = some live := by
  induction ls with
  | nil => intro live _; rfl
  | cons l ls ih =>
    intro live h
    have h1 : destroyLevel live l = some live := by rw [destroyLevel, if_neg]; simp [h l (by simp)]
    have := ih live fun l' h' => h l' (by simp [h'])
    rw [destroyLevels] at this ⊢
    rw [List.foldlM_cons, h1]
    exact this

theorem update_some {α : Type} {f : ℕ → Option α} {h k : ℕ} {v : Option α} {w : α} (e : Function.update f h v k = some w) :
    (k = h ∧ v = some w) ∨ (k ≠ h ∧ f k = some w) := by
  by_cases hk : k = h
  · subst hk
    rw [Function.update_self] at e
    exact .inl ⟨rfl, e⟩
  · rw [Function.update_of_ne hk] at e
    exact .inr ⟨hk, e⟩

theorem heap_step_ok {s : HqpHeap P} (hs : HeapOk s) (op : HqpOp P) : ∃ s', s.step op = some s' ∧ HeapOk s' ∧ s.made ≤ s'.made := by
  cases op with
  | make h =>
    simp only [HqpHeap.step]
    rcases ho : s.objs h with _ | ls
    · refine ⟨_, rfl, ⟨hs.live, fun k ls' hk => ?_⟩, le_rfl⟩
      rcases update_some hk with ⟨-, e⟩ | ⟨-, e⟩
      · obtain rfl := Option.some.inj e
        simp
      · exact hs.lvl k ls' e
    · exact ⟨s, rfl, hs, le_rfl⟩
  | add h realloc =>
    simp only [HqpHeap.step]
    rcases ho : s.objs h with _ | ls
    · exact ⟨s, rfl, hs, le_rfl⟩
    · simp only
      rw [destroyLevels_idle _ _ (by
        intro l hl
        rcases List.mem_append.mp hl with hl | hl
        · cases realloc
          · simp at hl
          · exact (hs.lvl h ls ho l (by simpa using hl)).2
        · obtain rfl := List.mem_singleton.mp hl
          rfl)]
      refine ⟨_, rfl, ⟨?_, fun k ls' hk => ?_⟩, Nat.le_succ _⟩
      · simp only [hs.live]
        exact Finset.range_add_one.symm
      · rcases update_some hk with ⟨-, e⟩ | ⟨-, e⟩
        · obtain rfl := Option.some.inj e
          intro l hl
          rcases List.mem_append.mp hl with hl | hl
          · exact ⟨Nat.lt_succ_of_lt (hs.lvl h ls ho l hl).1, (hs.lvl h ls ho l hl).2⟩
          · obtain rfl := List.mem_singleton.mp hl
            exact ⟨Nat.lt_succ_self _, rfl⟩
        · intro l hl
          exact ⟨Nat.lt_succ_of_lt (hs.lvl k ls' e l hl).1, (hs.lvl k ls' e l hl).2⟩
  | copy h k =>
    simp only [HqpHeap.step]
    rcases ho : s.objs h with _ | ls
    · exact ⟨s, rfl, hs, le_rfl⟩
    · rcases hk : s.objs k with _ | ls'
      · refine ⟨_, rfl, ⟨hs.live, fun j ls' hj => ?_⟩, le_rfl⟩
        rcases update_some hj with ⟨-, e⟩ | ⟨-, e⟩
        · obtain rfl := Option.some.inj e
          exact hs.lvl h ls ho
        · exact hs.lvl j ls' e
      · exact ⟨s, rfl, hs, le_rfl⟩
  | destroy h =>
    simp only [HqpHeap.step]
    rcases ho : s.objs h with _ | ls
    · exact ⟨s, rfl, hs, le_rfl⟩
    · simp only
      rw [destroyLevels_idle _ _ fun l hl => (hs.lvl h ls ho l hl).2]
      refine ⟨_, rfl, ⟨hs.live, fun j ls' hj => ?_⟩, le_rfl⟩
      rcases update_some hj with ⟨-, e⟩ | ⟨-, e⟩
      · cases e
      · exact hs.lvl j ls' e
  | solve h i p =>
    simp only [HqpHeap.step]
    rcases ho : s.objs h with _ | ls
    · exact ⟨s, rfl, hs, le_rfl⟩
    · simp only
      rcases hi : ls[i]? with _ | l
      · exact ⟨s, rfl, hs, le_rfl⟩
      · simp only
        have hl := hs.lvl h ls ho l (List.mem_of_getElem? hi)
        rw [if_pos (by rw [hs.live]; exact Finset.mem_range.mpr hl.1)]
        exact ⟨_, rfl, ⟨hs.live, hs.lvl⟩, le_rfl⟩

theorem heap_run_ok : ∀ (ops : List (HqpOp P)) (s : HqpHeap P), HeapOk s → ∃ s', ops.foldlM HqpHeap.step s = some s' ∧ HeapOk s' := by
  intro ops
  induction ops with
  | nil => intro s hs; exact ⟨s, rfl, hs⟩
  | cons op ops ih =>
    intro s hs
    obtain ⟨s', h1, h2, -⟩ := heap_step_ok hs op
    obtain ⟨s'', h3, h4⟩ := ih s' h2
    refine ⟨s'', ?_, h4⟩
    rw [List.foldlM_cons, h1]
    exact h3

theorem heap_init_ok : HeapOk (HqpHeap.init : HqpHeap P) := ⟨rfl, fun _ _ h => nomatch h⟩

theorem adds_from (h : ℕ) (bs : List Bool) : ∀ (s : HqpHeap P) (ls : List OwnLevel), HeapOk s → s.objs h = some ls →
    ∃ s' ls', (bs.map (HqpOp.add h)).foldlM HqpHeap.step s = some s' ∧ HeapOk s' ∧ s'.objs h = some ls' ∧ s'.made = s.made + bs.length ∧
      ∀ k, k ≠ h → s'.objs k = s.objs k := by
  induction bs with
  | nil => intro s ls hs ho; exact ⟨s, ls, rfl, hs, ho, rfl, fun _ _ => rfl⟩
  | cons b bs ih =>
    intro s ls hs ho
    obtain ⟨s₁, h1, h2, -⟩ := heap_step_ok hs (.add h b)
    have h3 := h1
    simp only [HqpHeap.step, ho] at h3
    rcases hd : destroyLevels (insert s.made s.live) ((if b then ls else []) ++ [{ solver := s.made, solverInit := false }]) with _ | live
    · rw [hd] at h3; cases h3
    · rw [hd] at h3
      obtain rfl := Option.some.inj h3
      obtain ⟨s', ls', e1, e2, e3, e4, e5⟩ := ih _ (ls ++ [{ solver := s.made, solverInit := false }]) h2 (by simp)
      refine ⟨s', ls', ?_, e2, e3, by rw [e4]; simp only [List.length_cons]; omega, fun k hk => by rw [e5 k hk]; simp [hk]⟩
      rw [List.map_cons, List.foldlM_cons, h1]
      exact e1

/-- different levels, of the same object or of two objects, have different solvers -/
def Private (s : HqpHeap P) : Prop := ∀ h i k j n, solverOf s h i = some n → solverOf s k j = some n → h = k ∧ i = j

def opCopies : HqpOp P → Bool
  | .copy _ _ => true
  | _ => false

theorem solverOf_lt {s : HqpHeap P} (hs : HeapOk s) {h i n : ℕ} (e : solverOf s h i = some n) : n < s.made := by
  simp only [solverOf, Option.bind_eq_some_iff, Option.map_eq_some_iff] at e
  obtain ⟨ls, h1, l, h2, rfl⟩ := e
  exact (hs.lvl h ls h1 l (List.mem_of_getElem? h2)).1

theorem heap_step_private {s s' : HqpHeap P} (hs : HeapOk s) (hp : Private s) {op : HqpOp P} (hc : opCopies op = false) (h : s.step op = some s') :
    Private s' := by
  cases op with
  | copy h k => cases hc
  | make o =>
    simp only [HqpHeap.step] at h
    rcases ho : s.objs o with _ | ls
    · rw [ho] at h
      obtain rfl := Option.some.inj h
      have key : ∀ a b n, solverOf { s with objs := Function.update s.objs o (some []) } a b = some n → solverOf s a b = some n := by
        intro a b n e
        by_cases ha : a = o
        · subst ha; simp [solverOf] at e
        · simpa [solverOf, ha] using e
      exact fun a i b j n h1 h2 => hp a i b j n (key _ _ _ h1) (key _ _ _ h2)
    · rw [ho] at h
      obtain rfl := Option.some.inj h
      exact hp
  | add o r =>
    simp only [HqpHeap.step] at h
    rcases ho : s.objs o with _ | ls
    · rw [ho] at h
      obtain rfl := Option.some.inj h
      exact hp
    · rw [ho] at h
      simp only at h
      rcases hd : destroyLevels (insert s.made s.live) ((if r then ls else []) ++ [{ solver := s.made, solverInit := false }]) with _ | live
      · rw [hd] at h; cases h
      · rw [hd] at h
        obtain rfl := Option.some.inj h
        have key : ∀ a b n, solverOf (HqpHeap.mk (s.made + 1) live s.holds
            (Function.update s.objs o (some (ls ++ [{ solver := s.made, solverInit := false }])))) a b = some n →
            solverOf s a b = some n ∨ (a = o ∧ b = ls.length ∧ n = s.made) := by
          intro a b n e
          by_cases ha : a = o
          · subst ha
            simp only [solverOf, Function.update_self, Option.bind_some] at e
            rcases Nat.lt_trichotomy b ls.length with hb | hb | hb
            · rw [List.getElem?_append_left hb] at e
              left
              simpa [solverOf, ho] using e
            · subst hb
              simp at e
              exact .inr ⟨rfl, rfl, e.symm⟩
            · rw [List.getElem?_eq_none (by simp; omega)] at e
              cases e
          · left
            simpa [solverOf, ha] using e
        intro a i b j n h1 h2
        rcases key _ _ _ h1 with e1 | ⟨a1, a2, a3⟩ <;> rcases key _ _ _ h2 with e2 | ⟨b1, b2, b3⟩
        · exact hp a i b j n e1 e2
        · exact absurd (solverOf_lt hs e1) (by omega)
        · exact absurd (solverOf_lt hs e2) (by omega)
        · exact ⟨a1.trans b1.symm, a2.trans b2.symm⟩
  | destroy o =>
    simp only [HqpHeap.step] at h
    rcases ho : s.objs o with _ | ls
    · rw [ho] at h
      obtain rfl := Option.some.inj h
      exact hp
    · rw [ho] at h
      simp only at h
      rcases hd : destroyLevels s.live ls with _ | live
      · rw [hd] at h; cases h
      · rw [hd] at h
        obtain rfl := Option.some.inj h
        have key : ∀ a b n, solverOf { s with live := live, objs := Function.update s.objs o none } a b = some n → solverOf s a b = some n := by
          intro a b n e
          by_cases ha : a = o
          · subst ha; simp [solverOf] at e
          · simpa [solverOf, ha] using e
        exact fun a i b j n h1 h2 => hp a i b j n (key _ _ _ h1) (key _ _ _ h2)
  | solve o i p =>
    simp only [HqpHeap.step] at h
    rcases ho : s.objs o with _ | ls
    · rw [ho] at h
      obtain rfl := Option.some.inj h
      exact hp
    · rw [ho] at h
      simp only at h
      rcases hi : ls[i]? with _ | l
      · rw [hi] at h
        obtain rfl := Option.some.inj h
        exact hp
      · rw [hi] at h
        simp only at h
        split_ifs at h
        obtain rfl := Option.some.inj h
        exact hp

theorem heap_run_private : ∀ (ops : List (HqpOp P)) (s s' : HqpHeap P), HeapOk s → Private s → (∀ op ∈ ops, opCopies op = false) →
    ops.foldlM HqpHeap.step s = some s' → Private s' := by
  intro ops
  induction ops with
  | nil => intro s s' _ hp _ h; obtain rfl := Option.some.inj h; exact hp
  | cons op ops ih =>
    intro s s' hs hp hc h
    obtain ⟨s₁, h1, h2, -⟩ := heap_step_ok hs op
    rw [List.foldlM_cons, h1] at h
    exact ih s₁ s' h2 (heap_step_private hs hp (hc op (by simp)) h1) (fun o ho => hc o (by simp [ho])) h

/-- what a solve does to the problems held -/
theorem solve_effect {s : HqpHeap P} (hs : HeapOk s) {h i n : ℕ} (hn : solverOf s h i = some n) (p : P) :
    ∃ s', s.step (.solve h i p) = some s' ∧ s'.objs = s.objs ∧ s'.holds = Function.update s.holds n (some p) := by
  have hlt := solverOf_lt hs hn
  simp only [solverOf, Option.bind_eq_some_iff, Option.map_eq_some_iff] at hn
  obtain ⟨ls, h1, l, h2, rfl⟩ := hn
  simp only [HqpHeap.step, h1, h2]
  rw [if_pos (by rw [hs.live]; exact Finset.mem_range.mpr hlt)]
  exact ⟨_, rfl, rfl, rfl⟩

end Verif
