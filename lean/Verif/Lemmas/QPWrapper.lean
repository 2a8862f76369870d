import Verif.Model.QPWrapper

set_option linter.unusedSectionVars false

namespace Verif.Lemmas.QPWrapper
open Verif Verif.Model Verif.Spec Verif.Model.QPObj

variable {Q : Oases}

/-- the members hold the problem stated so far -/
structure Holds (s : QPObj Q) (d : QPData) : Prop where
  H : s.H = d.H
  g : s.g = d.g
  ub : s.axUb = some false
  rows : (s.ax = some false ∧ d.rows = none) ∨ (s.ax = some true ∧ d.rows = some (s.A, s.lbA, s.ubA))
  box : (s.bx = some false ∧ d.box = none) ∨ (s.bx = some true ∧ d.box = some (s.lb, s.ub))

theorem gather_holds {s : QPObj Q} {d e : QPData} (h : Holds s d) (hg : s.gather = some e) : e = d := by
  unfold gather at hg
  split at hg
  · split at hg
    · rename_i r b hr hb
      simp only [Option.some.injEq] at hg
      subst hg
      obtain ⟨H, g, rows, box⟩ := d
      have e1 : r = rows := by
        unfold gatherRows at hr
        rcases h.rows with ⟨a, k⟩ | ⟨a, k⟩
        · rw [a] at hr; simp only [Option.some.injEq] at hr k
          rw [← hr]; exact k.symm
        · rw [a, h.ub] at hr
          simp only at hr k
          split at hr
          · simp only [Option.some.injEq] at hr
            rw [← hr]; exact k.symm
          · simp at hr
      have e2 : b = box := by
        unfold gatherBox at hb
        rcases h.box with ⟨a, k⟩ | ⟨a, k⟩
        · rw [a] at hb; simp only [Option.some.injEq] at hb k
          rw [← hb]; exact k.symm
        · rw [a] at hb
          simp only at hb k
          split at hb
          · simp only [Option.some.injEq] at hb
            rw [← hb]; exact k.symm
          · simp at hb
      have e3 := h.H
      have e4 := h.g
      simp only at e3 e4
      rw [e1, e2, e3, e4]
    · simp at hg
  · simp at hg

theorem call_holds {s t : QPObj Q} {d : QPData} {c : QPCall} (h : Holds s d) (hc : ∀ A u, c ≠ .axUb A u)
    (e : s.call c = some t) : Holds t (stated d c.statement) := by
  cases c with
  | size nv nc =>
    simp [QPObj.call, initializeProblemSize] at e; subst e
    exact ⟨rfl, rfl, rfl, .inl ⟨rfl, rfl⟩, .inl ⟨rfl, rfl⟩⟩
  | min H g =>
    simp [QPObj.call, updateMinProblem] at e; subst e
    exact ⟨rfl, rfl, h.ub, h.rows, h.box⟩
  | axUb A u => exact absurd rfl (hc A u)
  | ax A l u =>
    simp [QPObj.call, updateSubjectToAx] at e; subst e
    exact ⟨h.H, h.g, h.ub, .inr ⟨rfl, rfl⟩, h.box⟩
  | x l u =>
    simp [QPObj.call, updateSubjectToX] at e; subst e
    exact ⟨h.H, h.g, h.ub, h.rows, .inr ⟨rfl, rfl⟩⟩
  | deleteAx =>
    simp [QPObj.call, deleteSubjectToAx] at e; subst e
    exact ⟨h.H, h.g, h.ub, .inl ⟨rfl, rfl⟩, h.box⟩
  | deleteX =>
    simp [QPObj.call, deleteSubjectToX] at e; subst e
    exact ⟨h.H, h.g, h.ub, h.rows, .inl ⟨rfl, rfl⟩⟩
  | solve k m =>
    simp only [QPObj.call, QPObj.solve] at e
    cases hg : s.gather with
    | none => rw [hg] at e; simp at e
    | some d' =>
      rw [hg] at e; simp at e; subst e
      exact ⟨h.H, h.g, h.ub, h.rows, h.box⟩

theorem stated_append (d : QPData) (a b : List Statement) : stated d (a ++ b) = stated (stated d a) b := by
  induction a generalizing d with
  | nil => rfl
  | cons x a ih => cases x <;> exact ih _

theorem calls_holds : ∀ (h : List QPCall) {s t : QPObj Q} {d : QPData}, Holds s d → (∀ A u, QPCall.axUb A u ∉ h) →
    s.calls h = some t → Holds t (stated d (h.flatMap QPCall.statement))
  | [], s, t, d, hs, _, e => by simp [QPObj.calls] at e; subst e; exact hs
  | c :: cs, s, t, d, hs, hc, e => by
    unfold QPObj.calls at e
    split at e
    · simp at e
    · rename_i s' he
      rw [List.flatMap_cons, stated_append]
      exact calls_holds cs (call_holds hs (fun A u k => hc A u (by simp [k])) he) (fun A u k => hc A u (by simp [k])) e

theorem calls_append (s : QPObj Q) (a b : List QPCall) :
    s.calls (a ++ b) = (s.calls a).bind fun t => t.calls b := by
  induction a generalizing s with
  | nil => rfl
  | cons c cs ih =>
    simp only [List.cons_append, QPObj.calls]
    cases s.call c with
    | none => rfl
    | some s' => exact ih s'

theorem solve_sound (hQ : Q.Sound) {s t : QPObj Q} {d : QPData} {k : ℤ} {m : Bool} {x : List ℝ} (hg : ∀ e, s.gather = some e → e = d)
    (e : s.solve k m = some (t, true, some x)) : d.IsSolution x := by
  unfold QPObj.solve at e
  split at e
  · simp at e
  · rename_i d' hd
    obtain rfl := hg d' hd
    simp only [Option.some.injEq, Prod.mk.injEq, Bool.and_eq_true] at e
    obtain ⟨-, ⟨hok, -⟩, hx⟩ := e
    unfold retry at hok hx
    split at hok
    · rename_i hr
      rw [if_pos hr] at hx
      unfold start at hr hx
      split at hr
      · rename_i hi
        rw [if_pos hi] at hx
        exact hQ.hotstart _ _ _ _ hr x hx
      · rename_i hi
        rw [if_neg hi] at hx
        exact hQ.init _ _ _ _ hr x hx
    · rename_i hr
      rw [if_neg hr] at hx
      exact hQ.init _ _ _ _ hok x hx

theorem solve_none {s : QPObj Q} (h : s.gatherRows = none) (k : ℤ) (m : Bool) : s.solve k m = none := by
  have hg : s.gather = none := by
    unfold gather
    rw [h]
    split <;> rfl
  unfold QPObj.solve
  rw [hg]

end Verif.Lemmas.QPWrapper
