import Verif.Model.TaskRegistry
import Verif.Lemmas.Registry

set_option linter.unusedSectionVars false

namespace Verif
open Verif.Model Verif.Spec Verif.Model.TaskReg

/-- all links of all tasks, in order -/
def allLinks (ts : List TaskRec) : List ℤ := ts.flatMap fun t => t.links.map TaskLinkRec.link

theorem mem_allLinks {ts : List TaskRec} {l : ℤ} :
    l ∈ allLinks ts ↔ ∃ t ∈ ts, ∃ k ∈ t.links, k.link = l := by
  simp [allLinks]

theorem hasLink_iff {s : TaskReg} {l : ℤ} : s.hasLink l = true ↔ l ∈ allLinks s.ts := by
  simp [hasLink, mem_allLinks]

theorem hasLink_false {s : TaskReg} {l : ℤ} : s.hasLink l = false ↔ l ∉ allLinks s.ts := by
  rw [← hasLink_iff]; simp

theorem linkIndex_some {s : TaskReg} {name : String} {k : ℕ} : s.linkIndex name = some k ↔ FirstNamed s.links name k := by
  have := @findIdx_some (s.links.map fun m => (m, 0)) name k
  rw [List.findIdx?_map] at this
  simpa [Function.comp_def, linkIndex, List.map_map] using this

theorem linkIndex_none {s : TaskReg} {name : String} :
    s.linkIndex name = none ↔ ∀ m ∈ s.links, ¬ SameName m name := by
  have := @findIdx_none (s.links.map fun m => (m, 0)) name
  rw [List.findIdx?_map] at this
  simpa [Function.comp_def, linkIndex, List.map_map] using this

/-- How the task list can change in one call that does not clear: nothing, a new last task, or a change of one task. -/
inductive Change (c : TaskCall) (s t : TaskReg) : Prop where
  | same (h : t = s)
  | custom (d : ℕ) (h : t = { s with ts := s.ts ++ [customTask s.ts.length d], qps := s.qps + 1 })
  | push (m l : ℤ) (p : Fin 3 → ℝ) (hl : l ∉ allLinks s.ts)
      (h : t = { s with ts := s.ts ++ [linkTask m s.ts.length l p], qps := s.qps + 1 })
  | link (i : ℕ) (x : TaskRec) (hi : s.ts[i]? = some x) (m l : ℤ) (p : Fin 3 → ℝ) (hl : l ∉ allLinks s.ts)
      (h : t = { s with ts := s.ts.set i (addLinkTo x m l p) })
  | target (i : ℕ) (x : TaskRec) (hi : s.ts[i]? = some x) (f : List ℝ) (J : DynMat)
      (hc : ∃ k : ℤ, c = .setTask k f J ∧ k.toNat = i)
      (h : t = { s with ts := s.ts.set i { x with fstar := some f, jtask := some J } })

theorem addLinkAt_change {c : TaskCall} {s t : TaskReg} {h m l : ℤ} {p : Fin 3 → ℝ} (e : s.addLinkAt h m l p = some t)
    (hl : l ∉ allLinks s.ts) : Change c s t := by
  unfold addLinkAt at e
  split at e
  · simp at e
  · split at e
    · simp at e
    · rename_i x hx
      simp at e
      exact .link _ x hx m l p hl e.symm

theorem call_change {s t : TaskReg} {c : TaskCall} (e : s.call c = some t) (hc : c ≠ .clear) : Change c s t := by
  cases c with
  | clear => exact absurd rfl hc
  | addDof h d =>
    simp [TaskReg.call, addDof] at e
    exact .custom d e.symm
  | addNumber h m l p =>
    simp only [TaskReg.call, addNumber, Option.some.injEq] at e
    split at e
    · exact .same e.symm
    · rename_i hl
      exact .push m l p (by rw [← hasLink_iff]; exact hl) e.symm
  | addName h m nm p =>
    simp only [TaskReg.call, addName] at e
    split at e
    · exact .same (by simpa using e.symm)
    · rename_i k hk
      split at e
      · exact .same (by simpa using e.symm)
      · rename_i hl
        have hl' : (k : ℤ) ∉ allLinks s.ts := by rw [← hasLink_iff]; exact hl
        split at e
        · rename_i hh
          subst hh
          exact .push m k p hl' (by simpa using e.symm)
        · split at e
          · exact addLinkAt_change e hl'
          · exact .same (by simpa using e.symm)
  | linkNumber h m l p =>
    simp only [TaskReg.call, addTaskLinkNumber] at e
    split at e
    · exact .same (by simpa using e.symm)
    · rename_i hl
      exact addLinkAt_change e (by rw [← hasLink_iff]; exact hl)
  | linkName h m nm p =>
    simp only [TaskReg.call, addTaskLinkName] at e
    split at e
    · exact .same (by simpa using e.symm)
    · split at e
      · exact .same (by simpa using e.symm)
      · rename_i hl
        exact addLinkAt_change e (by rw [← hasLink_iff]; exact hl)
  | setTask h f J =>
    simp only [TaskReg.call, setTaskSpace] at e
    split at e
    · simp at e
    · split at e
      · simp at e
      · rename_i x hx
        split at e
        · simp at e
        · simp at e
          exact .target _ x hx f J ⟨h, rfl, rfl⟩ e.symm

/-- sum of the dimensions of the links, when all are known -/
def linkDofs : List TaskLinkRec → Option ℕ
  | [] => some 0
  | l :: ls => (modeDof l.mode).bind fun a => (linkDofs ls).map fun b => a + b

theorem linkDofs_append (ls : List TaskLinkRec) (l : TaskLinkRec) :
    linkDofs (ls ++ [l]) = (linkDofs ls).bind fun a => (modeDof l.mode).map fun b => a + b := by
  induction ls with
  | nil => cases h : modeDof l.mode <;> simp [linkDofs, h]
  | cons k ks ih =>
    simp only [List.cons_append, linkDofs, ih]
    cases modeDof k.mode <;> cases linkDofs ks <;> cases modeDof l.mode <;> simp [Nat.add_assoc]

/-- the invariant of the task registry -/
structure TaskOk (s : TaskReg) : Prop where
  qps : s.qps = s.ts.length
  hier : ∀ (i : ℕ) (t : TaskRec), s.ts[i]? = some t → t.hier = i
  links : (allLinks s.ts).Nodup
  dof : ∀ t : TaskRec, t ∈ s.ts → t.custom = false → t.dof = linkDofs t.links

theorem allLinks_append (a b : List TaskRec) : allLinks (a ++ b) = allLinks a ++ allLinks b := by
  simp [allLinks]

theorem allLinks_set_perm {ts : List TaskRec} {i : ℕ} {x y : TaskRec} (hi : ts[i]? = some x) {extra : List ℤ}
    (hy : y.links.map TaskLinkRec.link = x.links.map TaskLinkRec.link ++ extra) :
    (allLinks (ts.set i y)).Perm (extra ++ allLinks ts) := by
  induction ts generalizing i with
  | nil => simp at hi
  | cons t ts ih =>
    cases i with
    | zero =>
      simp at hi; subst hi
      simp only [List.set_cons_zero, allLinks, List.flatMap_cons, hy]
      rw [← List.append_assoc]
      exact List.Perm.append_right _ List.perm_append_comm
    | succ i =>
      simp at hi
      simp only [List.set_cons_succ, allLinks, List.flatMap_cons] at ih ⊢
      have h1 := ih hi
      have h2 : (t.links.map TaskLinkRec.link ++ (ts.set i y).flatMap fun t => t.links.map TaskLinkRec.link).Perm
          (t.links.map TaskLinkRec.link ++ (extra ++ ts.flatMap fun t => t.links.map TaskLinkRec.link)) :=
        List.Perm.append_left _ h1
      refine h2.trans ?_
      rw [← List.append_assoc, ← List.append_assoc]
      exact List.Perm.append_right _ List.perm_append_comm

theorem change_ok {c : TaskCall} {s t : TaskReg} (ok : TaskOk s) (h : Change c s t) : TaskOk t := by
  cases h with
  | same h => subst h; exact ok
  | custom d h =>
    subst h
    refine ⟨by simp [ok.qps], ?_, ?_, ?_⟩
    · intro i x hx
      rw [List.getElem?_append] at hx
      split at hx
      · exact ok.hier i x hx
      · rename_i hi
        rw [List.getElem?_singleton] at hx
        split at hx
        · simp at hx; subst hx
          simp only [customTask]
          omega
        · simp at hx
    · rw [allLinks_append]; simpa [allLinks, customTask] using ok.links
    · intro x hx hcu
      rcases List.mem_append.mp hx with hx | hx
      · exact ok.dof x hx hcu
      · simp at hx; subst hx; simp [customTask] at hcu
  | push m l p hl h =>
    subst h
    refine ⟨by simp [ok.qps], ?_, ?_, ?_⟩
    · intro i x hx
      rw [List.getElem?_append] at hx
      split at hx
      · exact ok.hier i x hx
      · rename_i hi
        rw [List.getElem?_singleton] at hx
        split at hx
        · simp at hx; subst hx
          simp only [linkTask]
          omega
        · simp at hx
    · rw [allLinks_append, List.nodup_append]
      refine ⟨ok.links, by simp [allLinks, linkTask], ?_⟩
      intro a ha b hb e
      simp [allLinks, linkTask] at hb
      subst hb e
      exact hl ha
    · intro x hx hcu
      rcases List.mem_append.mp hx with hx | hx
      · exact ok.dof x hx hcu
      · simp at hx; subst hx
        cases hm : modeDof m <;> simp [linkTask, linkDofs, hm]
  | link i x hi m l p hl h =>
    subst h
    refine ⟨by simp [ok.qps], ?_, ?_, ?_⟩
    · intro j y hy
      rw [List.getElem?_set] at hy
      split at hy
      · rename_i hij
        subst hij
        split at hy
        · simp at hy; subst hy
          exact ok.hier i x hi
        · simp at hy
      · exact ok.hier j y hy
    · have hp := allLinks_set_perm (y := addLinkTo x m l p) hi (extra := [l]) (by simp [addLinkTo])
      rw [hp.nodup_iff]
      simpa using ⟨hl, ok.links⟩
    · intro y hy hcu
      rcases List.mem_or_eq_of_mem_set hy with hy | rfl
      · exact ok.dof y hy hcu
      · have hx := ok.dof x (List.mem_of_getElem? hi) hcu
        simp only [addLinkTo, hx, linkDofs_append]
  | target i x hi f J _ h =>
    subst h
    refine ⟨by simp [ok.qps], ?_, ?_, ?_⟩
    · intro j y hy
      rw [List.getElem?_set] at hy
      split at hy
      · rename_i hij
        subst hij
        split at hy
        · simp at hy; subst hy
          exact ok.hier i x hi
        · simp at hy
      · exact ok.hier j y hy
    · have hp := allLinks_set_perm (y := { x with fstar := some f, jtask := some J }) hi (extra := []) (by simp)
      rw [hp.nodup_iff]
      simpa using ok.links
    · intro y hy hcu
      rcases List.mem_or_eq_of_mem_set hy with hy | rfl
      · exact ok.dof y hy hcu
      · exact ok.dof x (List.mem_of_getElem? hi) hcu

theorem taskCall_ok {s t : TaskReg} {c : TaskCall} (ok : TaskOk s) (e : s.call c = some t) : TaskOk t := by
  by_cases hc : c = .clear
  · subst hc
    simp [TaskReg.call, TaskReg.clear] at e
    subst e
    exact ⟨rfl, by simp, by simp [allLinks], by simp⟩
  · exact change_ok ok (call_change e hc)

theorem taskCalls_ok : ∀ {h : List TaskCall} {s t : TaskReg}, TaskOk s → s.calls h = some t → TaskOk t
  | [], s, t, ok, e => by simp [TaskReg.calls] at e; subst e; exact ok
  | c :: cs, s, t, ok, e => by
    unfold TaskReg.calls at e
    split at e
    · simp at e
    · rename_i s' hs
      exact taskCalls_ok (taskCall_ok ok hs) e

theorem loaded_ok (links : List String) : TaskOk (TaskReg.loaded links) :=
  ⟨rfl, by simp [TaskReg.loaded], by simp [TaskReg.loaded, allLinks], by simp [TaskReg.loaded]⟩

/-- `b` is `a` with possibly more links at the end and a new target -/
def Extends (a b : TaskRec) : Prop := a.hier = b.hier ∧ a.custom = b.custom ∧ a.links <+: b.links

theorem Extends.refl (a : TaskRec) : Extends a a := ⟨rfl, rfl, List.prefix_rfl⟩

theorem change_extends {c : TaskCall} {s t : TaskReg} (h : Change c s t) :
    ∀ (i : ℕ) (x : TaskRec), s.ts[i]? = some x → ∃ y, t.ts[i]? = some y ∧ Extends x y := by
  intro i x hx
  have hlt := (List.getElem?_eq_some_iff.mp hx).1
  cases h with
  | same h => subst h; exact ⟨x, hx, .refl x⟩
  | custom d h => subst h; exact ⟨x, by simp [List.getElem?_append_left hlt, hx], .refl x⟩
  | push m l p hl h => subst h; exact ⟨x, by simp [List.getElem?_append_left hlt, hx], .refl x⟩
  | link j y hj m l p hl h =>
    subst h
    by_cases hij : j = i
    · subst hij
      rw [hx] at hj; obtain rfl := Option.some.inj hj
      exact ⟨addLinkTo x m l p, by simp [hlt], rfl, rfl, by simp [addLinkTo]⟩
    · exact ⟨x, by simp [List.getElem?_set, hij, hx], .refl x⟩
  | target j y hj f J _ h =>
    subst h
    by_cases hij : j = i
    · subst hij
      rw [hx] at hj; obtain rfl := Option.some.inj hj
      exact ⟨{ x with fstar := some f, jtask := some J }, by simp [hlt], rfl, rfl, List.prefix_rfl⟩
    · exact ⟨x, by simp [List.getElem?_set, hij, hx], .refl x⟩

end Verif
