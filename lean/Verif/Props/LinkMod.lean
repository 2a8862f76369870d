import Verif.Lemmas.LinkMod
import Mathlib.Tactic.NormNum
import Mathlib.Tactic.IntervalCases

/-!
# C36, C37, C38: modifying the model
-/

namespace Verif.Props
open Verif Verif.Spec Verif.Model

variable {J : Type*} {r r' : ModRobot J} {d : ℕ} {ld : MLink} {name : String}

theorem deleteLink_at (hf : r.find name = some d) : deleteLink r name = deleteAt r.links.length r d := by
  unfold deleteLink; rw [hf]

open Classical in
/-- C36, the link table.  Deleting a link leaves a well formed table which, read through its own (new) numbers, is exactly the
tree without the subtree of the deleted link; the joint records left are those of the links left, in the same places. -/
theorem C36_tree (ht : TableOk r.links) (hf : r.find name = some d) (hd : r.links[d]? = some ld)
    (h : deleteLink r name = some r') :
    TableOk r'.links ∧ namedTree r'.links = prune (namedTree r.links) ld.name ∧
      (r'.links.map (·.name)).zip r'.joints =
        ((r.links.map (·.name)).zip r.joints).filter fun e => ¬ InSubtree (namedTree r.links) ld.name e.1 := by
  rw [deleteLink_at hf] at h
  obtain ⟨h1, h2, -, -, -, h6⟩ := deleteAt_spec _ _ _ _ _ ht hd h
  exact ⟨h1, h2, h6⟩

/-- C36, the dynamics model.  Deleting keeps the link table and the RBDL model in step. -/
theorem C36_rbdl (ht : TableOk r.links) (hs : InSync r) (h : deleteLink r name = some r') : InSync r' :=
  (deleteLink_ok ht hs h).2

/-- C36, what holds for tasks and contacts: if no task refers to the deleted link or a link numbered after it, deleting is
defined, no task or contact record changes, and the numbers below that of the deleted link still mean the same links. -/
theorem C36_references_partial (ht : TableOk r.links) (hs : InSync r) (hj : r.joints.length = r.links.length)
    (hf : r.find name = some d) (hd : r.links[d]? = some ld) (hts : ∀ t ∈ r.ts, ∀ k ∈ t.links, k < d) :
    ∃ r', deleteLink r name = some r' ∧ r'.ts = r.ts ∧ r'.cc = r.cc ∧ ∀ k < d, nameAt r'.links k = nameAt r.links k := by
  obtain ⟨r', h1, h2, -, -⟩ := deleteAt_defined r.links.length r d ld ht hs hd hj hts (by omega)
  obtain ⟨-, -, h5, h6, -⟩ := deleteAt_spec _ _ _ _ _ ht hd h1
  exact ⟨r', by rw [deleteLink_at hf]; exact h1, h2, h6, h5⟩

theorem deleteLink_leaf (hf : r.find name = some d) (hd : r.links[d]? = some ld) (hleaf : ld.children = []) :
    deleteLink r name = deleteOne r d := by
  rw [deleteLink_at hf]
  obtain ⟨k, hk⟩ : ∃ k, r.links.length = k + 1 := ⟨r.links.length - 1, by
    have := (List.getElem?_eq_some_iff.mp hd).1; omega⟩
  rw [hk]
  simp only [deleteAt, hd, hleaf]

/-- C36, negation.  Delete a link without children.  A contact on a link numbered after it keeps its number, which now means
the next link (or none); so does every task if none was on the deleted link. -/
theorem C36_references_shift (ht : TableOk r.links) (hf : r.find name = some d) (hd : r.links[d]? = some ld)
    (hleaf : ld.children = []) (h : deleteLink r name = some r') :
    r'.cc = r.cc ∧ ((∀ t ∈ r.ts, ∀ k ∈ t.links, k ≠ d) → r'.ts = r.ts) ∧
      ∀ k, d < k → k < r.links.length → nameAt r'.links k = nameAt r.links (k + 1) ∧ nameAt r'.links k ≠ nameAt r.links k := by
  rw [deleteLink_leaf hf hd hleaf] at h
  obtain ⟨hl, -, hc⟩ := deleteOne_leaf hd h
  refine ⟨hc, fun hn => ?_, fun k hk hkl => ?_⟩
  · unfold deleteOne at h
    rw [hd] at h
    simp only at h
    split at h
    · cases h
    rename_i r1 hr1
    have hr1ts : r1.ts = r.ts := by
      unfold eraseBody at hr1
      split at hr1
      · cases hr1
      split at hr1
      · cases hr1
      cases hr1
      rfl
    unfold initAfterDelete at h
    split at h
    · cases h
    split_ifs at h
    rw [deleteTasks_none (by simpa [hr1ts] using hn)] at h
    cases h
    exact hr1ts
  · have e : nameAt r'.links k = nameAt r.links (k + 1) := by
      rw [hl, nameAt_linksAfter ht hd hleaf]
      unfold raise
      rw [if_neg (by omega)]
    refine ⟨e, ?_⟩
    rw [e]
    have hk' := List.getElem?_eq_getElem hkl
    have : nameAt r.links k = some r.links[k].name := by unfold nameAt; rw [hk']; rfl
    rw [this]
    intro h
    have := (nameAt_eq_some ht hk' (k + 1)).mp h
    omega

theorem taskScan_last (d : ℕ) (fuel : ℕ) : ∀ (ts : List MTask) (i j : ℕ) (t : MTask) (dl : Option ℕ),
    ts[ts.length - 1]? = some t → d ∈ t.links → (∀ m u, m + 1 < ts.length → ts[m]? = some u → d ∉ u.links) →
    i < ts.length → (i + 1 = ts.length → d ∉ t.links.take j) → taskScan d fuel ts i j dl = none := by
  induction fuel with
  | zero => intros; rfl
  | succ fuel ih =>
    intro ts i j t dl ht hd hn hi hj
    unfold taskScan
    rw [List.getElem?_eq_getElem hi]
    simp only
    by_cases hlast : i + 1 = ts.length
    · have e : ts[i] = t := by
        have : i = ts.length - 1 := by omega
        subst this
        rw [List.getElem?_eq_getElem hi] at ht
        exact Option.some.inj ht
      rw [e]
      cases hk : t.links[j]? with
      | none =>
        exfalso
        rw [List.take_of_length_le (List.getElem?_eq_none_iff.mp hk)] at hj
        exact hj hlast hd
      | some k =>
        simp only
        split_ifs with hkd
        · cases fuel with
          | zero => rfl
          | succ fuel =>
            unfold taskScan
            rw [List.getElem?_eq_none (by rw [List.length_eraseIdx, if_pos hi]; omega)]
            simp
        · refine ih ts i (j + 1) t dl ht hd hn hi fun _ => ?_
          rw [List.take_add_one, hk]
          simp only [Option.toList_some, List.mem_append, List.mem_singleton, not_or]
          exact ⟨hj hlast, fun h => hkd h.symm⟩
    · have hnot : d ∉ ts[i].links := hn i _ (by omega) (List.getElem?_eq_getElem hi)
      cases hk : ts[i].links[j]? with
      | none => exact ih ts (i + 1) 0 t dl ht hd hn (by omega) (fun _ => by simp)
      | some k =>
        simp only
        rw [if_neg (fun h : k = d => hnot (h ▸ List.mem_of_getElem? hk))]
        exact ih ts i (j + 1) t dl ht hd hn hi (fun h => absurd h hlast)

/-- C36, negation.  If the last task, and only it, is on the deleted link (in particular if it is the only task), deleting
runs behind the end of the task table. -/
theorem C36_last_task_undefined {t : MTask} (hf : r.find name = some d) (hd : r.links[d]? = some ld)
    (hleaf : ld.children = []) (ht : r.ts[r.ts.length - 1]? = some t) (htd : d ∈ t.links)
    (hn : ∀ m u, m + 1 < r.ts.length → r.ts[m]? = some u → d ∉ u.links) : deleteLink r name = none := by
  rw [deleteLink_leaf hf hd hleaf]
  unfold deleteOne
  rw [hd]
  simp only
  cases h1 : eraseBody r ld.name with
  | none => rfl
  | some r1 =>
    have hr1 : r1.ts = r.ts := by
      unfold eraseBody at h1
      split at h1
      · cases h1
      split at h1
      · cases h1
      cases h1
      rfl
    simp only
    unfold initAfterDelete
    split
    · rfl
    split_ifs
    · unfold deleteTasks
      simp only [hr1]
      rw [taskScan_last d _ r.ts 0 0 t none ht htd hn]
      · have := (List.getElem?_eq_some_iff.mp ht).1
        omega
      · simp
    · rfl

/-- Rounds `taskScan` needs from task `i`, task link `j`. -/
def scanNeed : List MTask → ℕ → ℕ
  | [], _ => 1
  | t :: ts, j => (t.links.length - j) + 1 + (ts.map fun u => u.links.length + 1).sum + 1

theorem scanNeed_zero (ts : List MTask) : scanNeed ts 0 = (ts.map fun u => u.links.length + 1).sum + 1 := by
  cases ts with
  | nil => rfl
  | cons t ts => simp only [scanNeed, List.map_cons, List.sum_cons]; omega

theorem taskScan_skip (d : ℕ) (fuel : ℕ) : ∀ (ts : List MTask) (i j : ℕ) (dl : Option ℕ), (∀ t ∈ ts, d ∉ t.links) →
    (i < ts.length ∨ j = 0) → scanNeed (ts.drop i) j ≤ fuel → taskScan d fuel ts i j dl = some (ts, dl) := by
  induction fuel with
  | zero =>
    intro ts i j dl _ _ hf
    exfalso
    cases h : ts.drop i <;> rw [h] at hf <;> simp [scanNeed] at hf
  | succ fuel ih =>
    intro ts i j dl hn hij hf
    unfold taskScan
    by_cases hi : i < ts.length
    · rw [List.getElem?_eq_getElem hi]
      simp only
      rw [← List.getElem_cons_drop hi] at hf
      simp only [scanNeed] at hf
      by_cases hjj : j < ts[i].links.length
      · rw [List.getElem?_eq_getElem hjj]
        simp only
        rw [if_neg (fun h : ts[i].links[j] = d => hn _ (List.getElem_mem hi) (h ▸ List.getElem_mem hjj))]
        refine ih ts i (j + 1) dl hn (.inl hi) ?_
        rw [← List.getElem_cons_drop hi]
        simp only [scanNeed]
        omega
      · rw [List.getElem?_eq_none (by omega)]
        refine ih ts (i + 1) 0 dl hn (.inr rfl) ?_
        rw [scanNeed_zero]
        omega
    · rw [List.getElem?_eq_none (by omega)]
      simp only
      rw [if_pos (hij.resolve_left hi)]

theorem taskScan_one (d : ℕ) (fuel : ℕ) : ∀ (ts : List MTask) (m i j : ℕ) (t : MTask), ts[m]? = some t → m + 1 < ts.length →
    (∀ k u, k ≠ m → ts[k]? = some u → d ∉ u.links) → i ≤ m → d ∈ t.links → (i = m → d ∉ t.links.take j) →
    scanNeed (ts.drop i) j ≤ fuel → taskScan d fuel ts i j none = some (ts.eraseIdx m, some m) := by
  induction fuel with
  | zero =>
    intro ts m i j t _ _ _ _ _ _ hf
    exfalso
    cases h : ts.drop i <;> rw [h] at hf <;> simp [scanNeed] at hf
  | succ fuel ih =>
    intro ts m i j t ht hm hn hi hd hj hf
    unfold taskScan
    have hil : i < ts.length := by omega
    rw [List.getElem?_eq_getElem hil]
    simp only
    have hdrop := (List.getElem_cons_drop hil).symm
    rw [hdrop] at hf
    simp only [scanNeed] at hf
    by_cases him : i = m
    · subst him
      have e : ts[i] = t := by
        rw [List.getElem?_eq_getElem hil] at ht
        exact Option.some.inj ht
      rw [e] at hf ⊢
      cases hk : t.links[j]? with
      | none =>
        exfalso
        rw [List.take_of_length_le (List.getElem?_eq_none_iff.mp hk)] at hj
        exact hj rfl hd
      | some k =>
        have hjl := (List.getElem?_eq_some_iff.mp hk).1
        simp only
        split_ifs with hkd
        · refine taskScan_skip d fuel _ i (j + 1) _ ?_ (.inl ?_) ?_
          · intro u hu
            obtain ⟨k', hk'⟩ := List.mem_iff_getElem?.mp hu
            rw [getElem?_eraseIdx_raise] at hk'
            exact hn _ u (raise_ne i k') hk'
          · rw [List.length_eraseIdx, if_pos hil]; omega
          · have hdr : (ts.eraseIdx i).drop i = ts.drop (i + 1) := by
              refine List.ext_getElem? fun k' => ?_
              rw [List.getElem?_drop, List.getElem?_drop, getElem?_eraseIdx_raise]
              unfold raise
              rw [if_neg (by omega)]
              congr 1
              omega
            rw [hdr]
            cases hc : ts.drop (i + 1) with
            | nil =>
              have := congrArg List.length hc
              simp at this
              omega
            | cons u us =>
              rw [hc] at hf
              simp only [List.map_cons, List.sum_cons] at hf
              simp only [scanNeed]
              omega
        · refine ih ts i i (j + 1) t ht hm hn le_rfl hd (fun _ => ?_) ?_
          · rw [List.take_add_one, hk]
            simp only [Option.toList_some, List.mem_append, List.mem_singleton, not_or]
            exact ⟨hj rfl, fun h => hkd h.symm⟩
          · rw [hdrop, e]
            simp only [scanNeed]
            omega
    · have hnot : d ∉ ts[i].links := hn i _ him (List.getElem?_eq_getElem hil)
      cases hk : ts[i].links[j]? with
      | none =>
        refine ih ts m (i + 1) 0 t ht hm hn (by omega) hd (fun _ => by simp) ?_
        rw [scanNeed_zero]
        omega
      | some k =>
        have hjl := (List.getElem?_eq_some_iff.mp hk).1
        simp only
        rw [if_neg (fun h : k = d => hnot (h ▸ List.mem_of_getElem? hk))]
        refine ih ts m i (j + 1) t ht hm hn hi hd (fun h => absurd h him) ?_
        rw [hdrop]
        simp only [scanNeed]
        omega

/-- C36, what holds for tasks if exactly one task, not the last, is on the deleted link (which has no children): that task
goes with its QP solver, the tasks behind it move up one place and one level, and every task left refers to the same links
as before. -/
theorem C36_task_removed_partial {i : ℕ} {t : MTask} (hok : TableOk r.links) (hs : InSync r)
    (hj : r.joints.length = r.links.length) (hf : r.find name = some d) (hd : r.links[d]? = some ld)
    (hleaf : ld.children = []) (ht : r.ts[i]? = some t) (htd : d ∈ t.links) (hi : i + 1 < r.ts.length)
    (hq : r.qpTasks = r.ts.length) (hn : ∀ k u, k ≠ i → r.ts[k]? = some u → d ∉ u.links) :
    ∃ r', deleteLink r name = some r' ∧ r'.ts.length + 1 = r.ts.length ∧ r'.qpTasks = r'.ts.length ∧
      ∀ k u, k ≠ i → r.ts[k]? = some u → ∃ u', r'.ts[if i < k then k - 1 else k]? = some u' ∧
        u'.level = (if i < u.level then u.level - 1 else u.level) ∧
        u'.links.map (nameAt r'.links) = u.links.map (nameAt r.links) := by
  have hdl := (List.getElem?_eq_some_iff.mp hd).1
  obtain ⟨b, hb, -⟩ := hs.body d ld hd
  have hsum : ∀ ts : List MTask, (ts.map fun t => t.links.length + 1).sum = ts.length + (ts.map fun t => t.links.length).sum := by
    intro ts
    induction ts with
    | nil => rfl
    | cons t ts ih => simp only [List.map_cons, List.sum_cons, ih, List.length_cons]; omega
  have hscan := taskScan_one d (2 * r.ts.length + (r.ts.map fun t => t.links.length).sum + 1) r.ts i 0 0 t ht hi hn
    (Nat.zero_le _) htd (fun _ => by simp) (by rw [List.drop_zero, scanNeed_zero, hsum]; omega)
  have hdef : ∃ r', deleteOne r d = some r' ∧ r'.qpTasks = r.qpTasks - 1 ∧
      r'.ts = (r.ts.eraseIdx i).map fun t => { level := lower i t.level, links := t.links.map (lower d) } := by
    unfold deleteOne eraseBody initAfterDelete
    simp only [hd, hs.name ld (List.mem_of_getElem? hd), hb]
    rw [if_pos (by omega)]
    unfold deleteTasks
    simp only [hscan]
    rw [if_pos (by omega)]
    exact ⟨_, rfl, rfl, rfl⟩
  obtain ⟨r', h, hqp, hts⟩ := hdef
  obtain ⟨hl, -, -⟩ := deleteOne_leaf hd h
  have hlen : r'.ts.length + 1 = r.ts.length := by
    rw [hts, List.length_map, List.length_eraseIdx, if_pos (by omega)]; omega
  refine ⟨r', by rw [deleteLink_leaf hf hd hleaf]; exact h, hlen, by omega, ?_⟩
  intro k u hk hu
  refine ⟨{ level := lower i u.level, links := u.links.map (lower d) }, ?_, rfl, ?_⟩
  · rw [show (if i < k then k - 1 else k) = lower i k from rfl, hts, List.getElem?_map, getElem?_eraseIdx_raise,
      raise_lower hk, hu]
    rfl
  · rw [List.map_map]
    refine List.map_congr_left fun a ha => ?_
    have hne : a ≠ d := fun h => hn k u hk hu (h ▸ ha)
    simp only [Function.comp]
    rw [hl, nameAt_linksAfter hok hd hleaf, raise_lower hne]

/-- C36, negation.  The RBDL name of every body attached by a fixed joint leads to another body id after any deletion,
although the fixed bodies keep their places. -/
theorem C36_fixed_names_shift (hd : r.links[d]? = some ld) {m k : ℕ} {x : String} (hm : r.bodyIdOf ld.name = some m)
    (hmov : m < fixedDiscriminator) (hx : x ≠ ld.name) (hk : r.bodyIdOf x = some (fixedDiscriminator + k))
    (h : deleteOne r d = some r') :
    r'.bodyIdOf x = some (fixedDiscriminator + k - 1) ∧ r'.fixedParents.length = r.fixedParents.length := by
  obtain ⟨ld', m', b, hld, hm', -, -, -, -, -, -, -, hnam, -, hfix⟩ := deleteOne_some h
  rw [hd] at hld
  cases hld
  rw [hm] at hm'
  cases hm'
  refine ⟨?_, by rw [hfix, List.length_map]⟩
  have := bodyIdOf_after hnam hx hk
  rw [show lower m (fixedDiscriminator + k) = fixedDiscriminator + k - 1 by unfold lower; rw [if_pos (by omega)]] at this
  exact this

/-- C36 with C37.  Every history of deletions, conversions to fixed joints, changes of inertia and added links (fixed or
revolute, the latter with a name) keeps the link table well formed and in step with the RBDL model. -/
theorem C36_history {ops : List ModOp} (ht : TableOk r.links) (hs : InSync r) (ho : ∀ op ∈ ops, Ordinary op)
    (h : r.run ops = some r') : TableOk r'.links ∧ InSync r' :=
  ⟨(run_ok ht hs ho h).1, (run_ok ht hs ho h).2.1⟩

theorem dofs_modify (bodies : List RbdlBody) (i : ℕ) (f : RbdlBody → RbdlBody) (hf : ∀ b, (f b).dof = b.dof) :
    (bodies.modify i f).map (·.dof) = bodies.map (·.dof) := by
  refine List.ext_getElem? fun k => ?_
  rw [List.getElem?_map, List.getElem?_modify, List.getElem?_map]
  cases bodies[k]? with
  | none => simp
  | some b => simp only [Option.map_some, Option.map_eq_map]; split_ifs <;> simp [hf]

theorem dofs_pushBody (bodies : List RbdlBody) (p : ℕ) (m : ℝ) :
    ((pushBody bodies p m).map (·.dof)).sum = (bodies.map (·.dof)).sum + 1 := by
  unfold pushBody
  rw [List.map_append, dofs_modify bodies p (fun b => { b with mu := b.mu ++ [bodies.length] }) (fun _ => rfl)]
  simp

theorem dofs_set {bodies : List RbdlBody} {i : ℕ} {b : RbdlBody} (hb : bodies[i]? = some b) (m : ℝ) :
    (bodies.set i { b with mass := m }).map (·.dof) = bodies.map (·.dof) := by
  refine List.ext_getElem? fun k => ?_
  rw [List.getElem?_map, List.getElem?_set, List.getElem?_map]
  split_ifs with h1 h2
  · subst h1; rw [hb]; rfl
  · rw [List.getElem?_eq_none (by omega)]
  · rfl

theorem sum_eraseIdx_nat (l : List ℕ) (d x : ℕ) (h : l[d]? = some x) : (l.eraseIdx d).sum + x = l.sum := by
  induction l generalizing d with
  | nil => simp at h
  | cons a l ih =>
    cases d with
    | zero => simp at h; subst h; simp [add_comm]
    | succ d =>
      simp at h
      have := ih d h
      simp only [List.eraseIdx_cons_succ, List.sum_cons]
      omega

/-- The number of degrees of freedom is that of the joints of all bodies. -/
def DofOk (r : ModRobot J) : Prop := r.dofCount = (r.bodies.map (·.dof)).sum

theorem dofOk_deleteAt (fuel : ℕ) : ∀ (r r' : ModRobot J) (d : ℕ), DofOk r → deleteAt fuel r d = some r' → DofOk r' := by
  induction fuel with
  | zero => intro r r' d _ h; cases h
  | succ fuel ih =>
    intro r r' d ho h
    unfold deleteAt at h
    split at h
    · cases h
    split at h
    · obtain ⟨ld, m, b, -, -, hb, -, -, -, -, -, hbod, -, hdof, -⟩ := deleteOne_some h
      unfold DofOk at ho ⊢
      rw [hdof, hbod, ho]
      have e : ((((r.bodies.modify b.lambda fun p => { p with mu := p.mu.erase m }).map fun p : RbdlBody =>
          { p with lambda := lower m p.lambda, mu := p.mu.map (lower m) }).eraseIdx m).map (·.dof)) =
          (r.bodies.map (·.dof)).eraseIdx m := by
        rw [List.eraseIdx_map, List.map_map, ← List.eraseIdx_map]
        congr 1
        exact dofs_modify _ _ (fun p => { p with mu := p.mu.erase m }) (fun _ => rfl)
      rw [e]
      have := sum_eraseIdx_nat (r.bodies.map (·.dof)) m b.dof (by rw [List.getElem?_map, hb]; rfl)
      omega
    · split at h
      · cases h
      rename_i r1 hr1
      exact ih _ _ _ (ih _ _ _ ho hr1) h

theorem dofOk_deleteLink (ho : DofOk r) (h : deleteLink r name = some r') : DofOk r' := by
  unfold deleteLink at h
  split at h
  · cases h; exact ho
  · exact dofOk_deleteAt _ _ _ _ ho h

theorem dofOk_addLinkAt {p : ℕ} {kind : JointKind} {m : ℝ} (ho : DofOk r) (h : addLinkAt r p name kind m = some r') :
    DofOk r' := by
  unfold DofOk at ho ⊢
  unfold addLinkAt at h
  split at h
  · cases h
  split at h
  · cases h
  rename_i b hb
  split at h
  · split at h
    · cases h
    · cases h; simp only; rw [dofs_set hb, ho]
  · split at h
    · cases h
    · cases h; simp only; rw [dofs_pushBody, ho]
  · split at h
    · cases h
    · cases h; simp only; unfold pushBody6; simp only [dofs_pushBody]; rw [ho]
  · cases h; exact ho

/-- C36 with C37.  After every history of modifications the number of degrees of freedom of the dynamics model is that of the
joints of its bodies. -/
theorem C36_dof_history {ops : List ModOp} (ho : DofOk r) (h : r.run ops = some r') : DofOk r' := by
  induction ops generalizing r with
  | nil => cases h; exact ho
  | cons op ops ih =>
    unfold ModRobot.run at h
    split at h
    · cases h
    rename_i r1 hr1
    refine ih ?_ h
    cases op with
    | delete n => exact dofOk_deleteLink ho hr1
    | add p n k m => exact dofOk_addLinkAt ho hr1
    | toFixed n =>
      simp only [ModRobot.step, changeToFixed] at hr1
      split at hr1
      · cases hr1
      split at hr1
      · split at hr1
        · cases hr1
        rename_i r2 hr2
        exact dofOk_addLinkAt (dofOk_deleteLink ho hr2) hr1
      · cases hr1
    | inertia n m =>
      simp only [ModRobot.step, changeInertia] at hr1
      split at hr1
      · cases hr1
      split at hr1
      · cases hr1
      split at hr1
      · cases hr1
      rename_i b hb
      cases hr1
      unfold DofOk at ho ⊢
      simp only
      rw [dofs_set hb, ho]

/-- C36, adding.  A named link added on a fixed joint is found under its name as a fixed body of the body it was put on. -/
theorem C36_fixed_recorded {p : ℕ} {m : ℝ} {lp : MLink} (hp : r.links[p]? = some lp) (hn : name ≠ "")
    (h : addLinkAt r p name .fixed m = some r') :
    ∃ k, r'.bodyIdOf name = some (fixedDiscriminator + k) ∧ r'.fixedParents[k]? = some lp.bodyId := by
  unfold addLinkAt at h
  simp only [hp] at h
  split at h
  · cases h
  split at h
  · cases h
  rename_i names hnames
  cases h
  refine ⟨r.fixedParents.length, (find?_addName hn hnames).2, ?_⟩
  simp

/-- C37, exactly when it holds.  After such a history the total mass equals the sum of the link masses if and only if the
masses put on by `AddLink`, `ChangeLinkToFixedJoint` and `ChangeLinkInertia` add up to zero. -/
theorem C37_total_mass_iff {ops : List ModOp} (ht : TableOk r.links) (hs : InSync r) (hm : r.totalMass = massSum r.links)
    (ho : ∀ op ∈ ops, Ordinary op) (h : r.run ops = some r') :
    r'.totalMass = massSum r'.links ↔ addedMassRun r ops = 0 := by
  have := (run_ok ht hs ho h).2.2
  constructor <;> intro h' <;> linarith

/-- C37, what holds: deletions keep the total mass right (for every table, well formed or not). -/
theorem C37_delete_partial {names : List String} (hm : r.totalMass = massSum r.links)
    (h : r.run (names.map .delete) = some r') : r'.totalMass = massSum r'.links := by
  induction names generalizing r with
  | nil => cases h; exact hm
  | cons n names ih =>
    simp only [List.map_cons, ModRobot.run] at h
    split at h
    · cases h
    rename_i r1 hr1
    have := (deleteLink_drift hr1).1
    exact ih (by linarith) h

/-- C37, negation.  Adding a link of mass `m ≠ 0`, on whatever joint, makes a right total mass wrong. -/
theorem C37_add_wrong {p : ℕ} {kind : JointKind} {m : ℝ} (hs : InSync r)
    (hm : r.totalMass = massSum r.links) (hk : kind ≠ .other) (h0 : m ≠ 0) (h : addLinkAt r p name kind m = some r') :
    r'.totalMass + m = massSum r'.links ∧ r'.totalMass ≠ massSum r'.links := by
  obtain ⟨-, htm, -⟩ := addLinkAt_lengths h
  have key : massSum r'.links = massSum r.links + m := by
    unfold addLinkAt at h
    split at h
    · cases h
    rename_i lp hp
    split at h
    · cases h
    rename_i b hb
    obtain ⟨b', hb', hmass, -⟩ := hs.body p lp hp
    rw [hb] at hb'
    cases hb'
    split at h
    · split at h
      · cases h
      · cases h
        simp only
        rw [massSum_set hp, hmass]
        ring
    · split at h
      · cases h
      · cases h
        unfold massSum
        rw [map_insertLink _ (fun _ _ => rfl)]
        simp
    · split at h
      · cases h
      · cases h
        unfold massSum
        rw [map_insertLink _ (fun _ _ => rfl)]
        simp
    · exact absurd rfl hk
  rw [htm, hm, key]
  exact ⟨rfl, fun h => h0 (by linarith)⟩

/-- C37, negation.  `ChangeLinkToFixedJoint` makes the total mass too small by the mass of the converted link. -/
theorem C37_fixed_wrong (ht : TableOk r.links) (hs : InSync r) (hm : r.totalMass = massSum r.links)
    (hf : r.find name = some d) (hd : r.links[d]? = some ld) (h : changeToFixed r name = some r') :
    r'.totalMass + ld.mass = massSum r'.links := by
  have := (step_ok (op := .toFixed name) ht hs trivial h).2.2
  simp only [addedMass, hf, hd, Option.map_some, Option.getD_some] at this
  linarith

open Classical in
/-- C37, negation.  `ChangeLinkToFixedJoint` drops every link below the converted one. -/
theorem C37_fixed_drops_children (ht : TableOk r.links) (hf : r.find name = some d)
    (hd : r.links[d]? = some ld) (h : changeToFixed r name = some r') :
    r'.links.map (·.name) = (r.links.map (·.name)).filter fun x => ¬ InSubtree (namedTree r.links) ld.name x := by
  unfold changeToFixed at h
  simp only [hf, hd] at h
  split at h
  · rename_i l0 j0 hl0 hj
    cases hl0
    split at h
    · cases h
    rename_i r1 hr1
    obtain ⟨-, h2, -⟩ := C36_tree ht hf hd hr1
    have e : r'.links.map (·.name) = r1.links.map (·.name) := by
      unfold addLinkAt at h
      split at h
      · cases h
      rename_i lp hp
      split at h
      · cases h
      simp only at h
      split at h
      · cases h
      cases h
      simp only
      rw [List.map_set]
      refine List.ext_getElem? fun k => ?_
      rw [List.getElem?_set]
      split_ifs with h1 h2
      · subst h1; rw [List.getElem?_map, hp]; rfl
      · rw [List.getElem?_eq_none (by omega)]
      · rfl
    rw [e, ← namedTree_names, h2, ← namedTree_names]
    unfold prune
    rw [List.map_map, List.filter_map]
    rfl
  · cases h

/-- C38, exactly when it holds.  After every history from aligned tables, `UpdateKinematics` stays inside the joint table
if and only if no link was added on a movable joint; and then there is one joint record per link. -/
theorem C38_aligned_iff {ops : List ModOp} (ha : r.joints.length = r.links.length) (h : r.run ops = some r')
    (pose : ℕ → J → J) :
    ((updateJointPoses r' pose).isSome ↔ ops.countP isMovableAdd = 0) ∧
      (r'.joints.length = r'.links.length ↔ ops.countP isMovableAdd = 0) := by
  have := run_lengths h
  unfold updateJointPoses
  constructor
  · split_ifs with hc
    · simp only [Option.isSome_some, true_iff]; omega
    · simp only [Option.isSome_none, Bool.false_eq_true, false_iff]; omega
  · omega

/-- C38, negation.  One added revolute link and the next kinematics update writes behind the end of the joint table. -/
theorem C38_add_undefined {p : ℕ} {m : ℝ} (ha : r.joints.length = r.links.length)
    (h : r.step (.add p name .revolute m) = some r') (pose : ℕ → J → J) : updateJointPoses r' pose = none := by
  have := step_lengths h
  unfold updateJointPoses
  rw [if_neg]
  simp [isMovableAdd] at this
  omega

/-- C38, negation.  Loading a model into an object that already held one leaves the old joint records in front: there are too
many, and link `k` is paired with the old record `k`. -/
theorem C38_reload (fresh : ModRobot J) (ha : fresh.joints.length = fresh.links.length) (hr : r.joints ≠ []) :
    (reload r fresh).joints.length ≠ (reload r fresh).links.length ∧
      ∀ k < r.joints.length, (reload r fresh).joints[k]? = r.joints[k]? := by
  constructor
  · have := List.length_pos_of_ne_nil hr
    simp [reload]
    omega
  · intro k hk
    simp only [reload]
    rw [List.getElem?_append_left hk]

/-! ### A robot with a torso, an arm with a hand, and a leg -/

def exLinks : List MLink :=
  [⟨"torso", 0, 2, 0, [1, 3], 5⟩, ⟨"arm", 1, 3, 0, [2], 2⟩, ⟨"hand", 2, 4, 1, [], 1⟩, ⟨"leg", 3, 5, 0, [], 4⟩]

/-- Bodies: root, translation of the base, torso, arm, hand, leg.  A task on the arm, a contact on the leg. -/
def exMod : ModRobot ℕ :=
  { links := exLinks, joints := [0, 1, 2, 3], totalMass := 12
    bodies := [⟨0, 0, [1], 0⟩, ⟨0, 0, [2], 3⟩, ⟨5, 1, [3, 5], 3⟩, ⟨2, 2, [4], 1⟩, ⟨1, 3, [], 1⟩, ⟨4, 2, [], 1⟩]
    names := [("torso", 2), ("arm", 3), ("hand", 4), ("leg", 5), ("sensor", fixedDiscriminator)]
    fixedParents := [5], dofCount := 9, ts := [⟨0, [1]⟩], qpTasks := 1, cc := [⟨3, 5⟩] }

theorem exLinks_ok : TableOk exLinks := by
  have cases4 : ∀ (i : ℕ) (l : MLink), exLinks[i]? = some l → i < 4 := fun i l h => (List.getElem?_eq_some_iff.mp h).1
  refine ⟨by decide, ?_, ?_, ?_, ?_, ?_, by decide⟩
  · intro i l h
    have := cases4 i l h
    interval_cases i <;> cases h <;> rfl
  · intro i l h h0
    have := cases4 i l h
    interval_cases i <;> cases h <;> decide
  · intro l h
    cases h; rfl
  · intro i l h
    have := cases4 i l h
    interval_cases i <;> cases h <;> decide
  · intro i l h j
    have := cases4 i l h
    by_cases hj : j < 4
    · interval_cases i <;> cases h <;> interval_cases j <;> simp [exLinks]
    · have hx : exLinks[j]? = none := List.getElem?_eq_none (by simp [exLinks]; omega)
      rw [hx]
      simp only [reduceCtorEq, false_and, exists_false, and_false, iff_false]
      interval_cases i <;> cases h <;> simp <;> omega

theorem exMod_sync : InSync exMod := by
  constructor
  · intro l hl
    simp only [exMod, exLinks, List.mem_cons, List.not_mem_nil, or_false] at hl
    rcases hl with rfl | rfl | rfl | rfl <;> decide
  · intro i l h
    have : i < 4 := (List.getElem?_eq_some_iff.mp h).1
    interval_cases i <;> cases h
    · exact ⟨_, rfl, rfl, fun h => absurd h (by omega)⟩
    · exact ⟨_, rfl, rfl, fun _ => ⟨_, rfl, rfl⟩⟩
    · exact ⟨_, rfl, rfl, fun _ => ⟨_, rfl, rfl⟩⟩
    · exact ⟨_, rfl, rfl, fun _ => ⟨_, rfl, rfl⟩⟩

theorem exMod_find : exMod.find "Hand" = some 2 := by decide

/-- The hypotheses of `C36_tree`, `C36_rbdl`, `C36_references_partial`, `C36_references_shift` and `C37_fixed_wrong` are met:
deleting the hand is defined. -/
example : TableOk exMod.links ∧ InSync exMod ∧ exMod.joints.length = exMod.links.length ∧ exMod.find "Hand" = some 2 ∧
    exMod.totalMass = massSum exMod.links ∧ (∃ r', deleteLink exMod "Hand" = some r') ∧
    (∃ r', changeToFixed exMod "Hand" = some r') := by
  refine ⟨exLinks_ok, exMod_sync, rfl, exMod_find, ?_, ?_, ?_⟩
  · simp only [exMod, massSum, exLinks, List.map_cons, List.map_nil, List.sum_cons, List.sum_nil]; norm_num
  · obtain ⟨r', h, -⟩ := C36_references_partial (r := exMod) exLinks_ok exMod_sync rfl exMod_find rfl (by
      simp [exMod])
    exact ⟨r', h⟩
  · unfold changeToFixed
    rw [exMod_find]
    have h1 : deleteLink exMod "Hand" = deleteOne exMod 2 := deleteLink_leaf exMod_find rfl rfl
    have h2 : exMod.links[2]? = some ⟨"hand", 2, 4, 1, [], 1⟩ := rfl
    have h3 : exMod.joints[2]? = some 2 := rfl
    simp only [h2, h3, h1]
    exact ⟨_, rfl⟩

/-- What `C36_references_shift` means for this robot: after the hand is gone, the contact on the leg (number 3) has no link. -/
example : ∃ r', deleteLink exMod "Hand" = some r' ∧ r'.cc = [⟨3, 5⟩] ∧ nameAt exMod.links 3 = some "leg" ∧
    nameAt r'.links 3 = none := by
  obtain ⟨r', h, -⟩ := C36_references_partial (r := exMod) exLinks_ok exMod_sync rfl exMod_find rfl (by simp [exMod])
  obtain ⟨h1, -, h3⟩ := C36_references_shift (r := exMod) exLinks_ok exMod_find rfl rfl h
  exact ⟨r', h, h1, rfl, (h3 3 (by omega) (by decide)).1⟩

/-- The hypotheses of `C36_last_task_undefined` are met: the only task is on the hand. -/
example : deleteLink { exMod with ts := [⟨0, [2]⟩] } "Hand" = none :=
  C36_last_task_undefined (r := { exMod with ts := [⟨0, [2]⟩] }) (d := 2) (by decide) rfl rfl (t := ⟨0, [2]⟩) rfl (by simp)
    (fun m u h => by simp at h)

/-- The hypotheses of `C36_task_removed_partial` are met: the first of two tasks is on the hand; the second, on the leg and the
arm, goes on referring to them although the leg has a new number. -/
example : ∃ r', deleteLink { exMod with ts := [⟨0, [2]⟩, ⟨1, [3, 1]⟩], qpTasks := 2 } "Hand" = some r' ∧
    ∃ u, r'.ts[0]? = some u ∧ u.level = 0 ∧ u.links.map (nameAt r'.links) = [some "leg", some "arm"] := by
  obtain ⟨r', h, -, -, hr⟩ := C36_task_removed_partial (r := { exMod with ts := [⟨0, [2]⟩, ⟨1, [3, 1]⟩], qpTasks := 2 })
    (name := "Hand") (d := 2) (i := 0) (t := ⟨0, [2]⟩) exLinks_ok ⟨exMod_sync.name, exMod_sync.body⟩ rfl (by decide) rfl rfl rfl
    (by simp) (by simp) rfl (by
      intro k u hk hu
      have hlt := (List.getElem?_eq_some_iff.mp hu).1
      simp at hlt
      interval_cases k
      · exact absurd rfl hk
      · cases hu; simp)
  exact ⟨r', h, hr 1 ⟨1, [3, 1]⟩ (by omega) rfl⟩

/-- The hypotheses of `C36_fixed_names_shift` are met: the "sensor" on the leg. -/
example : ∃ r', deleteOne exMod 2 = some r' ∧ exMod.bodyIdOf "sensor" = some fixedDiscriminator ∧
    r'.bodyIdOf "sensor" = some (fixedDiscriminator - 1) := by
  obtain ⟨r', h, -⟩ := deleteOne_defined (r := exMod) (d := 2) exMod_sync rfl (by decide) (by simp [exMod])
  exact ⟨r', h, by decide, (C36_fixed_names_shift (r := exMod) (d := 2) (m := 4) (k := 0) rfl (by decide) (by decide)
    (by decide) (by decide) h).1⟩

/-- The hypotheses of `C36_dof_history` and `C36_fixed_recorded` are met. -/
example : DofOk exMod ∧ ∃ r', addLinkAt exMod 0 "payload" .fixed 1 = some r' := ⟨rfl, _, rfl⟩

/-- The hypotheses of the history theorems are met by an added gripper and an added payload. -/
example : ∃ r', exMod.run [.add 2 "gripper" .revolute 3, .add 0 "payload" .fixed 1] = some r' ∧
    (∀ op ∈ [ModOp.add 2 "gripper" .revolute 3, .add 0 "payload" .fixed 1], Ordinary op) := by
  refine ⟨_, rfl, ?_⟩
  intro op h
  simp only [List.mem_cons, List.not_mem_nil, or_false] at h
  rcases h with rfl | rfl
  · simp [Ordinary]
  · simp [Ordinary]

end Verif.Props
