import Verif.Spec.LinkMod
import Mathlib.Data.List.Nodup
import Mathlib.Data.List.Basic
import Mathlib.Tactic.Linarith
import Mathlib.Tactic.Ring
import Mathlib.Tactic.SplitIfs

/-!
# Lemmas about deleting links
-/

namespace Verif
open Verif.Model Verif.Spec

variable {J : Type*}

/-- The old number of what is now number `k`. -/
def raise (d k : ℕ) : ℕ := if k < d then k else k + 1

theorem lower_raise (d k : ℕ) : lower d (raise d k) = k := by
  unfold lower raise; split_ifs <;> omega

theorem raise_lower {d k : ℕ} (h : k ≠ d) : raise d (lower d k) = k := by
  unfold lower raise; split_ifs <;> omega

theorem raise_ne (d k : ℕ) : raise d k ≠ d := by
  unfold raise; split_ifs <;> omega

theorem lower_inj {d a b : ℕ} (ha : a ≠ d) (hb : b ≠ d) (h : lower d a = lower d b) : a = b := by
  rw [← raise_lower ha, h, raise_lower hb]

theorem lower_eq_iff {d a k : ℕ} (ha : a ≠ d) : lower d a = k ↔ a = raise d k := by
  constructor
  · rintro rfl; rw [raise_lower ha]
  · rintro rfl; rw [lower_raise]

theorem getElem?_eraseIdx_raise {α : Type*} (l : List α) (d k : ℕ) : (l.eraseIdx d)[k]? = l[raise d k]? := by
  rw [List.getElem?_eraseIdx]; unfold raise; split_ifs <;> rfl

/-- What `InitAfterModelMod` makes of the link table. -/
def linksAfter (links : List MLink) (d : ℕ) (ld : MLink) : List MLink :=
  (((links.eraseIdx d).map fun k : MLink =>
      { k with bodyId := lower ld.bodyId k.bodyId, linkId := lower d k.linkId, parent := lower d k.parent }).modify
    ld.parent fun p => { p with children := p.children.erase d }).map fun k =>
      { k with children := k.children.map (lower d) }

theorem deleteTasks_eq {r r' : ModRobot J} {d : ℕ} (h : deleteTasks r d = some r') :
    r' = { r with ts := r'.ts, qpTasks := r'.qpTasks } := by
  unfold deleteTasks at h
  split at h
  · cases h
  · cases h; rfl
  · split_ifs at h
    cases h; rfl

theorem deleteOne_some {r r' : ModRobot J} {d : ℕ} (h : deleteOne r d = some r') :
    ∃ ld m b, r.links[d]? = some ld ∧ r.bodyIdOf ld.name = some m ∧ r.bodies[m]? = some b ∧ d < r.joints.length ∧
      r'.links = linksAfter r.links d ld ∧ r'.joints = r.joints.eraseIdx d ∧ r'.totalMass = r.totalMass - ld.mass ∧
      r'.cc = r.cc ∧
      r'.bodies = ((r.bodies.modify b.lambda fun p => { p with mu := p.mu.erase m }).map fun p : RbdlBody =>
          { p with lambda := lower m p.lambda, mu := p.mu.map (lower m) }).eraseIdx m ∧
      r'.names = (r.names.filter fun e => e.1 != ld.name).map (fun e => (e.1, lower m e.2)) ∧
      r'.dofCount = r.dofCount - b.dof ∧ r'.fixedParents = r.fixedParents.map (lower m) := by
  unfold deleteOne at h
  split at h
  · cases h
  rename_i ld hld
  unfold eraseBody at h
  split at h
  · cases h
  rename_i r1 hr1
  split at hr1
  · cases hr1
  rename_i m hm
  split at hr1
  · cases hr1
  rename_i b hb
  cases hr1
  unfold initAfterDelete at h
  simp only [hld] at h
  split_ifs at h with hj
  have e := deleteTasks_eq h
  refine ⟨ld, m, b, hld, hm, hb, hj, ?_⟩
  rw [e]
  exact ⟨rfl, rfl, rfl, rfl, rfl, rfl, rfl, rfl⟩

theorem linksAfter_getElem? (links : List MLink) (d : ℕ) (ld : MLink) (k : ℕ) :
    (linksAfter links d ld)[k]? = (links[raise d k]?).map fun l =>
      { l with bodyId := lower ld.bodyId l.bodyId, linkId := lower d l.linkId, parent := lower d l.parent
               children := (if k = ld.parent then l.children.erase d else l.children).map (lower d) } := by
  unfold linksAfter
  rw [List.getElem?_map, List.getElem?_modify, List.getElem?_map, getElem?_eraseIdx_raise]
  cases links[raise d k]? with
  | none => simp
  | some l =>
    by_cases hk : ld.parent = k
    · simp [hk]
    · simp [hk, Ne.symm hk, eq_comm]

section leaf
variable {links : List MLink} {d : ℕ} {ld : MLink} (ht : TableOk links) (hd : links[d]? = some ld) (hleaf : ld.children = [])
include ht hd hleaf

theorem parent_ne_of_leaf {i : ℕ} {l : MLink} (hl : links[i]? = some l) (hi : 0 < i) : l.parent ≠ d := by
  intro h
  have := (ht.children d ld hd i).mpr ⟨hi, l, hl, h⟩
  rw [hleaf] at this
  cases this

theorem pos_of_leaf {k : ℕ} {l : MLink} (hl : links[raise d k]? = some l) : 0 < d := by
  by_contra h0
  have hd0 : d = 0 := by omega
  subst hd0
  obtain ⟨h1, -⟩ := List.getElem?_eq_some_iff.mp hl
  have hlen : 1 < links.length := by unfold raise at h1; split_ifs at h1 <;> omega
  have hp := ht.parent_lt 1 _ (List.getElem?_eq_getElem hlen) (by omega)
  exact parent_ne_of_leaf ht hd hleaf (List.getElem?_eq_getElem hlen) (by omega) (by omega)

theorem parent_ne_raise {k : ℕ} {l : MLink} (hl : links[raise d k]? = some l) : l.parent ≠ d := by
  by_cases hk : raise d k = 0
  · have h0 := pos_of_leaf ht hd hleaf hl
    rw [hk] at hl
    rw [ht.root l hl]
    omega
  · exact parent_ne_of_leaf ht hd hleaf hl (by omega)

theorem children_erase {k : ℕ} {l : MLink} (hl : links[raise d k]? = some l) :
    (if k = ld.parent then l.children.erase d else l.children) = l.children.erase d := by
  split_ifs with h
  · rfl
  · refine (List.erase_of_not_mem fun hm => h ?_).symm
    obtain ⟨h0, c, hc, hp⟩ := (ht.children _ l hl d).mp hm
    rw [hd] at hc
    cases hc
    have := ht.parent_lt d ld hd h0
    rw [hp] at this
    rw [hp]
    unfold raise at this ⊢
    split_ifs at this ⊢ <;> omega

/-- The link table after deleting a link without children. -/
theorem linksAfter_leaf (k : ℕ) :
    (linksAfter links d ld)[k]? = (links[raise d k]?).map fun l =>
      { l with bodyId := lower ld.bodyId l.bodyId, linkId := lower d l.linkId, parent := lower d l.parent
               children := (l.children.erase d).map (lower d) } := by
  rw [linksAfter_getElem?]
  cases hl : links[raise d k]? with
  | none => rfl
  | some l => simp only [Option.map_some, children_erase ht hd hleaf hl]

theorem names_linksAfter : (linksAfter links d ld).map (·.name) = (links.map (·.name)).eraseIdx d := by
  refine List.ext_getElem? fun k => ?_
  rw [List.getElem?_map, linksAfter_leaf ht hd hleaf, getElem?_eraseIdx_raise, List.getElem?_map]
  cases links[raise d k]? <;> rfl

theorem nameAt_linksAfter (k : ℕ) : nameAt (linksAfter links d ld) k = nameAt links (raise d k) := by
  unfold nameAt
  rw [linksAfter_leaf ht hd hleaf]
  cases links[raise d k]? <;> rfl

theorem bodyId_ne {i : ℕ} {l : MLink} (hl : links[i]? = some l) (hi : i ≠ d) : l.bodyId ≠ ld.bodyId := by
  intro h
  obtain ⟨h1, e1⟩ := List.getElem?_eq_some_iff.mp hl
  obtain ⟨h2, e2⟩ := List.getElem?_eq_some_iff.mp hd
  refine hi ((List.Nodup.getElem_inj_iff ht.bodies (hi := by simpa using h1) (hj := by simpa using h2)).mp ?_)
  simp [e1, e2, h]

theorem name_ne {i : ℕ} {l : MLink} (hl : links[i]? = some l) (hi : i ≠ d) : l.name ≠ ld.name := by
  intro h
  obtain ⟨h1, e1⟩ := List.getElem?_eq_some_iff.mp hl
  obtain ⟨h2, e2⟩ := List.getElem?_eq_some_iff.mp hd
  refine hi ((List.Nodup.getElem_inj_iff ht.names (hi := by simpa using h1) (hj := by simpa using h2)).mp ?_)
  simp [e1, e2, h]

theorem tableOk_linksAfter : TableOk (linksAfter links d ld) := by
  have key : ∀ (i : ℕ) (l : MLink), (linksAfter links d ld)[i]? = some l → ∃ o, links[raise d i]? = some o ∧
      l = { o with bodyId := lower ld.bodyId o.bodyId, linkId := lower d o.linkId, parent := lower d o.parent
                   children := (o.children.erase d).map (lower d) } := by
    intro i l h
    rw [linksAfter_leaf ht hd hleaf] at h
    obtain ⟨o, ho, rfl⟩ := Option.map_eq_some_iff.mp h
    exact ⟨o, ho, rfl⟩
  refine ⟨?_, ?_, ?_, ?_, ?_, ?_, ?_⟩
  · rw [names_linksAfter ht hd hleaf]
    exact ht.names.sublist (List.eraseIdx_sublist _ _)
  · intro i l h
    obtain ⟨o, ho, rfl⟩ := key i l h
    simp only
    rw [ht.ids _ _ ho, lower_raise]
  · intro i l h hi
    obtain ⟨o, ho, rfl⟩ := key i l h
    simp only
    have hne := parent_ne_raise ht hd hleaf ho
    have h0 := pos_of_leaf ht hd hleaf ho
    have := ht.parent_lt _ _ ho (by unfold raise; split_ifs <;> omega)
    unfold raise at this
    unfold lower
    split_ifs at this ⊢ <;> omega
  · intro l h
    obtain ⟨o, ho, rfl⟩ := key 0 l h
    have h0 := pos_of_leaf ht hd hleaf ho
    have e : raise d 0 = 0 := by unfold raise; rw [if_pos h0]
    rw [e] at ho
    simp only
    rw [ht.root o ho]
    unfold lower; simp
  · intro p l h
    obtain ⟨o, ho, rfl⟩ := key p l h
    have hn := ht.nodup _ _ ho
    refine List.Nodup.map_on (fun a ha b hb e => ?_) (hn.erase _)
    exact lower_inj (fun h => by subst h; exact hn.not_mem_erase ha) (fun h => by subst h; exact hn.not_mem_erase hb) e
  · intro p l h j
    obtain ⟨o, ho, rfl⟩ := key p l h
    have hn := ht.nodup _ _ ho
    have h0 := pos_of_leaf ht hd hleaf ho
    have hm : j ∈ (o.children.erase d).map (lower d) ↔ raise d j ∈ o.children := by
      rw [List.mem_map]
      constructor
      · rintro ⟨a, ha, rfl⟩
        have hne : a ≠ d := fun h => by subst h; exact hn.not_mem_erase ha
        rw [raise_lower hne]
        exact List.mem_of_mem_erase ha
      · intro h
        exact ⟨raise d j, (List.mem_erase_of_ne (raise_ne d j)).mpr h, lower_raise d j⟩
    simp only [hm]
    rw [ht.children _ _ ho]
    constructor
    · rintro ⟨h1, c, hc, hp⟩
      refine ⟨by unfold raise at h1; split_ifs at h1 <;> omega, _, by rw [linksAfter_leaf ht hd hleaf, hc]; rfl, ?_⟩
      simp only
      rw [hp, lower_raise]
    · rintro ⟨h1, c, hc, hp⟩
      obtain ⟨oc, hoc, rfl⟩ := key j c hc
      exact ⟨by unfold raise; split_ifs <;> omega, oc, hoc, (lower_eq_iff (parent_ne_raise ht hd hleaf hoc)).mp hp⟩
  · have e : (linksAfter links d ld).map (·.bodyId) = ((links.map (·.bodyId)).eraseIdx d).map (lower ld.bodyId) := by
      refine List.ext_getElem? fun k => ?_
      rw [List.getElem?_map, linksAfter_leaf ht hd hleaf, List.getElem?_map, getElem?_eraseIdx_raise, List.getElem?_map]
      cases links[raise d k]? <;> rfl
    rw [e]
    have hm : ∀ a ∈ (links.map (·.bodyId)).eraseIdx d, a ≠ ld.bodyId := by
      intro a ha
      obtain ⟨k, hk⟩ := List.mem_iff_getElem?.mp ha
      rw [getElem?_eraseIdx_raise, List.getElem?_map] at hk
      obtain ⟨o, ho, rfl⟩ := Option.map_eq_some_iff.mp hk
      exact bodyId_ne ht hd hleaf ho (raise_ne d k)
    exact List.Nodup.map_on (fun a ha b hb h => lower_inj (hm a ha) (hm b hb) h)
      (ht.bodies.sublist (List.eraseIdx_sublist _ _))

end leaf

theorem filter_ne_eraseIdx {α : Type*} (f : α → String) (t : List α) (hn : (t.map f).Nodup) (d : ℕ) (e : α)
    (hd : t[d]? = some e) : t.filter (fun x => f x ≠ f e) = t.eraseIdx d := by
  induction t generalizing d with
  | nil => simp at hd
  | cons a t ih =>
    rw [List.map_cons, List.nodup_cons] at hn
    cases d with
    | zero =>
      simp only [List.getElem?_cons_zero, Option.some.injEq] at hd
      subst hd
      rw [List.eraseIdx_cons_zero, List.filter_cons_of_neg (by simp)]
      refine List.filter_eq_self.mpr fun x hx => ?_
      simp only [ne_eq, decide_not, Bool.not_eq_eq_eq_not, Bool.not_true, decide_eq_false_iff_not]
      exact fun h => hn.1 (h ▸ List.mem_map_of_mem hx)
    | succ d =>
      simp only [List.getElem?_cons_succ] at hd
      rw [List.eraseIdx_cons_succ, List.filter_cons_of_pos, ih hn.2 d hd]
      simp only [ne_eq, decide_not, Bool.not_eq_eq_eq_not, Bool.not_true, decide_eq_false_iff_not]
      intro h
      exact hn.1 (h ▸ List.mem_map_of_mem (List.mem_of_getElem? hd))

theorem nameAt_eq_some {links : List MLink} (ht : TableOk links) {d : ℕ} {ld : MLink} (hd : links[d]? = some ld) (k : ℕ) :
    nameAt links k = some ld.name ↔ k = d := by
  unfold nameAt
  constructor
  · intro h
    obtain ⟨l, hl, e⟩ := Option.map_eq_some_iff.mp h
    obtain ⟨h1, e1⟩ := List.getElem?_eq_some_iff.mp hl
    obtain ⟨h2, e2⟩ := List.getElem?_eq_some_iff.mp hd
    refine (List.Nodup.getElem_inj_iff ht.names (hi := by simpa using h1) (hj := by simpa using h2)).mp ?_
    simp [e1, e2, e]
  · rintro rfl
    rw [hd]; rfl

theorem namedTree_getElem? (links : List MLink) (i : ℕ) :
    (namedTree links)[i]? = (links[i]?).map fun l =>
      { name := l.name, mass := l.mass, parent := if i = 0 then none else nameAt links l.parent
        children := l.children.filterMap (nameAt links) } := by
  unfold namedTree
  rw [List.getElem?_mapIdx]

theorem namedTree_names (links : List MLink) : (namedTree links).map (·.name) = links.map (·.name) := by
  refine List.ext_getElem? fun k => ?_
  rw [List.getElem?_map, namedTree_getElem?, List.getElem?_map]
  cases links[k]? <;> rfl

theorem mem_namedTree {links : List MLink} {e : NamedLink} (h : e ∈ namedTree links) :
    ∃ (i : ℕ) (l : MLink), links[i]? = some l ∧ e.name = l.name ∧ e.parent = (if i = 0 then none else nameAt links l.parent) ∧
      e.children = l.children.filterMap (nameAt links) := by
  obtain ⟨i, hi⟩ := List.mem_iff_getElem?.mp h
  rw [namedTree_getElem?] at hi
  obtain ⟨l, hl, rfl⟩ := Option.map_eq_some_iff.mp hi
  exact ⟨i, l, hl, rfl, rfl, rfl⟩

section leaf
variable {links : List MLink} {d : ℕ} {ld : MLink} (ht : TableOk links) (hd : links[d]? = some ld) (hleaf : ld.children = [])
include ht hd hleaf

theorem inSubtree_leaf (x : String) : InSubtree (namedTree links) ld.name x ↔ x = ld.name := by
  constructor
  · intro h
    induction h with
    | root => rfl
    | step e p he hp _ ih =>
      subst ih
      obtain ⟨i, l, hl, -, hpar, -⟩ := mem_namedTree he
      rw [hp] at hpar
      split_ifs at hpar with hi
      have := (nameAt_eq_some ht hd _).mp hpar.symm
      exact absurd this (parent_ne_of_leaf ht hd hleaf hl (by omega))
  · rintro rfl
    exact .root

theorem namedTree_linksAfter : namedTree (linksAfter links d ld) = prune (namedTree links) ld.name := by
  classical
  have h1 : (namedTree links).filter (fun e => decide (¬ InSubtree (namedTree links) ld.name e.name))
      = (namedTree links).eraseIdx d := by
    have hdn := namedTree_getElem? links d
    rw [hd] at hdn
    have := filter_ne_eraseIdx (·.name) (namedTree links) (by rw [namedTree_names]; exact ht.names) d _ hdn
    rw [← this]
    refine List.filter_congr fun e _ => ?_
    simp only [inSubtree_leaf ht hd hleaf]
  unfold prune
  rw [h1]
  refine List.ext_getElem? fun k => ?_
  rw [namedTree_getElem?, List.getElem?_map, getElem?_eraseIdx_raise, namedTree_getElem?, linksAfter_leaf ht hd hleaf]
  cases ho : links[raise d k]? with
  | none => rfl
  | some o =>
    have h0 := pos_of_leaf ht hd hleaf ho
    simp only [Option.map_some, Option.some.injEq, NamedLink.mk.injEq, true_and]
    constructor
    · rw [nameAt_linksAfter ht hd hleaf, raise_lower (parent_ne_raise ht hd hleaf ho)]
      have : raise d k = 0 ↔ k = 0 := by
        constructor <;> intro h <;> unfold raise at * <;> split_ifs at * <;> omega
      simp only [this]
    · have hn := ht.nodup _ _ ho
      rw [List.filterMap_map, hn.erase_eq_filter]
      generalize o.children = cs
      induction cs with
      | nil => rfl
      | cons c cs ih =>
        by_cases hc : c = d
        · subst hc
          rw [List.filter_cons_of_neg (by simp), ih, List.filterMap_cons, (nameAt_eq_some ht hd _).mpr rfl]
          simp only
          rw [List.filter_cons_of_neg]
          simp [inSubtree_leaf ht hd hleaf]
        · rw [List.filter_cons_of_pos (by simpa using hc), List.filterMap_cons, List.filterMap_cons, ih]
          simp only [Function.comp]
          rw [nameAt_linksAfter ht hd hleaf, raise_lower hc]
          cases hx : nameAt links c with
          | none => rfl
          | some x =>
            simp only
            rw [List.filter_cons_of_pos]
            simp only [inSubtree_leaf ht hd hleaf, decide_not, Bool.not_eq_eq_eq_not, Bool.not_true, decide_eq_false_iff_not]
            rintro rfl
            exact hc ((nameAt_eq_some ht hd _).mp hx)

end leaf

theorem Spec.InSubtree.trans {t : List NamedLink} {a b c : String} (h1 : InSubtree t a b) (h2 : InSubtree t b c) :
    InSubtree t a c := by
  induction h2 with
  | root => exact h1
  | step e p he hp _ ih => exact .step e p he hp ih

theorem mem_prune {t : List NamedLink} {n : String} {e : NamedLink} (h : e ∈ prune t n) :
    ∃ o ∈ t, ¬ InSubtree t n o.name ∧ e.name = o.name ∧ e.parent = o.parent := by
  unfold prune at h
  obtain ⟨o, ho, rfl⟩ := List.mem_map.mp h
  obtain ⟨h1, h2⟩ := List.mem_filter.mp ho
  exact ⟨o, h1, by simpa using h2, rfl, rfl⟩

theorem Spec.InSubtree.of_prune {t : List NamedLink} {c n x : String} (h : InSubtree (prune t c) n x) : InSubtree t n x := by
  induction h with
  | root => exact .root
  | step e p he hp _ ih =>
    obtain ⟨o, ho, -, h1, h2⟩ := mem_prune he
    rw [h1]
    exact .step o p ho (h2 ▸ hp) ih

theorem Spec.InSubtree.prune_or {t : List NamedLink} {c n x : String} (h : InSubtree t n x) :
    InSubtree t c x ∨ InSubtree (prune t c) n x := by
  induction h with
  | root => exact .inr .root
  | step e p he hp _ ih =>
    rcases ih with ih | ih
    · exact .inl (.step e p he hp ih)
    · by_cases hc : InSubtree t c e.name
      · exact .inl hc
      · right
        classical
        refine InSubtree.step (t := prune t c) { e with children := e.children.filter fun x => ¬ InSubtree t c x } p ?_ hp ih
        unfold prune
        refine List.mem_map.mpr ⟨e, List.mem_filter.mpr ⟨he, by simpa using hc⟩, ?_⟩
        congr

theorem prune_iff {t : List NamedLink} {c n : String} (h : InSubtree t n c) (x : String) :
    (¬ InSubtree t c x ∧ ¬ InSubtree (prune t c) n x) ↔ ¬ InSubtree t n x := by
  constructor
  · rintro ⟨h1, h2⟩ h3
    rcases h3.prune_or (c := c) with h | h
    · exact h1 h
    · exact h2 h
  · intro h1
    exact ⟨fun h2 => h1 (h.trans h2), fun h2 => h1 h2.of_prune⟩

/-- Pruning a subtree of a subtree first makes no difference. -/
theorem prune_prune {t : List NamedLink} {c n : String} (h : InSubtree t n c) : prune (prune t c) n = prune t n := by
  classical
  have e : ∀ (P : String → Prop) (_ : DecidablePred P), prune (prune t c) n =
      ((prune t c).filter fun e => decide (¬ InSubtree (prune t c) n e.name)).map fun e =>
        { e with children := e.children.filter fun y => decide (¬ InSubtree (prune t c) n y) } := by
    intro _ _
    unfold prune
    congr!
  rw [e (fun _ => True) inferInstance]
  generalize hq : (fun y => InSubtree (prune t c) n y) = Q
  have hQ : ∀ x, (¬ InSubtree t c x ∧ ¬ Q x) ↔ ¬ InSubtree t n x := fun x => by rw [← hq]; exact prune_iff h x
  simp only [funext_iff, eq_iff_iff] at hq
  simp only [hq]
  unfold prune
  rw [List.filter_map, List.map_map, List.filter_filter]
  have e2 : (t.filter fun a => ((fun e : NamedLink => decide (¬ Q e.name)) ∘ fun e : NamedLink =>
        { e with children := e.children.filter fun c_1 => decide (¬ InSubtree t c c_1) }) a && decide (¬ InSubtree t c a.name))
      = t.filter fun e => decide (¬ InSubtree t n e.name) := by
    refine List.filter_congr fun a _ => ?_
    rw [Bool.eq_iff_iff]
    simp only [Function.comp, Bool.and_eq_true, decide_eq_true_eq]
    rw [and_comm]
    exact hQ a.name
  rw [e2]
  refine List.map_congr_left fun a _ => ?_
  simp only [Function.comp, NamedLink.mk.injEq, true_and]
  rw [List.filter_filter]
  refine List.filter_congr fun x _ => ?_
  rw [Bool.eq_iff_iff]
  simp only [Bool.and_eq_true, decide_eq_true_eq]
  rw [and_comm]
  exact hQ x

/-! ### The RBDL side -/

theorem bodyIdOf_after {r : ModRobot J} {n x : String} {m k : ℕ} {names : List (String × ℕ)}
    (hn : names = (r.names.filter fun e => e.1 != n).map (fun e => (e.1, lower m e.2))) (hx : x ≠ n)
    (h : r.bodyIdOf x = some k) : ((names.find? fun e => e.1 == x).map (·.2)) = some (lower m k) := by
  subst hn
  unfold ModRobot.bodyIdOf at h
  rw [List.find?_map, List.find?_filter]
  have : (r.names.find? fun a => (a.1 != n && ((fun e : String × ℕ => e.1 == x) ∘ fun e : String × ℕ => (e.1, lower m e.2)) a))
      = r.names.find? fun e => e.1 == x := by
    congr 1
    funext a
    simp only [Function.comp]
    by_cases ha : a.1 = x
    · simp [ha, hx]
    · simp [ha]
  simp only [decide_eq_true_eq, Bool.decide_and, Bool.decide_eq_true] at this ⊢
  rw [this]
  cases hf : r.names.find? fun e => e.1 == x with
  | none => rw [hf] at h; cases h
  | some e => rw [hf] at h; cases h; rfl

theorem inSync_deleteOne {r r' : ModRobot J} {d : ℕ} {ld : MLink} (ht : TableOk r.links) (hs : InSync r)
    (hd : r.links[d]? = some ld) (hleaf : ld.children = []) (h : deleteOne r d = some r') : InSync r' := by
  obtain ⟨ld', m, b, hld, hm, hb, hj, hl, -, -, -, hbod, hnam, -⟩ := deleteOne_some h
  rw [hd] at hld
  cases hld
  have hm' : m = ld.bodyId := by
    have := hs.name ld (List.mem_of_getElem? hd)
    rw [hm] at this
    exact Option.some.inj this
  subst hm'
  have key : ∀ (i : ℕ) (l : MLink), r'.links[i]? = some l → ∃ o, r.links[raise d i]? = some o ∧
      l = { o with bodyId := lower ld.bodyId o.bodyId, linkId := lower d o.linkId, parent := lower d o.parent
                   children := (o.children.erase d).map (lower d) } := by
    intro i l h
    rw [hl, linksAfter_leaf ht hd hleaf] at h
    obtain ⟨o, ho, rfl⟩ := Option.map_eq_some_iff.mp h
    exact ⟨o, ho, rfl⟩
  constructor
  · intro l hmem
    obtain ⟨i, hi⟩ := List.mem_iff_getElem?.mp hmem
    obtain ⟨o, ho, rfl⟩ := key i l hi
    have hx : o.name ≠ ld.name := name_ne ht hd hleaf ho (raise_ne d i)
    exact bodyIdOf_after hnam hx (hs.name o (List.mem_of_getElem? ho))
  · intro i l hi
    obtain ⟨o, ho, rfl⟩ := key i l hi
    obtain ⟨bo, h1, h2, h3⟩ := hs.body _ _ ho
    have hne := bodyId_ne ht hd hleaf ho (raise_ne d i)
    have hget : r'.bodies[lower ld.bodyId o.bodyId]? =
        some { (if b.lambda = o.bodyId then { bo with mu := bo.mu.erase ld.bodyId } else bo : RbdlBody) with
          lambda := lower ld.bodyId bo.lambda
          mu := ((if b.lambda = o.bodyId then { bo with mu := bo.mu.erase ld.bodyId } else bo : RbdlBody).mu).map
            (lower ld.bodyId) } := by
      rw [hbod, getElem?_eraseIdx_raise, raise_lower hne, List.getElem?_map, List.getElem?_modify, h1]
      split_ifs with hc <;> simp [hc]
    refine ⟨_, hget, ?_, fun hpos => ?_⟩
    · split_ifs <;> exact h2
    · have h0 := pos_of_leaf ht hd hleaf ho
      obtain ⟨p, hp1, hp2⟩ := h3 (by unfold raise; split_ifs <;> omega)
      have hpne := parent_ne_raise ht hd hleaf ho
      refine ⟨{ p with bodyId := lower ld.bodyId p.bodyId, linkId := lower d p.linkId, parent := lower d p.parent
                       children := (p.children.erase d).map (lower d) }, ?_, ?_⟩
      · simp only
        rw [hl, linksAfter_leaf ht hd hleaf, raise_lower hpne, hp1]
        rfl
      · simp only [hp2]

theorem deleteOne_leaf {r r' : ModRobot J} {d : ℕ} {ld : MLink} (hd : r.links[d]? = some ld)
    (h : deleteOne r d = some r') : r'.links = linksAfter r.links d ld ∧ r'.joints = r.joints.eraseIdx d ∧ r'.cc = r.cc := by
  obtain ⟨ld', m, b, hld, hm, hb, hj, hl, hjo, -, hc, -⟩ := deleteOne_some h
  rw [hd] at hld
  cases hld
  exact ⟨hl, hjo, hc⟩

theorem zip_eraseIdx {α β : Type*} (a : List α) (b : List β) (d : ℕ) : (a.eraseIdx d).zip (b.eraseIdx d) = (a.zip b).eraseIdx d := by
  induction a generalizing b d with
  | nil => simp
  | cons x a ih =>
    cases b with
    | nil => simp
    | cons y b => cases d with
      | zero => simp
      | succ d => simp [ih]

theorem zip_map_fst_sublist {α β : Type*} (a : List α) (b : List β) : ((a.zip b).map Prod.fst).Sublist a := by
  induction a generalizing b with
  | nil => simp
  | cons x a ih =>
    cases b with
    | nil => simp
    | cons y b => simpa using ih b

/-- The names of the links with the joint records standing at the same positions. -/
def namedJoints (r : ModRobot J) : List (String × J) := (r.links.map (·.name)).zip r.joints

open Classical in
/-- Everything that `DeleteLink` does to the link table and to the joint table. -/
theorem deleteAt_spec (fuel : ℕ) : ∀ (r r' : ModRobot J) (d : ℕ) (ld : MLink), TableOk r.links → r.links[d]? = some ld →
    deleteAt fuel r d = some r' →
    TableOk r'.links ∧ namedTree r'.links = prune (namedTree r.links) ld.name ∧
      (∀ k < d, nameAt r'.links k = nameAt r.links k) ∧ r'.cc = r.cc ∧ (InSync r → InSync r') ∧
      namedJoints r' = (namedJoints r).filter fun e => ¬ InSubtree (namedTree r.links) ld.name e.1 := by
  induction fuel with
  | zero => intro r r' d ld _ _ h; cases h
  | succ fuel ih =>
    intro r r' d ld ht hd h
    unfold deleteAt at h
    simp only [hd] at h
    split at h
    · rename_i hleaf
      obtain ⟨hl, hj, hc⟩ := deleteOne_leaf hd h
      refine ⟨?_, ?_, ?_, hc, fun hs => inSync_deleteOne ht hs hd hleaf h, ?_⟩
      · rw [hl]; exact tableOk_linksAfter ht hd hleaf
      · rw [hl]; exact namedTree_linksAfter ht hd hleaf
      · intro k hk
        rw [hl, nameAt_linksAfter ht hd hleaf]
        unfold raise
        rw [if_pos hk]
      · unfold namedJoints
        rw [hl, hj, names_linksAfter ht hd hleaf, zip_eraseIdx]
        have hjd : d < r.joints.length := by
          obtain ⟨_, _, _, _, _, _, hj, _⟩ := deleteOne_some h
          exact hj
        have hz : ((r.links.map (·.name)).zip r.joints)[d]? = some (ld.name, r.joints[d]) := by
          rw [List.getElem?_zip_eq_some]
          refine ⟨?_, List.getElem?_eq_getElem hjd⟩
          rw [List.getElem?_map, hd]
          rfl
        rw [← filter_ne_eraseIdx Prod.fst _ (ht.names.sublist (zip_map_fst_sublist _ _)) d _ hz]
        refine List.filter_congr fun e _ => ?_
        simp only [inSubtree_leaf ht hd hleaf, ne_eq]
    · rename_i c cs hcs
      split at h
      · cases h
      rename_i r1 hr1
      have hcm : c ∈ ld.children := by rw [hcs]; exact List.mem_cons_self
      obtain ⟨hc0, lc, hlc, hcp⟩ := (ht.children d ld hd c).mp hcm
      have hdc : d < c := by have := ht.parent_lt c lc hlc hc0; omega
      obtain ⟨ht1, hn1, hk1, hc1, hs1, hj1⟩ := ih r r1 c lc ht hlc hr1
      have hnd : nameAt r1.links d = some ld.name := by
        rw [hk1 d hdc]; unfold nameAt; rw [hd]; rfl
      obtain ⟨l1, hl1, hname⟩ := Option.map_eq_some_iff.mp hnd
      obtain ⟨ht2, hn2, hk2, hc2, hs2, hj2⟩ := ih r1 r' d l1 ht1 hl1 h
      have hsub : InSubtree (namedTree r.links) ld.name lc.name := by
        have hmem : ∃ e ∈ namedTree r.links, e.name = lc.name ∧ e.parent = some ld.name := by
          refine ⟨_, List.mem_of_getElem? (i := c) (by rw [namedTree_getElem?, hlc]; rfl), rfl, ?_⟩
          simp only
          rw [if_neg (by omega), hcp]
          unfold nameAt
          rw [hd]
          rfl
        obtain ⟨e, he, h1, h2⟩ := hmem
        rw [← h1]
        exact .step e _ he h2 .root
      refine ⟨ht2, ?_, fun k hk => by rw [hk2 k hk, hk1 k (by omega)], hc2.trans hc1, fun hs => hs2 (hs1 hs), ?_⟩
      · rw [hn2, hn1, hname, prune_prune hsub]
      · rw [hj2, hj1, List.filter_filter]
        refine List.filter_congr fun e _ => ?_
        rw [Bool.eq_iff_iff]
        simp only [Bool.and_eq_true, decide_eq_true_eq]
        rw [and_comm, hn1, hname]
        exact prune_iff hsub e.1

/-! ### Totals -/

theorem sum_eraseIdx_sub (l : List ℝ) (d : ℕ) (x : ℝ) (h : l[d]? = some x) : (l.eraseIdx d).sum = l.sum - x := by
  induction l generalizing d with
  | nil => simp at h
  | cons a l ih =>
    cases d with
    | zero => simp at h; subst h; simp
    | succ d => simp at h; simp only [List.eraseIdx_cons_succ, List.sum_cons, ih d h]; ring

theorem masses_linksAfter (links : List MLink) (d : ℕ) (ld : MLink) :
    (linksAfter links d ld).map (·.mass) = (links.map (·.mass)).eraseIdx d := by
  refine List.ext_getElem? fun k => ?_
  rw [List.getElem?_map, linksAfter_getElem?, getElem?_eraseIdx_raise, List.getElem?_map]
  cases links[raise d k]? <;> rfl

/-- Deleting keeps the difference between link masses and total mass, and between the lengths of the tables. -/
theorem deleteAt_drift (fuel : ℕ) : ∀ (r r' : ModRobot J) (d : ℕ), deleteAt fuel r d = some r' →
    massSum r'.links - r'.totalMass = massSum r.links - r.totalMass ∧
      (r'.links.length : ℤ) - r'.joints.length = r.links.length - r.joints.length := by
  induction fuel with
  | zero => intro r r' d h; cases h
  | succ fuel ih =>
    intro r r' d h
    unfold deleteAt at h
    split at h
    · cases h
    rename_i ld hd
    split at h
    · obtain ⟨ld', m, b, hld, hm, hb, hj, hl, hjo, htm, -⟩ := deleteOne_some h
      rw [hd] at hld
      cases hld
      have hdl : d < r.links.length := (List.getElem?_eq_some_iff.mp hd).1
      constructor
      · unfold massSum
        rw [hl, masses_linksAfter, htm, sum_eraseIdx_sub _ d ld.mass (by rw [List.getElem?_map, hd]; rfl)]
        ring
      · have : (linksAfter r.links d ld).length = r.links.length - 1 := by
          have := congrArg List.length (masses_linksAfter r.links d ld)
          rw [List.length_map, List.length_eraseIdx, List.length_map, if_pos hdl] at this
          exact this
        rw [hl, this, hjo, List.length_eraseIdx, if_pos hj]
        omega
    · split at h
      · cases h
      rename_i r1 hr1
      obtain ⟨a1, b1⟩ := ih _ _ _ hr1
      obtain ⟨a2, b2⟩ := ih _ _ _ h
      exact ⟨a2.trans a1, b2.trans b1⟩

/-! ### When deleting is defined -/

theorem taskScan_none (d : ℕ) (fuel : ℕ) : ∀ (ts : List MTask) (i j : ℕ), (∀ t ∈ ts, ∀ k ∈ t.links, k ≠ d) →
    (∀ t, ts[i]? = some t → j ≤ t.links.length) → (ts.length ≤ i → j = 0) →
    ((ts.drop i).map fun t => t.links.length + 1).sum + 1 - j ≤ fuel → taskScan d fuel ts i j none = some (ts, none) := by
  induction fuel with
  | zero =>
    intro ts i j _ hj hj0 hf
    exfalso
    by_cases hi : i < ts.length
    · have := hj _ (List.getElem?_eq_getElem hi)
      rw [← List.getElem_cons_drop hi] at hf
      simp only [List.map_cons, List.sum_cons] at hf
      omega
    · have := hj0 (by omega)
      omega
  | succ fuel ih =>
    intro ts i j hn hj hj0 hf
    unfold taskScan
    by_cases hi : i < ts.length
    · rw [List.getElem?_eq_getElem hi]
      simp only
      have hjl := hj _ (List.getElem?_eq_getElem hi)
      rw [← List.getElem_cons_drop hi] at hf
      simp only [List.map_cons, List.sum_cons] at hf
      by_cases hjj : j < ts[i].links.length
      · rw [List.getElem?_eq_getElem hjj]
        simp only
        rw [if_neg (hn _ (List.getElem_mem hi) _ (List.getElem_mem hjj))]
        refine ih ts i (j + 1) hn ?_ (fun h => by omega) ?_
        · intro t h
          rw [List.getElem?_eq_getElem hi] at h
          cases h
          omega
        · rw [← List.getElem_cons_drop hi]
          simp only [List.map_cons, List.sum_cons]
          omega
      · rw [List.getElem?_eq_none (by omega)]
        exact ih ts (i + 1) 0 hn (fun _ _ => Nat.zero_le _) (fun _ => rfl) (by omega)
    · rw [List.getElem?_eq_none (by omega)]
      simp only
      rw [if_pos (hj0 (by omega))]

theorem deleteTasks_none {r : ModRobot J} {d : ℕ} (hn : ∀ t ∈ r.ts, ∀ k ∈ t.links, k ≠ d) :
    deleteTasks r d = some r := by
  unfold deleteTasks
  rw [taskScan_none d _ r.ts 0 0 hn (fun _ _ => Nat.zero_le _) (fun _ => rfl)]
  rw [List.drop_zero]
  have : ∀ ts : List MTask, (ts.map fun t => t.links.length + 1).sum = ts.length + (ts.map fun t => t.links.length).sum := by
    intro ts
    induction ts with
    | nil => rfl
    | cons t ts ih => simp only [List.map_cons, List.sum_cons, ih, List.length_cons]; omega
  rw [this]
  omega

theorem deleteOne_defined {r : ModRobot J} {d : ℕ} {ld : MLink} (hs : InSync r) (hd : r.links[d]? = some ld)
    (hj : d < r.joints.length) (hn : ∀ t ∈ r.ts, ∀ k ∈ t.links, k ≠ d) :
    ∃ r', deleteOne r d = some r' ∧ r'.ts = r.ts ∧ r'.qpTasks = r.qpTasks := by
  obtain ⟨b, hb, -⟩ := hs.body d ld hd
  unfold deleteOne eraseBody initAfterDelete
  simp only [hd, hs.name ld (List.mem_of_getElem? hd), hb]
  rw [if_pos hj]
  exact ⟨_, deleteTasks_none hn, rfl, rfl⟩

theorem deleteAt_defined (fuel : ℕ) : ∀ (r : ModRobot J) (d : ℕ) (ld : MLink), TableOk r.links → InSync r →
    r.links[d]? = some ld → r.joints.length = r.links.length → (∀ t ∈ r.ts, ∀ k ∈ t.links, k < d) →
    r.links.length - d ≤ fuel → ∃ r', deleteAt fuel r d = some r' ∧ r'.ts = r.ts ∧ r'.qpTasks = r.qpTasks ∧
      (r'.links.length < r.links.length) := by
  induction fuel with
  | zero =>
    intro r d ld _ _ hd _ _ hf
    have := (List.getElem?_eq_some_iff.mp hd).1
    omega
  | succ fuel ih =>
    intro r d ld ht hs hd hj hn hf
    have hdl := (List.getElem?_eq_some_iff.mp hd).1
    have hlen : ∀ (g : ℕ) (a b : ModRobot J) (k : ℕ), deleteAt g a k = some b →
        (b.links.length : ℤ) - b.joints.length = a.links.length - a.joints.length :=
      fun g a b k h => (deleteAt_drift g a b k h).2
    cases hcs : ld.children with
    | nil =>
      obtain ⟨r', h1, h2, h3⟩ := deleteOne_defined hs hd (by omega) (fun t ht k hk => by have := hn t ht k hk; omega)
      refine ⟨r', ?_, h2, h3, ?_⟩
      · unfold deleteAt; simp only [hd, hcs]; exact h1
      · obtain ⟨e, -⟩ := deleteOne_leaf hd h1
        have := congrArg List.length (masses_linksAfter r.links d ld)
        rw [List.length_map, List.length_eraseIdx, List.length_map, if_pos hdl] at this
        rw [e, this]
        omega
    | cons c cs =>
      have hcm : c ∈ ld.children := by rw [hcs]; exact List.mem_cons_self
      obtain ⟨hc0, lc, hlc, hcp⟩ := (ht.children d ld hd c).mp hcm
      have hdc : d < c := by have := ht.parent_lt c lc hlc hc0; omega
      have hcl := (List.getElem?_eq_some_iff.mp hlc).1
      obtain ⟨r1, e1, t1, q1, len1⟩ := ih r c lc ht hs hlc hj (fun t ht k hk => by have := hn t ht k hk; omega) (by omega)
      obtain ⟨ht1, hn1, hk1, hc1, hs1, hj1⟩ := deleteAt_spec fuel r r1 c lc ht hlc e1
      have hnd : nameAt r1.links d = some ld.name := by
        rw [hk1 d hdc]; unfold nameAt; rw [hd]; rfl
      obtain ⟨l1, hl1, hname⟩ := Option.map_eq_some_iff.mp hnd
      have hjl : r1.joints.length = r1.links.length := by have := hlen _ _ _ _ e1; omega
      obtain ⟨r2, e2, t2, q2, len2⟩ := ih r1 d l1 ht1 (hs1 hs) hl1 hjl (by rw [t1]; exact hn) (by omega)
      refine ⟨r2, ?_, t2.trans t1, q2.trans q1, by omega⟩
      unfold deleteAt
      simp only [hd, hcs, e1]
      exact e2

/-! ### Histories -/

theorem find_lt {r : ModRobot J} {name : String} {d : ℕ} (_ : r.find name = some d) (ld : MLink) (h : r.links[d]? = some ld) :
    d < r.links.length := (List.getElem?_eq_some_iff.mp h).1

theorem length_insertLink (links : List MLink) (p b : ℕ) (n : String) (m : ℝ) :
    (insertLink links p b n m).length = links.length + 1 := by
  simp [insertLink]

theorem addLinkAt_lengths {r r' : ModRobot J} {p : ℕ} {n : String} {k : JointKind} {m : ℝ}
    (h : addLinkAt r p n k m = some r') : r'.joints = r.joints ∧ r'.totalMass = r.totalMass ∧
      r'.links.length = r.links.length + (if isMovableAdd (.add p n k m) then 1 else 0) := by
  unfold addLinkAt at h
  split at h
  · cases h
  split at h
  · cases h
  split at h
  · split at h
    · cases h
    · cases h; simp [isMovableAdd]
  · split at h
    · cases h
    · cases h; simp [isMovableAdd, length_insertLink]
  · split at h
    · cases h
    · cases h; simp [isMovableAdd, length_insertLink]
  · cases h; simp [isMovableAdd]

theorem deleteLink_drift {r r' : ModRobot J} {n : String} (h : deleteLink r n = some r') :
    massSum r'.links - r'.totalMass = massSum r.links - r.totalMass ∧
      (r'.links.length : ℤ) - r'.joints.length = r.links.length - r.joints.length := by
  unfold deleteLink at h
  split at h
  · cases h; exact ⟨rfl, rfl⟩
  · exact deleteAt_drift _ _ _ _ h

theorem step_lengths {r r' : ModRobot J} {op : ModOp} (h : r.step op = some r') :
    (r'.links.length : ℤ) - r'.joints.length = r.links.length - r.joints.length + (if isMovableAdd op then 1 else 0) := by
  cases op with
  | delete n => simpa [isMovableAdd] using (deleteLink_drift h).2
  | add p n k m =>
    obtain ⟨h1, -, h3⟩ := addLinkAt_lengths h
    rw [h1, h3]
    split_ifs <;> push_cast <;> ring
  | toFixed n =>
    simp only [ModRobot.step, changeToFixed] at h
    split at h
    · cases h
    split at h
    · split at h
      · cases h
      rename_i r1 hr1
      obtain ⟨h1, -, h3⟩ := addLinkAt_lengths h
      have := (deleteLink_drift hr1).2
      simp only [isMovableAdd, Bool.false_eq_true, if_false, add_zero] at h3 ⊢
      rw [h1, h3, this]
    · cases h
  | inertia n m =>
    simp only [ModRobot.step, changeInertia] at h
    split at h
    · cases h
    split at h
    · cases h
    split at h
    · cases h
    · cases h; simp [isMovableAdd]

theorem run_lengths {r r' : ModRobot J} {ops : List ModOp} (h : r.run ops = some r') :
    (r'.links.length : ℤ) - r'.joints.length = r.links.length - r.joints.length + (ops.countP isMovableAdd : ℕ) := by
  induction ops generalizing r with
  | nil => cases h; simp
  | cons op ops ih =>
    unfold ModRobot.run at h
    split at h
    · cases h
    rename_i r1 hr1
    rw [ih h, step_lengths hr1, List.countP_cons]
    split_ifs <;> push_cast <;> ring

/-! ### Well formedness after adding links -/

theorem find?_addName {names names' : List (String × ℕ)} {n : String} {id : ℕ} (hn : n ≠ "")
    (h : addName names n id = some names') :
    (∀ x k, ((names.find? fun e => e.1 == x).map (·.2)) = some k → x ≠ n ∧ ((names'.find? fun e => e.1 == x).map (·.2)) = some k) ∧
      ((names'.find? fun e => e.1 == n).map (·.2)) = some id := by
  unfold addName at h
  rw [if_neg hn] at h
  split_ifs at h with ha
  cases h
  have hnone : names.find? (fun e => e.1 == n) = none := by
    rw [List.find?_eq_none]
    intro e he hc
    exact ha (List.any_eq_true.mpr ⟨e, he, hc⟩)
  constructor
  · intro x k hx
    obtain ⟨e, he, rfl⟩ := Option.map_eq_some_iff.mp hx
    refine ⟨?_, ?_⟩
    · rintro rfl
      rw [hnone] at he
      cases he
    · rw [List.find?_append, he]; rfl
  · rw [List.find?_append, hnone]
    simp

theorem find?_addName_mono {names names' : List (String × ℕ)} {n : String} {id : ℕ} (h : addName names n id = some names')
    (x : String) (k : ℕ) (hx : ((names.find? fun e => e.1 == x).map (·.2)) = some k) :
    ((names'.find? fun e => e.1 == x).map (·.2)) = some k := by
  by_cases hn : n = ""
  · unfold addName at h
    rw [if_pos hn] at h
    cases h
    exact hx
  · exact ((find?_addName hn h).1 x k hx).2

theorem insertLink_lt {links : List MLink} {p b : ℕ} {n : String} {m : ℝ} {i : ℕ} (hi : i < links.length) :
    (insertLink links p b n m)[i]? = (links[i]?).map fun l =>
      if p = i then { l with children := l.children ++ [links.length] } else l := by
  unfold insertLink
  rw [List.getElem?_append_left (by simpa using hi), List.getElem?_modify]
  split_ifs with h <;> simp [h]

theorem insertLink_new (links : List MLink) (p b : ℕ) (n : String) (m : ℝ) :
    (insertLink links p b n m)[links.length]? =
      some { name := n, linkId := links.length, bodyId := b, parent := p, children := [], mass := m } := by
  unfold insertLink
  rw [List.getElem?_append_right (by simp)]
  simp

theorem insertLink_cases {links : List MLink} {p b : ℕ} {n : String} {m : ℝ} {i : ℕ} {l : MLink}
    (h : (insertLink links p b n m)[i]? = some l) :
    (i < links.length ∧ ∃ o, links[i]? = some o ∧
      l = if p = i then { o with children := o.children ++ [links.length] } else o) ∨
    (i = links.length ∧ l = { name := n, linkId := links.length, bodyId := b, parent := p, children := [], mass := m }) := by
  by_cases hi : i < links.length
  · left
    rw [insertLink_lt hi] at h
    obtain ⟨o, ho, rfl⟩ := Option.map_eq_some_iff.mp h
    exact ⟨hi, o, ho, rfl⟩
  · right
    have hl := (List.getElem?_eq_some_iff.mp h).1
    rw [length_insertLink] at hl
    have : i = links.length := by omega
    subst this
    rw [insertLink_new] at h
    cases h
    exact ⟨rfl, rfl⟩

theorem map_insertLink {α : Type*} (f : MLink → α) (hf : ∀ (l : MLink) c, f { l with children := c } = f l)
    (links : List MLink) (p b : ℕ) (n : String) (m : ℝ) : (insertLink links p b n m).map f =
      links.map f ++ [f { name := n, linkId := links.length, bodyId := b, parent := p, children := [], mass := m }] := by
  unfold insertLink
  rw [List.map_append, List.map_cons, List.map_nil]
  congr 1
  refine List.ext_getElem? fun k => ?_
  rw [List.getElem?_map, List.getElem?_modify, List.getElem?_map]
  cases links[k]? with
  | none => simp
  | some l => simp only [Option.map_some, Option.map_eq_map]; split_ifs <;> simp [hf]

theorem tableOk_insertLink {links : List MLink} (ht : TableOk links) {p b : ℕ} {n : String} {m : ℝ} (hp : p < links.length)
    (hn : ∀ l ∈ links, l.name ≠ n) (hb : ∀ l ∈ links, l.bodyId ≠ b) : TableOk (insertLink links p b n m) := by
  have hpos : 0 < links.length := by omega
  refine ⟨?_, ?_, ?_, ?_, ?_, ?_, ?_⟩
  · rw [map_insertLink _ (fun _ _ => rfl)]
    refine List.Nodup.append ht.names (by simp) ?_
    intro x hx hy
    obtain ⟨l, hl, rfl⟩ := List.mem_map.mp hx
    simp only [List.mem_singleton] at hy
    exact hn l hl hy
  · intro i l h
    rcases insertLink_cases h with ⟨hi, o, ho, rfl⟩ | ⟨hi, rfl⟩
    · have := ht.ids i o ho
      split_ifs <;> exact this
    · exact hi.symm
  · intro i l h h0
    rcases insertLink_cases h with ⟨hi, o, ho, rfl⟩ | ⟨hi, rfl⟩
    · have := ht.parent_lt i o ho h0
      split_ifs <;> exact this
    · simp only; omega
  · intro l h
    rcases insertLink_cases h with ⟨hi, o, ho, rfl⟩ | ⟨hi, rfl⟩
    · have := ht.root o ho
      split_ifs <;> exact this
    · omega
  · intro i l h
    rcases insertLink_cases h with ⟨hi, o, ho, rfl⟩ | ⟨hi, rfl⟩
    · have hnd := ht.nodup i o ho
      split_ifs
      · refine List.Nodup.append hnd (by simp) ?_
        intro x hx hy
        simp only [List.mem_singleton] at hy
        subst hy
        obtain ⟨-, c, hc, -⟩ := (ht.children i o ho _).mp hx
        have := (List.getElem?_eq_some_iff.mp hc).1
        omega
      · exact hnd
    · exact List.nodup_nil
  · intro i l h j
    have hcase : (0 < j ∧ ∃ c, (insertLink links p b n m)[j]? = some c ∧ c.parent = i) ↔
        (0 < j ∧ ∃ c, links[j]? = some c ∧ c.parent = i) ∨ (j = links.length ∧ p = i) := by
      constructor
      · rintro ⟨h0, c, hc, hpar⟩
        rcases insertLink_cases hc with ⟨hj, o, ho, rfl⟩ | ⟨hj, rfl⟩
        · left
          refine ⟨h0, o, ho, ?_⟩
          split_ifs at hpar <;> exact hpar
        · right
          exact ⟨hj, hpar⟩
      · rintro (⟨h0, c, hc, hpar⟩ | ⟨hj, hpar⟩)
        · refine ⟨h0, _, by rw [insertLink_lt (List.getElem?_eq_some_iff.mp hc).1, hc]; rfl, ?_⟩
          split_ifs <;> exact hpar
        · subst hj
          exact ⟨hpos, _, insertLink_new _ _ _ _ _, hpar⟩
    rw [hcase]
    rcases insertLink_cases h with ⟨hi, o, ho, rfl⟩ | ⟨hi, rfl⟩
    · rw [← ht.children i o ho j]
      split_ifs with hpi
      · simp [hpi]
      · simp [hpi]
    · simp only [List.not_mem_nil, false_iff, not_or, not_and]
      refine ⟨?_, fun _ => by omega⟩
      rintro h0 ⟨c, hc, hpar⟩
      have h1 := ht.parent_lt j c hc h0
      have h2 := (List.getElem?_eq_some_iff.mp hc).1
      omega
  · rw [map_insertLink _ (fun _ _ => rfl)]
    refine List.Nodup.append ht.bodies (by simp) ?_
    intro x hx hy
    obtain ⟨l, hl, rfl⟩ := List.mem_map.mp hx
    simp only [List.mem_singleton] at hy
    exact hb l hl hy

/-- Changing the mass of one link keeps the table well formed. -/
theorem tableOk_setMass {links : List MLink} (ht : TableOk links) {d : ℕ} {l : MLink} (hd : links[d]? = some l) (m : ℝ) :
    TableOk (links.set d { l with mass := m }) := by
  have key : ∀ (i : ℕ) (x : MLink), (links.set d { l with mass := m })[i]? = some x → ∃ o, links[i]? = some o ∧
      x.name = o.name ∧ x.linkId = o.linkId ∧ x.bodyId = o.bodyId ∧ x.parent = o.parent ∧ x.children = o.children := by
    intro i x h
    rw [List.getElem?_set] at h
    split_ifs at h with h1 h2
    · cases h; subst h1; exact ⟨l, hd, rfl, rfl, rfl, rfl, rfl⟩
    · exact ⟨x, h, rfl, rfl, rfl, rfl, rfl⟩
  have key2 : ∀ (i : ℕ) (o : MLink), links[i]? = some o → ∃ x, (links.set d { l with mass := m })[i]? = some x ∧
      x.parent = o.parent := by
    intro i o h
    rw [List.getElem?_set]
    have hi := (List.getElem?_eq_some_iff.mp h).1
    by_cases h1 : d = i
    · subst h1
      rw [hd] at h
      cases h
      exact ⟨{ l with mass := m }, by rw [if_pos rfl, if_pos hi], rfl⟩
    · exact ⟨o, by rw [if_neg h1, h], rfl⟩
  have hmap : ∀ {α : Type} (f : MLink → α), (f { l with mass := m } = f l) →
      (links.set d { l with mass := m }).map f = links.map f := by
    intro α f hf
    rw [List.map_set, hf]
    refine List.ext_getElem? fun k => ?_
    rw [List.getElem?_set]
    split_ifs with h1 h2
    · subst h1; rw [List.getElem?_map, hd]; rfl
    · rw [List.getElem?_eq_none (by omega)]
    · rfl
  refine ⟨?_, ?_, ?_, ?_, ?_, ?_, ?_⟩
  · rw [hmap _ rfl]; exact ht.names
  · intro i x h
    obtain ⟨o, ho, -, e, -⟩ := key i x h
    rw [e]; exact ht.ids i o ho
  · intro i x h h0
    obtain ⟨o, ho, -, -, -, e, -⟩ := key i x h
    rw [e]; exact ht.parent_lt i o ho h0
  · intro x h
    obtain ⟨o, ho, -, -, -, e, -⟩ := key 0 x h
    rw [e]; exact ht.root o ho
  · intro i x h
    obtain ⟨o, ho, -, -, -, -, e⟩ := key i x h
    rw [e]; exact ht.nodup i o ho
  · intro i x h j
    obtain ⟨o, ho, -, -, -, -, e⟩ := key i x h
    rw [e, ht.children i o ho j]
    constructor
    · rintro ⟨h0, c, hc, hp⟩
      obtain ⟨y, hy, hyp⟩ := key2 j c hc
      exact ⟨h0, y, hy, hyp.trans hp⟩
    · rintro ⟨h0, c, hc, hp⟩
      obtain ⟨y, hy, -, -, -, hyp, -⟩ := key j c hc
      exact ⟨h0, y, hy, hyp ▸ hp⟩
  · rw [hmap _ rfl]; exact ht.bodies

/-- Setting the mass of a link and of its body keeps link table and RBDL model in step. -/
theorem inSync_setMass {r : ModRobot J} (ht : TableOk r.links) (hs : InSync r) {d : ℕ} {l : MLink} {b : RbdlBody} {m : ℝ}
    (hd : r.links[d]? = some l) (hb : r.bodies[l.bodyId]? = some b) (r' : ModRobot J)
    (hl : r'.links = r.links.set d { l with mass := m }) (hbod : r'.bodies = r.bodies.set l.bodyId { b with mass := m })
    (hn : ∀ x k, r.bodyIdOf x = some k → r'.bodyIdOf x = some k) : InSync r' := by
  have hdl := (List.getElem?_eq_some_iff.mp hd).1
  have hbl := (List.getElem?_eq_some_iff.mp hb).1
  constructor
  · intro x hx
    rw [hl] at hx
    rcases List.mem_or_eq_of_mem_set hx with h | rfl
    · exact hn _ _ (hs.name x h)
    · exact hn _ _ (hs.name l (List.mem_of_getElem? hd))
  · intro i x hx
    rw [hl, List.getElem?_set] at hx
    have hpar : ∀ (k : ℕ) (p : MLink), r.links[k]? = some p → ∃ p' : MLink, r'.links[k]? = some p' ∧ p'.bodyId = p.bodyId := by
      intro k p hk
      rw [hl, List.getElem?_set]
      by_cases h : d = k
      · subst h
        rw [hd] at hk
        cases hk
        exact ⟨{ l with mass := m }, by rw [if_pos rfl, if_pos hdl], rfl⟩
      · exact ⟨p, by rw [if_neg h, hk], rfl⟩
    split_ifs at hx with h1
    · cases hx
      subst h1
      obtain ⟨b', hb', -, hp⟩ := hs.body _ _ hd
      rw [hb] at hb'
      cases hb'
      refine ⟨{ b with mass := m }, ?_, rfl, fun h0 => ?_⟩
      · rw [hbod, List.getElem?_set, if_pos rfl, if_pos hbl]
      · obtain ⟨p, hp1, hp2⟩ := hp h0
        obtain ⟨p', hp1', e⟩ := hpar _ _ hp1
        exact ⟨p', hp1', by rw [e]; exact hp2⟩
    · obtain ⟨b', hb', hm', hp⟩ := hs.body _ _ hx
      have hne : x.bodyId ≠ l.bodyId := by
        intro h
        obtain ⟨a1, e1⟩ := List.getElem?_eq_some_iff.mp hx
        obtain ⟨a2, e2⟩ := List.getElem?_eq_some_iff.mp hd
        refine h1 ((List.Nodup.getElem_inj_iff ht.bodies (hi := by simpa using a2) (hj := by simpa using a1)).mp ?_)
        simp [e1, e2, h]
      refine ⟨b', ?_, hm', fun h0 => ?_⟩
      · rw [hbod, List.getElem?_set, if_neg (Ne.symm hne), hb']
      · obtain ⟨p, hp1, hp2⟩ := hp h0
        obtain ⟨p', hp1', e⟩ := hpar _ _ hp1
        exact ⟨p', hp1', by rw [e]; exact hp2⟩

theorem massSum_set {links : List MLink} {d : ℕ} {l : MLink} (hd : links[d]? = some l) (m : ℝ) :
    massSum (links.set d { l with mass := m }) = massSum links + (m - l.mass) := by
  unfold massSum
  induction links generalizing d with
  | nil => simp at hd
  | cons a t ih =>
    cases d with
    | zero => simp at hd; subst hd; simp; ring
    | succ d => simp at hd; simp only [List.set_cons_succ, List.map_cons, List.sum_cons, ih hd]; ring

theorem addLinkAt_ok {r r' : ModRobot J} (ht : TableOk r.links) (hs : InSync r) {p : ℕ} {n : String} {k : JointKind} {m : ℝ}
    (ho : Ordinary (.add p n k m)) (h : addLinkAt r p n k m = some r') :
    TableOk r'.links ∧ InSync r' ∧ massSum r'.links = massSum r.links + addedMass r (.add p n k m) := by
  unfold addLinkAt at h
  split at h
  · cases h
  rename_i lp hp
  split at h
  · cases h
  rename_i b hb
  have hpl := (List.getElem?_eq_some_iff.mp hp).1
  obtain ⟨b', hb', hmass, -⟩ := hs.body p lp hp
  rw [hb] at hb'
  cases hb'
  split at h
  · split at h
    · cases h
    rename_i names hnames
    cases h
    refine ⟨tableOk_setMass ht hp _, ?_, ?_⟩
    · exact inSync_setMass ht hs hp hb _ rfl rfl fun x k hx => find?_addName_mono hnames x k hx
    · simp only [addedMass]
      rw [massSum_set hp, hmass]
      ring
  · split at h
    · cases h
    rename_i names hnames
    cases h
    have hfresh := find?_addName ho hnames
    have hbl : ∀ l ∈ r.links, l.bodyId < r.bodies.length := by
      intro l hl
      obtain ⟨i, hi⟩ := List.mem_iff_getElem?.mp hl
      obtain ⟨b, hb, -⟩ := hs.body i l hi
      exact (List.getElem?_eq_some_iff.mp hb).1
    refine ⟨tableOk_insertLink ht hpl (fun l hl => (hfresh.1 _ _ (hs.name l hl)).1) (fun l hl => (hbl l hl).ne), ?_, ?_⟩
    · have hbody : ∀ (k : ℕ) (x : RbdlBody), r.bodies[k]? = some x → ∃ y, (pushBody r.bodies lp.bodyId m)[k]? = some y ∧
          y.mass = x.mass ∧ y.lambda = x.lambda := by
        intro k x hx
        have hk := (List.getElem?_eq_some_iff.mp hx).1
        unfold pushBody
        rw [List.getElem?_append_left (by simpa using hk), List.getElem?_modify, hx]
        by_cases hc : lp.bodyId = k
        · exact ⟨{ x with mu := x.mu ++ [r.bodies.length] }, by simp [hc], rfl, rfl⟩
        · exact ⟨x, by simp [hc], rfl, rfl⟩
      have hlink : ∀ (k : ℕ) (x : MLink), r.links[k]? = some x →
          ∃ y, (insertLink r.links p r.bodies.length n m)[k]? = some y ∧ y.bodyId = x.bodyId := by
        intro k x hx
        rw [insertLink_lt (List.getElem?_eq_some_iff.mp hx).1, hx]
        refine ⟨_, rfl, ?_⟩
        simp only
        split_ifs <;> rfl
      constructor
      · intro l hl
        obtain ⟨i, hi⟩ := List.mem_iff_getElem?.mp hl
        rcases insertLink_cases hi with ⟨hi', o, ho', rfl⟩ | ⟨hi', rfl⟩
        · have := (hfresh.1 _ _ (hs.name o (List.mem_of_getElem? ho'))).2
          split_ifs <;> exact this
        · exact hfresh.2
      · intro i l hi
        rcases insertLink_cases hi with ⟨hi', o, ho', rfl⟩ | ⟨hi', rfl⟩
        · obtain ⟨bo, h1, h2, h3⟩ := hs.body i o ho'
          obtain ⟨y, hy, hym, hyl⟩ := hbody _ _ h1
          refine ⟨y, by split_ifs <;> exact hy, ?_, fun h0 => ?_⟩
          · rw [hym, h2]; split_ifs <;> rfl
          · obtain ⟨q, hq1, hq2⟩ := h3 h0
            obtain ⟨q', hq1', e⟩ := hlink _ _ hq1
            refine ⟨q', ?_, by rw [hyl, hq2, e]⟩
            split_ifs <;> exact hq1'
        · refine ⟨{ mass := m, lambda := lp.bodyId, mu := [], dof := 1 }, ?_, rfl, fun _ => ?_⟩
          · simp only [pushBody]
            rw [List.getElem?_append_right (by simp)]
            simp
          · obtain ⟨q', hq1', e⟩ := hlink _ _ hp
            exact ⟨q', hq1', e.symm⟩
    · simp only [addedMass]
      unfold massSum
      rw [map_insertLink _ (fun _ _ => rfl)]
      simp
  · exact absurd ho (by simp [Ordinary])
  · cases h
    exact ⟨ht, hs, by simp [addedMass]⟩

theorem find_name {r : ModRobot J} {n : String} {d : ℕ} (h : r.find n = some d) : d ≤ r.links.length := by
  unfold ModRobot.find at h
  have := (List.findIdx?_eq_some_iff_findIdx_eq.mp h).1
  simp at this
  omega

/-- Deleting by name, for the invariants. -/
theorem deleteLink_ok {r r' : ModRobot J} (ht : TableOk r.links) (hs : InSync r) {n : String} (h : deleteLink r n = some r') :
    TableOk r'.links ∧ InSync r' := by
  unfold deleteLink at h
  split at h
  · cases h; exact ⟨ht, hs⟩
  · rename_i d hd
    cases hl : r.links[d]? with
    | none =>
      exfalso
      cases hlen : r.links.length with
      | zero => rw [hlen] at h; cases h
      | succ k =>
        rw [hlen] at h
        unfold deleteAt at h
        rw [hl] at h
        cases h
    | some ld =>
      obtain ⟨h1, -, -, -, h5, -⟩ := deleteAt_spec _ _ _ _ _ ht hl h
      exact ⟨h1, h5 hs⟩

theorem step_ok {r r' : ModRobot J} (ht : TableOk r.links) (hs : InSync r) {op : ModOp} (ho : Ordinary op)
    (h : r.step op = some r') : TableOk r'.links ∧ InSync r' ∧
      massSum r'.links - r'.totalMass = massSum r.links - r.totalMass + addedMass r op := by
  cases op with
  | delete n =>
    obtain ⟨h1, h2⟩ := deleteLink_ok ht hs h
    exact ⟨h1, h2, by simpa [addedMass] using (deleteLink_drift h).1⟩
  | add p n k m =>
    obtain ⟨h1, h2, h3⟩ := addLinkAt_ok ht hs ho h
    obtain ⟨-, h4, -⟩ := addLinkAt_lengths h
    exact ⟨h1, h2, by rw [h3, h4]; ring⟩
  | toFixed n =>
    simp only [ModRobot.step, changeToFixed] at h
    split at h
    · cases h
    rename_i d hd
    split at h
    · rename_i l j hl hj
      split at h
      · cases h
      rename_i r1 hr1
      obtain ⟨h1, h2⟩ := deleteLink_ok ht hs hr1
      have h3 := (deleteLink_drift hr1).1
      obtain ⟨h4, h5, h6⟩ := addLinkAt_ok h1 h2 (show Ordinary (.add l.parent l.name .fixed l.mass) from trivial) h
      obtain ⟨-, h7, -⟩ := addLinkAt_lengths h
      refine ⟨h4, h5, ?_⟩
      rw [h6, h7]
      simp only [addedMass, hd, hl, Option.map_some, Option.getD_some]
      linarith
    · cases h
  | inertia n m =>
    simp only [ModRobot.step, changeInertia] at h
    split at h
    · cases h
    rename_i d hd
    split at h
    · cases h
    rename_i l hl
    split at h
    · cases h
    rename_i b hb
    cases h
    refine ⟨tableOk_setMass ht hl _, inSync_setMass ht hs hl hb _ rfl rfl fun _ _ h => h, ?_⟩
    simp only [addedMass, hd, hl, Option.map_some, Option.getD_some]
    rw [massSum_set hl]
    ring

theorem run_ok {r r' : ModRobot J} {ops : List ModOp} (ht : TableOk r.links) (hs : InSync r) (ho : ∀ op ∈ ops, Ordinary op)
    (h : r.run ops = some r') : TableOk r'.links ∧ InSync r' ∧
      massSum r'.links - r'.totalMass = massSum r.links - r.totalMass + addedMassRun r ops := by
  induction ops generalizing r with
  | nil => cases h; exact ⟨ht, hs, by simp [addedMassRun]⟩
  | cons op ops ih =>
    unfold ModRobot.run at h
    split at h
    · cases h
    rename_i r1 hr1
    obtain ⟨h1, h2, h3⟩ := step_ok ht hs (ho op List.mem_cons_self) hr1
    obtain ⟨h4, h5, h6⟩ := ih h1 h2 (fun o hm => ho o (List.mem_cons_of_mem _ hm)) h
    refine ⟨h4, h5, ?_⟩
    rw [h6, h3]
    simp only [addedMassRun, hr1]
    ring

end Verif
