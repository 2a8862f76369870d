import Verif.Model.ReducedMod
import Verif.Spec.ReducedMod
import Verif.Lemmas.LinkMod
import Verif.Lemmas.ReducedIdx

/-! # Helper lemmas for the reduced model of a modified robot -/

set_option linter.unusedSectionVars false

namespace Verif
open Verif.Spec Verif.Model

variable {J : Type*}

/-! ### What a history does to the joint table -/

theorem deleteOne_joints {r r' : ModRobot J} {d : ℕ} (h : deleteOne r d = some r') :
    r'.joints.length < r.joints.length := by
  unfold deleteOne at h
  split at h
  · cases h
  split at h
  · cases h
  rename_i r1 h1
  have e1 : r1.joints = r.joints := by
    unfold eraseBody at h1
    split at h1
    · cases h1
    split at h1
    · cases h1
    · cases h1; rfl
  unfold initAfterDelete at h
  split at h
  · cases h
  split_ifs at h with hl
  have e2 : r'.joints = r1.joints.eraseIdx d := by
    unfold deleteTasks at h
    split at h
    · cases h
    · cases h; rfl
    · split_ifs at h
      cases h; rfl
  rw [e2, List.length_eraseIdx, if_pos hl, ← e1]
  omega

theorem deleteAt_joints (fuel : ℕ) : ∀ {r r' : ModRobot J} {d : ℕ}, deleteAt fuel r d = some r' →
    r'.joints.length < r.joints.length := by
  induction fuel with
  | zero => intro r r' d h; cases h
  | succ fuel ih =>
    intro r r' d h
    unfold deleteAt at h
    split at h
    · cases h
    split at h
    · exact deleteOne_joints h
    · split at h
      · cases h
      · rename_i r1 h1
        have := ih h1
        have := ih h
        omega

theorem deleteLink_joints {r r' : ModRobot J} {n : String} (h : deleteLink r n = some r') :
    r'.joints.length ≤ r.joints.length ∧ ((r.find n).isSome → r'.joints.length < r.joints.length) := by
  unfold deleteLink at h
  split at h
  · rename_i hf
    cases h
    rw [hf]
    exact ⟨le_rfl, fun h => by cases h⟩
  · have := deleteAt_joints _ h
    exact ⟨this.le, fun _ => this⟩

theorem changeToFixed_joints {r r' : ModRobot J} {n : String} (h : changeToFixed r n = some r') :
    r'.joints.length < r.joints.length := by
  unfold changeToFixed at h
  split at h
  · cases h
  rename_i d hf
  split at h
  · split at h
    · cases h
    rename_i r1 hr1
    obtain ⟨h1, -⟩ := addLinkAt_lengths h
    rw [h1]
    exact (deleteLink_joints hr1).2 (by rw [hf]; rfl)
  · cases h

theorem changeInertia_keeps {r r' : ModRobot J} {n : String} {m : ℝ} (h : changeInertia r n m = some r') :
    r'.joints = r.joints ∧ r'.dofCount = r.dofCount ∧ r'.links.map (·.parent) = r.links.map (·.parent) := by
  unfold changeInertia at h
  split at h
  · cases h
  split at h
  · cases h
  rename_i d _ l hl
  split at h
  · cases h
  · cases h
    refine ⟨rfl, rfl, ?_⟩
    apply List.ext_getElem?
    intro i
    simp only [List.getElem?_map, List.getElem?_set]
    split_ifs with h1 h2
    · subst h1; rw [hl]; rfl
    · subst h1; rw [hl]; exact absurd (List.getElem?_eq_some_iff.mp hl).1 h2
    · rfl

/-- degrees of freedom a modification adds when it takes nothing off -/
def dofAdded : ModOp → ℕ
  | .add _ _ .revolute _ => 1
  | .add _ _ .sixDof _ => 6
  | _ => 0

theorem addLinkAt_keeps {r r' : ModRobot J} {p : ℕ} {n : String} {k : JointKind} {m : ℝ}
    (h : addLinkAt r p n k m = some r') :
    r'.joints = r.joints ∧ r'.dofCount = r.dofCount + dofAdded (.add p n k m) ∧
      (r.links.map (·.parent)) <+: (r'.links.map (·.parent)) := by
  have hins : ∀ b x, (r.links.map (·.parent)) <+: ((insertLink r.links p b n x).map (·.parent)) := by
    intro b x
    unfold insertLink
    rw [List.map_append]
    refine List.IsPrefix.trans (l₂ := List.map (·.parent) (r.links.modify p fun q => { q with children := q.children ++ [r.links.length] })) ?_
      (List.prefix_append _ _)
    have : List.map (·.parent) (r.links.modify p fun q => { q with children := q.children ++ [r.links.length] }) =
        r.links.map (·.parent) := by
      apply List.ext_getElem?
      intro i
      simp only [List.getElem?_map, List.getElem?_modify]
      cases r.links[i]? with
      | none => simp
      | some l =>
        simp only [Option.map_some]
        split_ifs <;> rfl
    rw [this]
  unfold addLinkAt at h
  split at h
  · cases h
  rename_i q hq
  split at h
  · cases h
  split at h
  · split at h
    · cases h
    · cases h
      refine ⟨rfl, rfl, ?_⟩
      have : ∀ x, List.map (·.parent) (r.links.set p { q with mass := x }) = r.links.map (·.parent) := by
        intro x
        apply List.ext_getElem?
        intro i
        simp only [List.getElem?_map, List.getElem?_set]
        split_ifs with h1 h2
        · subst h1; rw [hq]; rfl
        · subst h1; rw [hq]; exact absurd (List.getElem?_eq_some_iff.mp hq).1 h2
        · rfl
      rw [this]
  · split at h
    · cases h
    · cases h; exact ⟨rfl, rfl, hins _ _⟩
  · split at h
    · cases h
    · cases h; exact ⟨rfl, rfl, hins _ _⟩
  · cases h; exact ⟨rfl, rfl, List.prefix_rfl⟩

theorem step_joints {r r' : ModRobot J} {op : ModOp} (h : r.step op = some r') :
    r'.joints.length ≤ r.joints.length ∧ (Removes r op → r'.joints.length < r.joints.length) := by
  cases op with
  | delete n => exact deleteLink_joints h
  | add p n k m =>
    obtain ⟨h1, -⟩ := addLinkAt_lengths h
    exact ⟨by rw [h1], fun h => h.elim⟩
  | toFixed n =>
    have := changeToFixed_joints h
    exact ⟨this.le, fun _ => this⟩
  | inertia n m =>
    obtain ⟨h1, -⟩ := changeInertia_keeps h
    exact ⟨by rw [h1], fun h => h.elim⟩

theorem run_joints {ops : List ModOp} : ∀ {r r' : ModRobot J}, r.run ops = some r' →
    r'.joints.length ≤ r.joints.length ∧ (RemovedIn r ops → r'.joints.length < r.joints.length) := by
  induction ops with
  | nil => intro r r' h; cases h; exact ⟨le_rfl, fun h => h.elim⟩
  | cons op ops ih =>
    intro r r' h
    unfold ModRobot.run at h
    split at h
    · cases h
    rename_i r1 hr1
    obtain ⟨h1, h2⟩ := step_joints hr1
    obtain ⟨h3, h4⟩ := ih h
    refine ⟨h3.trans h1, ?_⟩
    rintro (hr | ⟨r2, hr2, hr⟩)
    · have := h2 hr; omega
    · rw [hr1] at hr2
      cases hr2
      have := h4 hr; omega

theorem step_keeps {r r' : ModRobot J} {op : ModOp} (h : r.step op = some r') (hn : ¬ Removes r op) :
    r'.joints = r.joints ∧ r'.dofCount = r.dofCount + dofAdded op ∧
      (r.links.map (·.parent)) <+: (r'.links.map (·.parent)) := by
  cases op with
  | delete n =>
    have hf : r.find n = none := by
      cases hf : r.find n with
      | none => rfl
      | some d => exact absurd (show (r.find n).isSome by rw [hf]; rfl) hn
    simp only [ModRobot.step, deleteLink, hf] at h
    cases h
    exact ⟨rfl, rfl, List.prefix_rfl⟩
  | add p n k m => exact addLinkAt_keeps h
  | toFixed n => exact absurd trivial hn
  | inertia n m =>
    obtain ⟨h1, h2, h3⟩ := changeInertia_keeps h
    exact ⟨h1, h2, by rw [h3]⟩

theorem run_keeps {ops : List ModOp} : ∀ {r r' : ModRobot J}, r.run ops = some r' → ¬ RemovedIn r ops →
    r'.joints = r.joints ∧ r'.dofCount = r.dofCount + (ops.map dofAdded).sum ∧
      (r.links.map (·.parent)) <+: (r'.links.map (·.parent)) := by
  induction ops with
  | nil => intro r r' h _; cases h; exact ⟨rfl, rfl, List.prefix_rfl⟩
  | cons op ops ih =>
    intro r r' h hn
    unfold ModRobot.run at h
    split at h
    · cases h
    rename_i r1 hr1
    obtain ⟨a1, a2, a3⟩ := step_keeps hr1 (fun h => hn (.inl h))
    obtain ⟨b1, b2, b3⟩ := ih h (fun h => hn (.inr ⟨r1, hr1, h⟩))
    refine ⟨b1.trans a1, ?_, a3.trans b3⟩
    rw [b2, a2, List.map_cons, List.sum_cons]
    omega

theorem dofAdded_sum_eq_zero (ops : List ModOp) : (ops.map dofAdded).sum = 0 ↔ ops.countP isMovableAdd = 0 := by
  induction ops with
  | nil => simp
  | cons op ops ih =>
    rw [List.map_cons, List.sum_cons, List.countP_cons, Nat.add_eq_zero_iff, ih]
    cases op with
    | add p n k m => cases k <;> simp [dofAdded, isMovableAdd]
    | _ => simp [dofAdded, isMovableAdd]

/-! ### The checked computation -/

variable {o : RedObj} {t : IdxTable} {n : ℕ}

/-- The first `n` entries of the tables of `o` are those of `t`. -/
structure Agrees (o : RedObj) (t : IdxTable) (n : ℕ) : Prop where
  len : t.parent.length = n
  linkNum : o.linkNum = n
  tNum : t.linkNum = n
  links : n ≤ o.robot.links.length
  par : ∀ i, 0 < i → i < n → o.parentAt i = some (t.par i)
  jid : ∀ i, 0 < i → i < n → o.jointAt i = some (t.jid i)
  lt : ∀ i, 0 < i → i < n → t.par i < i

theorem Agrees.chain (h : Agrees o t n) (g : ℕ) : ∀ (f i : ℕ), i ≤ f → i ≤ g → i < n →
    o.chain f i = some ((t.walk g i).map fun k => (k, t.jid k)) := by
  induction g with
  | zero =>
    intro f i _ hg _
    have : i = 0 := by omega
    subst this
    cases f <;> simp [RedObj.chain, IdxTable.walk]
  | succ g ih =>
    intro f i hf hg hn
    by_cases h0 : i = 0
    · subst h0
      cases f <;> simp [RedObj.chain, IdxTable.walk]
    · obtain ⟨f, rfl⟩ : ∃ f', f = f' + 1 := ⟨f - 1, by omega⟩
      have hi : 0 < i := Nat.pos_of_ne_zero h0
      have hp := h.lt i hi hn
      simp only [RedObj.chain, IdxTable.walk, if_neg h0, h.jid i hi hn, h.par i hi hn,
        ih f (t.par i) (by omega) (by omega) (by omega), Option.map_some, List.map_cons]

theorem Agrees.chains (h : Agrees o t n) (cs : List ℕ) (hc : ∀ c ∈ cs, c < n) :
    o.chains cs = some ((cs.flatMap (t.walk t.parent.length)).map fun k => (k, t.jid k)) := by
  induction cs with
  | nil => rfl
  | cons c cs ih =>
    have hc' := hc c (List.mem_cons_self)
    have hl := h.links
    have hl2 := h.len
    simp only [RedObj.chains, h.chain t.parent.length o.robot.links.length c (by omega) (by omega) hc',
      ih (fun x hx => hc x (List.mem_cons_of_mem _ hx)), List.flatMap_cons, List.map_append]

theorem Agrees.otherWalk (h : Agrees o t n) (g : ℕ) : ∀ (f i : ℕ) (acc : List ℕ), i ≤ f → i ≤ g → i < n →
    o.otherWalk t.ncLinks f i acc = some (t.ncWalk g i acc) := by
  induction g with
  | zero =>
    intro f i acc _ hg _
    have : i = 0 := by omega
    subst this
    cases f <;> simp [RedObj.otherWalk, IdxTable.ncWalk]
  | succ g ih =>
    intro f i acc hf hg hn
    by_cases h0 : i = 0
    · subst h0
      cases f <;> simp [RedObj.otherWalk, IdxTable.ncWalk]
    · obtain ⟨f, rfl⟩ : ∃ f', f = f' + 1 := ⟨f - 1, by omega⟩
      have hi : 0 < i := Nat.pos_of_ne_zero h0
      have hp := h.lt i hi hn
      simp only [RedObj.otherWalk, IdxTable.ncWalk, if_neg h0, h.jid i hi hn, h.par i hi hn]
      split_ifs
      · rfl
      · rfl
      · exact ih f _ _ (by omega) (by omega) (by omega)
      · exact ih f _ _ (by omega) (by omega) (by omega)

theorem Agrees.otherWalks (h : Agrees o t n) (is : List ℕ) (hi : ∀ i ∈ is, i < n) : ∀ acc,
    o.otherWalks t.ncLinks is acc = some (is.foldl (fun acc i => t.ncWalk t.parent.length i acc) acc) := by
  induction is with
  | nil => intro acc; rfl
  | cons i is ih =>
    intro acc
    have hl := h.links
    have hl2 := h.len
    have hi' := hi i List.mem_cons_self
    simp only [RedObj.otherWalks, h.otherWalk t.parent.length o.robot.links.length i acc (by omega) (by omega) hi',
      List.foldl_cons]
    exact ih (fun x hx => hi x (List.mem_cons_of_mem _ hx)) _

theorem Agrees.split (h : Agrees o t n) (hc : ∀ c ∈ t.contacts, c < n) :
    o.split t.contacts = some (t.vcJoints, t.ncJoints) := by
  have e1 := h.chains t.contacts hc
  have e2 : o.others (((t.contacts.flatMap (t.walk t.parent.length)).map fun k => (k, t.jid k)).map (·.1)) =
      some t.ncLinks := by
    have : ((t.contacts.flatMap (t.walk t.parent.length)).map fun k => (k, t.jid k)).map (·.1) = t.coLinks := by
      rw [List.map_map]
      exact List.map_id _
    rw [this]
    unfold RedObj.others
    simp only
    rw [h.linkNum, ← h.tNum]
    refine if_pos ?_
    intro i hi
    have h1 := List.mem_range.mp (List.mem_filter.mp hi).1
    have h2 := h.tNum
    have h3 := h.links
    omega
  have hnc : ∀ i ∈ t.ncLinks, i < n := by
    intro i hi
    have := List.mem_range.mp (List.mem_filter.mp hi).1
    rw [h.tNum] at this
    exact this
  have e3 := h.otherWalks t.ncLinks hnc []
  unfold RedObj.split
  rw [e1]
  simp only
  rw [e2]
  simp only
  rw [e3]
  simp only
  unfold IdxTable.vcJoints IdxTable.coJoints IdxTable.ncJoints
  rw [List.map_map]
  rfl

/-! ### Accesses behind the end of the joint table -/

theorem chain_joint (f : ℕ) : ∀ {i : ℕ} {l : List (ℕ × ℕ)}, o.chain f i = some l → ∀ e ∈ l, e.1 < o.robot.joints.length := by
  induction f with
  | zero =>
    intro i l h
    unfold RedObj.chain at h
    split_ifs at h
    cases h
    simp
  | succ f ih =>
    intro i l h e he
    unfold RedObj.chain at h
    split_ifs at h
    · cases h; simp at he
    · split at h
      · rename_i j p hj hp
        obtain ⟨l', hl', rfl⟩ := Option.map_eq_some_iff.mp h
        rcases List.mem_cons.mp he with rfl | he
        · exact (List.getElem?_eq_some_iff.mp hj).1
        · exact ih hl' e he
      · cases h

theorem chain_start {f i : ℕ} {l : List (ℕ × ℕ)} (h : o.chain f i = some l) (h0 : i ≠ 0) : i < o.robot.joints.length := by
  cases f with
  | zero => simp [RedObj.chain, h0] at h
  | succ f =>
    unfold RedObj.chain at h
    rw [if_neg h0] at h
    split at h
    · rename_i j p hj hp
      exact (List.getElem?_eq_some_iff.mp hj).1
    · cases h

theorem chains_joint {cs : List ℕ} : ∀ {l : List (ℕ × ℕ)}, o.chains cs = some l →
    (∀ e ∈ l, e.1 < o.robot.joints.length) ∧ ∀ c ∈ cs, c = 0 ∨ c < o.robot.joints.length := by
  induction cs with
  | nil => intro l h; cases h; simp
  | cons c cs ih =>
    intro l h
    unfold RedObj.chains at h
    split at h
    · rename_i a b ha hb
      cases h
      obtain ⟨h1, h2⟩ := ih hb
      constructor
      · intro e he
        rcases List.mem_append.mp he with he | he
        · exact chain_joint _ ha e he
        · exact h1 e he
      · intro x hx
        rcases List.mem_cons.mp hx with rfl | hx
        · by_cases h0 : x = 0
          · exact .inl h0
          · exact .inr (chain_start ha h0)
        · exact h2 x hx
    · cases h

theorem otherWalk_start {nc acc l : List ℕ} {f i : ℕ} (h : o.otherWalk nc f i acc = some l) (h0 : i ≠ 0) :
    i < o.robot.joints.length := by
  cases f with
  | zero => simp [RedObj.otherWalk, h0] at h
  | succ f =>
    unfold RedObj.otherWalk at h
    rw [if_neg h0] at h
    split at h
    · rename_i j p hj hp
      exact (List.getElem?_eq_some_iff.mp hj).1
    · cases h

theorem otherWalks_start {nc is : List ℕ} : ∀ {acc l : List ℕ}, o.otherWalks nc is acc = some l → ∀ i ∈ is, i ≠ 0 →
    i < o.robot.joints.length := by
  induction is with
  | nil => intro acc l _ i hi; simp at hi
  | cons i is ih =>
    intro acc l h j hj h0
    unfold RedObj.otherWalks at h
    split at h
    · rename_i acc' ha
      rcases List.mem_cons.mp hj with rfl | hj
      · exact otherWalk_start ha h0
      · exact ih h j hj h0
    · cases h

/-- Every number below `link_num_` other than 0 and every contact link is used to read the joint table. -/
theorem split_reads {contacts : List ℕ} {x : List ℕ × List ℕ} (h : o.split contacts = some x) :
    (∀ i, 0 < i → i < o.linkNum → i < o.robot.joints.length) ∧ ∀ c ∈ contacts, c = 0 ∨ c < o.robot.joints.length := by
  unfold RedObj.split at h
  split at h
  · cases h
  rename_i co hco
  split at h
  · cases h
  rename_i nc hnc
  split at h
  · cases h
  rename_i js hjs
  obtain ⟨h1, h2⟩ := chains_joint hco
  refine ⟨fun i hi hl => ?_, h2⟩
  unfold RedObj.others at hnc
  simp only at hnc
  split_ifs at hnc
  cases hnc
  by_cases hm : i ∈ co.map (·.1)
  · obtain ⟨e, he, rfl⟩ := List.mem_map.mp hm
    exact h1 e he
  · refine otherWalks_start hjs i ?_ (by omega)
    rw [List.mem_filter]
    refine ⟨List.mem_range.mpr hl, ?_⟩
    simp only [List.mem_cons, not_or, decide_eq_true_eq]
    exact ⟨by omega, hm⟩

end Verif
