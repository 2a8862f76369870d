import Verif.Lemmas.ReducedMod
import Verif.Model.TaskKind
import Verif.Props.ReducedIdx
import Verif.Props.LinkMod

/-!
# C70: the reduced model after the robot was modified

`ReducedDynamicsCalculate` counts on `link_num_` and on the joint numbers noted when the robot was loaded.  No modification
updates them.  For a robot that is merely loaded the claim is C39; it survives a history of modifications exactly if none of
them took a link off or added one on a movable joint.
-/

set_option linter.unusedSectionVars false

namespace Verif.Props
open Verif Verif.Spec Verif.Model

variable {r : ModRobot ℕ} {o' : RedObj} {ops : List ModOp} {contacts : List ℕ}

theorem run_obj (h : (RedObj.load r).run ops = some o') : r.run ops = some o'.robot ∧ o'.linkNum = r.links.length := by
  obtain ⟨r', hr, rfl⟩ := Option.map_eq_some_iff.mp h
  exact ⟨hr, rfl⟩

/-- the modified robot's tables begin with those of the loaded one -/
theorem agrees_kept (hL : ((RedObj.load r).table contacts).Loaded) (h : (RedObj.load r).run ops = some o')
    (hk : ¬ RemovedIn r ops) : Agrees o' ((RedObj.load r).table contacts) r.links.length := by
  obtain ⟨hr, hn⟩ := run_obj h
  obtain ⟨h1, -, h3⟩ := run_keeps hr hk
  have hlen : ((RedObj.load r).table contacts).parent.length = r.links.length := by
    simp [RedObj.table, RedObj.load]
  have hjl : r.joints.length = r.links.length := by
    have := hL.joints
    rw [hlen] at this
    exact this
  refine ⟨hlen, hn, rfl, ?_, ?_, ?_, ?_⟩
  · have := h3.length_le
    simpa using this
  · intro i _ hi
    have e : (o'.robot.links.map (·.parent))[i]? = (r.links.map (·.parent))[i]? := by
      obtain ⟨s, hs⟩ := h3
      rw [← hs, List.getElem?_append_left (by simpa using hi)]
    unfold RedObj.parentAt IdxTable.par
    rw [← List.getElem?_map, e, List.getD_eq_getElem?_getD]
    have : i < (r.links.map (·.parent)).length := by simpa using hi
    simp only [RedObj.table, RedObj.load]
    rw [List.getElem?_eq_getElem this]
    rfl
  · intro i _ hi
    unfold RedObj.jointAt IdxTable.jid
    rw [h1, List.getD_eq_getElem?_getD]
    simp only [RedObj.table, RedObj.load]
    rw [List.getElem?_eq_getElem (by omega)]
    rfl
  · intro i h0 hi
    exact hL.parent_lt i h0 (by rw [hlen]; exact hi)

/-- C70, negation.  Once a link was taken off (deleted, or changed to a fixed joint), whatever else was done before or
afterwards and whatever contacts are active, computing the reduced model reads outside the tables.  (Every robot with at
least one link beside the base.) -/
theorem C70_removed_undefined (hj : r.joints.length = r.links.length) (h2 : 2 ≤ r.links.length)
    (h : (RedObj.load r).run ops = some o') (hr : RemovedIn r ops) : o'.split contacts = none := by
  obtain ⟨hrun, hn⟩ := run_obj h
  cases hs : o'.split contacts with
  | none => rfl
  | some x =>
    have h3 := (split_reads hs).1 (r.links.length - 1) (by omega) (by omega)
    have h4 := (run_joints hrun).2 hr
    omega

/-- C70, what is computed if no link was taken off: the lists of the robot as it was loaded, provided every contact is on one
of the links loaded then; with a contact on an added link the computation reads outside the joint table. -/
theorem C70_kept_partial (hL : ((RedObj.load r).table contacts).Loaded) (h : (RedObj.load r).run ops = some o')
    (hk : ¬ RemovedIn r ops) :
    o'.split contacts = ((RedObj.load r).table contacts).split ∧
      ∀ more : List ℕ, (∃ c ∈ more, r.links.length ≤ c) → o'.split more = none := by
  have ha := agrees_kept hL h hk
  have hlen := ha.len
  have hc : ∀ c ∈ contacts, c < r.links.length := by
    intro c hc
    have := hL.contacts_lt c hc
    omega
  constructor
  · refine (ha.split hc).trans ?_
    exact (if_pos ⟨hL.linkNum.le, hL.joints, hL.contacts_lt⟩).symm
  · rintro more ⟨c, hm, hcl⟩
    cases hs : o'.split more with
    | none => rfl
    | some x =>
      have h0 := hL.nonempty
      have hj := hL.joints
      have h3 := (split_reads hs).2 c hm
      rw [(run_keeps (run_obj h).1 hk).1] at h3
      simp only [RedObj.table, RedObj.load] at hj hlen h0
      omega

/-- C70, exactly when it holds.  For a loaded robot of the kind for which C39 holds, with at least one link beside the base:
after a history of modifications the reduced model splits the coordinates the robot has now if and only if no modification
took a link off or added one on a movable joint. -/
theorem C70_partition_iff (hL : ((RedObj.load r).table contacts).Loaded) (h2 : 2 ≤ r.links.length)
    (hdof : r.dofCount = r.links.length + 5)
    (hA : ChainsApart ((RedObj.load r).table contacts).par contacts)
    (hF : OthersHangFree ((RedObj.load r).table contacts).par contacts r.links.length)
    (h : (RedObj.load r).run ops = some o') :
    (∃ vc nc, o'.split contacts = some (vc, nc) ∧ Partitions o'.robot.dofCount [vc, nc]) ↔
      ¬ RemovedIn r ops ∧ ops.countP isMovableAdd = 0 := by
  have hlen : ((RedObj.load r).table contacts).parent.length = r.links.length := by
    simp [RedObj.table, RedObj.load]
  have hj : r.joints.length = r.links.length := by
    have := hL.joints
    rw [hlen] at this
    exact this
  obtain ⟨vc0, nc0, hs0, hp0, -⟩ := C39_partition_partial hL hA (by rw [hlen]; exact hF)
  rw [hlen] at hp0
  constructor
  · rintro ⟨vc, nc, hs, hp⟩
    have hk : ¬ RemovedIn r ops := by
      intro hr
      rw [C70_removed_undefined hj h2 h hr] at hs
      cases hs
    refine ⟨hk, ?_⟩
    rw [(C70_kept_partial hL h hk).1, hs0] at hs
    obtain ⟨rfl, rfl⟩ := Prod.mk.inj (Option.some.inj hs)
    have e1 := hp.length_eq
    have e2 := hp0.length_eq
    rw [List.length_range] at e1 e2
    have e3 := (run_keeps (run_obj h).1 hk).2.1
    rw [← dofAdded_sum_eq_zero]
    omega
  · rintro ⟨hk, hm⟩
    refine ⟨vc0, nc0, (C70_kept_partial hL h hk).1.trans hs0, ?_⟩
    have e3 := (run_keeps (run_obj h).1 hk).2.1
    rw [(dofAdded_sum_eq_zero ops).mpr hm] at e3
    rw [e3, hdof]
    exact hp0

/-- C70, negation, spelled out: after links were added on movable joints none of the new coordinates is in either list. -/
theorem C70_added_missing (hL : ((RedObj.load r).table contacts).Loaded) (hdof : r.dofCount = r.links.length + 5)
    (h : (RedObj.load r).run ops = some o') (hk : ¬ RemovedIn r ops) {vc nc : List ℕ}
    (hs : o'.split contacts = some (vc, nc)) {k : ℕ} (hk1 : r.dofCount ≤ k) : k ∉ vc ∧ k ∉ nc := by
  rw [(C70_kept_partial hL h hk).1] at hs
  have e : ((RedObj.load r).table contacts).split = some (((RedObj.load r).table contacts).vcJoints,
    ((RedObj.load r).table contacts).ncJoints) := if_pos ⟨hL.linkNum.le, hL.joints, hL.contacts_lt⟩
  rw [e] at hs
  obtain ⟨rfl, rfl⟩ := Prod.mk.inj (Option.some.inj hs)
  have hlen : ((RedObj.load r).table contacts).parent.length = r.links.length := by
    simp [RedObj.table, RedObj.load]
  have h0 := hL.nonempty
  generalize (RedObj.load r).table contacts = t at hL hlen h0
  constructor
  · intro hm
    unfold IdxTable.vcJoints at hm
    rcases List.mem_append.mp hm with hm | hm
    · have := List.mem_range.mp hm; omega
    · rw [(coJoints_perm t).mem_iff] at hm
      obtain ⟨i, hi, rfl⟩ := List.mem_map.mp hm
      obtain ⟨h1, h2⟩ := hL.coLinks_range hi
      have := hL.jid_lt i h1 h2
      omega
  · intro hm
    rw [(ncJoints_perm t).mem_iff] at hm
    have hwalk : ∀ (fuel i : ℕ) (acc : List ℕ), i < t.parent.length → (∀ x ∈ acc, x < t.parent.length + 5) →
        ∀ x ∈ t.ncWalk fuel i acc, x < t.parent.length + 5 := by
      intro fuel
      induction fuel with
      | zero => intro i acc _ ha; exact ha
      | succ fuel ih =>
        intro i acc hi ha
        unfold IdxTable.ncWalk
        split_ifs with h1 h2 h3 h3
        · exact ha
        · exact ha
        · exact ih _ _ (by have := hL.parent_lt i (by omega) hi; omega) ha
        · intro x hx
          rcases List.mem_append.mp hx with hx | hx
          · exact ha x hx
          · rw [List.mem_singleton.mp hx]; exact hL.jid_lt i (by omega) hi
        · refine ih _ _ (by have := hL.parent_lt i (by omega) hi; omega) ?_
          intro x hx
          rcases List.mem_append.mp hx with hx | hx
          · exact ha x hx
          · rw [List.mem_singleton.mp hx]; exact hL.jid_lt i (by omega) hi
    have hfold : ∀ (l acc : List ℕ), (∀ i ∈ l, i < t.parent.length) → (∀ x ∈ acc, x < t.parent.length + 5) →
        ∀ x ∈ ncFold t l acc, x < t.parent.length + 5 := by
      intro l
      induction l with
      | nil => intro acc _ ha; exact ha
      | cons i l ih =>
        intro acc hi ha
        exact ih _ (fun j hj => hi j (List.mem_cons_of_mem _ hj)) (hwalk _ i acc (hi i List.mem_cons_self) ha)
    have := hfold t.ncLinks [] (fun i hi => (hL.mem_ncLinks.mp hi).2.1) (by simp) k hm
    omega

/-- C70, the classification of tasks.  After links were added on movable joints (and none taken off) a task on the centre of
mass is no longer recognised as such but taken for a task of the free joints, while a task on the first added link is taken
for one on the centre of mass.  (`links.length` is the number of the "COM" entry.) -/
theorem C70_com_task (h : (RedObj.load r).run ops = some o') (hk : ¬ RemovedIn r ops)
    (hj : r.joints.length = r.links.length) (hm : 0 < ops.countP isMovableAdd) (t : IdxTable) (ht : t.linkNum = o'.linkNum)
    (hco : ∀ x ∈ t.coLinks, x < r.links.length) (h0 : 0 < r.links.length) (n : ℕ) :
    (classifyOne t n .fresh (.links [o'.robot.links.length])).1 = ⟨false, false, true, n⟩ ∧
      (classifyOne t n .fresh (.links [r.links.length])).1 = ⟨true, false, false, 0⟩ := by
  obtain ⟨hrun, hn⟩ := run_obj h
  have h1 := run_lengths hrun
  have h2 := (run_keeps hrun hk).1
  rw [h2] at h1
  have hlt : r.links.length < o'.robot.links.length := by omega
  constructor
  · have e1 : o'.robot.links.length ≠ t.linkNum := by omega
    have e2 : o'.robot.links.length ∉ 0 :: t.coLinks := by
      rw [List.mem_cons]
      rintro (h | h)
      · omega
      · have := hco _ h; omega
    simp only [classifyOne, List.foldl_cons, List.foldl_nil, visitLink]
    rw [if_neg e1, if_neg e2]
    rfl
  · have e1 : r.links.length = t.linkNum := by omega
    simp only [classifyOne, List.foldl_cons, List.foldl_nil, visitLink]
    rw [if_pos e1]
    rfl

/-! ### Loading another robot into the same object -/

variable {o : RedObj} {fresh : ModRobot ℕ}

theorem agrees_reload (hp : ∀ i, 0 < i → i < fresh.links.length → ((o.reload fresh).table contacts).par i < i)
    (hj : fresh.joints.length = fresh.links.length) :
    Agrees (o.reload fresh) ((o.reload fresh).table contacts) fresh.links.length := by
  refine ⟨by simp [RedObj.table, RedObj.reload, Model.reload], rfl, rfl, le_rfl, ?_, ?_, hp⟩
  · intro i _ hi
    unfold RedObj.parentAt IdxTable.par
    rw [List.getD_eq_getElem?_getD]
    simp only [RedObj.table, RedObj.reload, Model.reload, List.getElem?_map]
    rw [List.getElem?_eq_getElem hi]
    rfl
  · intro i _ hi
    have : i < (o.robot.joints ++ fresh.joints).length := by rw [List.length_append]; omega
    unfold RedObj.jointAt IdxTable.jid
    rw [List.getD_eq_getElem?_getD]
    simp only [RedObj.table, RedObj.reload, Model.reload]
    rw [List.getElem?_eq_getElem this]
    rfl

/-- C70 for loading a robot into an object that held one with at least as many links whose joints had the same numbers: the
result is that of a new object.  Missing: robots with more links, see `C70_reload_wrong`. -/
theorem C70_reload_partial (hL : ((RedObj.load fresh).table contacts).Loaded)
    (hn : ∀ i < fresh.links.length, o.robot.joints[i]? = fresh.joints[i]?) :
    (o.reload fresh).split contacts = (RedObj.load fresh).split contacts := by
  have hlen : ((RedObj.load fresh).table contacts).parent.length = fresh.links.length := by
    simp [RedObj.table, RedObj.load]
  have hj : fresh.joints.length = fresh.links.length := by
    have := hL.joints
    rw [hlen] at this
    exact this
  have hc : ∀ c ∈ contacts, c < fresh.links.length := by
    intro c hc
    have := hL.contacts_lt c hc
    omega
  have ha := agrees_kept (ops := []) (o' := RedObj.load fresh) hL rfl (fun h => h)
  have hb : Agrees (o.reload fresh) ((RedObj.load fresh).table contacts) fresh.links.length := by
    refine ⟨hlen, rfl, rfl, le_rfl, ha.par, ?_, ha.lt⟩
    intro i h0 hi
    rw [← ha.jid i h0 hi]
    unfold RedObj.jointAt
    have : i < o.robot.joints.length := by
      by_contra hcon
      have := hn i hi
      rw [List.getElem?_eq_none (by omega), List.getElem?_eq_getElem (by omega)] at this
      cases this
    simp only [RedObj.reload, Model.reload, RedObj.load]
    rw [List.getElem?_append_left this, hn i hi]
  exact (hb.split hc).trans (ha.split hc).symm

/-- C70, negation.  If the robot loaded second has more links than the object had joint records, the reduced model never
partitions the coordinates: the first link behind the old records gets the joint number of the new base. -/
theorem C70_reload_wrong {b : ℕ} (hp : ∀ i, 0 < i → i < fresh.links.length → ((o.reload fresh).table contacts).par i < i)
    (hj : fresh.joints.length = fresh.links.length) (hb : fresh.joints[0]? = some b) (hb6 : b < 6)
    (ho : 0 < o.robot.joints.length) (hl : o.robot.joints.length < fresh.links.length)
    (hc : ∀ c ∈ contacts, c < fresh.links.length) :
    ∃ vc nc, (o.reload fresh).split contacts = some (vc, nc) ∧ ∀ n, ¬ Partitions n [vc, nc] := by
  have ha := agrees_reload (contacts := contacts) hp hj
  refine ⟨_, _, ha.split hc, ?_⟩
  intro n hpart
  have hjid : ((o.reload fresh).table contacts).jid o.robot.joints.length = b := by
    unfold IdxTable.jid
    rw [List.getD_eq_getElem?_getD]
    simp only [RedObj.table, RedObj.reload, Model.reload]
    rw [List.getElem?_append_right le_rfl, Nat.sub_self, hb]
    rfl
  have hlen := ha.len
  have hnum := ha.tNum
  generalize (o.reload fresh).table contacts = t at *
  have hnd : (t.vcJoints ++ t.ncJoints).Nodup := by
    have := hpart.nodup_iff.mpr List.nodup_range
    simpa using this
  have hbr : b ∈ List.range 6 := List.mem_range.mpr hb6
  unfold IdxTable.vcJoints at hnd
  rw [List.append_assoc, List.nodup_append] at hnd
  refine hnd.2.2 b hbr b ?_ rfl
  by_cases hco : o.robot.joints.length ∈ t.coLinks
  · refine List.mem_append_left _ ((coJoints_perm t).mem_iff.mpr ?_)
    exact List.mem_map.mpr ⟨_, hco, hjid⟩
  · refine List.mem_append_right _ ((ncJoints_perm t).mem_iff.mpr ?_)
    refine ncFold_mem t.ncLinks (i := o.robot.joints.length) ?_ ?_ []
    · unfold IdxTable.ncLinks
      rw [List.mem_filter]
      refine ⟨List.mem_range.mpr (by omega), ?_⟩
      simp only [List.mem_cons, not_or, decide_eq_true_eq]
      exact ⟨by omega, hco⟩
    · intro acc
      rw [← hjid]
      exact ncWalk_self acc (by omega) (by omega)

/-! ### A robot with a torso, an arm with a hand, and a leg in contact -/

/-- `exMod` with the joint numbers it gets when loaded. -/
def exRedMod : ModRobot ℕ := { exMod with joints := [3, 6, 7, 8] }

theorem exRedMod_loaded : ((RedObj.load exRedMod).table [3]).Loaded := by
  refine ⟨by decide, by decide, by decide, ?_, ?_, ?_, ?_, by decide⟩
  · intro i h0 hi
    change i < 4 at hi
    interval_cases i <;> decide
  · intro i h0 hi
    change i < 4 at hi
    interval_cases i <;> decide
  · intro i h0 hi
    change i < 4 at hi
    interval_cases i <;> decide
  · intro i j h0 hi h0' hj
    change i < 4 at hi
    change j < 4 at hj
    interval_cases i <;> interval_cases j <;> decide

theorem exRedMod_chain {i x : ℕ} (h : OnChain ((RedObj.load exRedMod).table [3]).par i x) (hi : i = 3) : x = 3 := by
  subst hi
  cases h with
  | self _ => rfl
  | up _ h => exact absurd rfl (onChain_start_ne_zero h)

/-- The hypotheses of `C70_partition_iff`, `C70_kept_partial`, `C70_added_missing` and `C70_com_task` are met, and both sides
of the equivalence occur: a payload on a fixed joint keeps the claim, a gripper on a revolute joint breaks it. -/
example : ((RedObj.load exRedMod).table [3]).Loaded ∧ 2 ≤ exRedMod.links.length ∧
    exRedMod.dofCount = exRedMod.links.length + 5 ∧
    ChainsApart ((RedObj.load exRedMod).table [3]).par [3] ∧
    OthersHangFree ((RedObj.load exRedMod).table [3]).par [3] exRedMod.links.length ∧
    (∃ o', (RedObj.load exRedMod).run [.add 0 "payload" .fixed 1] = some o' ∧
      ∃ vc nc, o'.split [3] = some (vc, nc) ∧ Partitions o'.robot.dofCount [vc, nc]) ∧
    (∃ o', (RedObj.load exRedMod).run [.add 2 "gripper" .revolute 3] = some o' ∧
      ¬ ∃ vc nc, o'.split [3] = some (vc, nc) ∧ Partitions o'.robot.dofCount [vc, nc]) := by
  have hA : ChainsApart ((RedObj.load exRedMod).table [3]).par [3] := by simp [ChainsApart]
  have hF : OthersHangFree ((RedObj.load exRedMod).table [3]).par [3] exRedMod.links.length := by
    rintro i h0 hi - ⟨c, hc, hx⟩
    have hc3 : c = 3 := by simpa using hc
    have h3 := exRedMod_chain hx hc3
    have h4 : exRedMod.links.length = 4 := rfl
    have hp := exRedMod_loaded.parent_lt i h0 (by simpa [RedObj.table, RedObj.load] using hi)
    omega
  refine ⟨exRedMod_loaded, by decide, rfl, hA, hF, ⟨_, rfl, ?_⟩, ⟨_, rfl, ?_⟩⟩
  · refine (C70_partition_iff (ops := [.add 0 "payload" .fixed 1]) exRedMod_loaded (by decide) rfl hA hF rfl).mpr
      ⟨?_, by decide⟩
    rintro (h | ⟨_, _, h⟩)
    · exact h
    · exact h
  · intro hp
    have := ((C70_partition_iff (ops := [.add 2 "gripper" .revolute 3]) exRedMod_loaded (by decide) rfl hA hF rfl).mp hp).2
    revert this
    decide

/-- The hypotheses of `C70_removed_undefined` are met: the hand is deleted and the reduced model cannot be computed any more,
although the contact chain is untouched. -/
example : ∃ o', (RedObj.load exRedMod).run [.delete "Hand"] = some o' ∧ o'.split [3] = none := by
  obtain ⟨r', h, -⟩ := C36_references_partial (r := exRedMod) (name := "Hand") (d := 2) exLinks_ok
    ⟨exMod_sync.name, exMod_sync.body⟩ rfl exMod_find rfl (by simp [exRedMod, exMod])
  have hrun : (RedObj.load exRedMod).run [.delete "Hand"] = some ⟨r', 4⟩ := by
    simp only [RedObj.run, RedObj.load, ModRobot.run, ModRobot.step, h, Option.map_some]
    rfl
  refine ⟨_, hrun, C70_removed_undefined (r := exRedMod) rfl (by decide) hrun (.inl ?_)⟩
  show (exRedMod.find "Hand").isSome
  have : exRedMod.find "Hand" = exMod.find "Hand" := rfl
  rw [this, exMod_find]
  rfl

/-- The hypotheses of `C70_reload_wrong` and `C70_reload_partial` are met: the object held a robot with two links; or the same
robot. -/
example : (∃ vc nc, ((RedObj.mk { exRedMod with joints := [3, 6] } 2).reload exRedMod).split [3] = some (vc, nc) ∧
      ∀ n, ¬ Partitions n [vc, nc]) ∧
    ((RedObj.load exRedMod).reload exRedMod).split [3] = (RedObj.load exRedMod).split [3] :=
  ⟨C70_reload_wrong (b := 3) exRedMod_loaded.parent_lt rfl rfl (by decide) (by decide) (by decide) (by decide),
    C70_reload_partial exRedMod_loaded (fun _ _ => rfl)⟩

end Verif.Props
