import Verif.Lemmas.ReducedIdx

/-!
# C39: the reduced model partitions the joints

The property holds exactly for the trees and contact sets in which the contact chains meet in the base only and no other
link hangs on a contact chain.
-/

namespace Verif.Props
open Verif Verif.Spec Verif.Model

variable {t : IdxTable}

/-- C39 (count).  For every loaded model the dof counts add up to the system dof (`links + 5`) exactly when the contact
chains meet in the base only and no other link hangs on a contact chain; otherwise the sum is too large. -/
theorem C39_count_iff (h : t.Loaded) :
    ∃ vc nc, t.split = some (vc, nc) ∧ t.parent.length + 5 ≤ vc.length + nc.length ∧
      (vc.length + nc.length = t.parent.length + 5 ↔
        ChainsApart t.par t.contacts ∧ OthersHangFree t.par t.contacts t.parent.length) := by
  refine ⟨t.vcJoints, t.ncJoints, if_pos ⟨h.linkNum.le, h.joints, h.contacts_lt⟩, ?_⟩
  have hc := h.links_count
  have h1 := coLinks_card_le t
  have h2 := h.ncJoints_length_le
  have hv : t.vcJoints.length = 6 + t.coJoints.length := by
    simp [IdxTable.vcJoints]
  refine ⟨by omega, ?_, ?_⟩
  · intro he
    refine ⟨h.coLinks_nodup.mp ((coLinks_card_eq t).mp (by omega)), ?_⟩
    by_contra hf
    have := (h.ncJoints_not_free hf).1
    omega
  · rintro ⟨ha, hf⟩
    have e1 := (coLinks_card_eq t).mpr (h.coLinks_nodup.mpr ha)
    have e2 := (h.ncJoints_free hf).length_eq
    rw [List.length_map] at e2
    omega

/-- C39 for the trees of `C39_count_iff`: the two index lists partition the degrees of freedom.  Missing: contact chains
with a common non-base link, and links that hang on a contact chain; there the claim is false (`C39_shared_chain`,
`C39_hanging_link`). -/
theorem C39_partition_partial (h : t.Loaded) (ha : ChainsApart t.par t.contacts)
    (hf : OthersHangFree t.par t.contacts t.parent.length) :
    ∃ vc nc, t.split = some (vc, nc) ∧ Partitions (t.parent.length + 5) [vc, nc] ∧
      (∀ x, 0 < x → x < t.parent.length → (t.jid x ∈ vc ↔ IsContactLink t.par t.contacts x)) := by
  refine ⟨t.vcJoints, t.ncJoints, if_pos ⟨h.linkNum.le, h.joints, h.contacts_lt⟩, ?_, ?_⟩
  · unfold Partitions
    simp only [List.flatten_cons, List.flatten_nil, List.append_nil]
    have hp : (t.vcJoints ++ t.ncJoints).Perm (List.range 6 ++ (t.coLinks ++ t.ncLinks).map t.jid) := by
      unfold IdxTable.vcJoints
      rw [List.append_assoc, List.map_append]
      exact ((coJoints_perm t).append (h.ncJoints_free hf)).append_left _
    have hrange : ∀ i ∈ t.coLinks ++ t.ncLinks, 0 < i ∧ i < t.parent.length := by
      intro i hi
      rcases List.mem_append.mp hi with hi | hi
      · exact h.coLinks_range hi
      · exact ⟨(h.mem_ncLinks.mp hi).1, (h.mem_ncLinks.mp hi).2.1⟩
    have hnd : (t.coLinks ++ t.ncLinks).Nodup := by
      refine List.nodup_append.mpr ⟨h.coLinks_nodup.mpr ha, ncLinks_nodup t, ?_⟩
      rintro a hx b hx' rfl
      exact (h.mem_ncLinks.mp hx').2.2 (h.mem_coLinks.mp hx)
    have hnd2 : (List.range 6 ++ (t.coLinks ++ t.ncLinks).map t.jid).Nodup := by
      refine List.nodup_append.mpr ⟨List.nodup_range, h.jid_injOn hrange hnd, ?_⟩
      rintro a hx b hx' rfl
      rw [List.mem_range] at hx
      obtain ⟨i, hi, rfl⟩ := List.mem_map.mp hx'
      have := h.jid_ge i (hrange i hi).1 (hrange i hi).2
      omega
    have hlen : (List.range 6 ++ (t.coLinks ++ t.ncLinks).map t.jid).length = t.parent.length + 5 := by
      have := h.links_count
      have e1 := (coLinks_card_eq t).mpr (h.coLinks_nodup.mpr ha)
      rw [(coJoints_perm t).length_eq, List.length_map] at e1
      simp
      omega
    have hsub : (List.range 6 ++ (t.coLinks ++ t.ncLinks).map t.jid).Subperm (List.range (t.parent.length + 5)) :=
      List.subperm_of_subset hnd2 (by
        intro x hx
        rw [List.mem_range]
        rcases List.mem_append.mp hx with hx | hx
        · rw [List.mem_range] at hx; have := h.nonempty; omega
        · obtain ⟨i, hi, rfl⟩ := List.mem_map.mp hx
          exact h.jid_lt i (hrange i hi).1 (hrange i hi).2)
    exact hp.trans (hsub.perm_of_length_le (by rw [hlen, List.length_range]))
  · intro x hx0 hxl
    unfold IdxTable.vcJoints
    rw [List.mem_append, (coJoints_perm t).mem_iff, List.mem_range, List.mem_map, ← h.mem_coLinks]
    constructor
    · rintro (hlt | ⟨y, hy, e⟩)
      · have := h.jid_ge x hx0 hxl; omega
      · obtain ⟨hy0, hyl⟩ := h.coLinks_range hy
        rw [← h.jid_inj y x hy0 hyl hx0 hxl e]
        exact hy
    · exact fun hx => Or.inr ⟨x, hx, rfl⟩

/-- C39 fails: two contacts whose chains share a non-base link enter its joint twice. -/
theorem C39_shared_chain (h : t.Loaded) {a b x : ℕ} (hab : [a, b].Sublist t.contacts)
    (ha : OnChain t.par a x) (hb : OnChain t.par b x) :
    2 ≤ t.vcJoints.count (t.jid x) ∧ t.parent.length + 5 < t.vcJoints.length + t.ncJoints.length := by
  have hsub : ∀ c, OnChain t.par c x → c ∈ t.contacts → 1 ≤ (t.walk t.parent.length c).count x := by
    intro c hc hm
    have hl := h.contacts_lt c hm
    exact List.one_le_count_iff.mpr ((h.mem_walk _ hl.le hl).mpr hc)
  have hcount : 2 ≤ t.coLinks.count x := by
    unfold IdxTable.coLinks
    have hs : ([a, b].flatMap (t.walk t.parent.length)).Sublist (t.contacts.flatMap (t.walk t.parent.length)) :=
      hab.flatMap _
    have := hs.count_le x
    have h1 := hsub a ha (hab.subset (by simp))
    have h2 := hsub b hb (hab.subset (by simp))
    simp only [List.flatMap_cons, List.flatMap_nil, List.append_nil, List.count_append] at this
    omega
  constructor
  · unfold IdxTable.vcJoints
    rw [List.count_append, (coJoints_perm t).count_eq]
    have := List.count_le_count_map (l := t.coLinks) (f := t.jid) (x := x)
    omega
  · obtain ⟨vc, nc, hs, hle, hiff⟩ := C39_count_iff h
    have hs' : t.split = some (t.vcJoints, t.ncJoints) := if_pos ⟨h.linkNum.le, h.joints, h.contacts_lt⟩
    rw [hs'] at hs
    obtain ⟨rfl, rfl⟩ := Prod.mk.inj (Option.some.inj hs)
    refine lt_of_le_of_ne hle fun e => ?_
    have hn := h.coLinks_nodup.mpr (hiff.mp e.symm).1
    have := List.nodup_iff_count_le_one.mp hn x
    omega

/-- C39 fails: if a link outside the contact chains hangs on a contact chain, some joint is in both lists. -/
theorem C39_hanging_link (h : t.Loaded) {i : ℕ} (h0 : 0 < i) (hl : i < t.parent.length)
    (hn : ¬ IsContactLink t.par t.contacts i) (hp : IsContactLink t.par t.contacts (t.par i)) :
    ∃ j, j ∈ t.vcJoints ∧ j ∈ t.ncJoints := by
  obtain ⟨-, j, h1, h2⟩ := h.ncJoints_not_free (fun hf => hf i h0 hl hn hp)
  exact ⟨j, List.mem_append_right _ h2, h1⟩

/-! ### Examples -/

/-- two legs of two links and an arm: base 0, left 1-2, right 3-4, arm 5 -/
def legged (contacts : List ℕ) : IdxTable :=
  { parent := [0, 0, 1, 0, 3, 0], jointId := [3, 6, 7, 8, 9, 10], linkNum := 6, contacts := contacts }

theorem legged_loaded {contacts : List ℕ} (hc : ∀ c ∈ contacts, c < 6) : (legged contacts).Loaded := by
  refine ⟨Nat.succ_pos 5, rfl, rfl, ?_, ?_, ?_, ?_, hc⟩
  · intro i _ hi
    change i < 6 at hi
    have : ∀ i : ℕ, i < 6 → 0 < i → [0, 0, 1, 0, 3, 0].getD i 0 < i := by decide
    exact this i hi ‹_›
  · intro i _ hi
    have : ∀ i : ℕ, i < 6 → 0 < i → 6 ≤ [3, 6, 7, 8, 9, 10].getD i 0 := by decide
    exact this i hi ‹_›
  · intro i _ hi
    have : ∀ i : ℕ, i < 6 → 0 < i → [3, 6, 7, 8, 9, 10].getD i 0 < 11 := by decide
    exact this i hi ‹_›
  · intro i j h1 h2 h3 h4
    have : ∀ i : ℕ, i < 6 → ∀ j : ℕ, j < 6 → 0 < i → 0 < j →
        [3, 6, 7, 8, 9, 10].getD i 0 = [3, 6, 7, 8, 9, 10].getD j 0 → i = j := by decide
    exact this i h2 j h4 h1 h3

/-- both feet down: vc = base and leg joints, nc = the arm joint -/
example : (legged [2, 4]).Loaded ∧ (legged [2, 4]).coLinks.Nodup ∧ (legged [2, 4]).vcJoints = [0, 1, 2, 3, 4, 5, 6, 7, 8, 9] ∧
    (legged [2, 4]).ncJoints = [10] := by
  refine ⟨legged_loaded (by decide), by decide, by decide, by decide⟩

/-- the hypotheses of `C39_partition_partial` hold there -/
example : ∃ vc nc, (legged [2, 4]).split = some (vc, nc) ∧ Partitions 11 [vc, nc] := by
  have h := legged_loaded (contacts := [2, 4]) (by decide)
  obtain ⟨vc, nc, h1, h2, -⟩ := C39_partition_partial h (h.coLinks_nodup.mp (by decide)) (by
    intro i h0 hi hn
    rw [← h.mem_coLinks] at hn ⊢
    have : ∀ i : ℕ, i < 6 → i ∉ (legged [2, 4]).coLinks → (legged [2, 4]).par i ∉ (legged [2, 4]).coLinks := by decide
    exact this i hi hn)
  exact ⟨vc, nc, h1, h2⟩

/-- C39 fails after `AddLink`: `link_num_` keeps its old value (5 here), and the joint of the new link (10) is in neither
list although the model has it. -/
theorem C39_added_link_missing :
    let t : IdxTable := { legged [2, 4] with linkNum := 5 }
    ∃ vc nc, t.split = some (vc, nc) ∧ t.jid 5 = 10 ∧ 10 ∉ vc ∧ 10 ∉ nc :=
  ⟨[0, 1, 2, 3, 4, 5, 6, 7, 8, 9], [], by decide, by decide, by decide, by decide⟩

/-- a contact on the knee link 1 and one on the foot 2 of the same leg: joint 6 is entered twice -/
example : ((legged [1, 2]).vcJoints).count 6 = 2 := by decide

/-- a contact on the knee only: the foot hangs on the chain, and joint 6 is in both lists -/
example : (legged [1]).vcJoints = [0, 1, 2, 3, 4, 5, 6] ∧ (legged [1]).ncJoints = [6, 7, 8, 9, 10] := by decide

end Verif.Props
