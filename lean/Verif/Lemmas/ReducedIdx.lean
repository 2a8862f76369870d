import Verif.Model.ReducedIdx
import Verif.Spec.ReducedIdx
import Mathlib.Data.Finset.Card
import Mathlib.Order.Interval.Finset.Nat
import Mathlib.Data.List.Nodup
import Mathlib.Data.List.Perm.Basic

/-! # Helper lemmas for the reduced-model index computation -/

namespace Verif
open Verif.Spec Verif.Model

variable {t : IdxTable}

theorem onChain_ne_zero {par : ℕ → ℕ} {i x : ℕ} (h : OnChain par i x) : x ≠ 0 := by
  induction h with
  | self h => exact h
  | up _ _ ih => exact ih

theorem onChain_start_ne_zero {par : ℕ → ℕ} {i x : ℕ} (h : OnChain par i x) : i ≠ 0 := by
  cases h <;> assumption

theorem onChain_trans {par : ℕ → ℕ} {i x y : ℕ} (h : OnChain par i x) (h' : OnChain par x y) : OnChain par i y := by
  induction h with
  | self _ => exact h'
  | up hi _ ih => exact .up hi (ih h')

theorem Model.IdxTable.Loaded.le_of_onChain (h : t.Loaded) {i x : ℕ} (hc : OnChain t.par i x)
    (hi : i < t.parent.length) : x ≤ i := by
  induction hc with
  | self _ => exact le_rfl
  | @up i x h0 _ ih =>
    have := h.parent_lt i (Nat.pos_of_ne_zero h0) hi
    have := ih (by omega)
    omega

theorem Model.IdxTable.Loaded.mem_walk (h : t.Loaded) (fuel : ℕ) : ∀ {i : ℕ}, i ≤ fuel → i < t.parent.length →
    ∀ {x : ℕ}, x ∈ t.walk fuel i ↔ OnChain t.par i x := by
  induction fuel with
  | zero =>
    intro i hi _ x
    have : i = 0 := by omega
    subst this
    simp only [IdxTable.walk, List.not_mem_nil, false_iff]
    intro hc; exact onChain_start_ne_zero hc rfl
  | succ fuel ih =>
    intro i hi hl x
    simp only [IdxTable.walk]
    by_cases h0 : i = 0
    · rw [if_pos h0]
      simp only [List.not_mem_nil, false_iff]
      intro hc; exact onChain_start_ne_zero hc h0
    · rw [if_neg h0]
      have hp := h.parent_lt i (Nat.pos_of_ne_zero h0) hl
      rw [List.mem_cons, ih (by omega) (by omega)]
      constructor
      · rintro (rfl | hc)
        · exact .self h0
        · exact .up h0 hc
      · intro hc
        cases hc with
        | self _ => exact Or.inl rfl
        | up _ hc => exact Or.inr hc

theorem Model.IdxTable.Loaded.walk_nodup (h : t.Loaded) (fuel : ℕ) : ∀ {i : ℕ}, i ≤ fuel → i < t.parent.length →
    (t.walk fuel i).Nodup := by
  induction fuel with
  | zero => intro i _ _; simp [IdxTable.walk]
  | succ fuel ih =>
    intro i hi hl
    simp only [IdxTable.walk]
    by_cases h0 : i = 0
    · rw [if_pos h0]; exact List.nodup_nil
    · rw [if_neg h0]
      have hp := h.parent_lt i (Nat.pos_of_ne_zero h0) hl
      rw [List.nodup_cons]
      refine ⟨fun hm => ?_, ih (by omega) (by omega)⟩
      rw [h.mem_walk fuel (by omega) (by omega)] at hm
      have := h.le_of_onChain hm (by omega)
      omega

theorem Model.IdxTable.Loaded.mem_coLinks (h : t.Loaded) {x : ℕ} :
    x ∈ t.coLinks ↔ IsContactLink t.par t.contacts x := by
  simp only [IdxTable.coLinks, List.mem_flatMap, IsContactLink]
  constructor
  · rintro ⟨c, hc, hx⟩
    have hl := h.contacts_lt c hc
    exact ⟨c, hc, (h.mem_walk _ hl.le hl).mp hx⟩
  · rintro ⟨c, hc, hx⟩
    have hl := h.contacts_lt c hc
    exact ⟨c, hc, (h.mem_walk _ hl.le hl).mpr hx⟩

theorem Model.IdxTable.Loaded.coLinks_nodup (h : t.Loaded) :
    t.coLinks.Nodup ↔ ChainsApart t.par t.contacts := by
  unfold IdxTable.coLinks ChainsApart
  rw [List.nodup_flatMap]
  have h1 : ∀ c ∈ t.contacts, (t.walk t.parent.length c).Nodup := fun c hc =>
    h.walk_nodup _ (h.contacts_lt c hc).le (h.contacts_lt c hc)
  rw [and_iff_right h1]
  constructor
  · intro hp
    refine List.Pairwise.imp_of_mem ?_ hp
    intro a b ha hb hd x hx hx'
    exact hd ((h.mem_walk _ (h.contacts_lt a ha).le (h.contacts_lt a ha)).mpr hx)
      ((h.mem_walk _ (h.contacts_lt b hb).le (h.contacts_lt b hb)).mpr hx')
  · intro hp
    refine List.Pairwise.imp_of_mem ?_ hp
    intro a b ha hb hd x hx hx'
    exact hd x ((h.mem_walk _ (h.contacts_lt a ha).le (h.contacts_lt a ha)).mp hx)
      ((h.mem_walk _ (h.contacts_lt b hb).le (h.contacts_lt b hb)).mp hx')

theorem Model.IdxTable.Loaded.coLinks_range (h : t.Loaded) {x : ℕ} (hx : x ∈ t.coLinks) :
    0 < x ∧ x < t.parent.length := by
  rw [h.mem_coLinks] at hx
  obtain ⟨c, hc, hx⟩ := hx
  have := h.le_of_onChain hx (h.contacts_lt c hc)
  have := h.contacts_lt c hc
  have := onChain_ne_zero hx
  omega

theorem Model.IdxTable.Loaded.mem_ncLinks (h : t.Loaded) {x : ℕ} :
    x ∈ t.ncLinks ↔ 0 < x ∧ x < t.parent.length ∧ ¬ IsContactLink t.par t.contacts x := by
  simp only [IdxTable.ncLinks, List.mem_filter, List.mem_range, List.mem_cons, decide_eq_true_eq, h.mem_coLinks,
    h.linkNum, not_or]
  constructor
  · rintro ⟨a, b, c⟩; exact ⟨Nat.pos_of_ne_zero b, a, c⟩
  · rintro ⟨a, b, c⟩; exact ⟨b, by omega, c⟩

theorem ncLinks_nodup (t : IdxTable) : t.ncLinks.Nodup := List.nodup_range.filter _

/-- Together the two link lists cover the non-base links. -/
theorem Model.IdxTable.Loaded.links_cover (h : t.Loaded) :
    t.coLinks.toFinset ∪ t.ncLinks.toFinset = Finset.Ico 1 t.parent.length := by
  ext x
  simp only [Finset.mem_union, List.mem_toFinset, Finset.mem_Ico]
  constructor
  · rintro (hx | hx)
    · have := h.coLinks_range hx; omega
    · have := h.mem_ncLinks.mp hx; omega
  · rintro ⟨a, b⟩
    by_cases hx : x ∈ t.coLinks
    · exact Or.inl hx
    · exact Or.inr (h.mem_ncLinks.mpr ⟨by omega, b, fun hc => hx (h.mem_coLinks.mpr hc)⟩)

theorem Model.IdxTable.Loaded.links_disjoint (h : t.Loaded) :
    Disjoint t.coLinks.toFinset t.ncLinks.toFinset := by
  rw [Finset.disjoint_left]
  intro x hx hx'
  rw [List.mem_toFinset] at hx hx'
  exact (h.mem_ncLinks.mp hx').2.2 (h.mem_coLinks.mp hx)

theorem Model.IdxTable.Loaded.links_count (h : t.Loaded) :
    t.coLinks.toFinset.card + t.ncLinks.length + 1 = t.parent.length := by
  have := Finset.card_union_of_disjoint h.links_disjoint
  rw [h.links_cover, Nat.card_Ico, List.toFinset_card_of_nodup (ncLinks_nodup t)] at this
  have := h.nonempty
  omega

/-! ### the loop over the non-contact links -/

theorem ncWalk_mono (fuel : ℕ) : ∀ (i : ℕ) (acc : List ℕ) {x : ℕ}, x ∈ acc → x ∈ t.ncWalk fuel i acc := by
  induction fuel with
  | zero => intro i acc x hx; exact hx
  | succ fuel ih =>
    intro i acc x hx
    simp only [IdxTable.ncWalk]
    split
    · exact hx
    · have h' : x ∈ (if t.jid i ∈ acc then acc else acc ++ [t.jid i]) := by
        split
        · exact hx
        · exact List.mem_append_left _ hx
      split
      · exact h'
      · exact ih _ _ h'

theorem ncWalk_nodup (fuel : ℕ) : ∀ (i : ℕ) (acc : List ℕ), acc.Nodup → (t.ncWalk fuel i acc).Nodup := by
  induction fuel with
  | zero => intro i acc h; exact h
  | succ fuel ih =>
    intro i acc h
    simp only [IdxTable.ncWalk]
    split
    · exact h
    · have h' : (if t.jid i ∈ acc then acc else acc ++ [t.jid i]).Nodup := by
        split
        · exact h
        · rename_i hn
          exact List.nodup_append.mpr ⟨h, List.nodup_singleton _, by
            intro a ha b hb; rw [List.mem_singleton] at hb; rintro rfl; exact hn (hb ▸ ha)⟩
      split
      · exact h'
      · exact ih _ _ h'

theorem mem_push (i : ℕ) (acc : List ℕ) : t.jid i ∈ (if t.jid i ∈ acc then acc else acc ++ [t.jid i]) := by
  split
  · assumption
  · simp

theorem ncWalk_self {fuel i : ℕ} (acc : List ℕ) (hf : 0 < fuel) (hi : i ≠ 0) : t.jid i ∈ t.ncWalk fuel i acc := by
  obtain ⟨f, rfl⟩ := Nat.exists_eq_succ_of_ne_zero hf.ne'
  simp only [IdxTable.ncWalk, if_neg hi]
  split
  · exact mem_push _ _
  · exact ncWalk_mono _ _ _ (mem_push _ _)

theorem ncWalk_parent {fuel i : ℕ} (acc : List ℕ) (hf : 1 < fuel) (hi : i ≠ 0) (hp : t.par i ≠ 0)
    (hn : t.par i ∉ t.ncLinks) : t.jid (t.par i) ∈ t.ncWalk fuel i acc := by
  obtain ⟨f, rfl⟩ := Nat.exists_eq_succ_of_ne_zero (by omega : fuel ≠ 0)
  simp only [IdxTable.ncWalk, if_neg hi, if_neg hn]
  exact ncWalk_self _ (by omega) hp

theorem ncWalk_free {fuel i : ℕ} (acc : List ℕ) (hi : i ≠ 0) (hp : t.par i ∈ t.ncLinks ∨ t.par i = 0) {x : ℕ}
    (hx : x ∈ t.ncWalk fuel i acc) : x ∈ acc ∨ x = t.jid i := by
  cases fuel with
  | zero => exact Or.inl hx
  | succ f =>
    simp only [IdxTable.ncWalk, if_neg hi] at hx
    have hx' : x ∈ (if t.jid i ∈ acc then acc else acc ++ [t.jid i]) := by
      split at hx
      · exact hx
      · rename_i hn
        have h0 : t.par i = 0 := hp.resolve_left hn
        rw [h0] at hx
        cases f with
        | zero => exact hx
        | succ f => simpa only [IdxTable.ncWalk, if_true] using hx
    split at hx'
    · exact Or.inl hx'
    · rw [List.mem_append, List.mem_singleton] at hx'; exact hx'

/-- the fold over the links -/
abbrev ncFold (t : IdxTable) (l : List ℕ) (acc : List ℕ) : List ℕ :=
  l.foldl (fun acc i => t.ncWalk t.parent.length i acc) acc

theorem ncFold_mono (l : List ℕ) : ∀ (acc : List ℕ) {x : ℕ}, x ∈ acc → x ∈ ncFold t l acc := by
  induction l with
  | nil => intro acc x h; exact h
  | cons i l ih => intro acc x h; exact ih _ (ncWalk_mono _ _ _ h)

theorem ncFold_nodup (l : List ℕ) : ∀ (acc : List ℕ), acc.Nodup → (ncFold t l acc).Nodup := by
  induction l with
  | nil => intro acc h; exact h
  | cons i l ih => intro acc h; exact ih _ (ncWalk_nodup _ _ _ h)

theorem ncFold_mem (l : List ℕ) {x i : ℕ} (hi : i ∈ l) (hx : ∀ acc, x ∈ t.ncWalk t.parent.length i acc) :
    ∀ (acc : List ℕ), x ∈ ncFold t l acc := by
  induction l with
  | nil => cases hi
  | cons j l ih =>
    intro acc
    rcases List.mem_cons.mp hi with rfl | hi
    · exact ncFold_mono l _ (hx acc)
    · exact ih hi _

theorem ncFold_free (l : List ℕ) (hl : ∀ i ∈ l, i ≠ 0 ∧ (t.par i ∈ t.ncLinks ∨ t.par i = 0)) :
    ∀ (acc : List ℕ) {x : ℕ}, x ∈ ncFold t l acc → x ∈ acc ∨ ∃ i ∈ l, x = t.jid i := by
  induction l with
  | nil => intro acc x h; exact Or.inl h
  | cons j l ih =>
    intro acc x h
    rcases ih (fun i hi => hl i (List.mem_cons_of_mem _ hi)) _ h with h | ⟨i, hi, rfl⟩
    · obtain ⟨h0, hp⟩ := hl j List.mem_cons_self
      rcases ncWalk_free acc h0 hp h with h | rfl
      · exact Or.inl h
      · exact Or.inr ⟨j, List.mem_cons_self, rfl⟩
    · exact Or.inr ⟨i, List.mem_cons_of_mem _ hi, rfl⟩

theorem ncJoints_perm (t : IdxTable) : t.ncJoints.Perm (ncFold t t.ncLinks []) := List.perm_insertionSort _ _

theorem coJoints_perm (t : IdxTable) : t.coJoints.Perm (t.coLinks.map t.jid) := List.perm_insertionSort _ _

theorem ncJoints_nodup (t : IdxTable) : t.ncJoints.Nodup :=
  (ncJoints_perm t).nodup_iff.mpr (ncFold_nodup _ _ List.nodup_nil)

theorem Model.IdxTable.Loaded.jid_injOn (h : t.Loaded) {l : List ℕ} (hl : ∀ i ∈ l, 0 < i ∧ i < t.parent.length)
    (hn : l.Nodup) : (l.map t.jid).Nodup :=
  hn.map_on fun a ha b hb e => h.jid_inj a b (hl a ha).1 (hl a ha).2 (hl b hb).1 (hl b hb).2 e

theorem Model.IdxTable.Loaded.ncMap_nodup (h : t.Loaded) : (t.ncLinks.map t.jid).Nodup :=
  h.jid_injOn (fun _ hi => ⟨(h.mem_ncLinks.mp hi).1, (h.mem_ncLinks.mp hi).2.1⟩) (ncLinks_nodup t)

theorem Model.IdxTable.Loaded.ncMap_subset (h : t.Loaded) : t.ncLinks.map t.jid ⊆ t.ncJoints := by
  intro x hx
  rw [(ncJoints_perm t).mem_iff]
  obtain ⟨i, hi, rfl⟩ := List.mem_map.mp hx
  exact ncFold_mem _ hi (fun acc => ncWalk_self acc h.nonempty (h.mem_ncLinks.mp hi).1.ne') _

/-- the non-contact joints are those of the non-contact links, if nothing hangs on a contact chain -/
theorem Model.IdxTable.Loaded.ncJoints_free (h : t.Loaded) (hf : OthersHangFree t.par t.contacts t.parent.length) :
    t.ncJoints.Perm (t.ncLinks.map t.jid) := by
  refine (List.perm_ext_iff_of_nodup (ncJoints_nodup t) h.ncMap_nodup).mpr fun x => ⟨fun hx => ?_, fun hx => h.ncMap_subset hx⟩
  rw [(ncJoints_perm t).mem_iff] at hx
  have hl : ∀ i ∈ t.ncLinks, i ≠ 0 ∧ (t.par i ∈ t.ncLinks ∨ t.par i = 0) := by
    intro i hi
    obtain ⟨h0, hl, hn⟩ := h.mem_ncLinks.mp hi
    refine ⟨h0.ne', ?_⟩
    by_cases hp : t.par i = 0
    · exact Or.inr hp
    · have := h.parent_lt i h0 hl
      exact Or.inl (h.mem_ncLinks.mpr ⟨Nat.pos_of_ne_zero hp, by omega, hf i h0 hl hn⟩)
  rcases ncFold_free t.ncLinks hl _ hx with hx | ⟨i, hi, e⟩
  · cases hx
  · exact e ▸ List.mem_map_of_mem hi

/-- otherwise there is at least one joint more -/
theorem Model.IdxTable.Loaded.ncJoints_not_free (h : t.Loaded)
    (hf : ¬ OthersHangFree t.par t.contacts t.parent.length) :
    t.ncLinks.length < t.ncJoints.length ∧ ∃ j ∈ t.ncJoints, j ∈ t.coJoints := by
  unfold OthersHangFree at hf
  push Not at hf
  obtain ⟨i, h0, hl, hn, hp⟩ := hf
  have hi : i ∈ t.ncLinks := h.mem_ncLinks.mpr ⟨h0, hl, hn⟩
  have hco := h.mem_coLinks.mpr hp
  obtain ⟨hp0, hpl⟩ := h.coLinks_range hco
  have hpn : t.par i ∉ t.ncLinks := fun hm => (h.mem_ncLinks.mp hm).2.2 hp
  have hlt := h.parent_lt i h0 hl
  have hj : t.jid (t.par i) ∈ t.ncJoints := by
    rw [(ncJoints_perm t).mem_iff]
    exact ncFold_mem _ hi (fun acc => ncWalk_parent acc (by omega) h0.ne' hp0.ne' hpn) _
  refine ⟨?_, _, hj, by rw [(coJoints_perm t).mem_iff]; exact List.mem_map_of_mem hco⟩
  have hnot : t.jid (t.par i) ∉ t.ncLinks.map t.jid := by
    intro hm
    obtain ⟨k, hk, e⟩ := List.mem_map.mp hm
    have hk' := h.mem_ncLinks.mp hk
    have := h.jid_inj k (t.par i) hk'.1 hk'.2.1 hp0 hpl e
    exact hpn (this ▸ hk)
  have hsub : (t.jid (t.par i) :: t.ncLinks.map t.jid).Subperm t.ncJoints :=
    List.subperm_of_subset (List.nodup_cons.mpr ⟨hnot, h.ncMap_nodup⟩) (by
      intro x hx
      rcases List.mem_cons.mp hx with rfl | hx
      · exact hj
      · exact h.ncMap_subset hx)
  have := hsub.length_le
  rw [List.length_cons, List.length_map] at this
  exact this

theorem Model.IdxTable.Loaded.ncJoints_length_le (h : t.Loaded) : t.ncLinks.length ≤ t.ncJoints.length := by
  have := (List.subperm_of_subset h.ncMap_nodup h.ncMap_subset).length_le
  simpa using this

theorem coLinks_card_le (t : IdxTable) : t.coLinks.toFinset.card ≤ t.coJoints.length := by
  rw [(coJoints_perm t).length_eq, List.length_map]
  exact List.toFinset_card_le _

theorem coLinks_card_eq (t : IdxTable) : t.coLinks.toFinset.card = t.coJoints.length ↔ t.coLinks.Nodup := by
  rw [(coJoints_perm t).length_eq, List.length_map]
  constructor
  · intro h
    have : Multiset.Nodup (t.coLinks : Multiset ℕ) :=
      (Multiset.toFinset_card_eq_card_iff_nodup (m := (t.coLinks : Multiset ℕ))).mp h
    exact Multiset.coe_nodup.mp this
  · exact fun h => List.toFinset_card_of_nodup h

end Verif
