import Verif.Model.TaskKind
import Verif.Model.ReducedTask
import Verif.Props.ReducedIdx
import Verif.Props.ReducedTask

/-!
# C56: classification of the tasks for the reduced model
-/

set_option linter.unusedSectionVars false

namespace Verif.Props
open Verif Verif.Spec Verif.Model

/-- the link is the centre of mass / on a contact chain (or the base) / elsewhere, with the tables of this call -/
def IsCom (t : IdxTable) (i : ℕ) : Prop := i = t.linkNum
def IsChain (t : IdxTable) (i : ℕ) : Prop := i ≠ t.linkNum ∧ (i = 0 ∨ IsContactLink t.par t.contacts i)
def IsElsewhere (t : IdxTable) (i : ℕ) : Prop := i ≠ t.linkNum ∧ ¬ (i = 0 ∨ IsContactLink t.par t.contacts i)

section Lemmas

variable {t : IdxTable}

theorem co_iff (h : t.Loaded) (i : ℕ) : i ∈ 0 :: t.coLinks ↔ (i = 0 ∨ IsContactLink t.par t.contacts i) := by
  rw [List.mem_cons, h.mem_coLinks]

open Classical in
/-- one task on links -/
theorem foldl_visit (h : t.Loaded) (ids : List ℕ) (s : Kind × ℕ) :
    (((ids.foldl (visitLink t) s).1.cmm = true ↔ s.1.cmm = true ∨ ∃ i ∈ ids, IsCom t i) ∧
     ((ids.foldl (visitLink t) s).1.reduced = true ↔ s.1.reduced = true ∨ ∃ i ∈ ids, IsChain t i) ∧
     ((ids.foldl (visitLink t) s).1.noncont = true ↔ s.1.noncont = true ∨ ∃ i ∈ ids, IsElsewhere t i)) ∧
    (ids.foldl (visitLink t) s).2 = s.2 + (ids.filter fun i => IsElsewhere t i).length ∧
    (ids.foldl (visitLink t) s).1.order
      = if (ids.filter fun i => IsElsewhere t i) = [] then s.1.order
        else s.2 + (ids.filter fun i => IsElsewhere t i).length - 1 := by
  induction ids generalizing s with
  | nil => simp
  | cons i ids ih =>
    obtain ⟨⟨h1, h2, h3⟩, h4, h5⟩ := ih (visitLink t s i)
    rw [List.foldl_cons, h1, h2, h3, h4, h5]
    unfold visitLink
    by_cases hc : i = t.linkNum
    · have e : ¬ IsElsewhere t i := fun h => h.1 hc
      have e2 : ¬ IsChain t i := fun h => h.1 hc
      have e1 : IsCom t i := hc
      rw [if_pos hc]
      simp [List.filter_cons, e, e1, e2]
    · rw [if_neg hc]
      by_cases hm : i ∈ 0 :: t.coLinks
      · rw [if_pos hm]
        rw [co_iff h] at hm
        have e : ¬ IsElsewhere t i := fun h => h.2 hm
        have e2 : IsChain t i := ⟨hc, hm⟩
        have e1 : ¬ IsCom t i := hc
        simp [List.filter_cons, e, e1, e2]
      · rw [if_neg hm]
        rw [co_iff h] at hm
        have e : IsElsewhere t i := ⟨hc, hm⟩
        have e2 : ¬ IsChain t i := fun h => hm h.2
        have e1 : ¬ IsCom t i := hc
        refine ⟨?_, ?_, ?_⟩
        · simp [e, e1, e2]
        · simp [List.filter_cons, e]; omega
        · simp only [List.filter_cons, e, decide_true, if_true, List.length_cons]
          rw [if_neg (List.cons_ne_nil _ _)]
          split_ifs with g1
          · rw [g1]; simp
          · omega

theorem classifyFrom_getElem? (n : ℕ) (l : List (TaskDesc × Kind)) (j : ℕ) :
    (classifyFrom t n l)[j]? = (l[j]?).map fun x =>
      (classifyOne t ((l.take j).foldl (fun n x => (classifyOne t n x.2 x.1).2) n) x.2 x.1).1 := by
  induction l generalizing n j with
  | nil => simp [classifyFrom]
  | cons x l ih =>
    obtain ⟨d, k⟩ := x
    rcases j with _ | j
    · simp [classifyFrom]
    · simp [classifyFrom, ih]

theorem classify_getElem? (ds : List TaskDesc) (ks : List Kind) {j : ℕ} {d : TaskDesc} {k : Kind}
    (hd : ds[j]? = some d) (hk : ks[j]? = some k) :
    ∃ n, (classify t ds ks)[j]? = some (classifyOne t n k d).1 := by
  have e : (ds.zip ks)[j]? = some (d, k) := List.getElem?_zip_eq_some.mpr ⟨hd, hk⟩
  have := classifyFrom_getElem? (t := t) 0 (ds.zip ks) j
  rw [e] at this
  exact ⟨_, this⟩

end Lemmas

/-- C56 (what the flags are).  After any history of calls on a task that commands links `ids`: the task is marked as a centre-of-mass
task, a contact-chain task, a task outside the contact chains exactly if one of its links was such a link in one of the calls. -/
theorem C56_history_partial (runs : List (IdxTable × List TaskDesc)) (hload : ∀ r ∈ runs, r.1.Loaded) (j : ℕ) (ids : List ℕ)
    (hids : ∀ r ∈ runs, r.2[j]? = some (.links ids)) (ks : List Kind) (hk : ks[j]? = some Kind.fresh) :
    ∃ k, (classifyRuns ks runs)[j]? = some k ∧
      (k.cmm = true ↔ ∃ r ∈ runs, ∃ i ∈ ids, IsCom r.1 i) ∧
      (k.reduced = true ↔ ∃ r ∈ runs, ∃ i ∈ ids, IsChain r.1 i) ∧
      (k.noncont = true ↔ ∃ r ∈ runs, ∃ i ∈ ids, IsElsewhere r.1 i) := by
  have gen : ∀ (runs : List (IdxTable × List TaskDesc)), (∀ r ∈ runs, r.1.Loaded) →
      (∀ r ∈ runs, r.2[j]? = some (.links ids)) → ∀ (ks : List Kind) (k₀ : Kind), ks[j]? = some k₀ →
      ∃ k, (classifyRuns ks runs)[j]? = some k ∧
        (k.cmm = true ↔ k₀.cmm = true ∨ ∃ r ∈ runs, ∃ i ∈ ids, IsCom r.1 i) ∧
        (k.reduced = true ↔ k₀.reduced = true ∨ ∃ r ∈ runs, ∃ i ∈ ids, IsChain r.1 i) ∧
        (k.noncont = true ↔ k₀.noncont = true ∨ ∃ r ∈ runs, ∃ i ∈ ids, IsElsewhere r.1 i) := by
    intro runs
    induction runs with
    | nil =>
      intro _ _ ks k₀ hk
      exact ⟨k₀, hk, by simp⟩
    | cons r runs ih =>
      intro hl hi ks k₀ hk
      obtain ⟨n, hn⟩ := classify_getElem? (t := r.1) r.2 ks (hi r (by simp)) hk
      obtain ⟨⟨g1, g2, g3⟩, -⟩ := foldl_visit (hl r (by simp)) ids (k₀, n)
      obtain ⟨k, hk', f1, f2, f3⟩ := ih (fun x hx => hl x (by simp [hx])) (fun x hx => hi x (by simp [hx])) _ _ hn
      refine ⟨k, hk', ?_, ?_, ?_⟩
      · rw [f1]; simp only [classifyOne, g1, List.exists_mem_cons_iff, or_assoc]
      · rw [f2]; simp only [classifyOne, g2, List.exists_mem_cons_iff, or_assoc]
      · rw [f3]; simp only [classifyOne, g3, List.exists_mem_cons_iff, or_assoc]
  obtain ⟨k, h1, h2, h3, h4⟩ := gen runs hload hids ks _ hk
  exact ⟨k, h1, by simpa [Kind.fresh] using h2, by simpa [Kind.fresh] using h3, by simpa [Kind.fresh] using h4⟩

/-- C56 (task on one link while its place does not change).  If the link was in the same place in every call - centre of mass, contact
chain, elsewhere - the task has exactly the type of that place. -/
theorem C56_type_partial (runs : List (IdxTable × List TaskDesc)) (hne : runs ≠ []) (hload : ∀ r ∈ runs, r.1.Loaded) (j i : ℕ)
    (hids : ∀ r ∈ runs, r.2[j]? = some (.links [i])) (ks : List Kind) (hk : ks[j]? = some Kind.fresh) :
    ∃ k, (classifyRuns ks runs)[j]? = some k ∧
      ((∀ r ∈ runs, IsCom r.1 i) → (k.cmm, k.reduced, k.noncont) = (true, false, false)) ∧
      ((∀ r ∈ runs, IsChain r.1 i) → (k.cmm, k.reduced, k.noncont) = (false, true, false)) ∧
      ((∀ r ∈ runs, IsElsewhere r.1 i) → (k.cmm, k.reduced, k.noncont) = (false, false, true)) := by
  obtain ⟨k, hk', h1, h2, h3⟩ := C56_history_partial runs hload j [i] hids ks hk
  simp only [List.mem_singleton, exists_eq_left] at h1 h2 h3
  obtain ⟨r0, hr0⟩ := List.exists_mem_of_ne_nil runs hne
  refine ⟨k, hk', fun h => ?_, fun h => ?_, fun h => ?_⟩
  · have e1 : k.cmm = true := h1.mpr ⟨r0, hr0, h r0 hr0⟩
    have e2 : k.reduced = false := by
      rw [Bool.eq_false_iff, ne_eq, h2]; rintro ⟨r, hr, g⟩; exact g.1 (h r hr)
    have e3 : k.noncont = false := by
      rw [Bool.eq_false_iff, ne_eq, h3]; rintro ⟨r, hr, g⟩; exact g.1 (h r hr)
    rw [e1, e2, e3]
  · have e1 : k.cmm = false := by
      rw [Bool.eq_false_iff, ne_eq, h1]; rintro ⟨r, hr, g⟩; exact (h r hr).1 g
    have e2 : k.reduced = true := h2.mpr ⟨r0, hr0, h r0 hr0⟩
    have e3 : k.noncont = false := by
      rw [Bool.eq_false_iff, ne_eq, h3]; rintro ⟨r, hr, g⟩; exact g.2 (h r hr).2
    rw [e1, e2, e3]
  · have e1 : k.cmm = false := by
      rw [Bool.eq_false_iff, ne_eq, h1]; rintro ⟨r, hr, g⟩; exact (h r hr).1 g
    have e2 : k.reduced = false := by
      rw [Bool.eq_false_iff, ne_eq, h2]; rintro ⟨r, hr, g⟩; exact (h r hr).2 g.2
    have e3 : k.noncont = true := h3.mpr ⟨r0, hr0, h r0 hr0⟩
    rw [e1, e2, e3]

/-- C56 (custom task).  The type of a custom task depends on its present Jacobian alone. -/
theorem C56_custom_partial (t : IdxTable) (ds : List TaskDesc) (ks : List Kind) {j : ℕ} {l r : ℝ} {k₀ : Kind}
    (hd : ds[j]? = some (.custom l r)) (hk : ks[j]? = some k₀) :
    ∃ k, (classify t ds ks)[j]? = some k ∧ k.cmm = false ∧ (k.reduced = true ↔ 1e-4 < l) ∧ (k.noncont = true ↔ 1e-4 < r) := by
  obtain ⟨n, hn⟩ := classify_getElem? (t := t) ds ks hd hk
  refine ⟨_, hn, ?_⟩
  by_cases hl : l > 1e-4 <;> by_cases hr : r > 1e-4 <;> simp [classifyOne, hl, hr]

open Classical in
/-- C56 (order among the tasks outside the contact chains).  The order given to a task by a call: the number of links outside the
chains commanded by the tasks above it, plus the number of its own such links, minus one.  So it is the number of tasks outside the
chains above it if every task commands at most one such link. -/
theorem C56_order_partial {t : IdxTable} (h : t.Loaded) (idss : List (List ℕ)) (ks : List Kind) (hlen : ks.length = idss.length)
    (j : ℕ) (hj : j < idss.length) :
    ∃ k, (classify t (idss.map .links) ks)[j]? = some k ∧
      ((∃ i ∈ idss[j], IsElsewhere t i) →
        k.order + 1 = ((idss.take (j + 1)).flatten.filter fun i => IsElsewhere t i).length) := by
  have hcnt : ∀ (m : ℕ) (idss : List (List ℕ)) (ks : List Kind), ks.length = idss.length →
      ((idss.map TaskDesc.links).zip ks).foldl (fun n x => (classifyOne t n x.2 x.1).2) m
        = m + (idss.flatten.filter fun i => IsElsewhere t i).length := by
    intro m idss
    induction idss generalizing m with
    | nil => intro ks _; simp
    | cons a idss ih =>
      intro ks hk
      rcases ks with _ | ⟨k, ks⟩
      · simp at hk
      · rw [List.map_cons, List.zip_cons_cons, List.foldl_cons, ih _ ks (by simpa using hk)]
        have := (foldl_visit h a (k, m)).2.1
        simp only [classifyOne, this]
        simp; omega
  have hk : ks[j]? = some (ks[j]'(by omega)) := List.getElem?_eq_getElem _
  have hd : (idss.map TaskDesc.links)[j]? = some (.links idss[j]) := by simp [hj]
  have e : ((idss.map TaskDesc.links).zip ks)[j]? = some (.links idss[j], ks[j]'(by omega)) :=
    List.getElem?_zip_eq_some.mpr ⟨hd, hk⟩
  have hget := classifyFrom_getElem? (t := t) 0 ((idss.map TaskDesc.links).zip ks) j
  rw [e, Option.map_some] at hget
  refine ⟨_, hget, ?_⟩
  · rintro ⟨i, hi, he⟩
    rw [List.zip_eq_zipWith, List.take_zipWith, ← List.zip_eq_zipWith, ← List.map_take, hcnt 0 _ _ (by simp; omega)]
    have hne : (idss[j].filter fun i => IsElsewhere t i) ≠ [] := by
      intro e
      have : i ∈ (idss[j].filter fun i => IsElsewhere t i) := by simp [hi, he]
      rw [e] at this; simp at this
    have h5 := (foldl_visit h idss[j] (ks[j]'(by omega), 0 + ((idss.take j).flatten.filter fun i => IsElsewhere t i).length)).2.2
    rw [if_neg hne] at h5
    have hpos := List.length_pos_iff.mpr hne
    rw [List.take_succ_eq_append_getElem hj, List.flatten_append, List.filter_append, List.length_append]
    simp only [classifyOne, List.flatten_cons, List.flatten_nil, List.append_nil]
    rw [h5]
    simp only
    omega

section Undefined

variable {κ ν : Type*} [Fintype κ] [DecidableEq κ] [Fintype ν] [DecidableEq ν] {c : ℕ}

/-- the task with its classification -/
def withKind (T : RTaskIn κ ν) (k : Kind) : RTaskIn κ ν :=
  { T with cmm := k.cmm, reduced := k.reduced, noncont := k.noncont, ncOrder := k.order }

/-- a task with two types or none is not calculated -/
theorem calcJKTR_undefined (D : Reduced κ ν) (C : ReducedContact c κ ν) (P : Matrix (RSys κ ν) (RSys κ ν) ℝ)
    (T : RTaskIn κ ν) {k : Kind} (h1 : k.cmm = false) (h2 : k.reduced = k.noncont) : calcJKTR D C P (withKind T k) = none := by
  unfold calcJKTR withKind
  cases hn : k.noncont <;> simp [h1, h2, hn]

/-- C56 is false after a change of contact: a task on a link that was on a contact chain in one call and is not in another (or the
other way round) is not calculated any more, whatever else happens in the history. -/
theorem C56_contact_switch_undefined (runs : List (IdxTable × List TaskDesc)) (hload : ∀ r ∈ runs, r.1.Loaded) (j i : ℕ)
    (hids : ∀ r ∈ runs, r.2[j]? = some (.links [i])) (ks : List Kind) (hk : ks[j]? = some Kind.fresh)
    (hnum : ∀ r ∈ runs, ¬ IsCom r.1 i) (h1 : ∃ r ∈ runs, IsChain r.1 i) (h2 : ∃ r ∈ runs, IsElsewhere r.1 i)
    (D : Reduced κ ν) (C : ReducedContact c κ ν) (P : Matrix (RSys κ ν) (RSys κ ν) ℝ) (T : RTaskIn κ ν) :
    ∃ k, (classifyRuns ks runs)[j]? = some k ∧ calcJKTR D C P (withKind T k) = none := by
  obtain ⟨k, hk', g1, g2, g3⟩ := C56_history_partial runs hload j [i] hids ks hk
  simp only [List.mem_singleton, exists_eq_left] at g1 g2 g3
  refine ⟨k, hk', calcJKTR_undefined D C P T ?_ ?_⟩
  · rw [Bool.eq_false_iff, ne_eq, g1]; rintro ⟨r, hr, g⟩; exact hnum r hr g
  · rw [g2.mpr h1, g3.mpr h2]

/-- C56 is false for a custom task that involves both the base or contact-chain joints and other joints (every task on a hand of a
floating-base robot does): it is not calculated. -/
theorem C56_custom_both_undefined (t : IdxTable) (ds : List TaskDesc) (ks : List Kind) {j : ℕ} {l r : ℝ} {k₀ : Kind}
    (hd : ds[j]? = some (.custom l r)) (hk : ks[j]? = some k₀) (hl : 1e-4 < l) (hr : 1e-4 < r)
    (D : Reduced κ ν) (C : ReducedContact c κ ν) (P : Matrix (RSys κ ν) (RSys κ ν) ℝ) (T : RTaskIn κ ν) :
    ∃ k, (classify t ds ks)[j]? = some k ∧ calcJKTR D C P (withKind T k) = none := by
  obtain ⟨k, hk', h1, h2, h3⟩ := C56_custom_partial t ds ks hd hk
  exact ⟨k, hk', calcJKTR_undefined D C P T h1 (by rw [h2.mpr hl, h3.mpr hr])⟩

/-- C56 is false for a task on two links outside the contact chains: as the first task outside the chains it gets order 1, is
handled as a second one, and below a task on the chains nothing is calculated. -/
theorem C56_two_hands_undefined {t : IdxTable} (h : t.Loaded) {a b : ℕ} (ha : IsElsewhere t a) (hb : IsElsewhere t b)
    {i : ℕ} (hi : IsChain t i) (D : Reduced κ ν) (C : ReducedContact c κ ν) (R : Mat3)
    (Ainv : Matrix (RSys κ ν) (RSys κ ν) ℝ) (Q T : RTaskIn κ ν) :
    ∃ kQ kT, classify t [.links [i], .links [a, b]] [Kind.fresh, Kind.fresh] = [kQ, kT] ∧
      (kQ.cmm, kQ.reduced, kQ.noncont) = (false, true, false) ∧ (kT.cmm, kT.reduced, kT.noncont) = (false, false, true) ∧
      kT.order = 1 ∧ reducedTaskTorque D C R Ainv [withKind Q kQ, withKind T kT] = none := by
  have e : classify t [.links [i], .links [a, b]] [Kind.fresh, Kind.fresh] = [⟨false, true, false, 0⟩, ⟨false, false, true, 1⟩] := by
    have h1 : i ∈ 0 :: t.coLinks := (co_iff h i).mpr hi.2
    have h2 : a ∉ 0 :: t.coLinks := fun g => ha.2 ((co_iff h a).mp g)
    have h3 : b ∉ 0 :: t.coLinks := fun g => hb.2 ((co_iff h b).mp g)
    unfold classify
    simp only [List.zip_cons_cons, List.zip_nil_left, classifyFrom, classifyOne, List.foldl_cons, List.foldl_nil]
    rw [visitLink, if_neg hi.1, if_pos h1]
    simp only
    rw [show visitLink t (Kind.fresh, 0) a = (⟨false, false, true, 0⟩, 1) by rw [visitLink, if_neg ha.1, if_neg h2]; rfl,
      visitLink, if_neg hb.1, if_neg h3]
    rfl
  exact ⟨_, _, e, rfl, rfl, rfl, C55_free_after_chain_undefined rfl rfl (by simp [withKind]) [] []⟩

end Undefined

/-! ### Examples: two legs (links 1-2 and 3-4) and an arm (link 5) -/

/-- a task on the left foot (link 2), first with both feet in contact, then with the right foot only -/
example : ∃ runs : List (IdxTable × List TaskDesc), (∀ r ∈ runs, r.1.Loaded) ∧ (∀ r ∈ runs, r.2[0]? = some (.links [2])) ∧
    (∀ r ∈ runs, ¬ IsCom r.1 2) ∧ (∃ r ∈ runs, IsChain r.1 2) ∧ (∃ r ∈ runs, IsElsewhere r.1 2) := by
  have h1 := legged_loaded (contacts := [2, 4]) (by decide)
  have h2 := legged_loaded (contacts := [4]) (by decide)
  refine ⟨[(legged [2, 4], [.links [2]]), (legged [4], [.links [2]])], by simp [h1, h2], by simp, by simp [IsCom, legged], ?_, ?_⟩
  · exact ⟨(legged [2, 4], [.links [2]]), by simp, by decide, (co_iff h1 2).mp (by decide)⟩
  · exact ⟨(legged [4], [.links [2]]), by simp, by decide, fun g => absurd ((co_iff h2 2).mpr g) (by decide)⟩

/-- the arm link is elsewhere, the foot on a chain -/
example : IsElsewhere (legged [2, 4]) 5 ∧ IsChain (legged [2, 4]) 2 ∧ IsCom (legged [2, 4]) 6 := by
  have h1 := legged_loaded (contacts := [2, 4]) (by decide)
  exact ⟨⟨by decide, fun g => absurd ((co_iff h1 5).mpr g) (by decide)⟩, ⟨by decide, (co_iff h1 2).mp (by decide)⟩, rfl⟩

end Verif.Props
