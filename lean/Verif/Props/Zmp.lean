import Verif.Lemmas.Zmp
import Verif.Spec.TwoContacts
import Mathlib.Analysis.Convex.Combination
import Mathlib.Tactic.NormNum
import Mathlib.Algebra.BigOperators.Field

/-!
# C15: `getZMP`

The contact force vector holds one wrench per *active* contact, in order (that is what `getContactForce` returns).
-/
set_option linter.unusedSectionVars false

namespace Verif.Props
open Matrix Verif Verif.Spec Verif.Model

/-- The active contacts come first in the registry. -/
def ActivePrefix (cs : List ZmpContact) : Prop :=
  ∃ on off, cs = on ++ off ∧ (∀ c ∈ on, c.contact = true) ∧ ∀ c ∈ off, c.contact = false

theorem ent_wrench {k : ℕ} (f : Fin (6 * k) → ℝ) (j : Fin k) (a : ℕ) (ha : a < 6) :
    ent f (6 * (0 + j) + a) = wrenchOf f j ⟨a, ha⟩ := by
  have : 6 * (j : ℕ) + a < 6 * k := by omega
  simp only [ent, vecAt, zero_add, dif_pos this, Option.getD_some, wrenchOf]

/-- What `getZMP` returns when the active contacts come first. -/
theorem getZMP_prefix {on off : List ZmpContact} (h : ∀ c ∈ on, c.contact = true)
    (h' : ∀ c ∈ off, c.contact = false) (f : Fin (6 * on.length) → ℝ) (htot : ∑ j, wrenchOf f j 2 ≠ 0) :
    getZMP (on ++ off) f = .zmp (∑ j : Fin on.length, (wrenchOf f j 2 / ∑ k, wrenchOf f k 2) •
      contactZmp on[j].pos (wrenchOf f j 3) (wrenchOf f j 4) (wrenchOf f j 2)) := by
  have ht : totalFz f 0 (on ++ off) = some (∑ j, wrenchOf f j 2) := by
    rw [totalFz_on f on off h h' 0 (by simp)]
    refine congrArg some (Finset.sum_congr rfl fun j _ => ?_)
    exact ent_wrench f j 2 (by norm_num)
  unfold getZMP
  rw [ht]
  simp only
  rw [zmpSum_on f _ on off h h' 0 (by simp)]
  simp only
  rw [if_neg (fun hh => htot hh.1)]
  refine congrArg ZmpResult.zmp (Finset.sum_congr rfl fun j _ => ?_)
  rw [ent_wrench f j 2 (by norm_num), ent_wrench f j 3 (by norm_num), ent_wrench f j 4 (by norm_num)]
  rfl

/-- C15 fails: given the force vector of the active contacts, `getZMP` reads outside it exactly when some inactive
contact precedes an active one. -/
theorem C15_out_of_range_iff (cs : List ZmpContact) (k : ℕ) (hk : k = (cs.filter (·.contact)).length)
    (f : Fin (6 * k) → ℝ) : getZMP cs f = .outOfRange ↔ ¬ ActivePrefix cs := by
  constructor
  · rintro ho ⟨on, off, rfl, h1, h2⟩
    have hl : k = on.length := by
      rw [hk, List.filter_append, List.filter_eq_self.mpr h1,
        List.filter_eq_nil_iff.mpr (by simpa using h2), List.append_nil]
    subst hl
    unfold getZMP at ho
    rw [totalFz_on f on off h1 h2 0 (by simp)] at ho
    simp only at ho
    rw [zmpSum_on f _ on off h1 h2 0 (by simp)] at ho
    simp only at ho
    split at ho <;> cases ho
  · intro hg
    have hex : ∃ c ∈ cs, c.contact := by
      by_contra hn
      push Not at hn
      exact hg ⟨[], cs, rfl, by simp, fun c hc => by simpa using hn c hc⟩
    unfold getZMP
    rw [totalFz_gap cs 0 hex (by simp [actCount, hk]) hg]

/-- C15, partial: the active contacts must come first.  When no foot pulls on the ground and the total vertical
force is not zero, the result is the average, weighted with pressing force, of one point per active contact: its
centre of pressure if it presses with at least 1/1000, the contact point otherwise.  So it lies in the convex hull
of these points. -/
theorem C15_average_partial {on off : List ZmpContact} (h : ∀ c ∈ on, c.contact = true)
    (h' : ∀ c ∈ off, c.contact = false) (f : Fin (6 * on.length) → ℝ)
    (hpull : ∀ j, 0 ≤ press (wrenchOf f j)) (htot : ∑ j, press (wrenchOf f j) ≠ 0) :
    ∃ (p : Fin 3 → ℝ) (cop : Fin on.length → Fin 3 → ℝ),
      getZMP (on ++ off) f = .zmp p ∧
      (∀ j, 1 / 1000 ≤ press (wrenchOf f j) →
        IsCoP (wrenchOf f j) (cop j 0 - on[j].pos 0) (cop j 1 - on[j].pos 1) ∧ cop j 2 = on[j].pos 2) ∧
      (∀ j, press (wrenchOf f j) < 1 / 1000 → cop j = on[j].pos) ∧
      p = ∑ j, (press (wrenchOf f j) / ∑ k, press (wrenchOf f k)) • cop j ∧
      p ∈ convexHull ℝ (Set.range cop) := by
  have hs : ∑ k, press (wrenchOf f k) = -∑ k, wrenchOf f k 2 := by simp [press]
  have h0 : ∑ k, wrenchOf f k 2 ≠ 0 := by intro e; apply htot; rw [hs, e, neg_zero]
  set cop : Fin on.length → Fin 3 → ℝ := fun j =>
    contactZmp on[j].pos (wrenchOf f j 3) (wrenchOf f j 4) (wrenchOf f j 2) with hcop
  have hw : ∀ j, wrenchOf f j 2 / ∑ k, wrenchOf f k 2 = press (wrenchOf f j) / ∑ k, press (wrenchOf f k) := by
    intro j; rw [hs, press, neg_div_neg_eq]
  refine ⟨_, cop, getZMP_prefix h h' f h0, ?_, ?_, ?_, ?_⟩
  · intro j hj
    have hz : wrenchOf f j 2 ≤ -(1 / 1000) := by unfold press at hj; linarith
    have hz0 : wrenchOf f j 2 ≠ 0 := by intro e; rw [e] at hz; norm_num at hz
    simp only [hcop, contactZmp, if_neg (not_lt.mpr hz), IsCoP]
    refine ⟨⟨?_, ?_⟩, ?_⟩
    · simp; field_simp; ring
    · simp; field_simp; ring
    · simp
  · intro j hj
    have hz : wrenchOf f j 2 > -(1 / 1000) := by unfold press at hj; linarith
    simp only [hcop, contactZmp, if_pos hz]
  · exact Finset.sum_congr rfl fun j _ => by rw [hw]
  · apply (convex_convexHull ℝ (Set.range cop)).sum_mem (t := Finset.univ)
    · intro j _
      rw [hw]
      exact div_nonneg (hpull j) (Finset.sum_nonneg fun k _ => hpull k)
    · rw [← Finset.sum_div, div_self h0]
    · intro j _
      exact subset_convexHull ℝ _ ⟨j, rfl⟩

/-- C15, partial: any contact may be inactive, but the caller passes one wrench per *registered* contact (not what
`getContactForce` returns).  Then the result is the average over the active contacts. -/
theorem C15_registered_layout_partial (cs : List ZmpContact) (f : Fin (6 * cs.length) → ℝ)
    (hpull : ∀ j, 0 ≤ press (wrenchOf f j)) (htot : ∑ j with cs[j].contact = true, press (wrenchOf f j) ≠ 0) :
    ∃ (p : Fin 3 → ℝ) (cop : Fin cs.length → Fin 3 → ℝ),
      getZMP cs f = .zmp p ∧
      (∀ j, 1 / 1000 ≤ press (wrenchOf f j) →
        IsCoP (wrenchOf f j) (cop j 0 - cs[j].pos 0) (cop j 1 - cs[j].pos 1) ∧ cop j 2 = cs[j].pos 2) ∧
      (∀ j, press (wrenchOf f j) < 1 / 1000 → cop j = cs[j].pos) ∧
      p = ∑ j with cs[j].contact = true,
        (press (wrenchOf f j) / ∑ k with cs[k].contact = true, press (wrenchOf f k)) • cop j := by
  have hs : ∑ k with cs[k].contact = true, press (wrenchOf f k) = -∑ k with cs[k].contact = true, wrenchOf f k 2 := by
    simp [press]
  have h0 : ∑ k with cs[k].contact = true, wrenchOf f k 2 ≠ 0 := by intro e; apply htot; rw [hs, e, neg_zero]
  set cop : Fin cs.length → Fin 3 → ℝ := fun j =>
    contactZmp cs[j].pos (wrenchOf f j 3) (wrenchOf f j 4) (wrenchOf f j 2) with hcop
  have ht : totalFz f 0 cs = some (∑ k with cs[k].contact = true, wrenchOf f k 2) := by
    rw [totalFz_full f cs 0 (by simp), Finset.sum_filter]
    refine congrArg some (Finset.sum_congr rfl fun j _ => ?_)
    rw [ent_wrench f j 2 (by norm_num)]; rfl
  refine ⟨_, cop, ?_, ?_, ?_, rfl⟩
  · unfold getZMP
    rw [ht]
    simp only
    rw [zmpSum_full f _ cs 0 (by simp)]
    simp only
    rw [if_neg (fun hh => h0 hh.1)]
    refine congrArg ZmpResult.zmp (Eq.trans (Finset.sum_congr rfl fun j _ => ?_) (Finset.sum_filter _ _).symm)
    rw [ent_wrench f j 2 (by norm_num), ent_wrench f j 3 (by norm_num), ent_wrench f j 4 (by norm_num)]
    rw [hs, press, neg_div_neg_eq]
    rfl
  · intro j hj
    have hz : wrenchOf f j 2 ≤ -(1 / 1000) := by unfold press at hj; linarith
    have hz0 : wrenchOf f j 2 ≠ 0 := by intro e; rw [e] at hz; norm_num at hz
    simp only [hcop, contactZmp, if_neg (not_lt.mpr hz), IsCoP]
    refine ⟨⟨?_, ?_⟩, ?_⟩
    · simp; field_simp; ring
    · simp; field_simp; ring
    · simp
  · intro j hj
    have hz : wrenchOf f j 2 > -(1 / 1000) := by unfold press at hj; linarith
    simp only [hcop, contactZmp, if_pos hz]

/-- C15, partial: when moreover all active contacts are at one height and press with at least 1/1000 each, the
result is the zero-moment point: at that height, with no horizontal moment of the whole contact force about it. -/
theorem C15_zero_moment_partial {on off : List ZmpContact} (h : ∀ c ∈ on, c.contact = true)
    (h' : ∀ c ∈ off, c.contact = false) (hne : on ≠ []) (f : Fin (6 * on.length) → ℝ)
    (hpress : ∀ j, 1 / 1000 ≤ press (wrenchOf f j)) {z : ℝ} (hz : ∀ c ∈ on, c.pos 2 = z) :
    ∃ p, getZMP (on ++ off) f = .zmp p ∧ p 2 = z ∧
      ∀ a : Fin 3, a ≠ 2 →
        (∑ j : Fin on.length, (mpart (wrenchOf f j) + crossProduct (on[j].pos - p) (fpart (wrenchOf f j)))) a = 0 := by
  have hlen : 0 < on.length := List.length_pos_iff.mpr hne
  have hpos : 0 < ∑ j, press (wrenchOf f j) := by
    haveI : Nonempty (Fin on.length) := ⟨⟨0, hlen⟩⟩
    exact Finset.sum_pos (fun j _ => by have := hpress j; linarith) Finset.univ_nonempty
  obtain ⟨p, cop, hp, hc, -, hsum, -⟩ := C15_average_partial h h' f
    (fun j => by have := hpress j; linarith) hpos.ne'
  have hposz : ∀ j : Fin on.length, on[j].pos 2 = z := fun j => hz _ (List.getElem_mem _)
  have hcomp : ∀ a, p a * ∑ k, press (wrenchOf f k) = ∑ j, press (wrenchOf f j) * cop j a := by
    intro a
    rw [hsum, Finset.sum_apply, Finset.sum_mul]
    refine Finset.sum_congr rfl fun j _ => ?_
    rw [Pi.smul_apply, smul_eq_mul]
    field_simp
  have hp2 : p 2 = z := by
    have := hcomp 2
    have hr : ∑ j, press (wrenchOf f j) * cop j 2 = z * ∑ k, press (wrenchOf f k) := by
      rw [Finset.mul_sum]
      exact Finset.sum_congr rfl fun j _ => by rw [(hc j (hpress j)).2, hposz j, mul_comm]
    rw [hr] at this
    exact mul_right_cancel₀ hpos.ne' this
  refine ⟨p, hp, hp2, ?_⟩
  intro a ha
  have h0 := hcomp 0
  have h1 := hcomp 1
  rw [Finset.mul_sum] at h0 h1
  rw [Finset.sum_apply]
  fin_cases a
  · rw [← sub_eq_zero.mpr h1, ← Finset.sum_sub_distrib]
    refine Finset.sum_congr rfl fun j _ => ?_
    have hi := (hc j (hpress j)).1.1
    have hzj := hposz j
    simp [mpart, fpart, cross_apply, press] at hi hzj ⊢
    rw [hzj, hp2]
    linear_combination hi
  · rw [← sub_eq_zero.mpr h0.symm, ← Finset.sum_sub_distrib]
    refine Finset.sum_congr rfl fun j _ => ?_
    have hi := (hc j (hpress j)).1.2
    have hzj := hposz j
    simp [mpart, fpart, cross_apply, press] at hi hzj ⊢
    rw [hzj, hp2]
    linear_combination hi
  · exact absurd rfl ha

/-- Two feet side by side. -/
def exFeet (l r : Bool) : List ZmpContact := [⟨l, ![0, 1, 0]⟩, ⟨r, ![0, -1, 0]⟩]

/-- right foot only: out of range -/
example (f : Fin (6 * 1) → ℝ) : getZMP (exFeet false true) f = .outOfRange := by
  rw [C15_out_of_range_iff _ 1 (by simp [exFeet])]
  rintro ⟨on, off, h, h1, h2⟩
  rcases on with _ | ⟨c, on⟩
  · have := h2 ⟨true, ![0, -1, 0]⟩ (by rw [List.nil_append] at h; rw [← h]; simp [exFeet])
    simp at this
  · simp only [exFeet, List.cons_append, List.cons.injEq] at h
    have := h1 c (by simp)
    rw [← h.1] at this
    simp at this

/-- right foot only, one block per registered foot: the hypotheses of `C15_registered_layout_partial` hold -/
noncomputable example : ∃ p, getZMP (exFeet false true) (fun i : Fin (6 * 2) => if i.val % 6 = 2 then -300 else 1) = .zmp p := by
  obtain ⟨p, -, h, -⟩ := C15_registered_layout_partial (exFeet false true)
    (fun i => if i.val % 6 = 2 then -300 else 1) (fun j => by simp [press, wrenchOf])
    (by rw [Finset.sum_filter]; simp only [press, wrenchOf]
        exact ne_of_gt (Finset.sum_pos' (fun j _ => by split <;> simp) ⟨⟨1, by simp [exFeet]⟩, Finset.mem_univ _, by simp [exFeet]⟩))
  exact ⟨p, h⟩

/-- both feet: the hypotheses of the partial theorems hold -/
noncomputable example : ∃ p, getZMP (exFeet true true) (fun i : Fin (6 * 2) => if i.val % 6 = 2 then -300 else 1) = .zmp p ∧ p 2 = 0 := by
  obtain ⟨p, h, h2, -⟩ := C15_zero_moment_partial (on := exFeet true true) (off := []) (z := 0)
    (by simp [exFeet]) (by simp) (by simp [exFeet]) (fun i => if i.val % 6 = 2 then -300 else 1)
    (by intro j; simp [press, wrenchOf, Nat.add_mod]; norm_num) (by simp [exFeet])
  exact ⟨p, h, h2⟩

end Verif.Props
