import Verif.Props.Zmp

/-!
# C81: `getZMP` and the order in which contacts were registered
-/

set_option linter.unusedSectionVars false

namespace Verif.Props
open Matrix Verif Verif.Spec Verif.Model

/-- Contacts with the wrench at each. -/
abbrev Loaded := List (ZmpContact × (Fin 6 → ℝ))

/-- The force vector of these contacts, in their order. -/
def forcesOf (l : Loaded) : Fin (6 * (l.map Prod.fst).length) → ℝ := fun r =>
  (l[r.val / 6]'(by have := r.isLt; simp only [List.length_map] at this; omega)).2 ⟨r % 6, by omega⟩

theorem forcesOf_wrench (l : Loaded) (j : Fin (l.map Prod.fst).length) :
    wrenchOf (forcesOf l) j = (l[j.val]'(by simpa using j.isLt)).2 := by
  ext a
  have h1 : (6 * j.val + a.val) / 6 = j.val := by omega
  have h2 : (⟨(6 * j.val + a.val) % 6, by omega⟩ : Fin 6) = a := Fin.ext (by simp only; omega)
  simp only [wrenchOf, forcesOf, h1, h2]

/-- Sums over the contacts, as sums of a list. -/
theorem sum_contacts {M : Type*} [AddCommMonoid M] (l : Loaded) (f : ZmpContact × (Fin 6 → ℝ) → M) :
    ∑ j : Fin (l.map Prod.fst).length, f (l[j.val]'(by simpa using j.isLt)) = (l.map f).sum := by
  rw [← Equiv.sum_comp (finCongr (List.length_map (as := l) Prod.fst)).symm]
  simp only [finCongr_symm, finCongr_apply, Fin.val_cast]
  rw [← List.sum_ofFn]
  congr 1
  apply List.ext_getElem
  · simp
  · intro i h1 h2
    simp

theorem getZMP_loaded (l : Loaded) (h : ∀ c ∈ l, c.1.contact = true) :
    getZMP (l.map Prod.fst) (forcesOf l) = open Classical in
      if (l.map fun c => c.2 2).sum = 0 ∧ l ≠ [] then .notFinite else
        .zmp (l.map fun c => (c.2 2 / (l.map fun c => c.2 2).sum) • contactZmp c.1.pos (c.2 3) (c.2 4) (c.2 2)).sum := by
  have h' : ∀ c ∈ l.map Prod.fst, c.contact = true := by
    intro c hc
    obtain ⟨d, hd, rfl⟩ := List.mem_map.mp hc
    exact h d hd
  have ht : totalFz (forcesOf l) 0 (l.map Prod.fst) = some (l.map fun c => c.2 2).sum := by
    have := totalFz_on (forcesOf l) (l.map Prod.fst) [] h' (by simp) 0 (by simp)
    rw [List.append_nil] at this
    rw [this, ← sum_contacts l fun c => c.2 2]
    refine congrArg some (Finset.sum_congr rfl fun j _ => ?_)
    rw [ent_wrench _ j 2 (by norm_num), forcesOf_wrench]
    rfl
  have hz : ∀ tot, zmpSum (forcesOf l) tot 0 (l.map Prod.fst)
      = some (l.map fun c => (c.2 2 / tot) • contactZmp c.1.pos (c.2 3) (c.2 4) (c.2 2)).sum := by
    intro tot
    have := zmpSum_on (forcesOf l) tot (l.map Prod.fst) [] h' (by simp) 0 (by simp)
    rw [List.append_nil] at this
    rw [this, ← sum_contacts l fun c => (c.2 2 / tot) • contactZmp c.1.pos (c.2 3) (c.2 4) (c.2 2)]
    refine congrArg some (Finset.sum_congr rfl fun j _ => ?_)
    rw [ent_wrench _ j 2 (by norm_num), ent_wrench _ j 3 (by norm_num), ent_wrench _ j 4 (by norm_num), forcesOf_wrench]
    simp only [Fin.getElem_fin, List.getElem_map]
    rfl
  unfold getZMP
  rw [ht]
  simp only [hz]
  have : (∃ c ∈ l.map Prod.fst, c.contact = true) ↔ l ≠ [] := by
    constructor
    · rintro ⟨c, hc, -⟩ rfl
      simp at hc
    · intro hl
      obtain ⟨c, hc⟩ := List.exists_mem_of_ne_nil l hl
      exact ⟨c.1, List.mem_map_of_mem hc, h c hc⟩
  simp only [this]

/-- **C81 (zero moment point).** If every registered contact is on, the order in which they were registered does not matter. -/
theorem C81_zmp_partial {l l' : Loaded} (hp : l'.Perm l) (h : ∀ c ∈ l, c.1.contact = true) :
    getZMP (l'.map Prod.fst) (forcesOf l') = getZMP (l.map Prod.fst) (forcesOf l) := by
  rw [getZMP_loaded l h, getZMP_loaded l' fun c hc => h c (hp.mem_iff.mp hc)]
  have e : (l'.map fun c => c.2 2).sum = (l.map fun c => c.2 2).sum := (hp.map _).sum_eq
  have e2 : (l' ≠ []) ↔ (l ≠ []) := by rw [not_iff_not]; exact ⟨fun h => by subst h; exact hp.symm.eq_nil, fun h => by subst h; exact hp.eq_nil⟩
  rw [e]
  simp only [e2]
  rw [(hp.map fun c => (c.2 2 / (l.map fun c => c.2 2).sum) • contactZmp c.1.pos (c.2 3) (c.2 4) (c.2 2)).sum_eq]

/-- **C81 (negation, zero moment point).** A foot on the ground and a foot in the air: registered ground foot first, `getZMP`
returns its centre of pressure; registered the other way round, it reads outside the force vector. -/
theorem C81_zmp_differs (on off : ZmpContact) (h : on.contact = true) (h' : off.contact = false) (f : Fin (6 * 1) → ℝ)
    (hf : f 2 ≠ 0) :
    getZMP [on, off] f = .zmp (contactZmp on.pos (f 3) (f 4) (f 2)) ∧ getZMP [off, on] f = .outOfRange := by
  constructor
  · have := getZMP_prefix (on := [on]) (off := [off]) (by simpa using h) (by simpa using h') f
      (fun h0 => hf ((Fin.sum_univ_one fun j : Fin 1 => wrenchOf f j 2).symm.trans h0))
    refine this.trans (congrArg ZmpResult.zmp ?_)
    have e : ∀ g : Fin ([on] : List ZmpContact).length → Fin 3 → ℝ, ∑ j, g j = g ⟨0, by simp⟩ := fun g => Fin.sum_univ_one g
    have e' : ∀ g : Fin ([on] : List ZmpContact).length → ℝ, ∑ j, g j = g ⟨0, by simp⟩ := fun g => Fin.sum_univ_one g
    rw [e, e']
    have hw : ∀ a : Fin 6, wrenchOf f (⟨0, by simp⟩ : Fin ([on] : List ZmpContact).length) a = f ⟨a, by omega⟩ := by
      intro a; unfold wrenchOf; congr 1; apply Fin.ext; simp
    rw [hw, hw, hw]
    have : f ⟨(2 : Fin 6).val, by omega⟩ = f 2 := rfl
    rw [this, div_self hf, one_smul]
    rfl
  · refine (C15_out_of_range_iff [off, on] 1 (by simp [h, h']) f).mpr ?_
    rintro ⟨a, b, he, ha, hb⟩
    cases a with
    | nil =>
      simp only [List.nil_append] at he
      rw [← he] at hb
      have := hb on (by simp)
      rw [h] at this
      cases this
    | cons c cs =>
      simp only [List.cons_append, List.cons.injEq] at he
      have := ha c (by simp)
      rw [← he.1, h'] at this
      cases this

/-- Two feet pressing unequally meet the hypotheses of `C81_zmp_partial`, and there is a zero moment point. -/
example : let a : ZmpContact := ⟨true, ![0, 1, 0]⟩
    let b : ZmpContact := ⟨true, ![0, -1, 0]⟩
    let l : Loaded := [(a, ![0, 0, -1, 0, 0, 0]), (b, ![0, 0, -2, 1, 0, 0])]
    l.reverse.Perm l ∧ (∀ c ∈ l, c.1.contact = true) ∧ ∃ p, getZMP (l.map Prod.fst) (forcesOf l) = .zmp p := by
  intro a b l
  have h : ∀ c ∈ l, c.1.contact = true := by simp [l, a, b]
  exact ⟨l.reverse_perm, h, _, (getZMP_loaded l h).trans (if_neg (by simp [l]; norm_num))⟩

end Verif.Props
