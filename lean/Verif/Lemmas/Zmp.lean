import Verif.Model.Redistribute
import Verif.Spec.Wrench
import Mathlib.Algebra.BigOperators.Fin
import Mathlib.Tactic.Linarith
import Mathlib.Tactic.Ring
import Mathlib.Tactic.FieldSimp

set_option linter.unusedSectionVars false

namespace Verif
open Verif.Model Verif.Spec

variable {m : ℕ}

theorem totalFz_off (f : Fin m → ℝ) (off : List ZmpContact) (h : ∀ c ∈ off, c.contact = false) (i : ℕ) :
    totalFz f i off = some 0 := by
  induction off generalizing i with
  | nil => rfl
  | cons c cs ih =>
    rw [totalFz, if_neg (by simp [h c (by simp)])]
    exact ih (fun c hc => h c (by simp [hc])) _

theorem zmpSum_off (f : Fin m → ℝ) (tot : ℝ) (off : List ZmpContact) (h : ∀ c ∈ off, c.contact = false) (i : ℕ) :
    zmpSum f tot i off = some 0 := by
  induction off generalizing i with
  | nil => rfl
  | cons c cs ih =>
    rw [zmpSum, if_neg (by simp [h c (by simp)])]
    exact ih (fun c hc => h c (by simp [hc])) _

/-- entry `k`, zero out of range -/
def ent (f : Fin m → ℝ) (k : ℕ) : ℝ := (vecAt f k).getD 0

theorem vecAt_ent {f : Fin m → ℝ} {k : ℕ} (h : k < m) : vecAt f k = some (ent f k) := by
  simp [ent, vecAt, h]

theorem totalFz_on (f : Fin m → ℝ) (on off : List ZmpContact) (h : ∀ c ∈ on, c.contact = true)
    (h' : ∀ c ∈ off, c.contact = false) (i : ℕ) (hm : 6 * (i + on.length) ≤ m) :
    totalFz f i (on ++ off) = some (∑ j : Fin on.length, ent f (6 * (i + j) + 2)) := by
  induction on generalizing i with
  | nil => simpa using totalFz_off f off h' i
  | cons c cs ih =>
    simp only [List.length_cons] at hm
    rw [List.cons_append, totalFz, if_pos (h c (by simp)), vecAt_ent (by omega),
      ih (fun c hc => h c (by simp [hc])) _ (by omega)]
    simp only [Option.bind_eq_bind, Option.bind_some, Option.pure_def]
    rw [show (c :: cs).length = cs.length + 1 from rfl, Fin.sum_univ_succ]
    simp only [Fin.val_zero, Fin.val_succ, Option.some.injEq]
    congr 1
    · congr 1; omega
    · apply Finset.sum_congr rfl; intro j _; congr 1; omega

theorem zmpSum_on (f : Fin m → ℝ) (tot : ℝ) (on off : List ZmpContact) (h : ∀ c ∈ on, c.contact = true)
    (h' : ∀ c ∈ off, c.contact = false) (i : ℕ) (hm : 6 * (i + on.length) ≤ m) :
    zmpSum f tot i (on ++ off) = some (∑ j : Fin on.length, (ent f (6 * (i + j) + 2) / tot) •
      contactZmp on[j].pos (ent f (6 * (i + j) + 3)) (ent f (6 * (i + j) + 4)) (ent f (6 * (i + j) + 2))) := by
  induction on generalizing i with
  | nil => simpa using zmpSum_off f tot off h' i
  | cons c cs ih =>
    simp only [List.length_cons] at hm
    rw [List.cons_append, zmpSum, if_pos (h c (by simp)), vecAt_ent (by omega), vecAt_ent (by omega),
      vecAt_ent (by omega), ih (fun c hc => h c (by simp [hc])) _ (by omega)]
    simp only [Option.bind_eq_bind, Option.bind_some, Option.pure_def]
    refine Eq.trans ?_ (congrArg some (Fin.sum_univ_succ (n := cs.length) _).symm)
    simp only [Fin.val_zero, Fin.val_succ, Option.some.injEq, add_zero, mul_comm i 6]
    refine congrArg₂ (· + ·) rfl (Finset.sum_congr rfl fun j _ => ?_)
    simp only [show ∀ a, 6 * (i + 1 + a) = 6 * (i + (a + 1)) from fun a => by ring]
    rfl

/-- A force vector with one block per registered contact. -/
theorem totalFz_full (f : Fin m → ℝ) (cs : List ZmpContact) (i : ℕ) (hm : 6 * (i + cs.length) ≤ m) :
    totalFz f i cs = some (∑ j : Fin cs.length, if cs[j].contact then ent f (6 * (i + j) + 2) else 0) := by
  induction cs generalizing i with
  | nil => simp [totalFz]
  | cons c cs ih =>
    simp only [List.length_cons] at hm
    have e := ih (i + 1) (by omega)
    refine Eq.trans ?_ (congrArg some (Fin.sum_univ_succ (n := cs.length) _).symm)
    simp only [Fin.val_succ, show ∀ a, 6 * (i + (a + 1)) = 6 * (i + 1 + a) from fun a => by ring]
    rw [totalFz, e]
    by_cases hc : c.contact = true
    · rw [if_pos hc, vecAt_ent (by omega)]
      simp only [Option.bind_eq_bind, Option.bind_some, Option.pure_def, Option.some.injEq]
      refine congrArg₂ (· + ·) ?_ rfl
      exact (congrArg (ent f) (by simp; ring)).trans (if_pos hc).symm
    · rw [if_neg hc]
      refine congrArg some ?_
      exact (zero_add _).symm.trans (congrArg₂ (· + ·) (if_neg hc).symm rfl)

theorem zmpSum_full (f : Fin m → ℝ) (tot : ℝ) (cs : List ZmpContact) (i : ℕ) (hm : 6 * (i + cs.length) ≤ m) :
    zmpSum f tot i cs = some (∑ j : Fin cs.length, if cs[j].contact then (ent f (6 * (i + j) + 2) / tot) •
      contactZmp cs[j].pos (ent f (6 * (i + j) + 3)) (ent f (6 * (i + j) + 4)) (ent f (6 * (i + j) + 2)) else 0) := by
  induction cs generalizing i with
  | nil => simp [zmpSum]
  | cons c cs ih =>
    simp only [List.length_cons] at hm
    have e := ih (i + 1) (by omega)
    refine Eq.trans ?_ (congrArg some (Fin.sum_univ_succ (n := cs.length) _).symm)
    simp only [Fin.val_succ, show ∀ a, 6 * (i + (a + 1)) = 6 * (i + 1 + a) from fun a => by ring]
    rw [zmpSum, e]
    by_cases hc : c.contact = true
    · rw [if_pos hc, vecAt_ent (by omega), vecAt_ent (by omega), vecAt_ent (by omega)]
      simp only [Option.bind_eq_bind, Option.bind_some, Option.pure_def, Option.some.injEq]
      refine congrArg₂ (· + ·) ?_ rfl
      simp only [mul_comm i 6]
      exact (if_pos hc).symm
    · rw [if_neg hc]
      refine congrArg some ?_
      exact (zero_add _).symm.trans (congrArg₂ (· + ·) (if_neg hc).symm rfl)

/-- number of active contacts -/
def actCount (cs : List ZmpContact) : ℕ := (cs.filter (·.contact)).length

/-- If an inactive contact precedes an active one, the last active one is read out of range. -/
theorem totalFz_gap (cs : List ZmpContact) (i : ℕ) {f : Fin m → ℝ} (hex : ∃ c ∈ cs, c.contact)
    (hm : m ≤ 6 * (i + actCount cs)) (hgap : ¬ ∃ on off, cs = on ++ off ∧ (∀ c ∈ on, c.contact = true) ∧
      ∀ c ∈ off, c.contact = false) : totalFz f i cs = none := by
  induction cs generalizing i with
  | nil => simp at hex
  | cons c cs ih =>
    by_cases hc : c.contact = true
    · have hcnt : actCount (c :: cs) = actCount cs + 1 := by simp [actCount, hc]
      rw [totalFz, if_pos hc]
      have hg' : ¬ ∃ on off, cs = on ++ off ∧ (∀ c ∈ on, c.contact = true) ∧ ∀ c ∈ off, c.contact = false := by
        rintro ⟨on, off, rfl, h1, h2⟩
        exact hgap ⟨c :: on, off, rfl, by simpa [hc] using h1, h2⟩
      have hex' : ∃ c ∈ cs, c.contact := by
        by_contra hn
        push Not at hn
        exact hg' ⟨[], cs, rfl, by simp, fun c hc => by simpa using hn c hc⟩
      rw [ih (i + 1) hex' (by omega) hg']
      cases vecAt f (2 + i * 6) <;> rfl
    · have hcnt : actCount (c :: cs) = actCount cs := by simp [actCount, hc]
      have hex' : ∃ c ∈ cs, c.contact := by
        obtain ⟨d, hd, hd'⟩ := hex
        rcases List.mem_cons.mp hd with rfl | hd
        · exact absurd hd' hc
        · exact ⟨d, hd, hd'⟩
      rw [totalFz, if_neg hc]
      clear ih hgap
      -- from here every active contact is read one block too far
      have key : ∀ (cs : List ZmpContact) (i : ℕ), (∃ c ∈ cs, c.contact) → m ≤ 6 * (i + actCount cs) →
          totalFz f (i + 1) cs = none := by
        intro cs
        induction cs with
        | nil => intro i h; simp at h
        | cons d ds ih =>
          intro i hex hm
          by_cases hd : d.contact = true
          · rw [totalFz, if_pos hd]
            have hcnt : actCount (d :: ds) = actCount ds + 1 := by simp [actCount, hd]
            by_cases hr : ∃ c ∈ ds, c.contact
            · rw [ih (i + 1) hr (by omega)]
              cases vecAt f (2 + (i + 1) * 6) <;> rfl
            · have h0 : actCount ds = 0 := by
                unfold actCount
                rw [List.length_eq_zero_iff, List.filter_eq_nil_iff]
                intro a ha hh; exact hr ⟨a, ha, hh⟩
              have : vecAt f (2 + (i + 1) * 6) = none := by
                unfold vecAt; rw [dif_neg (by omega)]
              rw [this]; rfl
          · rw [totalFz, if_neg hd]
            have hcnt : actCount (d :: ds) = actCount ds := by simp [actCount, hd]
            have hr : ∃ c ∈ ds, c.contact := by
              obtain ⟨e, he, he'⟩ := hex
              rcases List.mem_cons.mp he with rfl | he
              · exact absurd he' hd
              · exact ⟨e, he, he'⟩
            exact ih (i + 1) hr (by omega)
      exact key cs i hex' (by omega)

end Verif
