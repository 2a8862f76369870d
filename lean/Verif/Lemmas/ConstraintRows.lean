import Verif.Model.ConstraintRows
import Verif.Spec.Wrench
import Mathlib.Tactic.Linarith
import Mathlib.Tactic.FieldSimp
import Mathlib.Tactic.FinCases
import Mathlib.Algebra.BigOperators.Fin

set_option linter.unusedSectionVars false

namespace Verif
open Matrix Verif.Model Verif.Spec

theorem zmp_rows_iff (lx ly : ℝ) (w : Fin 6 → ℝ) :
    (∀ i, 0 ≤ (zmpConst lx ly *ᵥ w) i) ↔ |w 4| ≤ lx * press w ∧ |w 3| ≤ ly * press w := by
  simp only [abs_le, press]
  constructor
  · intro h
    have h0 := h 0; have h1 := h 1; have h2 := h 2; have h3 := h 3
    simp [zmpConst, mulVec, dotProduct, Fin.sum_univ_succ] at h0 h1 h2 h3
    refine ⟨⟨?_, ?_⟩, ?_, ?_⟩ <;> linarith
  · rintro ⟨⟨h0, h1⟩, h2, h3⟩ i
    fin_cases i <;> simp [zmpConst, mulVec, dotProduct, Fin.sum_univ_succ] <;> linarith

theorem force_rows_iff (μ μz : ℝ) (w : Fin 6 → ℝ) :
    (∀ i, 0 ≤ (forceConst μ μz *ᵥ w) i) ↔ NoSlip μ μz w := by
  simp only [NoSlip, abs_le, press]
  constructor
  · intro h
    have h0 := h 0; have h1 := h 1; have h2 := h 2; have h3 := h 3; have h4 := h 4; have h5 := h 5
    simp [forceConst, mulVec, dotProduct, Fin.sum_univ_succ] at h0 h1 h2 h3 h4 h5
    refine ⟨⟨?_, ?_⟩, ⟨?_, ?_⟩, ?_, ?_⟩ <;> linarith
  · rintro ⟨⟨h0, h1⟩, ⟨h2, h3⟩, h4, h5⟩ i
    fin_cases i <;> simp [forceConst, mulVec, dotProduct, Fin.sum_univ_succ] <;> linarith

theorem noTip_iff {lx ly : ℝ} (hx : 0 < lx) (hy : 0 < ly) (w : Fin 6 → ℝ) :
    NoTip lx ly w ↔ |w 4| ≤ lx * press w ∧ |w 3| ≤ ly * press w := by
  unfold NoTip IsCoP
  constructor
  · rintro (⟨hp, px, py, ⟨h1, h2⟩, hpx, hpy⟩ | ⟨h1, h2, h3⟩)
    · have e4 : w 4 = px * press w := by unfold press; linarith
      have e3 : w 3 = -py * press w := by unfold press; linarith
      rw [e4, e3, abs_mul, abs_mul, abs_of_pos hp, abs_neg]
      exact ⟨mul_le_mul_of_nonneg_right hpx hp.le, mul_le_mul_of_nonneg_right hpy hp.le⟩
    · simp [press, h1, h2, h3]
  · rintro ⟨h1, h2⟩
    have hp : 0 ≤ press w := by
      by_contra hn
      have : lx * press w < 0 := mul_neg_of_pos_of_neg hx (not_le.mp hn)
      linarith [abs_nonneg (w 4)]
    rcases hp.lt_or_eq with hp | hp
    · left
      have hne : w 2 ≠ 0 := by intro h; simp [press, h] at hp
      refine ⟨hp, -w 4 / w 2, w 3 / w 2, ⟨by field_simp; ring, by field_simp; ring⟩, ?_, ?_⟩
      · rw [neg_div, abs_neg, abs_div, div_le_iff₀ (abs_pos.mpr hne)]
        have : |w 2| = press w := by unfold press at *; exact abs_of_neg (by linarith)
        rwa [this]
      · rw [abs_div, div_le_iff₀ (abs_pos.mpr hne)]
        have : |w 2| = press w := by unfold press at *; exact abs_of_neg (by linarith)
        rwa [this]
    · right
      rw [← hp] at h1 h2
      simp only [mul_zero, abs_nonpos_iff] at h1 h2
      exact ⟨by unfold press at hp; linarith, h2, h1⟩

/-! ### The loop -/

theorem fillRows_filter (cs : List ContactLink) : ∀ ci fi C R,
    fillRows cs ci fi C R = fillRows (active cs) ci fi C R := by
  induction cs with
  | nil => intros; rfl
  | cons l rest ih =>
    intro ci fi C R
    by_cases h : l.contact
    · rw [active, List.filter_cons_of_pos h]
      simp only [fillRows, h, if_true, ih, active]
    · rw [active, List.filter_cons_of_neg h]
      simp only [fillRows, h]
      exact ih _ _ _ _

theorem totalDof_filter (cs : List ContactLink) : totalDof cs = totalDof (active cs) := by
  induction cs with
  | nil => rfl
  | cons l rest ih =>
    by_cases h : l.contact
    · rw [active, List.filter_cons_of_pos h]; simp only [totalDof, h, if_true, ih, active]
    · rw [active, List.filter_cons_of_neg h]; simp only [totalDof, h]; exact ih

theorem totalConstraints_filter (cs : List ContactLink) :
    totalConstraints cs = totalConstraints (active cs) := by
  induction cs with
  | nil => rfl
  | cons l rest ih =>
    by_cases h : l.contact
    · rw [active, List.filter_cons_of_pos h]; simp only [totalConstraints, h, if_true, ih, active]
    · rw [active, List.filter_cons_of_neg h]; simp only [totalConstraints, h]; exact ih

/-- All contacts active and six-dimensional. -/
def All6 (l : List ContactLink) : Prop := ∀ x ∈ l, x.contact = true ∧ x.type = .c6d

theorem totalDof_six {l : List ContactLink} (h : All6 l) : totalDof l = some (6 * l.length) := by
  induction l with
  | nil => rfl
  | cons a l ih =>
    obtain ⟨h1, h2⟩ := h a (List.mem_cons_self ..)
    simp [totalDof, h1, h2, ContactType.dof, ih (fun x hx => h x (List.mem_cons_of_mem _ hx))]
    omega

theorem totalConstraints_six {l : List ContactLink} (h : All6 l) :
    totalConstraints l = some (10 * l.length) := by
  induction l with
  | nil => rfl
  | cons a l ih =>
    obtain ⟨h1, h2⟩ := h a (List.mem_cons_self ..)
    simp [totalConstraints, h1, h2, ContactType.constraints, ih (fun x hx => h x (List.mem_cons_of_mem _ hx))]
    omega

theorem setBlock_spec {M : DynMat} {i j p q : ℕ} (B : Matrix (Fin p) (Fin q) ℝ)
    (h1 : i + p ≤ M.rows) (h2 : j + q ≤ M.cols) :
    ∃ M', M.setBlock i j (.ofMatrix B) = some M' ∧ M'.rows = M.rows ∧ M'.cols = M.cols ∧
      (∀ (r : Fin p) (c : Fin q), M'.at' (i + r) (j + c) = B r c) ∧
      (∀ r c, ¬ (i ≤ r ∧ r < i + p ∧ j ≤ c ∧ c < j + q) → M'.at' r c = M.at' r c) := by
  refine ⟨{ M with at' := fun r c =>
      if i ≤ r ∧ r < i + p ∧ j ≤ c ∧ c < j + q then (DynMat.ofMatrix B).at' (r - i) (c - j) else M.at' r c },
    if_pos ⟨h1, h2⟩, rfl, rfl, ?_, ?_⟩
  · intro r c
    simp [DynMat.ofMatrix]
  · intro r c h
    exact if_neg h

theorem fill_spec (l : List ContactLink) (h6 : All6 l) : ∀ (ci fi : ℕ) (C R : DynMat),
    ci + 10 * l.length ≤ C.rows → fi + 6 * l.length ≤ C.cols →
    fi + 6 * l.length ≤ R.rows → fi + 6 * l.length ≤ R.cols →
    ∃ C' R', fillRows l ci fi C R = some (C', R') ∧ C'.rows = C.rows ∧
      (∀ i (hi : i < l.length) (r : Fin 10) (c : Fin 6),
        C'.at' (ci + 10 * i + r) (fi + 6 * i + c) = contactConst l[i] r c) ∧
      (∀ r c, (∀ i < l.length, ¬ (ci + 10 * i ≤ r ∧ r < ci + 10 * i + 10 ∧
          fi + 6 * i ≤ c ∧ c < fi + 6 * i + 6)) → C'.at' r c = C.at' r c) ∧
      (∀ b (hb : b < 2 * l.length) (r c : Fin 3),
        R'.at' (fi + 3 * b + r) (fi + 3 * b + c) = (l[b / 2]'(by omega)).rotmᵀ r c) ∧
      (∀ r c, (∀ b < 2 * l.length, ¬ (fi + 3 * b ≤ r ∧ r < fi + 3 * b + 3 ∧
          fi + 3 * b ≤ c ∧ c < fi + 3 * b + 3)) → R'.at' r c = R.at' r c) := by
  induction l with
  | nil =>
    intro ci fi C R _ _ _ _
    exact ⟨C, R, rfl, rfl, by simp, by simp, by simp, by simp⟩
  | cons a l ih =>
    intro ci fi C R hC1 hC2 hR1 hR2
    obtain ⟨ha, hat⟩ := h6 a (List.mem_cons_self ..)
    have hl : All6 l := fun x hx => h6 x (List.mem_cons_of_mem _ hx)
    simp only [List.length_cons] at hC1 hC2 hR1 hR2
    simp only [fillRows, ha, if_true, hat, ContactType.constraints, ContactType.dof]
    obtain ⟨R1, e1, r1, c1, v1, o1⟩ := setBlock_spec (M := R) (i := fi) (j := fi) a.rotmᵀ (by omega) (by omega)
    obtain ⟨R2, e2, r2, c2, v2, o2⟩ := setBlock_spec (M := R1) (i := fi + 3) (j := fi + 3) a.rotmᵀ
      (by omega) (by omega)
    obtain ⟨C1, e3, r3, c3, v3, o3⟩ := setBlock_spec (M := C) (i := ci) (j := fi)
      (zmpConst a.planeX a.planeY) (by omega) (by omega)
    obtain ⟨C2, e4, r4, c4, v4, o4⟩ := setBlock_spec (M := C1) (i := ci + 4) (j := fi)
      (forceConst a.friction a.frictionZ) (by omega) (by omega)
    simp only [e1, e2, e3, e4, Option.bind_eq_bind, Option.bind_some]
    obtain ⟨C', R', e, hrows, hC, hCo, hR, hRo⟩ := ih hl (ci + 10) (fi + 6) C2 R2 (by omega) (by omega) (by omega)
      (by omega)
    refine ⟨C', R', e, by omega, ?_, ?_, ?_, ?_⟩
    · intro i hi r c
      have hr := r.isLt
      have hc := c.isLt
      rcases i with _ | i
      · rw [hCo _ _ (by intro i _; omega)]
        simp only [Nat.mul_zero, Nat.add_zero, List.getElem_cons_zero, contactConst, Matrix.of_apply]
        split_ifs with h4
        · rw [o4 _ _ (by omega)]
          exact v3 ⟨r, h4⟩ c
        · have := v4 ⟨r - 4, by omega⟩ c
          simp only at this
          rw [← this]
          congr 1; omega
      · have := hC i (by simpa using hi) r c
        simp only [List.getElem_cons_succ]
        rw [← this]
        congr 1 <;> omega
    · intro r c h
      have h0 := h 0 (by simp)
      rw [hCo _ _ (fun i hi => by have := h (i + 1) (by simpa using hi); omega), o4 _ _ (by omega),
        o3 _ _ (by omega)]
    · intro b hb r c
      have hr := r.isLt
      have hc := c.isLt
      rcases b with _ | _ | b
      · rw [hRo _ _ (by intro i _; omega), o2 _ _ (by omega)]
        exact v1 r c
      · rw [hRo _ _ (by intro i _; omega)]
        exact v2 r c
      · have := hR b (by simp only [List.length_cons] at hb; omega) r c
        have e2 : (b + 1 + 1) / 2 = b / 2 + 1 := by omega
        simp only [e2, List.getElem_cons_succ]
        rw [← this]
        congr 1 <;> omega
    · intro r c h
      have h0 := h 0 (by simp)
      have h1 := h 1 (by simp; omega)
      rw [hRo _ _ (fun i hi => by have := h (i + 2) (by simp only [List.length_cons]; omega); omega),
        o2 _ _ (by omega), o1 _ _ (by omega)]

/-- A sum over `Fin (6 * k)` of a function vanishing outside the `i`-th block of six. -/
theorem sum_block {k : ℕ} (i : Fin k) (g : Fin (6 * k) → ℝ)
    (h : ∀ j : Fin (6 * k), ¬ (6 * i.val ≤ j.val ∧ j.val < 6 * i.val + 6) → g j = 0) :
    ∑ j, g j = ∑ j : Fin 6, g ⟨6 * i + j, by omega⟩ := by
  symm
  apply Finset.sum_of_injOn (fun j : Fin 6 => (⟨6 * i + j, by omega⟩ : Fin (6 * k)))
  · intro a _ b _ hab
    simp only [Fin.mk.injEq] at hab
    ext; omega
  · intro a _; simp
  · intro j _ hj
    apply h
    rintro ⟨h1, h2⟩
    apply hj
    exact ⟨⟨j - 6 * i, by omega⟩, by simp, by ext; simp; omega⟩
  · intros; rfl

/-- The rows of the active 6-D contacts act on their own six force components, in the contact frame. -/
theorem rows_apply (l : List ContactLink) (h6 : All6 l) :
    ∃ C R, fillRows l 0 0 (.zero (10 * l.length) (6 * l.length)) (.zero (6 * l.length) (6 * l.length))
        = some (C, R) ∧ C.rows = 10 * l.length ∧
      ∀ (F : Fin (6 * l.length) → ℝ) (i : Fin l.length) (r : Fin 10),
        ((C.toMatrix (10 * l.length) (6 * l.length) * R.toMatrix (6 * l.length) (6 * l.length)) *ᵥ F)
            ⟨10 * i + r, by omega⟩
          = (contactConst l[i] *ᵥ inFrame l[i].rotm (wrenchOf F i)) r := by
  obtain ⟨C, R, e, hrows, hC, hCo, hR, hRo⟩ := fill_spec l h6 0 0 (.zero (10 * l.length) (6 * l.length))
    (.zero (6 * l.length) (6 * l.length)) (by simp [DynMat.zero]) (by simp [DynMat.zero])
    (by simp [DynMat.zero]) (by simp [DynMat.zero])
  simp only [Nat.zero_add] at hC hCo hR hRo
  refine ⟨C, R, e, hrows, ?_⟩
  intro F i r
  have hi := i.isLt
  have hr := r.isLt
  rw [← mulVec_mulVec]
  -- rotated force, blockwise
  have hrot : ∀ j : Fin 6, (R.toMatrix (6 * l.length) (6 * l.length) *ᵥ F) ⟨6 * i + j, by omega⟩
      = inFrame l[i].rotm (wrenchOf F i) j := by
    intro j
    have hj := j.isLt
    unfold mulVec dotProduct
    rw [sum_block i]
    · have hv : ∀ (a b : Fin 6), R.at' (6 * i + a) (6 * i + b) =
          if a.val / 3 = b.val / 3 then l[i].rotmᵀ ⟨a % 3, by omega⟩ ⟨b % 3, by omega⟩ else 0 := by
        intro a b
        have ha := a.isLt
        have hb := b.isLt
        split_ifs with hab
        · have := hR (2 * i + a / 3) (by omega) ⟨a % 3, by omega⟩ ⟨b % 3, by omega⟩
          have e1 : (2 * i.val + a / 3) / 2 = i := by omega
          simp only [e1] at this
          rw [show 6 * i.val + a.val = 3 * (2 * i.val + a / 3) + a % 3 by omega,
            show 6 * i.val + b.val = 3 * (2 * i.val + a / 3) + b % 3 by omega]
          exact this
        · rw [hRo]
          · rfl
          · intro b' _; omega
      simp only [DynMat.toMatrix, Matrix.of_apply, hv, Fin.sum_univ_succ]
      fin_cases j <;>
        simp [inFrame, wrenchOf, mulVec, dotProduct, Fin.sum_univ_succ, Matrix.transpose_apply]
    · intro j' hj'
      simp only [DynMat.toMatrix, Matrix.of_apply]
      rw [hRo, DynMat.zero, zero_mul]
      intro b _; omega
  generalize R.toMatrix (6 * l.length) (6 * l.length) *ᵥ F = FR at hrot ⊢
  change ∑ j, C.toMatrix (10 * l.length) (6 * l.length) ⟨10 * i + r, by omega⟩ j * FR j
    = ∑ j, contactConst l[i] r j * inFrame l[i].rotm (wrenchOf F i) j
  rw [sum_block i]
  · apply Finset.sum_congr rfl
    intro j _
    rw [hrot j]
    simp only [DynMat.toMatrix, Matrix.of_apply]
    rw [hC i hi r j]
    rfl
  · intro j' hj'
    simp only [DynMat.toMatrix, Matrix.of_apply]
    rw [hCo, DynMat.zero, zero_mul]
    intro b _; omega

/-- All constraint rows of a contact nonnegative. -/
theorem contactConst_iff (l : ContactLink) (w : Fin 6 → ℝ) :
    (∀ r, 0 ≤ (contactConst l *ᵥ w) r) ↔
      (∀ r, 0 ≤ (zmpConst l.planeX l.planeY *ᵥ w) r) ∧ (∀ r, 0 ≤ (forceConst l.friction l.frictionZ *ᵥ w) r) := by
  have h1 : ∀ r : Fin 4, (contactConst l *ᵥ w) ⟨r, by omega⟩ = (zmpConst l.planeX l.planeY *ᵥ w) r := by
    intro r; simp [contactConst, mulVec]
  have h2 : ∀ r : Fin 6, (contactConst l *ᵥ w) ⟨r + 4, by omega⟩ = (forceConst l.friction l.frictionZ *ᵥ w) r := by
    intro r; simp [contactConst, mulVec]
  constructor
  · intro h
    exact ⟨fun r => by rw [← h1]; exact h _, fun r => by rw [← h2]; exact h _⟩
  · rintro ⟨ha, hb⟩ r
    by_cases hr : r.val < 4
    · have := ha ⟨r, hr⟩; rw [← h1] at this; exact this
    · have := hb ⟨r - 4, by omega⟩; rw [← h2] at this
      have e : (⟨r.val - 4 + 4, by omega⟩ : Fin 10) = r := by ext; simp; omega
      simp only [e] at this; exact this

end Verif
