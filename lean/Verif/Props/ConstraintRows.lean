import Verif.Lemmas.ConstraintRows

/-!
# C12, C13 and the constraint-matrix half of C28
-/
set_option linter.unusedSectionVars false

namespace Verif.Props
open Matrix Verif Verif.Spec Verif.Model

/-- C12.  The four ZMP rows are nonnegative exactly when the foot does not tip: it presses with its centre of
pressure inside the sole, or carries no vertical force and no tipping moment. -/
theorem C12_zmp_rows {lx ly : ℝ} (hx : 0 < lx) (hy : 0 < ly) (w : Fin 6 → ℝ) :
    (∀ i, 0 ≤ (zmpConst lx ly *ᵥ w) i) ↔ NoTip lx ly w := by
  rw [zmp_rows_iff, noTip_iff hx hy]

/-- C12.  The centre of pressure of a pressing foot is unique and is the point `(-my/fz, mx/fz)`. -/
theorem C12_cop_formula {w : Fin 6 → ℝ} (h : 0 < press w) (px py : ℝ) :
    IsCoP w px py ↔ px = -w 4 / w 2 ∧ py = w 3 / w 2 := by
  have hne : w 2 ≠ 0 := by intro h0; simp [press, h0] at h
  unfold IsCoP
  rw [eq_div_iff hne, eq_div_iff hne]
  constructor <;> rintro ⟨h1, h2⟩ <;> constructor <;> linarith

/-- C13.  The six force rows are nonnegative exactly when the wrench is inside the friction pyramid. -/
theorem C13_force_rows (μ μz : ℝ) (w : Fin 6 → ℝ) :
    (∀ i, 0 ≤ (forceConst μ μz *ᵥ w) i) ↔ NoSlip μ μz w := force_rows_iff μ μz w

/-- C13.  With positive friction a wrench inside the pyramid never pulls. -/
theorem C13_no_pull {μ μz : ℝ} (hμ : 0 < μ) {w : Fin 6 → ℝ} (h : NoSlip μ μz w) : 0 ≤ press w := by
  by_contra hn
  have : μ * press w < 0 := mul_neg_of_pos_of_neg hμ (not_le.mp hn)
  linarith [abs_nonneg (w 0), h.1]

/-- C13.  The wrenches a contact can carry form a convex cone. -/
theorem C13_cone {μ μz : ℝ} {v w : Fin 6 → ℝ} (hv : NoSlip μ μz v) (hw : NoSlip μ μz w) {a b : ℝ}
    (ha : 0 ≤ a) (hb : 0 ≤ b) : NoSlip μ μz (a • v + b • w) := by
  rw [← force_rows_iff] at *
  intro i
  rw [mulVec_add, mulVec_smul, mulVec_smul]
  exact add_nonneg (mul_nonneg ha (hv i)) (mul_nonneg hb (hw i))

/-- C12.  The wrenches that do not tip the foot form a convex cone as well. -/
theorem C12_cone {lx ly : ℝ} (hx : 0 < lx) (hy : 0 < ly) {v w : Fin 6 → ℝ} (hv : NoTip lx ly v)
    (hw : NoTip lx ly w) {a b : ℝ} (ha : 0 ≤ a) (hb : 0 ≤ b) : NoTip lx ly (a • v + b • w) := by
  rw [← C12_zmp_rows hx hy] at *
  intro i
  rw [mulVec_add, mulVec_smul, mulVec_smul]
  exact add_nonneg (mul_nonneg ha (hv i)) (mul_nonneg hb (hw i))

/-- C28 (constraint matrix).  With any set of 6-D contacts switched on in any pattern, the constraint matrix is
defined, has ten rows per active contact, and a stacked contact force satisfies it exactly when every active
contact's own wrench, in its own frame, neither tips nor slips. -/
theorem C28_constraint_matrix (cs : List ContactLink) (h6 : ∀ l ∈ cs, l.type = .c6d)
    (hp : ∀ l ∈ cs, 0 < l.planeX ∧ 0 < l.planeY) :
    let act := active cs
    ∃ M : Matrix (Fin (10 * act.length)) (Fin (6 * act.length)) ℝ,
      getContactConstraintMatrix cs = some ⟨_, _, M⟩ ∧
      ∀ F : Fin (6 * act.length) → ℝ,
        (∀ r, (M *ᵥ F) r ≤ 0) ↔
          ∀ i : Fin act.length,
            NoTip act[i].planeX act[i].planeY (inFrame act[i].rotm (wrenchOf F i)) ∧
            NoSlip act[i].friction act[i].frictionZ (inFrame act[i].rotm (wrenchOf F i)) := by
  intro act
  have hall : All6 act := fun l hl => by
    have := List.mem_filter.mp hl
    exact ⟨this.2, h6 l this.1⟩
  obtain ⟨C, R, e, -, h⟩ := rows_apply act hall
  refine ⟨-(C.toMatrix (10 * act.length) (6 * act.length) * R.toMatrix _ (6 * act.length)), ?_, ?_⟩
  · unfold getContactConstraintMatrix
    rw [totalDof_filter, totalDof_six hall]
    simp only [Option.bind_eq_bind, Option.bind_some]
    rw [fillRows_filter]
    change Option.bind (fillRows act 0 0 (.zero (10 * act.length) (6 * act.length)) _) _ = _
    rw [e]
    rfl
  · intro F
    have hpa : ∀ i : Fin act.length, 0 < act[i].planeX ∧ 0 < act[i].planeY := fun i =>
      hp _ (List.mem_filter.mp (List.getElem_mem i.isLt)).1
    have key : ∀ i : Fin act.length,
        (NoTip act[i].planeX act[i].planeY (inFrame act[i].rotm (wrenchOf F i)) ∧
          NoSlip act[i].friction act[i].frictionZ (inFrame act[i].rotm (wrenchOf F i))) ↔
        ∀ r : Fin 10, 0 ≤ ((C.toMatrix (10 * act.length) (6 * act.length) * R.toMatrix _ (6 * act.length)) *ᵥ F) ⟨10 * i + r, by omega⟩ := by
      intro i
      rw [← C12_zmp_rows (hpa i).1 (hpa i).2, ← C13_force_rows, ← contactConst_iff]
      exact forall_congr' fun r => by rw [h F i r]
    rw [forall_congr' key]
    simp only [neg_mulVec, Pi.neg_apply, neg_nonpos]
    constructor
    · intro hr i r; exact hr _
    · intro hr r
      have := hr ⟨r / 10, by omega⟩ ⟨r % 10, by omega⟩
      have e : (⟨10 * (r.val / 10) + r.val % 10, by omega⟩ : Fin (10 * act.length)) = r := by
        ext; simp; omega
      simp only [e] at this
      exact this

/-- C28 (negation for point contacts).  A single active point contact makes the constraint matrix write outside
its storage. -/
theorem C28_point_contact_undefined (l : ContactLink) (h : l.type = .point) (ha : l.contact = true) :
    getContactConstraintMatrix [l] = none ∧ constraintMats [l] = none := by
  constructor
  · simp [getContactConstraintMatrix, totalDof, h, ha, ContactType.dof, fillRows, DynMat.setBlock,
      DynMat.ofMatrix, DynMat.zero]
  · simp [constraintMats, totalConstraints, totalDof, h, ha, ContactType.dof, ContactType.constraints, fillRows,
      DynMat.setBlock, DynMat.ofMatrix, DynMat.zero]

/-! ### The hypotheses are met -/

/-- a sole of half sizes 0.15, 0.075 and friction 0.2 -/
noncomputable def exContact (on : Bool) : ContactLink :=
  { type := .c6d, contact := on, rotm := 1, planeX := 15 / 100, planeY := 75 / 1000, friction := 2 / 10,
    frictionZ := 2 / 10 }

/-- standing still with the CoP 0.1 forward satisfies C12 and C13; with the CoP 0.2 forward it does not -/
example : NoTip (15 / 100) (75 / 1000) ![0, 0, -500, 0, 50, 0] ∧ NoSlip (2 / 10) (2 / 10) ![0, 0, -500, 0, 50, 0] ∧
    ¬ NoTip (15 / 100) (75 / 1000) ![0, 0, -500, 0, 100, 0] := by
  rw [noTip_iff (by norm_num) (by norm_num), noTip_iff (by norm_num) (by norm_num)]
  simp [NoSlip, press, abs_le]
  norm_num

example : ∀ l ∈ [exContact true, exContact false, exContact true],
    l.type = .c6d ∧ 0 < l.planeX ∧ 0 < l.planeY := by
  simp [exContact]

end Verif.Props
