import Verif.Model.CodRank
import Verif.Lemmas.ContactRank
import Mathlib.LinearAlgebra.Trace
import Mathlib.LinearAlgebra.Matrix.Trace
import Mathlib.Algebra.Order.BigOperators.Ring.Finset
import Mathlib.Tactic.Linarith
import Mathlib.Tactic.FieldSimp
import Mathlib.Tactic.Module

/-! # Column-pivoted factorisation: projectors, pivots and rank -/

set_option linter.unusedSectionVars false

namespace Verif
open Matrix Model

variable {m n : Type*} [Fintype m] [DecidableEq m] [Fintype n] [DecidableEq n]

theorem sqNorm_nonneg (v : m → ℝ) : 0 ≤ sqNorm v := by
  unfold sqNorm dotProduct
  exact Finset.sum_nonneg fun i _ => mul_self_nonneg _

theorem sqNorm_eq_zero {v : m → ℝ} : sqNorm v = 0 ↔ v = 0 := dotProduct_self_eq_zero

@[simp] theorem sqNorm_zero : sqNorm (0 : m → ℝ) = 0 := by simp [sqNorm]

/-- Orthogonal projector. -/
structure IsOProj (P : Matrix m m ℝ) : Prop where
  symm : Pᵀ = P
  idem : P * P = P

theorem isOProj_zero : IsOProj (0 : Matrix m m ℝ) := ⟨by simp, by simp⟩

theorem IsOProj.dot {P : Matrix m m ℝ} (h : IsOProj P) (v w : m → ℝ) : (P *ᵥ v) ⬝ᵥ w = v ⬝ᵥ P *ᵥ w := by
  rw [dotProduct_mulVec, ← mulVec_transpose, h.symm]

theorem IsOProj.mulVec_sub {P : Matrix m m ℝ} (h : IsOProj P) (v : m → ℝ) : P *ᵥ (v - P *ᵥ v) = 0 := by
  rw [Matrix.mulVec_sub, mulVec_mulVec, h.idem, sub_self]

/-- One step of the factorisation. -/
noncomputable def projStep (P : Matrix m m ℝ) (u : m → ℝ) : Matrix m m ℝ := P + (sqNorm u)⁻¹ • vecMulVec u u

theorem projStep_mulVec (P : Matrix m m ℝ) (u v : m → ℝ) :
    projStep P u *ᵥ v = P *ᵥ v + ((sqNorm u)⁻¹ * (u ⬝ᵥ v)) • u := by
  unfold projStep
  rw [Matrix.add_mulVec, Matrix.smul_mulVec, vecMulVec_mulVec]
  ext i
  simp only [Pi.add_apply, Pi.smul_apply, smul_eq_mul, MulOpposite.smul_eq_mul_unop, MulOpposite.unop_op]
  ring

theorem projStep_zero (P : Matrix m m ℝ) : projStep P 0 = P := by simp [projStep]

theorem IsOProj.step {P : Matrix m m ℝ} (h : IsOProj P) {u : m → ℝ} (hu : P *ᵥ u = 0) : IsOProj (projStep P u) := by
  by_cases h0 : u = 0
  · subst h0; rw [projStep_zero]; exact h
  have hs : sqNorm u ≠ 0 := fun e => h0 (sqNorm_eq_zero.mp e)
  constructor
  · unfold projStep
    rw [transpose_add, transpose_smul, transpose_vecMulVec, h.symm]
  · unfold projStep
    have h1 : P * vecMulVec u u = 0 := by rw [mul_vecMulVec, hu, zero_vecMulVec]
    have h2 : vecMulVec u u * P = 0 := by
      rw [vecMulVec_mul, ← mulVec_transpose, h.symm, hu, vecMulVec_zero]
    have h3 : vecMulVec u u * vecMulVec u u = sqNorm u • vecMulVec u u := by
      rw [vecMulVec_mul_vecMulVec]
      ext i j; simp [vecMulVec_apply, sqNorm]; ring
    rw [Matrix.add_mul, Matrix.mul_add, Matrix.mul_add, h.idem, Matrix.mul_smul, h1, Matrix.smul_mul, h2, Matrix.smul_mul,
      Matrix.mul_smul, h3, smul_zero, add_zero, zero_add, smul_smul (sqNorm u)⁻¹ (sqNorm u),
      inv_mul_cancel₀ hs, one_smul]

theorem trace_step {P : Matrix m m ℝ} {u : m → ℝ} (h0 : u ≠ 0) : (projStep P u).trace = P.trace + 1 := by
  have hs : sqNorm u ≠ 0 := fun e => h0 (sqNorm_eq_zero.mp e)
  unfold projStep
  rw [trace_add, trace_smul]
  have : (vecMulVec u u).trace = sqNorm u := by
    simp [trace, vecMulVec_apply, sqNorm, dotProduct]
  rw [this, smul_eq_mul, inv_mul_cancel₀ hs]

/-- The rest after the step. -/
theorem rest_step {P : Matrix m m ℝ} (h : IsOProj P) {u : m → ℝ} (hu : P *ᵥ u = 0) (v : m → ℝ) :
    v - projStep P u *ᵥ v = (v - P *ᵥ v) - ((sqNorm u)⁻¹ * (u ⬝ᵥ (v - P *ᵥ v))) • u := by
  rw [projStep_mulVec]
  have : u ⬝ᵥ (P *ᵥ v) = 0 := by rw [← h.dot, hu, zero_dotProduct]
  rw [dotProduct_sub, this, sub_zero]
  abel

theorem sqNorm_rest_step {P : Matrix m m ℝ} (h : IsOProj P) {u : m → ℝ} (hu : P *ᵥ u = 0) (v : m → ℝ) :
    sqNorm (v - projStep P u *ᵥ v) ≤ sqNorm (v - P *ᵥ v) := by
  rw [rest_step h hu]
  set w := v - P *ᵥ v
  by_cases h0 : u = 0
  · subst h0; simp
  have hs : sqNorm u ≠ 0 := fun e => h0 (sqNorm_eq_zero.mp e)
  have hp : 0 < sqNorm u := lt_of_le_of_ne (sqNorm_nonneg u) (Ne.symm hs)
  have : sqNorm (w - ((sqNorm u)⁻¹ * (u ⬝ᵥ w)) • u) = sqNorm w - (u ⬝ᵥ w) ^ 2 / sqNorm u := by
    set a := (sqNorm u)⁻¹ * (u ⬝ᵥ w) with ha
    have e : sqNorm (w - a • u) = sqNorm w - 2 * a * (u ⬝ᵥ w) + a ^ 2 * sqNorm u := by
      simp only [sqNorm, sub_dotProduct, dotProduct_sub, smul_dotProduct, dotProduct_smul, smul_eq_mul, dotProduct_comm w u]
      ring
    rw [e, ha]
    field_simp
    ring
  rw [this]
  have := div_nonneg (sq_nonneg (u ⬝ᵥ w)) hp.le
  linarith

theorem rest_step_self {P : Matrix m m ℝ} (h : IsOProj P) (v : m → ℝ) :
    v - projStep P (v - P *ᵥ v) *ᵥ v = 0 := by
  rw [rest_step h (h.mulVec_sub v)]
  set w := v - P *ᵥ v
  by_cases h0 : w = 0
  · rw [h0]; simp
  have hs : sqNorm w ≠ 0 := fun e => h0 (sqNorm_eq_zero.mp e)
  have : w ⬝ᵥ w = sqNorm w := rfl
  rw [this, inv_mul_cancel₀ hs, one_smul, sub_self]

theorem rest_step_of_zero {P : Matrix m m ℝ} (h : IsOProj P) {u : m → ℝ} (hu : P *ᵥ u = 0) {v : m → ℝ}
    (hv : v - P *ᵥ v = 0) : v - projStep P u *ᵥ v = 0 := by
  rw [rest_step h hu, hv]; simp

/-- `firstMax` takes one of the list and none is larger. -/
theorem firstMax_spec (f : n → ℝ) (a : n) (l : List n) :
    firstMax f a l ∈ a :: l ∧ ∀ i ∈ a :: l, f i ≤ f (firstMax f a l) := by
  induction l generalizing a with
  | nil => simp [firstMax]
  | cons b l ih =>
    simp only [firstMax]
    obtain ⟨h1, h2⟩ := ih (if f a < f b then b else a)
    split at h1 <;> rename_i hab
    · simp only [hab, if_true] at h2 ⊢
      refine ⟨List.mem_cons_of_mem _ h1, ?_⟩
      intro i hi
      rcases List.mem_cons.mp hi with rfl | hi
      · exact hab.le.trans (h2 b List.mem_cons_self)
      · exact h2 i hi
    · simp only [hab, if_false] at h2 ⊢
      constructor
      · rcases List.mem_cons.mp h1 with h | h
        · rw [h]; exact List.mem_cons_self
        · exact List.mem_cons_of_mem _ (List.mem_cons_of_mem _ h)
      · intro i hi
        rcases List.mem_cons.mp hi with rfl | hi
        · exact h2 i List.mem_cons_self
        · rcases List.mem_cons.mp hi with rfl | hi
          · exact (not_lt.mp hab).trans (h2 a List.mem_cons_self)
          · exact h2 i (List.mem_cons_of_mem _ hi)

theorem mem_swapOut {k j : n} {rest : List n} (hj : j ∈ k :: rest) {i : n} (hi : i ∈ k :: rest) (hij : i ≠ j) :
    i ∈ swapOut k j rest := by
  unfold swapOut
  rw [List.mem_map]
  rcases List.mem_cons.mp hi with rfl | hi
  · rcases List.mem_cons.mp hj with rfl | hj
    · exact absurd rfl hij
    · exact ⟨j, hj, by simp⟩
  · exact ⟨i, hi, by simp [hij]⟩

/-- State of the factorisation between two steps. -/
structure CodInv (A : Matrix m n ℝ) (P : Matrix m m ℝ) (rem : List n) : Prop where
  proj : IsOProj P
  range : ∃ B : Matrix n m ℝ, P = A * B
  done : ∀ j, j ∉ rem → resid A P j = 0

theorem CodInv.step {A : Matrix m n ℝ} {P : Matrix m m ℝ} {k : n} {rest : List n} (h : CodInv A P (k :: rest)) {j : n}
    (hj : j ∈ k :: rest) : CodInv A (projStep P (resid A P j)) (swapOut k j rest) := by
  have hu : P *ᵥ resid A P j = 0 := h.proj.mulVec_sub _
  refine ⟨h.proj.step hu, ?_, ?_⟩
  · obtain ⟨B, hB⟩ := h.range
    refine ⟨B + (sqNorm (resid A P j))⁻¹ • vecMulVec (Pi.single j 1 - B *ᵥ A.col j) (resid A P j), ?_⟩
    rw [Matrix.mul_add, ← hB, Matrix.mul_smul, mul_vecMulVec]
    have : A *ᵥ (Pi.single j 1 - B *ᵥ A.col j) = resid A P j := by
      rw [Matrix.mulVec_sub, mulVec_mulVec, ← hB, mulVec_single_one]; rfl
    rw [this]; rfl
  · intro i hi
    by_cases hij : i = j
    · subst hij; exact rest_step_self h.proj _
    · have : i ∉ k :: rest := fun hm => hi (mem_swapOut hj hm hij)
      exact rest_step_of_zero h.proj hu (h.done i this)

theorem codSteps_cons (A : Matrix m n ℝ) (s : ℕ) (P : Matrix m m ℝ) (k : n) (rest : List n) :
    codSteps A (s + 1) P (k :: rest) =
      (sqNorm (resid A P (firstMax (fun i => sqNorm (resid A P i)) k rest)),
        projStep P (resid A P (firstMax (fun i => sqNorm (resid A P i)) k rest))) ::
      codSteps A s (projStep P (resid A P (firstMax (fun i => sqNorm (resid A P i)) k rest)))
        (swapOut k (firstMax (fun i => sqNorm (resid A P i)) k rest) rest) := rfl

/-- No pivot is larger than what bounds the parts of the columns left. -/
theorem codSteps_le {A : Matrix m n ℝ} (s : ℕ) {P : Matrix m m ℝ} {rem : List n} (h : CodInv A P rem) {b : ℝ}
    (hb : ∀ j, sqNorm (resid A P j) ≤ b) : ∀ x ∈ codSteps A s P rem, x.1 ≤ b := by
  induction s generalizing P rem with
  | zero => intro x hx; simp [codSteps] at hx
  | succ s ih =>
    cases rem with
    | nil => intro x hx; simp [codSteps] at hx
    | cons k rest =>
      rw [codSteps_cons]
      set j := firstMax (fun i => sqNorm (resid A P i)) k rest with hjd
      have hj : j ∈ k :: rest := (firstMax_spec _ k rest).1
      intro x hx
      rcases List.mem_cons.mp hx with rfl | hx
      · exact hb j
      · exact ih (h.step hj) (fun i => (sqNorm_rest_step h.proj (h.proj.mulVec_sub _) _).trans (hb i)) x hx

/-- The columns taken bound the others. -/
theorem CodInv.head {A : Matrix m n ℝ} {P : Matrix m m ℝ} {k : n} {rest : List n} (h : CodInv A P (k :: rest)) (i : n) :
    sqNorm (resid A P i) ≤ sqNorm (resid A P (firstMax (fun i => sqNorm (resid A P i)) k rest)) := by
  by_cases hi : i ∈ k :: rest
  · exact (firstMax_spec (fun i => sqNorm (resid A P i)) k rest).2 i hi
  · rw [h.done i hi, sqNorm_zero]; exact sqNorm_nonneg _

/-- A projector of full trace is the identity. -/
theorem IsOProj.eq_one {P : Matrix m m ℝ} (h : IsOProj P) (ht : P.trace = Fintype.card m) : P = 1 := by
  have hq : (1 - P) * (1 - P)ᵀ = 1 - P := by
    rw [transpose_sub, transpose_one, h.symm, Matrix.sub_mul, Matrix.mul_sub, Matrix.mul_sub, h.idem]; simp
  have h0 : ((1 - P) * (1 - P)ᵀ).trace = 0 := by
    rw [hq, trace_sub, trace_one, ht, sub_self]
  have : (1 - P) = 0 := by
    have := (Matrix.trace_mul_conjTranspose_self_eq_zero_iff (A := 1 - P)).mp
      (by rw [conjTranspose_eq_transpose_of_trivial]; exact h0)
    exact this
  exact (sub_eq_zero.mp this).symm

open Classical in
/-- What is left once the pivots above `θ` are taken. -/
theorem codSteps_cut {A : Matrix m n ℝ} {θ : ℝ} (hθ : 0 ≤ θ) (s : ℕ) {P : Matrix m m ℝ} {rem : List n} (h : CodInv A P rem)
    (hs : rem.length ≤ s ∨ P.trace + s = Fintype.card m) {r : ℕ}
    (hr : r = ((codSteps A s P rem).filter fun x => decide (θ < x.1)).length) :
    let Pr := (((codSteps A s P rem).take r).map Prod.snd).getLastD P
    IsOProj Pr ∧ (∃ B : Matrix n m ℝ, Pr = A * B) ∧ (∀ j, sqNorm (resid A Pr j) ≤ θ) ∧ Pr.trace = P.trace + r := by
  induction s generalizing P rem r with
  | zero =>
    simp only [codSteps, List.filter_nil, List.length_nil] at hr
    subst hr
    refine ⟨h.proj, h.range, ?_, by simp [codSteps]⟩
    intro j
    simp only [codSteps, List.take_nil, List.map_nil, List.getLastD_nil]
    rcases hs with hs | hs
    · have : rem = [] := List.length_eq_zero_iff.mp (Nat.le_zero.mp hs)
      subst this
      rw [h.done j (by simp), sqNorm_zero]; exact hθ
    · have : P = 1 := h.proj.eq_one (by simpa using hs)
      subst this
      simp [resid, hθ]
  | succ s ih =>
    cases rem with
    | nil =>
      simp only [codSteps, List.filter_nil, List.length_nil] at hr
      subst hr
      refine ⟨h.proj, h.range, ?_, by simp [codSteps]⟩
      intro j
      simp only [codSteps, List.take_nil, List.map_nil, List.getLastD_nil]
      rw [h.done j (by simp), sqNorm_zero]; exact hθ
    | cons k rest =>
      have hle := codSteps_le (s + 1) h h.head
      rw [codSteps_cons] at hr hle ⊢
      set j := firstMax (fun i => sqNorm (resid A P i)) k rest with hjd
      have hj : j ∈ k :: rest := (firstMax_spec _ k rest).1
      by_cases hp : θ < sqNorm (resid A P j)
      · have h0 : resid A P j ≠ 0 := by
          intro e; rw [e, sqNorm_zero] at hp; exact absurd hp (not_lt.mpr hθ)
        rw [List.filter_cons_of_pos (by simpa using hp), List.length_cons] at hr
        subst hr
        obtain ⟨a1, a2, a3, a4⟩ := ih (h.step hj) (by
          rcases hs with hs | hs
          · left; simpa [swapOut] using hs
          · right; rw [trace_step h0]; push_cast at hs; linarith) rfl
        simp only [List.take_succ_cons, List.map_cons, List.getLastD_cons]
        refine ⟨a1, a2, a3, ?_⟩
        rw [a4, trace_step h0]; push_cast; ring
      · have hr0 : r = 0 := by
          rw [hr, List.length_eq_zero_iff, List.filter_eq_nil_iff]
          intro x hx
          simpa using (hle x hx).trans (not_lt.mp hp)
        subst hr0
        refine ⟨h.proj, h.range, ?_, by simp⟩
        intro i
        simpa using (h.head i).trans (not_lt.mp hp)

theorem codInv_start {A : Matrix m n ℝ} {order : List n} (ho : ∀ j, j ∈ order) : CodInv A 0 order :=
  ⟨isOProj_zero, ⟨0, by simp⟩, fun j hj => absurd (ho j) hj⟩

theorem le_foldr_max (l : List ℝ) : ∀ x ∈ l, x ≤ l.foldr max 0 := by
  induction l with
  | nil => simp
  | cons a l ih =>
    intro x hx
    rcases List.mem_cons.mp hx with rfl | hx
    · exact le_max_left _ _
    · exact (ih x hx).trans (le_max_right _ _)

theorem foldr_max_le {l : List ℝ} {b : ℝ} (hb : 0 ≤ b) (h : ∀ x ∈ l, x ≤ b) : l.foldr max 0 ≤ b := by
  induction l with
  | nil => simpa
  | cons a l ih =>
    exact max_le (h a List.mem_cons_self) (ih fun x hx => h x (List.mem_cons_of_mem _ hx))

theorem maxPivot_nonneg (order : List n) (A : Matrix m n ℝ) : 0 ≤ maxPivot order A := by
  unfold maxPivot
  generalize (codRun order A).map Prod.fst = l
  induction l with
  | nil => simp
  | cons a l ih => exact ih.trans (le_max_right _ _)

/-- The largest pivot is the norm of the largest column. -/
theorem maxPivot_le_iff {order : List n} (ho : ∀ j, j ∈ order) (A : Matrix m n ℝ) {b : ℝ} (hb : 0 ≤ b) :
    maxPivot order A ≤ b ↔ ∀ j, sqNorm (A.col j) ≤ b := by
  constructor
  · intro h j
    refine le_trans ?_ h
    have hst := codInv_start (A := A) ho
    have hne : order ≠ [] := List.ne_nil_of_mem (ho j)
    obtain ⟨k, rest, rfl⟩ := List.exists_cons_of_ne_nil hne
    by_cases hm : Fintype.card m = 0
    · have : IsEmpty m := Fintype.card_eq_zero_iff.mp hm
      have e : A.col j = 0 := by ext i; exact isEmptyElim i
      rw [e, sqNorm_zero]; exact maxPivot_nonneg _ _
    · obtain ⟨s, hs⟩ : ∃ s, min (Fintype.card m) (k :: rest).length = s + 1 := by
        refine ⟨min (Fintype.card m) (k :: rest).length - 1, ?_⟩
        have : 0 < min (Fintype.card m) (k :: rest).length := lt_min (Nat.pos_of_ne_zero hm) (by simp)
        omega
      unfold maxPivot codRun
      rw [hs, codSteps_cons]
      have h1 := hst.head j
      have h2 : resid A 0 j = A.col j := by simp [resid]
      rw [h2] at h1
      exact h1.trans (le_foldr_max _ _ (by simp))
  · intro h
    refine foldr_max_le hb ?_
    intro x hx
    obtain ⟨y, hy, rfl⟩ := List.mem_map.mp hx
    exact codSteps_le _ (codInv_start ho) (fun j => by simpa [resid] using h j) y hy

/-- The largest pivot is attained by a column. -/
theorem maxPivot_eq {order : List n} (ho : ∀ j, j ∈ order) (A : Matrix m n ℝ) [Nonempty n] :
    ∃ k, maxPivot order A = sqNorm (A.col k) := by
  obtain ⟨k, -, hk⟩ := Finset.exists_max_image Finset.univ (fun j => sqNorm (A.col j)) Finset.univ_nonempty
  refine ⟨k, le_antisymm ?_ ?_⟩
  · exact (maxPivot_le_iff ho A (sqNorm_nonneg _)).mpr fun j => hk j (Finset.mem_univ j)
  · exact (maxPivot_le_iff ho A (maxPivot_nonneg _ _)).mp le_rfl k

theorem codThreshold_pos : 0 < codThreshold := by unfold codThreshold; positivity

/-- What the code keeps of `A`. -/
theorem codProj_spec {order : List n} (ho : ∀ j, j ∈ order) (A : Matrix m n ℝ) :
    IsOProj (codProj order A) ∧ (∃ B : Matrix n m ℝ, codProj order A = A * B) ∧
    (∀ j, sqNorm (resid A (codProj order A) j) ≤ codThreshold ^ 2 * maxPivot order A) ∧
    (codProj order A).trace = codRank order A := by
  have hθ : 0 ≤ codThreshold ^ 2 * maxPivot order A := mul_nonneg (sq_nonneg _) (maxPivot_nonneg _ _)
  have := codSteps_cut hθ (min (Fintype.card m) order.length) (codInv_start (A := A) ho) (by
    rcases le_total (Fintype.card m) order.length with h | h
    · right; rw [min_eq_left h]; simp
    · left; rw [min_eq_right h]) rfl
  obtain ⟨h1, h2, h3, h4⟩ := this
  refine ⟨h1, h2, h3, ?_⟩
  have := h4
  rw [trace_zero, zero_add] at this
  exact this


/-- The trace of a projector is its rank. -/
theorem IsOProj.rank_eq {P : Matrix m m ℝ} (h : IsOProj P) {r : ℕ} (ht : P.trace = r) : P.rank = r := by
  have hp : LinearMap.IsProj (LinearMap.range (Matrix.toLin' P)) (Matrix.toLin' P) := by
    refine ⟨fun x => ⟨x, rfl⟩, ?_⟩
    rintro _ ⟨y, rfl⟩
    simp only [Matrix.toLin'_apply, mulVec_mulVec, h.idem]
  have h1 := hp.trace
  rw [Matrix.trace_toLin'_eq, ht] at h1
  have h2 : P.rank = Module.finrank ℝ (LinearMap.range (Matrix.toLin' P)) := by
    rw [Matrix.rank, Matrix.toLin'_apply']
  rw [h2]
  exact_mod_cast h1.symm

section
variable {order : List n} (ho : ∀ j, j ∈ order) (A : Matrix m n ℝ)
include ho

theorem codProj_rank : (codProj order A).rank = codRank order A :=
  (codProj_spec ho A).1.rank_eq (codProj_spec ho A).2.2.2

/-- The rank the code finds is at most the rank. -/
theorem codRank_le : codRank order A ≤ A.rank := by
  obtain ⟨B, hB⟩ := (codProj_spec ho A).2.1
  rw [← codProj_rank ho A, hB]
  exact rank_mul_le_left A B

/-- The code finds the full rank exactly when it drops nothing. -/
theorem codRank_eq_iff : codRank order A = A.rank ↔ codProj order A * A = A := by
  obtain ⟨hP, ⟨B, hB⟩, -, -⟩ := codProj_spec ho A
  constructor
  · intro h
    rw [← codProj_rank ho A] at h
    have hle : LinearMap.range (codProj order A).mulVecLin ≤ LinearMap.range A.mulVecLin := by
      rintro _ ⟨x, rfl⟩
      refine ⟨B *ᵥ x, ?_⟩
      rw [mulVecLin_apply, mulVecLin_apply, mulVec_mulVec, ← hB]
    have heq := Submodule.eq_of_le_of_finrank_eq hle h
    apply Matrix.ext_of_mulVec_single
    intro i
    obtain ⟨y, hy⟩ : A *ᵥ Pi.single i 1 ∈ LinearMap.range (codProj order A).mulVecLin := by
      rw [heq]; exact ⟨_, rfl⟩
    rw [mulVecLin_apply] at hy
    rw [← mulVec_mulVec, ← hy, mulVec_mulVec, hP.idem]
  · intro h
    refine le_antisymm (codRank_le ho A) ?_
    rw [← codProj_rank ho A]
    conv_lhs => rw [← h]
    exact rank_mul_le_left _ _

end

theorem pinv_injective {A B : Matrix m n ℝ} (h : pinv A = pinv B) : A = B := by
  have h1 : ∀ C : Matrix m n ℝ, IsMoorePenrose (pinv C) C := fun C =>
    ⟨(pinv_spec C).bab, (pinv_spec C).aba, (pinv_spec C).symR, (pinv_spec C).symL⟩
  have h2 := h1 B
  rw [← h] at h2
  exact (h1 A).unique h2

theorem codPinv_eq_iff {order : List n} (ho : ∀ j, j ∈ order) (A : Matrix m n ℝ) :
    codPinv order A = pinv A ↔ codRank order A = A.rank := by
  rw [codRank_eq_iff ho A]
  constructor
  · exact pinv_injective
  · intro h; unfold codPinv; rw [h]

theorem pinv_rank (A : Matrix m n ℝ) : (pinv A).rank ≤ A.rank := by
  rw [← (pinv_spec A).bab]
  exact (rank_mul_le_left _ _).trans (rank_mul_le_right _ _)

/-- A generalised inverse only if nothing is dropped. -/
theorem codRank_of_aba {order : List n} (ho : ∀ j, j ∈ order) {A : Matrix m n ℝ} (h : A * codPinv order A * A = A) :
    codRank order A = A.rank := by
  refine le_antisymm (codRank_le ho A) ?_
  have h1 : A.rank ≤ (codPinv order A).rank := by
    conv_lhs => rw [← h]
    exact (rank_mul_le_left _ _).trans (rank_mul_le_right _ _)
  have h2 : (codPinv order A).rank ≤ (codProj order A).rank :=
    (pinv_rank _).trans (rank_mul_le_left _ _)
  rw [codProj_rank ho A] at h2
  exact h1.trans h2

theorem dot_sq_le (v w : m → ℝ) : (v ⬝ᵥ w) ^ 2 ≤ sqNorm v * sqNorm w := by
  have := Finset.sum_mul_sq_le_sq_mul_sq Finset.univ v w
  simp only [sqNorm, dotProduct]
  simpa [sq] using this

/-- A gap between the singular values and the threshold: nothing is dropped. -/
theorem codRank_of_gap {order : List n} (ho : ∀ j, j ∈ order) {A : Matrix m n ℝ} {s : ℝ}
    (hs : ∀ x : n → ℝ, s ^ 2 * sqNorm (A *ᵥ x) ≤ sqNorm (Aᵀ *ᵥ (A *ᵥ x)))
    (hgap : ∀ j, codThreshold ^ 2 * (Fintype.card n * sqNorm (A.col j)) < s ^ 2) : codRank order A = A.rank := by
  obtain ⟨hP, ⟨B, hB⟩, hr, -⟩ := codProj_spec ho A
  rw [codRank_eq_iff ho A]
  by_contra hne
  obtain ⟨j, hj⟩ : ∃ j, resid A (codProj order A) j ≠ 0 := by
    by_contra hall
    push Not at hall
    apply hne
    apply Matrix.ext_of_mulVec_single
    intro i
    have := hall i
    rw [resid, sub_eq_zero] at this
    rw [← mulVec_mulVec, mulVec_single_one]
    exact this.symm
  set Pr := codProj order A with hPr
  set w := resid A Pr j with hw
  have hwA : w = A *ᵥ (Pi.single j 1 - B *ᵥ A.col j) := by
    rw [Matrix.mulVec_sub, mulVec_mulVec, ← hB, mulVec_single_one]; rfl
  have hPw : Pr *ᵥ w = 0 := hP.mulVec_sub _
  have hent : ∀ i, (Aᵀ *ᵥ w) i = resid A Pr i ⬝ᵥ w := by
    intro i
    have : (Aᵀ *ᵥ w) i = A.col i ⬝ᵥ w := rfl
    rw [this, resid, sub_dotProduct, hP.dot, hPw, dotProduct_zero, sub_zero]
  have hb : sqNorm (Aᵀ *ᵥ w) ≤ Fintype.card n * (codThreshold ^ 2 * maxPivot order A * sqNorm w) := by
    have : sqNorm (Aᵀ *ᵥ w) = ∑ i, (resid A Pr i ⬝ᵥ w) ^ 2 := by
      simp only [sqNorm, dotProduct, sq]
      exact Finset.sum_congr rfl fun i _ => by rw [hent i]; rfl
    rw [this]
    refine (Finset.sum_le_card_nsmul Finset.univ _ _ fun i _ => ?_).trans (by rw [nsmul_eq_mul, Finset.card_univ])
    exact (dot_sq_le _ _).trans (mul_le_mul_of_nonneg_right (hr i) (sqNorm_nonneg _))
  have h1 := hs (Pi.single j 1 - B *ᵥ A.col j)
  rw [← hwA] at h1
  have hwp : 0 < sqNorm w := lt_of_le_of_ne (sqNorm_nonneg w) fun e => hj (sqNorm_eq_zero.mp e.symm)
  haveI : Nonempty n := ⟨j⟩
  obtain ⟨k, hk⟩ := maxPivot_eq ho A
  have h2 := hgap k
  rw [hk] at hb
  nlinarith

/-! ## Scaling -/

theorem resid_smul (a : ℝ) (A : Matrix m n ℝ) (P : Matrix m m ℝ) (j : n) : resid (a • A) P j = a • resid A P j := by
  have : (a • A).col j = a • A.col j := rfl
  rw [resid, resid, this, Matrix.mulVec_smul, smul_sub]

theorem sqNorm_smul (a : ℝ) (v : m → ℝ) : sqNorm (a • v) = a ^ 2 * sqNorm v := by
  simp only [sqNorm, smul_dotProduct, dotProduct_smul, smul_eq_mul]; ring

theorem firstMax_mul {a : ℝ} (ha : 0 < a) (f : n → ℝ) (k : n) (l : List n) :
    firstMax (fun i => a * f i) k l = firstMax f k l := by
  induction l generalizing k with
  | nil => rfl
  | cons b l ih =>
    simp only [firstMax]
    have : (a * f k < a * f b) ↔ f k < f b := mul_lt_mul_iff_right₀ ha
    simp only [this]
    exact ih _

theorem projStep_smul {a : ℝ} (ha : a ≠ 0) (P : Matrix m m ℝ) (u : m → ℝ) : projStep P (a • u) = projStep P u := by
  unfold projStep
  rw [sqNorm_smul]
  have : vecMulVec (a • u) (a • u) = a ^ 2 • vecMulVec u u := by
    ext i j; simp [vecMulVec_apply]; ring
  rw [this, smul_smul, mul_inv, mul_assoc, mul_comm, mul_assoc, mul_inv_cancel₀ (pow_ne_zero 2 ha), mul_one]

theorem codSteps_smul {a : ℝ} (ha : a ≠ 0) (A : Matrix m n ℝ) (s : ℕ) (P : Matrix m m ℝ) (rem : List n) :
    codSteps (a • A) s P rem = (codSteps A s P rem).map fun x => (a ^ 2 * x.1, x.2) := by
  induction s generalizing P rem with
  | zero => rfl
  | succ s ih =>
    cases rem with
    | nil => rfl
    | cons k rest =>
      rw [codSteps_cons, codSteps_cons, List.map_cons]
      have hf : (fun i => sqNorm (resid (a • A) P i)) = fun i => a ^ 2 * sqNorm (resid A P i) := by
        ext i; rw [resid_smul, sqNorm_smul]
      rw [hf, firstMax_mul (by positivity), resid_smul, sqNorm_smul, projStep_smul ha, ih]

theorem foldr_max_mul {a : ℝ} (ha : 0 ≤ a) (l : List ℝ) : (l.map (a * ·)).foldr max 0 = a * l.foldr max 0 := by
  induction l with
  | nil => simp
  | cons b l ih => simp only [List.map_cons, List.foldr_cons, ih, mul_max_of_nonneg _ _ ha]

theorem maxPivot_smul {a : ℝ} (ha : a ≠ 0) (order : List n) (A : Matrix m n ℝ) :
    maxPivot order (a • A) = a ^ 2 * maxPivot order A := by
  unfold maxPivot codRun
  rw [codSteps_smul ha, ← foldr_max_mul (sq_nonneg a), List.map_map, List.map_map]
  rfl

theorem codRank_smul {a : ℝ} (ha : a ≠ 0) (order : List n) (A : Matrix m n ℝ) :
    codRank order (a • A) = codRank order A := by
  unfold codRank
  rw [maxPivot_smul ha]
  unfold codRun
  rw [codSteps_smul ha, List.filter_map, List.length_map]
  congr 2
  ext x
  have ha2 : 0 < a ^ 2 := by positivity
  simp only [Function.comp, decide_eq_true_eq]
  rw [show codThreshold ^ 2 * (a ^ 2 * maxPivot order A) = a ^ 2 * (codThreshold ^ 2 * maxPivot order A) by ring]
  simp only [mul_lt_mul_iff_right₀ ha2]

theorem codProj_smul {a : ℝ} (ha : a ≠ 0) (order : List n) (A : Matrix m n ℝ) :
    codProj order (a • A) = codProj order A := by
  unfold codProj
  rw [codRank_smul ha]
  unfold codRun
  rw [codSteps_smul ha, ← List.map_take, List.map_map]
  rfl

theorem pinv_smul (a : ℝ) (A : Matrix m n ℝ) : pinv (a • A) = a⁻¹ • pinv A := by
  by_cases ha : a = 0
  · subst ha
    rw [zero_smul, _root_.inv_zero, zero_smul]
    exact pinv_eq ⟨by simp, by simp, by simp, by simp⟩
  have h := pinv_spec A
  refine pinv_eq ⟨?_, ?_, ?_, ?_⟩
  · simp only [Matrix.smul_mul, Matrix.mul_smul, smul_smul, h.aba, mul_inv_cancel₀ ha, one_mul, mul_one]
    simp [ha]
  · simp only [Matrix.smul_mul, Matrix.mul_smul, smul_smul, h.bab]
    simp [ha]
  · simp only [Matrix.smul_mul, Matrix.mul_smul, transpose_smul, h.symL]
  · simp only [Matrix.smul_mul, Matrix.mul_smul, transpose_smul, h.symR]

/-! ## Diagonal matrices -/

theorem diagonal_col (w : m → ℝ) (j : m) : (diagonal w).col j = Pi.single j (w j) := by
  ext i
  by_cases h : i = j
  · subst h; simp [col]
  · simp [col, diagonal_apply_ne _ h, h]

theorem resid_diag (w χ : m → ℝ) (j : m) : resid (diagonal w) (diagonal χ) j = Pi.single j ((1 - χ j) * w j) := by
  rw [resid, diagonal_col]
  ext i
  by_cases h : i = j
  · subst h; simp [mulVec_diagonal]; ring
  · simp [mulVec_diagonal, h]

theorem sqNorm_single (j : m) (a : ℝ) : sqNorm (Pi.single j a : m → ℝ) = a ^ 2 := by simp [sqNorm, sq]

theorem projStep_diag (χ : m → ℝ) {j : m} (h0 : χ j = 0) {a : ℝ} (ha : a ≠ 0) :
    projStep (diagonal χ) (Pi.single j a) = diagonal (Function.update χ j 1) := by
  rw [projStep, sqNorm_single]
  ext p q
  rw [Matrix.add_apply, Matrix.smul_apply, vecMulVec_apply, smul_eq_mul]
  by_cases hpq : p = q
  · subst hpq
    by_cases hp : p = j
    · subst hp
      simp [h0]
      field_simp
    · simp [hp]
  · rw [diagonal_apply_ne _ hpq, diagonal_apply_ne _ hpq]
    by_cases hp : p = j
    · have : q ≠ j := fun e => hpq (hp.trans e.symm)
      simp [this]
    · simp [hp]

open Classical in
theorem codSteps_diag (w : m → ℝ) {θ : ℝ} (hθ : 0 ≤ θ) (s : ℕ) {χ : m → ℝ} {rem : List m}
    (hχ : ∀ j, χ j = 0 ∨ (χ j = 1 ∧ θ < w j ^ 2)) {r : ℕ} (hinv : CodInv (diagonal w) (diagonal χ) rem)
    (hr : r = ((codSteps (diagonal w) s (diagonal χ) rem).filter fun x => decide (θ < x.1)).length) :
    ∃ χ' : m → ℝ, (∀ j, χ' j = 0 ∨ (χ' j = 1 ∧ θ < w j ^ 2)) ∧
      (((codSteps (diagonal w) s (diagonal χ) rem).take r).map Prod.snd).getLastD (diagonal χ) = diagonal χ' := by
  induction s generalizing χ rem r with
  | zero => exact ⟨χ, hχ, by simp [codSteps]⟩
  | succ s ih =>
    cases rem with
    | nil => exact ⟨χ, hχ, by simp [codSteps]⟩
    | cons k rest =>
      have hle := codSteps_le (s + 1) hinv hinv.head
      rw [codSteps_cons] at hr hle ⊢
      set j := firstMax (fun i => sqNorm (resid (diagonal w) (diagonal χ) i)) k rest with hjd
      have hj : j ∈ k :: rest := (firstMax_spec _ k rest).1
      have hst := hinv.step hj
      clear_value j
      by_cases hp : θ < sqNorm (resid (diagonal w) (diagonal χ) j)
      · rw [List.filter_cons_of_pos (by simpa using hp), List.length_cons] at hr
        rw [resid_diag] at hp hst hr ⊢
        rw [sqNorm_single] at hp
        have h0 : χ j = 0 := by
          rcases hχ j with h | h
          · exact h
          · rw [h.1] at hp; norm_num at hp; exact absurd hp (not_lt.mpr hθ)
        rw [h0, sub_zero, one_mul] at hp hst hr ⊢
        have hw : w j ≠ 0 := by
          intro e; rw [e] at hp; norm_num at hp; exact absurd hp (not_lt.mpr hθ)
        rw [projStep_diag χ h0 hw] at hst hr ⊢
        subst hr
        obtain ⟨χ', h1, h2⟩ := ih (χ := Function.update χ j 1) (by
          intro i
          by_cases hi : i = j
          · subst hi; right; simpa using hp
          · simpa [hi] using hχ i) hst rfl
        refine ⟨χ', h1, ?_⟩
        simp only [List.take_succ_cons, List.map_cons, List.getLastD_cons]
        exact h2
      · have hr0 : r = 0 := by
          rw [hr, List.length_eq_zero_iff, List.filter_eq_nil_iff]
          intro x hx
          simpa using (hle x hx).trans (not_lt.mp hp)
        subst hr0
        exact ⟨χ, hχ, by simp⟩

open Classical in
theorem codProj_diag {order : List m} (ho : ∀ j, j ∈ order) (w : m → ℝ) :
    codProj order (diagonal w) = diagonal fun j => if ∃ k, w j ^ 2 ≤ codThreshold ^ 2 * w k ^ 2 then 0 else 1 := by
  have hsq : ∀ j, sqNorm ((diagonal w).col j) = w j ^ 2 := fun j => by rw [diagonal_col, sqNorm_single]
  have hθ : 0 ≤ codThreshold ^ 2 * maxPivot order (diagonal w) := mul_nonneg (sq_nonneg _) (maxPivot_nonneg _ _)
  have h0 : (diagonal (0 : m → ℝ)) = 0 := by ext i j; simp [diagonal_apply]
  have hst := codInv_start (A := diagonal w) ho
  obtain ⟨χ, h1, h2⟩ := codSteps_diag w hθ (min (Fintype.card m) order.length) (χ := 0) (rem := order)
    (fun _ => Or.inl rfl) (by rw [h0]; exact hst) rfl
  rw [h0] at h2
  have h3 : codProj order (diagonal w) = diagonal χ := h2
  obtain ⟨-, -, hr, -⟩ := codProj_spec ho (diagonal w)
  rw [h3] at hr ⊢
  congr 1
  ext j
  rcases h1 j with hc | ⟨hc, h4⟩
  · rw [hc, if_pos]
    haveI : Nonempty m := ⟨j⟩
    obtain ⟨k, hk⟩ := maxPivot_eq ho (diagonal w)
    rw [hsq] at hk
    refine ⟨k, ?_⟩
    have := hr j
    rwa [resid_diag, hc, sub_zero, one_mul, sqNorm_single, hk] at this
  · rw [hc, if_neg]
    rintro ⟨k, hk⟩
    have h5 := (maxPivot_le_iff ho (diagonal w) (maxPivot_nonneg _ _)).mp le_rfl k
    rw [hsq] at h5
    have := mul_le_mul_of_nonneg_left h5 (sq_nonneg codThreshold)
    linarith

theorem pinv_diagonal (w : m → ℝ) : pinv (diagonal w) = diagonal fun j => (w j)⁻¹ := by
  have e1 : ∀ x : ℝ, x * x⁻¹ * x = x := fun x => by by_cases h : x = 0 <;> simp [h]
  have e2 : ∀ x : ℝ, x⁻¹ * x * x⁻¹ = x⁻¹ := fun x => by by_cases h : x = 0 <;> simp [h]
  refine pinv_eq ⟨?_, ?_, ?_, ?_⟩
  · simp only [diagonal_mul_diagonal, e1]
  · simp only [diagonal_mul_diagonal, e2]
  · simp only [diagonal_mul_diagonal, diagonal_transpose]
  · simp only [diagonal_mul_diagonal, diagonal_transpose]

open Classical in
/-- The pseudo-inverse of a diagonal matrix as the code computes it. -/
theorem codPinv_diag {order : List m} (ho : ∀ j, j ∈ order) (w : m → ℝ) :
    codPinv order (diagonal w) = diagonal fun j => if ∃ k, w j ^ 2 ≤ codThreshold ^ 2 * w k ^ 2 then 0 else (w j)⁻¹ := by
  unfold codPinv
  rw [codProj_diag ho, diagonal_mul_diagonal, pinv_diagonal]
  congr 1
  ext j
  split <;> simp

/-- The rows `V2` exist. -/
theorem exists_codRows {order : List m} (ho : ∀ j, j ∈ order) (W : Matrix m m ℝ) : Nonempty (CodRows order W) := by
  obtain ⟨f⟩ := exists_codNull (codProj order W)
  exact ⟨⟨f.k, f.V2, f.orth, f.ann, by rw [← codProj_rank ho W]; exact f.rank⟩⟩

end Verif
