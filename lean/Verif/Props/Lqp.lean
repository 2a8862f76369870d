import Verif.Props.HQP
import Verif.Lemmas.Spd

/-!
# C57: what the levels of the hierarchical controller achieve

Each level after the dynamics minimises its own miss *plus* the weighted acceleration energy `5/‖A‖ q̈ᵀ A q̈`.
-/

set_option linter.unusedSectionVars false

namespace Verif.Props
open Matrix Verif Verif.Spec Verif.Model

variable {ι : Type} [Fintype ι] [DecidableEq ι] {n c m : ℕ}

/-- Length of a row, taken as 1 for a zero row. -/
noncomputable def rowLen {V : Type} [Fintype V] (r : V → ℝ) : ℝ := if 0 < √(r ⬝ᵥ r) then √(r ⬝ᵥ r) else 1

/-- The accelerations and forces in `y` obey the floating-base rows, with joint torques within the bounds. -/
def Moves (R : LqpConf ι c m) (y : LqpVar ι c → ℝ) : Prop :=
  (∀ i, demand R y (Sum.inl i) = 0) ∧ ∀ i, |demand R y (Sum.inr i)| ≤ R.lim i

/-- The contacts do not accelerate, the contact forces are admissible, and no joint accelerates by more than 5. -/
def ContactOk (R : LqpConf ι c m) (y : LqpVar ι c → ℝ) : Prop :=
  R.J *ᵥ qddOf y = 0 ∧ (∀ r, (R.C *ᵥ forceOf y) r ≤ 0) ∧ ∀ i, |qddOf y (Sum.inr i)| ≤ 5

/-- How far `y` is from `ContactOk`: squared distances, each row scaled to length one. -/
noncomputable def contactMiss (R : LqpConf ι c m) (y : LqpVar ι c → ℝ) : ℝ :=
  ∑ r, ((R.J *ᵥ qddOf y) r / rowLen (R.J r)) ^ 2 + ∑ r, (max ((R.C *ᵥ forceOf y) r) 0 / rowLen (R.C r)) ^ 2 +
    ∑ i, ((max (qddOf y (Sum.inr i) - 5) 0) ^ 2 + (max (-qddOf y (Sum.inr i) - 5) 0) ^ 2)

/-- How far `y` is from giving the task acceleration `f`. -/
noncomputable def taskMiss (t : Σ t : ℕ, Matrix (Fin t) (Fin 6 ⊕ ι) ℝ × (Fin t → ℝ)) (y : LqpVar ι c → ℝ) : ℝ :=
  ∑ r, ((t.2.1 *ᵥ qddOf y - t.2.2) r / rowLen (t.2.1 r)) ^ 2

/-- The energy term added to the miss. -/
noncomputable def energy (R : LqpConf ι c m) (y : LqpVar ι c → ℝ) : ℝ :=
  R.weight * (qddOf y ⬝ᵥ (R.M *ᵥ qddOf y))

/-- `y'` keeps what the answer `b` of the contact level achieved. -/
def KeepsContact (R : LqpConf ι c m) (b y' : LqpVar ι c → ℝ) : Prop :=
  R.J *ᵥ qddOf y' = R.J *ᵥ qddOf b ∧ (∀ r, (R.C *ᵥ forceOf y') r ≤ max ((R.C *ᵥ forceOf b) r) 0) ∧
    ∀ i, qddOf y' (Sum.inr i) ≤ max (qddOf b (Sum.inr i)) 5 ∧ -qddOf y' (Sum.inr i) ≤ max (-qddOf b (Sum.inr i)) 5

/-- `y'` keeps the task accelerations that the answers `rs` of the first `k` tasks achieved. -/
def KeepsTasks (R : LqpConf ι c m) (rs : List (LevelAnswer (LqpVar ι c))) (k : ℕ) (y' : LqpVar ι c → ℝ) : Prop :=
  ∀ j < k, ∀ (r : LevelAnswer (LqpVar ι c)) (t : Σ t : ℕ, Matrix (Fin t) (Fin 6 ⊕ ι) ℝ × (Fin t → ℝ)),
    rs[j]? = some r → R.tasks[j]? = some t → t.2.1 *ᵥ qddOf y' = t.2.1 *ᵥ qddOf r.y

/-! ### The levels in these terms -/

theorem rowLen_pos {V : Type} [Fintype V] (r : V → ℝ) : 0 < rowLen r := by
  unfold rowLen; split_ifs with h
  · exact h
  · norm_num

theorem rowScale_eq {V : Type} [Fintype V] [DecidableEq V] (r : V → ℝ) : rowScale r = 1 / rowLen r := by
  unfold rowScale rowLen rowNorm; split_ifs <;> simp

theorem rowScale_left (r : Fin 6 ⊕ ι → ℝ) : rowScale (Sum.elim r 0 : LqpVar ι c → ℝ) = 1 / rowLen r := by
  rw [rowScale_eq, rowLen, rowLen, sumElim_dotProduct_sumElim]; simp

theorem rowScale_right (r : Fin c → ℝ) : rowScale (Sum.elim 0 r : LqpVar ι c → ℝ) = 1 / rowLen r := by
  rw [rowScale_eq, rowLen, rowLen, sumElim_dotProduct_sumElim]; simp

theorem dot_left (r : Fin 6 ⊕ ι → ℝ) (y : LqpVar ι c → ℝ) : Sum.elim r 0 ⬝ᵥ y = r ⬝ᵥ qddOf y := by
  rw [show y = Sum.elim (y ∘ Sum.inl) (y ∘ Sum.inr) from (Sum.elim_comp_inl_inr y).symm, sumElim_dotProduct_sumElim]
  simp [qddOf]

theorem dot_right (r : Fin c → ℝ) (y : LqpVar ι c → ℝ) : Sum.elim 0 r ⬝ᵥ y = r ⬝ᵥ forceOf y := by
  rw [show y = Sum.elim (y ∘ Sum.inl) (y ∘ Sum.inr) from (Sum.elim_comp_inl_inr y).symm, sumElim_dotProduct_sumElim]
  simp [forceOf]

theorem contact_residual (R : LqpConf ι c m) (y : LqpVar ι c → ℝ) (r : Fin c) :
    (normalizeRows (lqpContact R)).residual y r = (R.J *ᵥ qddOf y) r / rowLen (R.J r) := by
  refine (normalizeRows_residual (lqpContact R) y r).trans ?_
  have e1 : rowScale ((lqpContact R).B r) = 1 / rowLen (R.J r) := rowScale_left _
  have e2 : (lqpContact R).residual y r = (R.J *ᵥ qddOf y) r := by
    show Sum.elim (R.J r) 0 ⬝ᵥ y + 0 = _
    rw [dot_left, add_zero]; rfl
  rw [e1, e2]; ring

theorem contact_value_force (R : LqpConf ι c m) (y : LqpVar ι c → ℝ) (r : Fin m) :
    (normalizeRows (lqpContact R)).value y (Sum.inl r : Fin m ⊕ (ι ⊕ ι)) =
      (R.C *ᵥ forceOf y) r / rowLen (R.C r) := by
  refine (normalizeRows_value (lqpContact R) y _).trans ?_
  have e1 : rowScale ((lqpContact R).A (Sum.inl r : Fin m ⊕ (ι ⊕ ι))) = 1 / rowLen (R.C r) := rowScale_right _
  have e2 : (lqpContact R).value y (Sum.inl r : Fin m ⊕ (ι ⊕ ι)) = (R.C *ᵥ forceOf y) r := by
    show Sum.elim 0 (R.C r) ⬝ᵥ y + 0 = _
    rw [dot_right, add_zero]; rfl
  rw [e1, e2]; ring

theorem rowScale_unit {V : Type} [Fintype V] [DecidableEq V] (r : V → ℝ) (h : r ⬝ᵥ r = 1) : rowScale r = 1 := by
  rw [rowScale_eq, rowLen, h]; simp

theorem contact_value_up (R : LqpConf ι c m) (y : LqpVar ι c → ℝ) (i : ι) :
    (normalizeRows (lqpContact R)).value y (Sum.inr (Sum.inl i) : Fin m ⊕ (ι ⊕ ι)) =
      qddOf y (Sum.inr i) - 5 := by
  refine (normalizeRows_value (lqpContact R) y _).trans ?_
  have e1 : rowScale ((lqpContact R).A (Sum.inr (Sum.inl i) : Fin m ⊕ (ι ⊕ ι))) = 1 :=
    rowScale_unit (Pi.single (Sum.inl (Sum.inr i)) 1 : LqpVar ι c → ℝ) (by simp)
  have e2 : (lqpContact R).value y (Sum.inr (Sum.inl i) : Fin m ⊕ (ι ⊕ ι)) = qddOf y (Sum.inr i) - 5 := by
    show (Pi.single (Sum.inl (Sum.inr i)) 1 : LqpVar ι c → ℝ) ⬝ᵥ y + -5 = _
    simp [qddOf]; ring
  rw [e1, e2]; ring

theorem contact_value_down (R : LqpConf ι c m) (y : LqpVar ι c → ℝ) (i : ι) :
    (normalizeRows (lqpContact R)).value y (Sum.inr (Sum.inr i) : Fin m ⊕ (ι ⊕ ι)) =
      -qddOf y (Sum.inr i) - 5 := by
  refine (normalizeRows_value (lqpContact R) y _).trans ?_
  have e1 : rowScale ((lqpContact R).A (Sum.inr (Sum.inr i) : Fin m ⊕ (ι ⊕ ι))) = 1 :=
    rowScale_unit (-Pi.single (Sum.inl (Sum.inr i)) 1 : LqpVar ι c → ℝ) (by simp)
  have e2 : (lqpContact R).value y (Sum.inr (Sum.inr i) : Fin m ⊕ (ι ⊕ ι)) = -qddOf y (Sum.inr i) - 5 := by
    show (-Pi.single (Sum.inl (Sum.inr i)) 1 : LqpVar ι c → ℝ) ⬝ᵥ y + -5 = _
    simp [qddOf]; ring
  rw [e1, e2]; ring

theorem task_residual (R : LqpConf ι c m) (t : Σ t : ℕ, Matrix (Fin t) (Fin 6 ⊕ ι) ℝ × (Fin t → ℝ))
    (y : LqpVar ι c → ℝ) (r : Fin t.1) :
    (normalizeRows (lqpTask R t)).residual y r = (t.2.1 *ᵥ qddOf y - t.2.2) r / rowLen (t.2.1 r) := by
  refine (normalizeRows_residual (lqpTask R t) y r).trans ?_
  have e1 : rowScale ((lqpTask R t).B r) = 1 / rowLen (t.2.1 r) := rowScale_left _
  have e2 : (lqpTask R t).residual y r = (t.2.1 *ᵥ qddOf y - t.2.2) r := by
    show Sum.elim (t.2.1 r) 0 ⬝ᵥ y + -t.2.2 r = _
    rw [dot_left]; simp [mulVec]; ring
  rw [e1, e2]; ring

theorem lqpCost_quad (R : LqpConf ι c m) (y : LqpVar ι c → ℝ) : y ⬝ᵥ (lqpCost R *ᵥ y) = energy R y := by
  rw [show y = Sum.elim (y ∘ Sum.inl) (y ∘ Sum.inr) from (Sum.elim_comp_inl_inr y).symm, lqpCost, fromBlocks_mulVec,
    sumElim_dotProduct_sumElim]
  simp [energy, qddOf, smul_mulVec]

theorem frobenius_pos {X : Type} [Fintype X] [DecidableEq X] [Nonempty X] {M : Matrix X X ℝ} (h : IsSPD M) : 0 < frobenius M := by
  unfold Model.frobenius
  apply Real.sqrt_pos.mpr
  obtain ⟨x⟩ := ‹Nonempty X›
  have h0 := h.pos (Pi.single x 1) (by
    intro h; have := congrFun h x; simp at this)
  simp at h0
  have h1 : M x x ^ 2 ≤ ∑ j, M x j ^ 2 :=
    Finset.single_le_sum (f := fun j => M x j ^ 2) (fun _ _ => sq_nonneg _) (Finset.mem_univ _)
  have h2 : ∑ j, M x j ^ 2 ≤ ∑ i, ∑ j, M i j ^ 2 :=
    Finset.single_le_sum (f := fun i => ∑ j, M i j ^ 2) (fun _ _ => Finset.sum_nonneg fun _ _ => sq_nonneg _)
      (Finset.mem_univ x)
  nlinarith

theorem energy_nonneg {R : LqpConf ι c m} (h : IsSPD R.M) (hw : 0 ≤ R.weight) (y : LqpVar ι c → ℝ) : 0 ≤ energy R y := by
  refine mul_nonneg hw ?_
  by_cases h0 : qddOf y = 0
  · rw [h0]; simp
  · exact (h.pos _ h0).le

theorem lqpCost_ok {R : LqpConf ι c m} (h : IsSPD R.M) (hw : 0 ≤ R.weight) : CostOk (lqpCost R) := by
  refine ⟨?_, fun x => ?_⟩
  · rw [lqpCost, fromBlocks_transpose]; simp [h.symm]
  · rw [lqpCost_quad]; exact energy_nonneg h hw x

theorem contact_objective (R : LqpConf ι c m) (y : LqpVar ι c → ℝ) :
    (normalizeRows (lqpContact R)).objective y = (1 / 2) * (contactMiss R y + energy R y) := by
  have h1 : (normalizeRows (lqpContact R)).residual y ⬝ᵥ (normalizeRows (lqpContact R)).residual y =
      ∑ r, ((R.J *ᵥ qddOf y) r / rowLen (R.J r)) ^ 2 := by
    refine Finset.sum_congr rfl fun r _ => ?_
    rw [contact_residual R y r, sq]
  have h2 : (∑ r, (max ((normalizeRows (lqpContact R)).value y r) 0) ^ 2) =
      ∑ r, (max ((R.C *ᵥ forceOf y) r) 0 / rowLen (R.C r)) ^ 2 +
        (∑ i, (max (qddOf y (Sum.inr i) - 5) 0) ^ 2 + ∑ i, (max (-qddOf y (Sum.inr i) - 5) 0) ^ 2) := by
    refine (Fintype.sum_sum_type (fun r : Fin m ⊕ (ι ⊕ ι) =>
      (max ((normalizeRows (lqpContact R)).value y r) 0) ^ 2)).trans ?_
    congr 1
    · refine Finset.sum_congr rfl fun r _ => ?_
      rw [contact_value_force R y r]
      congr 1
      rw [← zero_div (rowLen (R.C r)), max_div_div_right (rowLen_pos _).le]
      simp
    · rw [Fintype.sum_sum_type]
      congr 1
      · exact Finset.sum_congr rfl fun i _ => by rw [contact_value_up R y i]
      · exact Finset.sum_congr rfl fun i _ => by rw [contact_value_down R y i]
  have h3 : ((normalizeRows (lqpContact R)).H.elim 0 fun H => y ⬝ᵥ (H *ᵥ y)) = energy R y := lqpCost_quad R y
  rw [Spec.Level.objective, h1, h2, h3, contactMiss, Finset.sum_add_distrib]
  ring

theorem task_objective (R : LqpConf ι c m) (t : Σ t : ℕ, Matrix (Fin t) (Fin 6 ⊕ ι) ℝ × (Fin t → ℝ))
    (y : LqpVar ι c → ℝ) :
    (normalizeRows (lqpTask R t)).objective y = (1 / 2) * (taskMiss t y + energy R y) := by
  have h1 : (normalizeRows (lqpTask R t)).residual y ⬝ᵥ (normalizeRows (lqpTask R t)).residual y = taskMiss t y := by
    refine Finset.sum_congr rfl fun r _ => ?_
    rw [task_residual R t y r, sq]
  have h2 : (∑ r, (max ((normalizeRows (lqpTask R t)).value y r) 0) ^ 2) = 0 :=
    Finset.sum_eq_zero fun r _ => (r : Fin 0).elim0
  have h3 : ((normalizeRows (lqpTask R t)).H.elim 0 fun H => y ⬝ᵥ (H *ᵥ y)) = energy R y := lqpCost_quad R y
  rw [Spec.Level.objective, h1, h2, h3]
  ring

theorem keeps_iff {V : Type} [Fintype V] {r : LevelAnswer V} {l : Level V} (hl : r.l = l)
    (hv : ∀ i, r.v i = max (r.l.value r.y i) 0) (y' : V → ℝ) :
    Keeps r y' ↔ l.residual y' = l.residual r.y ∧ ∀ i, l.value y' i ≤ max (l.value r.y i) 0 := by
  subst hl
  simp only [Keeps, hv]

theorem keeps_start {R : LqpConf ι c m} (hM : R.M * R.Minv = 1) (y' : LqpVar ι c → ℝ) :
    Keeps (lqpStart R) y' ↔ Moves R y' := by
  have hd := lqpStart_demand R hM
  have a : (lqpStart R).l.residual y' = (lqpStart R).l.residual (lqpStart R).y ↔ ∀ i, demand R y' (Sum.inl i) = 0 := by
    constructor
    · intro h i
      rw [← lqpDynamics_residual]
      refine (normalizeRows_residual_zero (lqpDynamics R) y' i).mp ((congrFun h i).trans ?_)
      refine (normalizeRows_residual_zero (lqpDynamics R) _ i).mpr ?_
      rw [lqpDynamics_residual, hd]; rfl
    · intro h
      funext i
      refine ((normalizeRows_residual_zero (lqpDynamics R) y' i).mpr ?_).trans
        ((normalizeRows_residual_zero (lqpDynamics R) _ i).mpr ?_).symm
      · exact (lqpDynamics_residual R y' i).trans (h i)
      · exact (lqpDynamics_residual R _ i).trans (by rw [hd]; rfl)
  have b : (∀ i, (lqpStart R).l.value y' i ≤ (lqpStart R).v i) ↔ ∀ i, |demand R y' (Sum.inr i)| ≤ R.lim i := by
    constructor
    · intro h i
      have a1 := (normalizeRows_value_nonpos (lqpDynamics R) y' (Sum.inl i : ι ⊕ ι)).mp (h _)
      have a2 := (normalizeRows_value_nonpos (lqpDynamics R) y' (Sum.inr i : ι ⊕ ι)).mp (h _)
      rw [(lqpDynamics_value R y' i).1] at a1
      rw [(lqpDynamics_value R y' i).2] at a2
      rw [abs_le]; constructor <;> linarith
    · intro h i
      refine (normalizeRows_value_nonpos (lqpDynamics R) y' i).mpr ?_
      change ι ⊕ ι at i
      rcases i with i | i
      · rw [(lqpDynamics_value R y' i).1]; linarith [(abs_le.mp (h i)).2]
      · rw [(lqpDynamics_value R y' i).2]; linarith [(abs_le.mp (h i)).1]
  exact and_congr a b

theorem keeps_contact {R : LqpConf ι c m} {b : LevelAnswer (LqpVar ι c)} (hl : b.l = normalizeRows (lqpContact R))
    (hv : ∀ i, b.v i = max (b.l.value b.y i) 0) (y' : LqpVar ι c → ℝ) : Keeps b y' ↔ KeepsContact R b.y y' := by
  rw [keeps_iff hl hv]
  refine and_congr ?_ ?_
  · constructor
    · intro h
      funext r
      have := congrFun h r
      rw [contact_residual R y' r, contact_residual R b.y r] at this
      exact (div_left_inj' (rowLen_pos (R.J r)).ne').mp this
    · intro h
      funext r
      rw [contact_residual R y' r, contact_residual R b.y r, h]
  · constructor
    · intro h
      refine ⟨fun r => ?_, fun i => ⟨?_, ?_⟩⟩
      · have := h (Sum.inl r : Fin m ⊕ (ι ⊕ ι))
        rw [contact_value_force R y' r, contact_value_force R b.y r] at this
        rw [← zero_div (rowLen (R.C r)), max_div_div_right (rowLen_pos _).le] at this
        exact (div_le_div_iff_of_pos_right (rowLen_pos _)).mp this
      · have := h (Sum.inr (Sum.inl i) : Fin m ⊕ (ι ⊕ ι))
        rw [contact_value_up R y' i, contact_value_up R b.y i] at this
        rw [le_max_iff] at this ⊢
        rcases this with h | h
        · left; linarith
        · right; linarith
      · have := h (Sum.inr (Sum.inr i) : Fin m ⊕ (ι ⊕ ι))
        rw [contact_value_down R y' i, contact_value_down R b.y i] at this
        rw [le_max_iff] at this ⊢
        rcases this with h | h
        · left; linarith
        · right; linarith
    · rintro ⟨h1, h2⟩ i
      change Fin m ⊕ (ι ⊕ ι) at i
      rcases i with r | i | i
      · rw [contact_value_force R y' r, contact_value_force R b.y r]
        rw [← zero_div (rowLen (R.C r)), max_div_div_right (rowLen_pos _).le]
        exact (div_le_div_iff_of_pos_right (rowLen_pos _)).mpr (h1 r)
      · rw [contact_value_up R y' i, contact_value_up R b.y i]
        have := (h2 i).1
        rw [le_max_iff] at this ⊢
        rcases this with h | h
        · left; linarith
        · right; linarith
      · rw [contact_value_down R y' i, contact_value_down R b.y i]
        have := (h2 i).2
        rw [le_max_iff] at this ⊢
        rcases this with h | h
        · left; linarith
        · right; linarith

theorem keeps_task {R : LqpConf ι c m} {t : Σ t : ℕ, Matrix (Fin t) (Fin 6 ⊕ ι) ℝ × (Fin t → ℝ)}
    {b : LevelAnswer (LqpVar ι c)} (hl : b.l = normalizeRows (lqpTask R t))
    (hv : ∀ i, b.v i = max (b.l.value b.y i) 0) (y' : LqpVar ι c → ℝ) :
    Keeps b y' ↔ t.2.1 *ᵥ qddOf y' = t.2.1 *ᵥ qddOf b.y := by
  rw [keeps_iff hl hv]
  have hno : ∀ i, (normalizeRows (lqpTask R t)).value y' i ≤ max ((normalizeRows (lqpTask R t)).value b.y i) 0 :=
    fun i => (i : Fin 0).elim0
  rw [and_iff_left hno]
  constructor
  · intro h
    funext r
    have := congrFun h r
    rw [task_residual R t y' r, task_residual R t b.y r] at this
    have := (div_left_inj' (rowLen_pos (t.2.1 r)).ne').mp this
    simpa using this
  · intro h
    funext r
    rw [task_residual R t y' r, task_residual R t b.y r, h]

/-! ### The run -/

theorem lqp_run (osqp : Osqp) (N : NullSpaceFn) (hN : N.Correct) (R : LqpConf ι c m) :
    ∃ b rs, lqpRun osqp N R = lqpStart R :: b :: rs ∧ b.l = normalizeRows (lqpContact R) ∧
      rs.map (·.l) = R.tasks.map fun t => normalizeRows (lqpTask R t) := by
  obtain ⟨hmap, -, -, hhead⟩ := C32_residual_kept osqp N hN (lqpStart R) (lqpLevels R)
  unfold lqpRun
  generalize solveSequential osqp N (lqpStart R) (lqpLevels R) = L at *
  match L, hmap, hhead with
  | a :: b :: rs, hmap, hhead =>
    simp only [List.head?_cons, Option.some.injEq] at hhead
    subst hhead
    simp only [lqpLevels, List.map_cons, List.cons.injEq] at hmap
    exact ⟨b, rs, rfl, hmap.2.1, hmap.2.2⟩
  | [a], hmap, _ => simp [lqpLevels] at hmap
  | [], hmap, _ => simp at hmap

theorem lqp_start_within (R : LqpConf ι c m) (hM : R.M * R.Minv = 1) (hl : ∀ i, 0 ≤ R.lim i) :
    ∀ i, (lqpStart R).l.value (lqpStart R).y i ≤ (lqpStart R).v i := by
  have hd := lqpStart_demand R hM
  exact ((keeps_start hM (lqpStart R).y).mpr ⟨fun i => by rw [hd]; rfl, fun i => by rw [hd]; simpa using hl i⟩).2

theorem lqp_costs {R : LqpConf ι c m} (h : IsSPD R.M) (hw : 0 ≤ R.weight) : ∀ l ∈ lqpLevels R, ∀ H ∈ l.H, CostOk H := by
  intro l hl H hH
  simp only [lqpLevels, List.mem_cons, List.mem_map] at hl
  rcases hl with rfl | ⟨t, -, rfl⟩
  · simp only [normalizeRows, lqpContact, Option.mem_def, Option.some.injEq] at hH
    exact hH ▸ lqpCost_ok h hw
  · simp only [normalizeRows, lqpTask, Option.mem_def, Option.some.injEq] at hH
    exact hH ▸ lqpCost_ok h hw

/-- What each level minimises. -/
theorem lqp_levels (osqp : Osqp) (hs : OsqpExact osqp) (N : NullSpaceFn) (hN : N.Correct) (R : LqpConf ι c m)
    (hA : IsSPD R.M) (hM : R.M * R.Minv = 1)
    (hl : ∀ i, 0 ≤ R.lim i) (hw : 0 ≤ R.weight) :
    ∃ a b rs, lqpRun osqp N R = a :: b :: rs ∧ rs.length = R.tasks.length ∧
      (Moves R b.y ∧ ∀ y', Moves R y' → contactMiss R b.y + energy R b.y ≤ contactMiss R y' + energy R y') ∧
      ∀ k (r : LevelAnswer (LqpVar ι c)) t, rs[k]? = some r → R.tasks[k]? = some t →
        (Moves R r.y ∧ KeepsContact R b.y r.y ∧ KeepsTasks R rs k r.y) ∧
        ∀ y', Moves R y' → KeepsContact R b.y y' → KeepsTasks R rs k y' →
        taskMiss t r.y + energy R r.y ≤ taskMiss t y' + energy R y' := by
  obtain ⟨b, rs, hrun, hb, hrs⟩ := lqp_run osqp N hN R
  have hex := C33_exact_solver osqp hs N hN (lqpStart R) (lqpLevels R) (lqp_costs hA hw) (lqp_start_within R hM hl)
  obtain ⟨hbv, -, hbk, hbo⟩ := hex [lqpStart R] b rs hrun (by simp)
  have hlen : rs.length = R.tasks.length := by simpa using congrArg List.length hrs
  have hlev : ∀ (k : ℕ) (r : LevelAnswer (LqpVar ι c)) t, rs[k]? = some r → R.tasks[k]? = some t →
      r.l = normalizeRows (lqpTask R t) := by
    intro k r t hr ht
    have := congrArg (fun L => L[k]?) hrs
    simp only [List.getElem?_map, hr, ht, Option.map_some, Option.some.injEq] at this
    exact this
  have hsplit : ∀ (k : ℕ) (r : LevelAnswer (LqpVar ι c)), rs[k]? = some r →
      lqpRun osqp N R = (lqpStart R :: b :: rs.take k) ++ r :: rs.drop (k + 1) := by
    intro k r hr
    obtain ⟨hk, rfl⟩ := List.getElem?_eq_some_iff.mp hr
    rw [hrun]
    simp
  have hviol : ∀ (k : ℕ) (r : LevelAnswer (LqpVar ι c)), rs[k]? = some r → ∀ i, r.v i = max (r.l.value r.y i) 0 := by
    intro k r hr
    exact (hex _ r _ (hsplit k r hr) (by simp)).1
  have hkeep : ∀ (k : ℕ) y', (∀ d ∈ lqpStart R :: b :: rs.take k, Keeps d y') ↔
      Moves R y' ∧ KeepsContact R b.y y' ∧ KeepsTasks R rs k y' := by
    intro k y'
    rw [List.forall_mem_cons, List.forall_mem_cons, keeps_start hM, keeps_contact hb hbv]
    refine and_congr_right fun _ => and_congr_right fun _ => ?_
    constructor
    · intro h j hj r' t' hr' ht'
      refine (keeps_task (hlev j r' t' hr' ht') (hviol j r' hr') y').mp (h r' ?_)
      exact List.mem_of_getElem? (i := j) (by rw [List.getElem?_take_of_lt hj, hr'])
    · intro h d hd
      obtain ⟨j, hj⟩ := List.mem_iff_getElem?.mp hd
      have hjk : j < k := by
        by_contra hc
        rw [List.getElem?_take_eq_none (by omega)] at hj
        simp at hj
      rw [List.getElem?_take_of_lt hjk] at hj
      obtain ⟨t', ht'⟩ : ∃ t', R.tasks[j]? = some t' := by
        have := (List.getElem?_eq_some_iff.mp hj).1
        exact ⟨_, List.getElem?_eq_getElem (by omega)⟩
      exact (keeps_task (hlev j d t' hj ht') (hviol j d hj) y').mpr (h j hjk d t' hj ht')
  refine ⟨lqpStart R, b, rs, hrun, hlen, ⟨?_, fun y' hy' => ?_⟩, fun k r t hr ht => ⟨?_, fun y' h1 h2 h3 => ?_⟩⟩
  · exact (keeps_start hM _).mp (hbk _ (by simp))
  · have := hbo y' (by intro d hd; obtain rfl := List.mem_singleton.mp hd; exact (keeps_start hM _).mpr hy')
    rw [hb, contact_objective, contact_objective] at this
    linarith
  · exact (hkeep k r.y).mp (hex _ r _ (hsplit k r hr) (by simp)).2.2.1
  · have := (hex _ r _ (hsplit k r hr) (by simp)).2.2.2 y' ((hkeep k y').mpr ⟨h1, h2, h3⟩)
    rw [hlev k r t hr ht, task_objective, task_objective] at this
    linarith

theorem contactMiss_ok {R : LqpConf ι c m} {y : LqpVar ι c → ℝ} (h : ContactOk R y) : contactMiss R y = 0 := by
  obtain ⟨h1, h2, h3⟩ := h
  have e3 : ∀ i, max (qddOf y (Sum.inr i) - 5) 0 = 0 ∧ max (-qddOf y (Sum.inr i) - 5) 0 = 0 := by
    intro i
    have := abs_le.mp (h3 i)
    exact ⟨max_eq_right (by linarith), max_eq_right (by linarith)⟩
  simp [contactMiss, h1, max_eq_right (h2 _), e3]

/-- Bound on the contact miss. -/
theorem lqp_contact_bound (osqp : Osqp) (hs : OsqpExact osqp) (N : NullSpaceFn) (hN : N.Correct)
    (R : LqpConf ι c m) (hA : IsSPD R.M) (hM : R.M * R.Minv = 1)
    (hl : ∀ i, 0 ≤ R.lim i) (hw : 0 ≤ R.weight) (y' : LqpVar ι c → ℝ) (hy : Moves R y')
    (hc : ContactOk R y') :
    ∃ a b rs, lqpRun osqp N R = a :: b :: rs ∧ contactMiss R b.y ≤ energy R y' ∧
      ∀ r ∈ rs, KeepsContact R b.y r.y := by
  obtain ⟨a, b, rs, hrun, hlen, ⟨-, h⟩, ht⟩ := lqp_levels osqp hs N hN R hA hM hl hw
  refine ⟨a, b, rs, hrun, ?_, ?_⟩
  · have := h y' hy
    rw [contactMiss_ok hc] at this
    linarith [energy_nonneg hA hw b.y]
  · intro r hr
    obtain ⟨k, hk⟩ := List.mem_iff_getElem?.mp hr
    have hlt := (List.getElem?_eq_some_iff.mp hk).1
    exact (ht k r _ hk (List.getElem?_eq_getElem (by omega))).1.2.1

theorem lim_nonneg : (0 : ℝ) ≤ 200 := by norm_num

theorem conf_weight {R : LqpRobot n c m} (h : IsSPD R.M) : 0 < R.conf.weight := by
  have := frobenius_pos h
  show 0 < 5 / frobenius R.M
  positivity

/-- **C57 (what the levels minimise).**  Let `A_` be symmetric positive definite with inverse `A_inv_`, and the solver exact.
The controller gives an answer `b` for the contacts and one answer per task.  `b` obeys the dynamics and torque bounds, and
among all accelerations and forces that do, it has the least contact miss plus energy.  The answer of task `k` obeys the
dynamics and torque bounds, keeps what `b` and the tasks above it achieved, and among all that do so it has the least
miss of task `k` plus energy.  Missing: the miss alone is not minimised (`C57_contact_force_violated`, `C57_task_missed`). -/
theorem C57_levels_partial (osqp : Osqp) (hs : OsqpExact osqp) (N : NullSpaceFn) (hN : N.Correct) (R : LqpRobot n c m)
    (hA : IsSPD R.M) (hM : R.M * R.Minv = 1) :
    ∃ a b rs, calcControlTorqueLQP osqp N R = a :: b :: rs ∧ rs.length = R.tasks.length ∧
      (Moves R.conf b.y ∧ ∀ y', Moves R.conf y' → contactMiss R.conf b.y + energy R.conf b.y ≤ contactMiss R.conf y' + energy R.conf y') ∧
      ∀ k (r : LevelAnswer (LqpVar (Fin n) c)) t, rs[k]? = some r → R.tasks[k]? = some t →
        (Moves R.conf r.y ∧ KeepsContact R.conf b.y r.y ∧ KeepsTasks R.conf rs k r.y) ∧
        ∀ y', Moves R.conf y' → KeepsContact R.conf b.y y' → KeepsTasks R.conf rs k y' →
        taskMiss t r.y + energy R.conf r.y ≤ taskMiss t y' + energy R.conf y' :=
  lqp_levels osqp hs N hN R.conf hA hM (fun _ => lim_nonneg) (conf_weight hA).le

/-- **C57 (bound on the miss).**  If some accelerations and forces obey the dynamics and torque bounds and satisfy all contact
conditions, then the contact miss of the controller is at most their energy. -/
theorem C57_contact_bound_partial (osqp : Osqp) (hs : OsqpExact osqp) (N : NullSpaceFn) (hN : N.Correct)
    (R : LqpRobot n c m) (hA : IsSPD R.M) (hM : R.M * R.Minv = 1) (y' : LqpVar (Fin n) c → ℝ) (hy : Moves R.conf y')
    (hc : ContactOk R.conf y') :
    ∃ a b rs, calcControlTorqueLQP osqp N R = a :: b :: rs ∧ contactMiss R.conf b.y ≤ energy R.conf y' ∧
      ∀ r ∈ rs, KeepsContact R.conf b.y r.y :=
  lqp_contact_bound osqp hs N hN R.conf hA hM (fun _ => lim_nonneg) (conf_weight hA).le y' hy hc

/-! ### The energy term costs accuracy -/

/-- One joint, unit inertia, no load, no contact; the task asks the joint for acceleration 1. -/
noncomputable abbrev reach : LqpRobot 1 0 0 :=
  { M := 1, Minv := 1, h := 0, J := 0, C := 0, tasks := [⟨1, Matrix.of fun _ => Pi.single (Sum.inr 0) 1, fun _ => 1⟩] }

/-- the joint accelerates by `s`, nothing else does -/
def reachY (s : ℝ) : LqpVar (Fin 1) 0 → ℝ := Sum.elim (Pi.single (Sum.inr 0) s) 0

theorem reach_spd : IsSPD reach.M := isSPD_one

theorem reach_frobenius : Model.frobenius reach.M = √7 := by
  unfold Model.frobenius
  congr 1
  simp [Matrix.one_apply]

theorem reach_energy (y : LqpVar (Fin 1) 0 → ℝ) : energy reach.conf y = 5 / √7 * (qddOf y ⬝ᵥ qddOf y) := by
  rw [energy, show reach.conf.weight = 5 / Model.frobenius reach.M from rfl, reach_frobenius, show reach.conf.M = 1 from rfl,
    one_mulVec]

theorem reach_miss (y : LqpVar (Fin 1) 0 → ℝ) : ∀ t ∈ reach.tasks, taskMiss t y = (qddOf y (Sum.inr 0) - 1) ^ 2 := by
  intro t ht
  obtain rfl := List.mem_singleton.mp ht
  have e : (of fun _ => Pi.single (Sum.inr 0) 1 : Matrix (Fin 1) (Fin 6 ⊕ Fin 1) ℝ) 0 = Pi.single (Sum.inr 0) 1 := rfl
  have e2 : ((of fun _ => Pi.single (Sum.inr 0) 1 : Matrix (Fin 1) (Fin 6 ⊕ Fin 1) ℝ) *ᵥ qddOf y) 0 = qddOf y (Sum.inr 0) := by
    rw [mulVec, e]; simp
  simp [taskMiss, rowLen, e, e2]

theorem reach_demand (s : ℝ) : demand reach.conf (reachY s) = Pi.single (Sum.inr 0) s := by
  have : qddOf (reachY s) = Pi.single (Sum.inr 0) s := rfl
  rw [demand, this, show reach.conf.M = 1 from rfl, one_mulVec, show reach.conf.h = 0 from rfl, show reach.conf.J = 0 from rfl]
  simp

theorem reach_moves {s : ℝ} (h : |s| ≤ 200) : Moves reach.conf (reachY s) := by
  refine ⟨fun i => ?_, fun i => ?_⟩
  · rw [reach_demand]; simp
  · rw [reach_demand, Subsingleton.elim i 0, show reach.conf.lim 0 = 200 from rfl]; simpa using h

theorem reach_contactOk {s : ℝ} (h : |s| ≤ 5) : ContactOk reach.conf (reachY s) := by
  refine ⟨?_, fun r => r.elim0, fun i => ?_⟩
  · funext r; exact r.elim0
  · rw [Subsingleton.elim i 0]; simpa [qddOf, reachY] using h

/-- **C57 fails for tasks.**  A one-joint robot is asked for joint acceleration 1.  Accelerations are available that obey the
dynamics, torque bounds and contact conditions and give exactly 1.  The controller with an exact solver answers
`1 / (1 + 5/√7)`, about 0.35. -/
theorem C57_task_missed (osqp : Osqp) (hs : OsqpExact osqp) (N : NullSpaceFn) (hN : N.Correct) :
    IsSPD reach.M ∧ reach.M * reach.Minv = 1 ∧
    (∃ y', Moves reach.conf y' ∧ ContactOk reach.conf y' ∧ ∀ t ∈ reach.tasks, t.2.1 *ᵥ qddOf y' = t.2.2) ∧
    ∃ a b r, calcControlTorqueLQP osqp N reach = [a, b, r] ∧ qddOf r.y (Sum.inr 0) = 1 / (1 + 5 / √7) ∧
      qddOf r.y (Sum.inr 0) < 2 / 5 := by
  have hMM : reach.M * reach.Minv = 1 := by simp [reach]
  refine ⟨reach_spd, hMM, ⟨reachY 1, reach_moves (by norm_num), reach_contactOk (by norm_num), ?_⟩, ?_⟩
  · intro t ht
    obtain rfl := List.mem_singleton.mp ht
    funext r
    simp [mulVec, qddOf, reachY]
  obtain ⟨a, b, rs, hrun, hlen, -, ht⟩ := C57_levels_partial osqp hs N hN reach reach_spd hMM
  match rs, hlen with
  | [r], _ =>
    obtain ⟨-, h⟩ := ht 0 r _ rfl rfl
    have h7 : 0 < √(7 : ℝ) := Real.sqrt_pos.mpr (by norm_num)
    have hκ : 0 < 5 / √(7 : ℝ) := by positivity
    have hκ' : 3 / 2 < 5 / √(7 : ℝ) := by
      rw [lt_div_iff₀ h7]
      have : √(7 : ℝ) < 10 / 3 := by rw [Real.sqrt_lt' (by norm_num)]; norm_num
      linarith
    set κ := 5 / √(7 : ℝ) with hκd
    set s : ℝ := 1 / (1 + κ) with hsd
    have hs0 : 0 < s := by positivity
    have hs1 : s * (1 + κ) = 1 := by rw [hsd]; field_simp
    have hs2 : s < 2 / 5 := by nlinarith
    have h' := h (reachY s) (reach_moves (by rw [abs_of_pos hs0]; linarith))
      ⟨by funext r; exact r.elim0, fun r => r.elim0, fun i => by
        rw [Subsingleton.elim i 0]
        simp only [qddOf, reachY, Function.comp_apply, Sum.elim_inl, Pi.single_eq_same, le_max_iff]
        exact ⟨Or.inr (by linarith), Or.inr (by linarith)⟩⟩ (by intro j hj; omega)
    rw [reach_miss _ _ (by simp), reach_miss _ _ (by simp), reach_energy, reach_energy, ← hκd] at h'
    have hge : qddOf r.y (Sum.inr 0) * qddOf r.y (Sum.inr 0) ≤ qddOf r.y ⬝ᵥ qddOf r.y :=
      Finset.single_le_sum (f := fun i => qddOf r.y i * qddOf r.y i) (fun _ _ => mul_self_nonneg _) (Finset.mem_univ _)
    have hq : qddOf (reachY s) (Sum.inr 0) = s := by simp [qddOf, reachY]
    have hqq : qddOf (reachY s) ⬝ᵥ qddOf (reachY s) = s * s := by simp [qddOf, reachY]
    rw [hq, hqq] at h'
    set x := qddOf r.y (Sum.inr 0) with hx
    have hx' : x = s := by
      have h1 : (x - 1) ^ 2 + κ * (x * x) ≤ (s - 1) ^ 2 + κ * (s * s) := by nlinarith
      have h2 : (1 + κ) * (x - s) ^ 2 = (x - 1) ^ 2 + κ * (x * x) - ((s - 1) ^ 2 + κ * (s * s))
          + 2 * (x - s) * (1 - s * (1 + κ)) := by ring
      rw [hs1] at h2
      have h3 : (x - s) ^ 2 ≤ 0 := by nlinarith [sq_nonneg (x - s)]
      have := pow_eq_zero_iff (two_ne_zero) |>.mp (le_antisymm h3 (sq_nonneg (x - s)))
      linarith
    exact ⟨a, b, r, hrun, hx', lt_of_eq_of_lt hx' hs2⟩

/-- One joint, unit inertia; a contact moves with the first base direction and the joint; the base is pushed by 1, and the
contact force must not be positive. -/
noncomputable abbrev push : LqpRobot 1 1 1 :=
  { M := 1, Minv := 1, h := Pi.single (Sum.inl 0) (-1),
    J := Matrix.of fun _ => Pi.single (Sum.inl 0) 1 + Pi.single (Sum.inr 0) 1, C := 1, tasks := [] }

/-- base and joint accelerate by `s` in opposite directions, the contact force is `1 - s` -/
def pushY (s : ℝ) : LqpVar (Fin 1) 1 → ℝ := Sum.elim (Pi.single (Sum.inl 0) s - Pi.single (Sum.inr 0) s) (fun _ => 1 - s)

theorem push_spd : IsSPD push.M := isSPD_one

theorem push_energy (y : LqpVar (Fin 1) 1 → ℝ) : energy push.conf y = 5 / √7 * (qddOf y ⬝ᵥ qddOf y) := by
  rw [energy, show push.conf.weight = 5 / Model.frobenius reach.M from rfl, reach_frobenius, show push.conf.M = 1 from rfl,
    one_mulVec]

theorem push_J (y : LqpVar (Fin 1) 1 → ℝ) (r : Fin 1) :
    (push.conf.J *ᵥ qddOf y) r = qddOf y (Sum.inl 0) + qddOf y (Sum.inr 0) := by
  show (Pi.single (Sum.inl 0) 1 + Pi.single (Sum.inr 0) 1 : Fin 6 ⊕ Fin 1 → ℝ) ⬝ᵥ _ = _
  simp [add_dotProduct]

theorem push_JT (F : Fin 1 → ℝ) : push.conf.Jᵀ *ᵥ F = F 0 • (Pi.single (Sum.inl 0) 1 + Pi.single (Sum.inr 0) 1) := by
  funext i
  simp [push, LqpRobot.conf, mulVec, dotProduct, mul_comm]

theorem push_demand (y : LqpVar (Fin 1) 1 → ℝ) : demand push.conf y = qddOf y + Pi.single (Sum.inl 0) (-1) +
    forceOf y 0 • (Pi.single (Sum.inl 0) 1 + Pi.single (Sum.inr 0) 1) := by
  rw [demand, push_JT, show push.conf.M = 1 from rfl, one_mulVec, show push.conf.h = Pi.single (Sum.inl 0) (-1) from rfl]

theorem push_moves {s : ℝ} (h : |1 - 2 * s| ≤ 200) : Moves push.conf (pushY s) := by
  have e1 : qddOf (pushY s) = Pi.single (Sum.inl 0) s - Pi.single (Sum.inr 0) s := rfl
  have e2 : forceOf (pushY s) 0 = 1 - s := rfl
  refine ⟨fun i => ?_, fun i => ?_⟩
  · rw [push_demand, e1, e2]
    by_cases hi : i = 0
    · subst hi; simp; ring
    · simp [Pi.single_apply, hi]
  · rw [push_demand, e1, e2, Subsingleton.elim i 0]
    simp
    rwa [show -s + (1 - s) = 1 - 2 * s by ring]

theorem push_contactMiss (y : LqpVar (Fin 1) 1 → ℝ) (h : |qddOf y (Sum.inr 0)| ≤ 5) : contactMiss push.conf y =
    (qddOf y (Sum.inl 0) + qddOf y (Sum.inr 0)) ^ 2 / 2 + (max (forceOf y 0) 0) ^ 2 := by
  have e1 : rowLen (push.conf.J 0) = √2 := by
    have : push.conf.J 0 ⬝ᵥ push.conf.J 0 = 2 := by
      show (Pi.single (Sum.inl 0) 1 + Pi.single (Sum.inr 0) 1 : Fin 6 ⊕ Fin 1 → ℝ) ⬝ᵥ
        (Pi.single (Sum.inl 0) 1 + Pi.single (Sum.inr 0) 1) = _
      simp [add_dotProduct, dotProduct_add]; norm_num
    simp [rowLen, this]
  have e2 : rowLen (push.conf.C 0) = 1 := by simp [rowLen, push, LqpRobot.conf, dotProduct]
  have h3 := abs_le.mp h
  have e3 : max (qddOf y (Sum.inr 0) - 5) 0 = 0 := max_eq_right (by linarith)
  have e4 : max (-qddOf y (Sum.inr 0) - 5) 0 = 0 := max_eq_right (by linarith)
  have e5 : (push.conf.C *ᵥ forceOf y) 0 = forceOf y 0 := by simp [push, LqpRobot.conf]
  rw [contactMiss]
  simp only [Fin.sum_univ_one, Finset.univ_unique, Finset.sum_singleton, Fin.default_eq_zero, e1, e2, e3, e4, e5,
    div_pow]
  rw [push_J y 0]
  simp

/-- **C57 fails for contact forces.**  Accelerations and forces are available that obey the dynamics and torque bounds, hold
the contact still and need no inadmissible contact force.  The controller with an exact solver nevertheless answers with a
contact force that violates its constraint. -/
theorem C57_contact_force_violated (osqp : Osqp) (hs : OsqpExact osqp) (N : NullSpaceFn) (hN : N.Correct) :
    IsSPD push.M ∧ push.M * push.Minv = 1 ∧ (∃ y', Moves push.conf y' ∧ ContactOk push.conf y') ∧
    ∃ a b, calcControlTorqueLQP osqp N push = [a, b] ∧ 0 < (push.conf.C *ᵥ forceOf b.y) 0 ∧ ¬ ContactOk push.conf b.y := by
  have hMM : push.M * push.Minv = 1 := by simp [push, LqpRobot.conf]
  refine ⟨push_spd, hMM, ⟨pushY 1, push_moves (by norm_num), ?_, fun r => ?_, fun i => ?_⟩, ?_⟩
  · funext r; rw [push_J]; simp [qddOf, pushY]
  · rw [Subsingleton.elim r 0]; simp [push, LqpRobot.conf, forceOf, pushY]
  · rw [Subsingleton.elim i 0]; simp [qddOf, pushY]
  obtain ⟨a, b, rs, hrun, hlen, ⟨hb, h⟩, -⟩ := C57_levels_partial osqp hs N hN push push_spd hMM
  obtain rfl : rs = [] := List.length_eq_zero_iff.mp (by simpa [push] using hlen)
  have hpos : 0 < forceOf b.y 0 := by
    by_contra hc
    push Not at hc
    have hx := hb.1 0
    rw [push_demand] at hx
    simp at hx
    have h' := h (pushY (1 / 2)) (push_moves (by norm_num))
    rw [push_contactMiss (pushY (1 / 2)) (by simp [qddOf, pushY]; norm_num), push_energy, push_energy] at h'
    have hn : 0 ≤ contactMiss push.conf b.y := by unfold contactMiss; positivity
    have hge : qddOf b.y (Sum.inl 0) * qddOf b.y (Sum.inl 0) ≤ qddOf b.y ⬝ᵥ qddOf b.y :=
      Finset.single_le_sum (f := fun i => qddOf b.y i * qddOf b.y i) (fun _ _ => mul_self_nonneg _) (Finset.mem_univ _)
    have hqq : qddOf (pushY (1 / 2)) ⬝ᵥ qddOf (pushY (1 / 2)) = 1 / 2 := by
      simp [qddOf, pushY, sub_dotProduct, dotProduct_sub]; norm_num
    have hf : max (forceOf (pushY (1 / 2)) 0) 0 = 1 / 2 := by simp [forceOf, pushY]; norm_num
    have hz : qddOf (pushY (1 / 2)) (Sum.inl 0) + qddOf (pushY (1 / 2)) (Sum.inr 0) = 0 := by simp [qddOf, pushY]
    rw [hqq, hf, hz] at h'
    have h7 : 0 < √(7 : ℝ) := Real.sqrt_pos.mpr (by norm_num)
    have hκ' : 3 / 2 < 5 / √(7 : ℝ) := by
      rw [lt_div_iff₀ h7]
      have : √(7 : ℝ) < 10 / 3 := by rw [Real.sqrt_lt' (by norm_num)]; norm_num
      linarith
    set κ := 5 / √(7 : ℝ)
    have h1 : 1 ≤ qddOf b.y (Sum.inl 0) := by linarith
    have h2 : 1 ≤ qddOf b.y ⬝ᵥ qddOf b.y := by nlinarith
    nlinarith
  have hC : (push.conf.C *ᵥ forceOf b.y) 0 = forceOf b.y 0 := by simp [push, LqpRobot.conf]
  exact ⟨a, b, hrun, by rw [hC]; exact hpos, fun hk => absurd (hk.2.1 0) (by rw [hC]; linarith)⟩

/-- the hypotheses are met -/
example : OsqpExact chooseSolution ∧ projNull.Correct ∧ IsSPD push.M ∧ push.M * push.Minv = 1 :=
  ⟨chooseSolution_exact, projNull_correct, push_spd, by simp [push, LqpRobot.conf]⟩

end Verif.Props
