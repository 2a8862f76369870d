import Verif.Props.Lqp
import Verif.Props.ModerateJacc

/-!
# C93: the hierarchical controller moderates the first command
-/

set_option linter.unusedSectionVars false

namespace Verif.Props
open Matrix Verif Verif.Spec Verif.Model

variable {ι : Type} [Fintype ι] [DecidableEq ι] {n c m : ℕ}

/-- The robot could stand still: without acceleration the dynamics, torque bounds and contact conditions can be met. -/
def CanStand (R : LqpConf ι c m) : Prop := ∃ y, Moves R y ∧ qddOf y = 0 ∧ ∀ r, (R.C *ᵥ forceOf y) r ≤ 0

/-- A vector with every entry divided by the length of the matrix row it belongs to. -/
noncomputable def perRow {t : ℕ} {V : Type} [Fintype V] (J : Matrix (Fin t) V ℝ) (v : Fin t → ℝ) : Fin t → ℝ := fun r => v r / rowLen (J r)

theorem moves_along {R : LqpConf ι c m} {y y' : LqpVar ι c → ℝ} (h : Moves R y) (h' : Moves R y') {s : ℝ} (h0 : 0 ≤ s) (h1 : s ≤ 1) :
    Moves R (y + s • (y' - y)) := by
  have e : demand R (y + s • (y' - y)) = demand R y + s • (demand R y' - demand R y) := by
    have e1 : qddOf (y + s • (y' - y)) = qddOf y + s • (qddOf y' - qddOf y) := rfl
    have e2 : forceOf (y + s • (y' - y)) = forceOf y + s • (forceOf y' - forceOf y) := rfl
    unfold demand
    rw [e1, e2]
    simp only [mulVec_add, mulVec_smul, mulVec_sub]
    module
  refine ⟨fun i => ?_, fun i => ?_⟩
  · rw [e]; simp [h.1 i, h'.1 i]
  · rw [e]; exact abs_along (h.2 i) (h'.2 i) h0 h1

theorem keepsContact_along {R : LqpConf ι c m} {b y y' : LqpVar ι c → ℝ} (h : KeepsContact R b y) (h' : KeepsContact R b y') {s : ℝ}
    (h0 : 0 ≤ s) (h1 : s ≤ 1) : KeepsContact R b (y + s • (y' - y)) := by
  have e1 : qddOf (y + s • (y' - y)) = qddOf y + s • (qddOf y' - qddOf y) := rfl
  have e2 : forceOf (y + s • (y' - y)) = forceOf y + s • (forceOf y' - forceOf y) := rfl
  have conv : ∀ {p q b : ℝ}, p ≤ b → q ≤ b → p + s * (q - p) ≤ b := fun hp hq => by nlinarith
  refine ⟨?_, fun r => ?_, fun i => ⟨?_, ?_⟩⟩
  · rw [e1, mulVec_add, mulVec_smul, mulVec_sub, h.1, h'.1]; simp
  · rw [e2, mulVec_add, mulVec_smul, mulVec_sub]; exact conv (h.2.1 r) (h'.2.1 r)
  · rw [e1]; exact conv (h.2.2 i).1 (h'.2.2 i).1
  · rw [e1]
    have := conv (h.2.2 i).2 (h'.2.2 i).2
    simp only [Pi.add_apply, Pi.smul_apply, Pi.sub_apply, smul_eq_mul]
    linarith

theorem keepsTasks_along {R : LqpConf ι c m} {rs : List (LevelAnswer (LqpVar ι c))} {k : ℕ} {y y' : LqpVar ι c → ℝ}
    (h : KeepsTasks R rs k y) (h' : KeepsTasks R rs k y') (s : ℝ) : KeepsTasks R rs k (y + s • (y' - y)) := by
  intro j hj r t hr ht
  have e1 : qddOf (y + s • (y' - y)) = qddOf y + s • (qddOf y' - qddOf y) := rfl
  rw [e1, mulVec_add, mulVec_smul, mulVec_sub, h j hj r t hr ht, h' j hj r t hr ht]; simp

/-- Miss and energy along a segment. -/
theorem lqp_along {R : LqpConf ι c m} (hA : R.Mᵀ = R.M) (t : Σ t : ℕ, Matrix (Fin t) (Fin 6 ⊕ ι) ℝ × (Fin t → ℝ))
    (y y' : LqpVar ι c → ℝ) (s : ℝ) :
    taskMiss t (y + s • (y' - y)) + energy R (y + s • (y' - y)) = taskMiss t y + energy R y +
      2 * s * (perRow t.2.1 (t.2.1 *ᵥ qddOf y - t.2.2) ⬝ᵥ perRow t.2.1 (t.2.1 *ᵥ qddOf y' - t.2.1 *ᵥ qddOf y) +
        R.weight * (qddOf y ⬝ᵥ (R.M *ᵥ (qddOf y' - qddOf y)))) +
      s ^ 2 * (perRow t.2.1 (t.2.1 *ᵥ qddOf y' - t.2.1 *ᵥ qddOf y) ⬝ᵥ perRow t.2.1 (t.2.1 *ᵥ qddOf y' - t.2.1 *ᵥ qddOf y) +
        R.weight * ((qddOf y' - qddOf y) ⬝ᵥ (R.M *ᵥ (qddOf y' - qddOf y)))) := by
  have e1 : qddOf (y + s • (y' - y)) = qddOf y + s • (qddOf y' - qddOf y) := rfl
  have hm : taskMiss t (y + s • (y' - y)) = taskMiss t y +
      2 * s * (perRow t.2.1 (t.2.1 *ᵥ qddOf y - t.2.2) ⬝ᵥ perRow t.2.1 (t.2.1 *ᵥ qddOf y' - t.2.1 *ᵥ qddOf y)) +
      s ^ 2 * (perRow t.2.1 (t.2.1 *ᵥ qddOf y' - t.2.1 *ᵥ qddOf y) ⬝ᵥ perRow t.2.1 (t.2.1 *ᵥ qddOf y' - t.2.1 *ᵥ qddOf y)) := by
    unfold taskMiss dotProduct
    rw [Finset.mul_sum, Finset.mul_sum, ← Finset.sum_add_distrib, ← Finset.sum_add_distrib]
    refine Finset.sum_congr rfl fun r _ => ?_
    rw [e1, mulVec_add, mulVec_smul, mulVec_sub]
    simp only [perRow, Pi.add_apply, Pi.sub_apply, Pi.smul_apply, smul_eq_mul]
    ring
  have hs : (qddOf y' - qddOf y) ⬝ᵥ (R.M *ᵥ qddOf y) = qddOf y ⬝ᵥ (R.M *ᵥ (qddOf y' - qddOf y)) := by
    rw [dotProduct_mulVec, ← mulVec_transpose, hA, dotProduct_comm]
  rw [hm, energy, energy, e1]
  generalize qddOf y' - qddOf y = d at *
  rw [mulVec_add, mulVec_smul]
  simp only [add_dotProduct, dotProduct_add, smul_dotProduct, dotProduct_smul, smul_eq_mul, hs]
  ring

/-- First-order condition of a level. -/
theorem lqp_first_order {R : LqpConf ι c m} (hA : IsSPD R.M) (hw : 0 ≤ R.weight)
    {t : Σ t : ℕ, Matrix (Fin t) (Fin 6 ⊕ ι) ℝ × (Fin t → ℝ)} {b y y' : LqpVar ι c → ℝ} {rs : List (LevelAnswer (LqpVar ι c))} {k : ℕ}
    (hy : Moves R y ∧ KeepsContact R b y ∧ KeepsTasks R rs k y) (hy' : Moves R y' ∧ KeepsContact R b y' ∧ KeepsTasks R rs k y')
    (hbest : ∀ z, Moves R z → KeepsContact R b z → KeepsTasks R rs k z → taskMiss t y + energy R y ≤ taskMiss t z + energy R z) :
    0 ≤ perRow t.2.1 (t.2.1 *ᵥ qddOf y - t.2.2) ⬝ᵥ perRow t.2.1 (t.2.1 *ᵥ qddOf y' - t.2.1 *ᵥ qddOf y) +
        R.weight * (qddOf y ⬝ᵥ (R.M *ᵥ (qddOf y' - qddOf y))) := by
  refine first_order_of (q := perRow t.2.1 (t.2.1 *ᵥ qddOf y' - t.2.1 *ᵥ qddOf y) ⬝ᵥ perRow t.2.1 (t.2.1 *ᵥ qddOf y' - t.2.1 *ᵥ qddOf y) +
        R.weight * ((qddOf y' - qddOf y) ⬝ᵥ (R.M *ᵥ (qddOf y' - qddOf y)))) ?_ fun s h0 h1 => ?_
  · have h1 := dot_self_nonneg' (perRow t.2.1 (t.2.1 *ᵥ qddOf y' - t.2.1 *ᵥ qddOf y))
    have h2 : 0 ≤ (qddOf y' - qddOf y) ⬝ᵥ (R.M *ᵥ (qddOf y' - qddOf y)) := by
      by_cases h0 : qddOf y' - qddOf y = 0
      · rw [h0]; simp
      · exact (hA.pos _ h0).le
    positivity
  · have := hbest _ (moves_along hy.1 hy'.1 h0 h1) (keepsContact_along hy.2.1 hy'.2.1 h0 h1) (keepsTasks_along hy.2.2 hy'.2.2 s)
    rw [lqp_along hA.symm] at this
    linarith

/-- If the robot can stand still, the contact level gives no acceleration and admissible forces. -/
theorem lqp_contact_still {R : LqpConf ι c m} (hA : IsSPD R.M) (hw : 0 < R.weight) (hstand : CanStand R) {b : LqpVar ι c → ℝ}
    (hb : ∀ y', Moves R y' → contactMiss R b + energy R b ≤ contactMiss R y' + energy R y') :
    qddOf b = 0 ∧ ∀ r, (R.C *ᵥ forceOf b) r ≤ 0 := by
  obtain ⟨y, h1, h2, h3⟩ := hstand
  have hok : ContactOk R y := ⟨by rw [h2, mulVec_zero], h3, fun i => by rw [h2]; simp⟩
  have := hb y h1
  have e0 : energy R y = 0 := by rw [energy, h2, mulVec_zero, dotProduct_zero, mul_zero]
  rw [contactMiss_ok hok, e0, add_zero] at this
  have p1 : 0 ≤ ∑ r, ((R.J *ᵥ qddOf b) r / rowLen (R.J r)) ^ 2 := Finset.sum_nonneg fun _ _ => sq_nonneg _
  have p2 : 0 ≤ ∑ r, (max ((R.C *ᵥ forceOf b) r) 0 / rowLen (R.C r)) ^ 2 := Finset.sum_nonneg fun _ _ => sq_nonneg _
  have p3 : 0 ≤ ∑ i, ((max (qddOf b (Sum.inr i) - 5) 0) ^ 2 + (max (-qddOf b (Sum.inr i) - 5) 0) ^ 2) :=
    Finset.sum_nonneg fun _ _ => by positivity
  have p4 := energy_nonneg hA hw.le b
  unfold contactMiss at this
  refine ⟨?_, fun r => ?_⟩
  · by_contra hne
    have h5 : 0 < energy R b := mul_pos hw (hA.pos _ hne)
    linarith
  · have h6 : ∑ r, (max ((R.C *ᵥ forceOf b) r) 0 / rowLen (R.C r)) ^ 2 = 0 := by linarith
    have h7 := (Finset.sum_eq_zero_iff_of_nonneg fun _ _ => sq_nonneg _).mp h6 r (Finset.mem_univ r)
    have h8 : max ((R.C *ᵥ forceOf b) r) 0 = 0 := by
      have := pow_eq_zero_iff (two_ne_zero) |>.mp h7
      rcases div_eq_zero_iff.mp this with h | h
      · exact h
      · exact absurd h (rowLen_pos _).ne'
    exact max_eq_right_iff.mp h8

/-- A standing motion keeps what the contact level achieved. -/
theorem stand_keeps {R : LqpConf ι c m} {b y : LqpVar ι c → ℝ} (hb : qddOf b = 0)
    (h2 : qddOf y = 0) (h3 : ∀ r, (R.C *ᵥ forceOf y) r ≤ 0) : KeepsContact R b y :=
  ⟨by rw [h2, hb], fun r => (h3 r).trans (le_max_right _ _), fun i => by rw [h2]; simp⟩

theorem lqp_moderate {R : LqpConf ι c m} (hA : IsSPD R.M) (hw : 0 ≤ R.weight) {t : Σ t : ℕ, Matrix (Fin t) (Fin 6 ⊕ ι) ℝ × (Fin t → ℝ)}
    {q : Fin 6 ⊕ ι → ℝ}
    (h : 0 ≤ perRow t.2.1 (t.2.1 *ᵥ q - t.2.2) ⬝ᵥ perRow t.2.1 (t.2.1 *ᵥ 0 - t.2.1 *ᵥ q) + R.weight * (q ⬝ᵥ (R.M *ᵥ (0 - q)))) :
    Moderates (perRow t.2.1 t.2.2) (perRow t.2.1 (t.2.1 *ᵥ q)) ∧
      4 * (R.weight * (q ⬝ᵥ (R.M *ᵥ q))) ≤ perRow t.2.1 t.2.2 ⬝ᵥ perRow t.2.1 t.2.2 := by
  have e1 : perRow t.2.1 (t.2.1 *ᵥ q - t.2.2) = perRow t.2.1 (t.2.1 *ᵥ q) - perRow t.2.1 t.2.2 := by
    funext r; simp [perRow, sub_div]
  have e2 : perRow t.2.1 (t.2.1 *ᵥ 0 - t.2.1 *ᵥ q) = -perRow t.2.1 (t.2.1 *ᵥ q) := by
    funext r; simp [perRow, neg_div]
  have h2 : 0 ≤ q ⬝ᵥ (R.M *ᵥ q) := by
    by_cases h0 : q = 0
    · rw [h0]; simp
    · exact (hA.pos _ h0).le
  have h3 := dot_self_nonneg' (perRow t.2.1 (t.2.1 *ᵥ q) - (1 / 2 : ℝ) • perRow t.2.1 t.2.2)
  have h4 := mul_nonneg hw h2
  rw [e1, e2] at h
  unfold Moderates
  generalize perRow t.2.1 (t.2.1 *ᵥ q) = a at *
  generalize perRow t.2.1 t.2.2 = f at *
  simp only [zero_sub, mulVec_neg, dotProduct_neg, sub_dotProduct, dotProduct_sub, smul_dotProduct, dotProduct_smul, smul_eq_mul,
    dotProduct_comm f a] at h h3
  constructor <;> linarith

/-- What the levels of the controller do when the robot can stand still. -/
theorem lqp_moderates (osqp : Osqp) (hs : OsqpExact osqp) (N : NullSpaceFn) (hN : N.Correct) (R : LqpConf ι c m)
    (hA : IsSPD R.M) (hM : R.M * R.Minv = 1) (hl : ∀ i, 0 ≤ R.lim i) (hw : 0 < R.weight) (hstand : CanStand R) :
    ∃ a b rs, lqpRun osqp N R = a :: b :: rs ∧ rs.length = R.tasks.length ∧ qddOf b.y = 0 ∧ (∀ r, (R.C *ᵥ forceOf b.y) r ≤ 0) ∧
      (∀ r t, rs[0]? = some r → R.tasks[0]? = some t →
        Moderates (perRow t.2.1 t.2.2) (perRow t.2.1 (t.2.1 *ᵥ qddOf r.y)) ∧
        4 * (R.weight * (qddOf r.y ⬝ᵥ (R.M *ᵥ qddOf r.y))) ≤ perRow t.2.1 t.2.2 ⬝ᵥ perRow t.2.1 t.2.2) ∧
      ((∀ t ∈ R.tasks, t.2.2 = 0) → ∀ r ∈ rs, qddOf r.y = 0) := by
  obtain ⟨a, b, rs, hrun, hlen, ⟨-, hb⟩, ht⟩ := lqp_levels osqp hs N hN R hA hM hl hw.le
  obtain ⟨b1, b2⟩ := lqp_contact_still hA hw hstand hb
  obtain ⟨y, s1, s2, s3⟩ := hstand
  have hk := stand_keeps (R := R) b1 s2 s3
  have level : ∀ (k : ℕ) (r : LevelAnswer (LqpVar ι c)) t, rs[k]? = some r → R.tasks[k]? = some t → KeepsTasks R rs k y →
      Moderates (perRow t.2.1 t.2.2) (perRow t.2.1 (t.2.1 *ᵥ qddOf r.y)) ∧
        4 * (R.weight * (qddOf r.y ⬝ᵥ (R.M *ᵥ qddOf r.y))) ≤ perRow t.2.1 t.2.2 ⬝ᵥ perRow t.2.1 t.2.2 := by
    intro k r t hr ht' hkt
    obtain ⟨h1, h2⟩ := ht k r t hr ht'
    have := lqp_first_order hA hw.le h1 ⟨s1, hk, hkt⟩ h2
    rw [s2] at this
    exact lqp_moderate hA hw.le this
  refine ⟨a, b, rs, hrun, hlen, b1, b2, fun r t hr ht' => level 0 r t hr ht' fun j hj => absurd hj (Nat.not_lt_zero _), fun hz => ?_⟩
  have key : ∀ (k : ℕ) (r : LevelAnswer (LqpVar ι c)), rs[k]? = some r → qddOf r.y = 0 := by
    intro k
    induction k using Nat.strong_induction_on with
    | _ k ih =>
      intro r hr
      obtain ⟨t, ht'⟩ : ∃ t, R.tasks[k]? = some t := by
        have := (List.getElem?_eq_some_iff.mp hr).1
        exact ⟨_, List.getElem?_eq_getElem (by omega)⟩
      have hkt : KeepsTasks R rs k y := fun j hj r' t' hr' _ => by rw [s2, ih j hj r' hr']
      have h1 := (level k r t hr ht' hkt).2
      have hf : perRow t.2.1 t.2.2 = 0 := by
        rw [hz t (List.mem_of_getElem? ht')]; funext r; simp [perRow]
      rw [hf, dotProduct_zero] at h1
      by_contra hne
      have := mul_pos hw (hA.pos _ hne)
      linarith
  intro r hr
  obtain ⟨k, hk'⟩ := List.mem_iff_getElem?.mp hr
  exact key k r hk'

/-- C93, hierarchical controller (partial: the first task; every task row is measured relative to the length of its Jacobian row).  If
the robot could stand still, the contact level asks for no acceleration and admissible forces; the acceleration given to the
first task moderates its command, and the whole acceleration is bounded by the command; and if all commands are zero, no level
asks for any acceleration. -/
theorem C93_lqp_moderates_partial (osqp : Osqp) (hs : OsqpExact osqp) (N : NullSpaceFn) (hN : N.Correct) (R : LqpRobot n c m)
    (hA : IsSPD R.M) (hM : R.M * R.Minv = 1) (hstand : CanStand R.conf) :
    ∃ a b rs, calcControlTorqueLQP osqp N R = a :: b :: rs ∧ rs.length = R.tasks.length ∧
      qddOf b.y = 0 ∧ (∀ r, (R.C *ᵥ forceOf b.y) r ≤ 0) ∧
      (∀ r t, rs[0]? = some r → R.tasks[0]? = some t →
        Moderates (perRow t.2.1 t.2.2) (perRow t.2.1 (t.2.1 *ᵥ qddOf r.y)) ∧
        20 / frobenius R.M * (qddOf r.y ⬝ᵥ (R.M *ᵥ qddOf r.y)) ≤ perRow t.2.1 t.2.2 ⬝ᵥ perRow t.2.1 t.2.2) ∧
      ((∀ t ∈ R.tasks, t.2.2 = 0) → ∀ r ∈ rs, qddOf r.y = 0) := by
  obtain ⟨a, b, rs, h1, h2, h3, h4, h5, h6⟩ := lqp_moderates osqp hs N hN R.conf hA hM (fun _ => lim_nonneg) (conf_weight hA) hstand
  refine ⟨a, b, rs, h1, h2, h3, h4, fun r t hr ht => ?_, h6⟩
  obtain ⟨k1, k2⟩ := h5 r t hr ht
  refine ⟨k1, ?_⟩
  have e : R.conf.weight = 5 / frobenius R.M := rfl
  rw [e] at k2
  calc 20 / frobenius R.M * (qddOf r.y ⬝ᵥ (R.M *ᵥ qddOf r.y)) = 4 * (5 / frobenius R.M * (qddOf r.y ⬝ᵥ (R.M *ᵥ qddOf r.y))) := by ring
    _ ≤ _ := k2

theorem solveRest_starts (osqp : Osqp) (N : NullSpaceFn) {V : Type} [Fintype V] [DecidableEq V] (ls ls' : List (Level V)) :
    ∀ (Z : Basis V) (y : V → ℝ) (done : List (LevelAnswer V)), solveRest osqp N Z y done ls <+: solveRest osqp N Z y done (ls ++ ls') := by
  induction ls with
  | nil => intro Z y done; exact solveRest_prefix osqp N ls' Z y done
  | cons l ls ih => intro Z y done; exact ih _ _ _

/-- The answers of the first levels do not depend on the tasks below. -/
theorem lqpRun_prefix (osqp : Osqp) (N : NullSpaceFn) (R : LqpConf ι c m)
    (above below : List (Σ t : ℕ, Matrix (Fin t) (Fin 6 ⊕ ι) ℝ × (Fin t → ℝ))) :
    lqpRun osqp N { R with tasks := above } <+: lqpRun osqp N { R with tasks := above ++ below } := by
  have e : lqpLevels { R with tasks := above ++ below } =
      lqpLevels { R with tasks := above } ++ below.map fun t => normalizeRows (lqpTask { R with tasks := above ++ below } t) := by
    simp only [lqpLevels, List.map_append, List.cons_append]
    rfl
  unfold lqpRun solveSequential
  rw [e]
  exact solveRest_starts osqp N _ _ _ _ _

theorem lqp_nonexpansive (osqp : Osqp) (hs : OsqpExact osqp) (N : NullSpaceFn) (hN : N.Correct) (R : LqpConf ι c m)
    (hA : IsSPD R.M) (hM : R.M * R.Minv = 1) (hl : ∀ i, 0 ≤ R.lim i) (hw : 0 ≤ R.weight)
    (above below below' : List (Σ t : ℕ, Matrix (Fin t) (Fin 6 ⊕ ι) ℝ × (Fin t → ℝ))) {t : ℕ} (J : Matrix (Fin t) (Fin 6 ⊕ ι) ℝ)
    (f g : Fin t → ℝ) :
    ∃ r r' : LevelAnswer (LqpVar ι c), (lqpRun osqp N { R with tasks := above ++ ⟨t, J, f⟩ :: below })[above.length + 2]? = some r ∧
      (lqpRun osqp N { R with tasks := above ++ ⟨t, J, g⟩ :: below' })[above.length + 2]? = some r' ∧
      Moderates (perRow J (f - g)) (perRow J (J *ᵥ qddOf r.y - J *ᵥ qddOf r'.y)) := by
  obtain ⟨b0, rs0, hrun0, -, hmap0⟩ := lqp_run osqp N hN { R with tasks := above }
  have hlen0 : rs0.length = above.length := by simpa using congrArg List.length hmap0
  obtain ⟨x, hx⟩ := lqpRun_prefix osqp N R above (⟨t, J, f⟩ :: below)
  obtain ⟨x', hx'⟩ := lqpRun_prefix osqp N R above (⟨t, J, g⟩ :: below')
  rw [hrun0] at hx hx'
  obtain ⟨a1, b1, rs1, hrun1, hlen1, -, ht1⟩ := lqp_levels osqp hs N hN { R with tasks := above ++ ⟨t, J, f⟩ :: below } hA hM hl hw
  obtain ⟨a2, b2, rs2, hrun2, hlen2, -, ht2⟩ := lqp_levels osqp hs N hN { R with tasks := above ++ ⟨t, J, g⟩ :: below' } hA hM hl hw
  rw [hrun1] at hx
  rw [hrun2] at hx'
  simp only [List.cons_append, List.cons.injEq] at hx hx'
  obtain ⟨-, rfl, rfl⟩ := hx
  obtain ⟨-, rfl, rfl⟩ := hx'
  have hx1 : 0 < x.length := by
    simp only [List.length_append, List.length_cons] at hlen1; omega
  have hx2 : 0 < x'.length := by
    simp only [List.length_append, List.length_cons] at hlen2; omega
  obtain ⟨r, hr⟩ : ∃ r, (rs0 ++ x)[above.length]? = some r := ⟨_, List.getElem?_eq_getElem (by simp; omega)⟩
  obtain ⟨r', hr'⟩ : ∃ r, (rs0 ++ x')[above.length]? = some r := ⟨_, List.getElem?_eq_getElem (by simp; omega)⟩
  obtain ⟨k1, o1⟩ := ht1 above.length r ⟨t, J, f⟩ hr (by simp)
  obtain ⟨k2, o2⟩ := ht2 above.length r' ⟨t, J, g⟩ hr' (by simp)
  have swap : ∀ (z z' : List (LevelAnswer (LqpVar ι c))) (u u' : Σ t : ℕ, Matrix (Fin t) (Fin 6 ⊕ ι) ℝ × (Fin t → ℝ))
      (w w' : List (Σ t : ℕ, Matrix (Fin t) (Fin 6 ⊕ ι) ℝ × (Fin t → ℝ))) (y : LqpVar ι c → ℝ),
      KeepsTasks { R with tasks := above ++ u :: w } (rs0 ++ z) above.length y →
      KeepsTasks { R with tasks := above ++ u' :: w' } (rs0 ++ z') above.length y := by
    intro z z' u u' w w' y h j hj r t hr ht
    refine h j hj r t ?_ ?_
    · rw [List.getElem?_append_left (by omega)] at hr ⊢; exact hr
    · simp only at ht ⊢
      rw [List.getElem?_append_left (by omega)] at ht ⊢; exact ht
  have p1 := lqp_first_order (R := { R with tasks := above ++ ⟨t, J, f⟩ :: below }) hA hw (t := ⟨t, J, f⟩) k1
    ⟨k2.1, k2.2.1, swap _ _ _ _ _ _ _ k2.2.2⟩ o1
  have p2 := lqp_first_order (R := { R with tasks := above ++ ⟨t, J, g⟩ :: below' }) hA hw (t := ⟨t, J, g⟩) k2
    ⟨k1.1, k1.2.1, swap _ _ _ _ _ _ _ k1.2.2⟩ o2
  refine ⟨r, r', ?_, ?_, ?_⟩
  · rw [hrun1]; simpa using hr
  · rw [hrun2]; simpa using hr'
  have lin : ∀ u v : Fin t → ℝ, perRow J (u - v) = perRow J u - perRow J v := fun u v => by
    funext r; simp [perRow, sub_div]
  have hsym : ∀ x y : Fin 6 ⊕ ι → ℝ, x ⬝ᵥ (R.M *ᵥ y) = y ⬝ᵥ (R.M *ᵥ x) := fun x y => by
    rw [dotProduct_mulVec, ← mulVec_transpose, hA.symm, dotProduct_comm]
  have h2 : 0 ≤ R.weight * ((qddOf r.y - qddOf r'.y) ⬝ᵥ (R.M *ᵥ (qddOf r.y - qddOf r'.y))) := by
    refine mul_nonneg hw ?_
    by_cases h0 : qddOf r.y - qddOf r'.y = 0
    · rw [h0]; simp
    · exact (hA.pos _ h0).le
  unfold Moderates
  simp only [lin] at p1 p2 ⊢
  generalize perRow J (J *ᵥ qddOf r.y) = α at *
  generalize perRow J (J *ᵥ qddOf r'.y) = β at *
  generalize perRow J f = φ at *
  generalize perRow J g = γ at *
  simp only [mulVec_sub, sub_dotProduct, dotProduct_sub, hsym (qddOf r'.y) (qddOf r.y), dotProduct_comm φ, dotProduct_comm γ,
    dotProduct_comm β α] at p1 p2 h2 ⊢
  linarith

/-- C93, hierarchical controller.  No level amplifies a change of its command: if a task gets command `f` in one run and `g` in
another, with the same tasks above it, the difference of its two accelerations moderates the difference of the commands (each
row measured relative to the length of its Jacobian row).  The tasks below may be different. -/
theorem C93_lqp_nonexpansive (osqp : Osqp) (hs : OsqpExact osqp) (N : NullSpaceFn) (hN : N.Correct) (R : LqpRobot n c m)
    (hA : IsSPD R.M) (hM : R.M * R.Minv = 1)
    (above below below' : List (Σ t : ℕ, Matrix (Fin t) (Fin 6 ⊕ Fin n) ℝ × (Fin t → ℝ))) {t : ℕ} (J : Matrix (Fin t) (Fin 6 ⊕ Fin n) ℝ)
    (f g : Fin t → ℝ) :
    ∃ r r' : LevelAnswer (LqpVar (Fin n) c),
      (calcControlTorqueLQP osqp N { R with tasks := above ++ ⟨t, J, f⟩ :: below })[above.length + 2]? = some r ∧
      (calcControlTorqueLQP osqp N { R with tasks := above ++ ⟨t, J, g⟩ :: below' })[above.length + 2]? = some r' ∧
      Moderates (perRow J (f - g)) (perRow J (J *ᵥ qddOf r.y - J *ᵥ qddOf r'.y)) :=
  lqp_nonexpansive osqp hs N hN R.conf hA hM (fun _ => lim_nonneg) (conf_weight hA).le above below below' J f g

/-- two commands of the one-joint robot compared -/
example (osqp : Osqp) (hs : OsqpExact osqp) (N : NullSpaceFn) (hN : N.Correct) (f g : Fin 1 → ℝ) :
    ∃ r r' : LevelAnswer (LqpVar (Fin 1) 0),
      (calcControlTorqueLQP osqp N { reach with tasks := [⟨1, exJJ, f⟩] })[2]? = some r ∧
      (calcControlTorqueLQP osqp N { reach with tasks := [⟨1, exJJ, g⟩] })[2]? = some r' ∧
      Moderates (perRow exJJ (f - g)) (perRow exJJ (exJJ *ᵥ qddOf r.y - exJJ *ᵥ qddOf r'.y)) :=
  C93_lqp_nonexpansive osqp hs N hN reach reach_spd (by simp) [] [] [] exJJ f g

/-- the one-joint robot can stand still, and its task is moderated -/
example (osqp : Osqp) (hs : OsqpExact osqp) (N : NullSpaceFn) (hN : N.Correct) : CanStand reach.conf ∧
    ∃ a b r, calcControlTorqueLQP osqp N reach = [a, b, r] ∧ qddOf b.y = 0 ∧
      ∀ t ∈ reach.tasks, Moderates (perRow t.2.1 t.2.2) (perRow t.2.1 (t.2.1 *ᵥ qddOf r.y)) := by
  have hst : CanStand reach.conf := ⟨reachY 0, reach_moves (by norm_num), by simp [qddOf, reachY], fun r => r.elim0⟩
  refine ⟨hst, ?_⟩
  obtain ⟨a, b, rs, h1, h2, h3, -, h5, -⟩ := C93_lqp_moderates_partial osqp hs N hN reach reach_spd (by simp) hst
  match rs, h2 with
  | [r], _ =>
    refine ⟨a, b, r, h1, h3, fun t ht => ?_⟩
    obtain rfl := List.mem_singleton.mp ht
    exact (h5 r _ rfl rfl).1

end Verif.Props
