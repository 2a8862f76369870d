import Verif.Props.LoosenLqp

/-!
# C85: the units of mass and time and the hierarchical controller
-/

set_option linter.unusedSectionVars false

namespace Verif.Props
open Matrix Verif Verif.Spec Verif.Model

variable {n c m : ℕ}

/-- The same task told to accelerate `κ` times as fast. -/
def faster (κ : ℝ) (t : Σ t : ℕ, Matrix (Fin t) (Fin 6 ⊕ Fin n) ℝ × (Fin t → ℝ)) : Σ t : ℕ, Matrix (Fin t) (Fin 6 ⊕ Fin n) ℝ × (Fin t → ℝ) :=
  ⟨t.1, t.2.1, κ • t.2.2⟩

/-- The robot with `μ` times the masses, under `κ` times the gravity, told to accelerate `κ` times as fast. -/
noncomputable abbrev heavier (μ κ : ℝ) (R : LqpRobot n c m) : LqpRobot n c m :=
  { R with M := μ • R.M, Minv := μ⁻¹ • R.Minv, h := (μ * κ) • R.h, tasks := R.tasks.map (faster κ) }

/-- `κ` times the accelerations with `μ κ` times the contact forces. -/
def pressing (μ κ : ℝ) (y : LqpVar (Fin n) c → ℝ) : LqpVar (Fin n) c → ℝ := Sum.elim (κ • qddOf y) ((μ * κ) • forceOf y)

theorem heavier_demand (μ κ : ℝ) (R : LqpRobot n c m) (y : LqpVar (Fin n) c → ℝ) :
    demand (heavier μ κ R).conf (pressing μ κ y) = (μ * κ) • demand R.conf y := by
  have e1 : qddOf (pressing μ κ y) = κ • qddOf y := rfl
  have e2 : forceOf (pressing μ κ y) = (μ * κ) • forceOf y := rfl
  show (μ • R.M) *ᵥ qddOf (pressing μ κ y) + (μ * κ) • R.h + R.Jᵀ *ᵥ forceOf (pressing μ κ y) = (μ * κ) • (R.M *ᵥ qddOf y + R.h + R.Jᵀ *ᵥ forceOf y)
  rw [e1, e2, smul_mulVec, mulVec_smul, mulVec_smul, smul_smul, smul_add, smul_add]

theorem pressing_back {μ κ : ℝ} (hμ : μ ≠ 0) (hκ : κ ≠ 0) (y : LqpVar (Fin n) c → ℝ) : pressing μ κ (pressing μ⁻¹ κ⁻¹ y) = y := by
  funext i
  rcases i with i | i
  · show κ * (κ⁻¹ * y (.inl i)) = y (.inl i)
    rw [mul_inv_cancel_left₀ hκ]
  · show μ * κ * (μ⁻¹ * κ⁻¹ * y (.inr i)) = y (.inr i)
    field_simp

theorem heavier_spd {μ : ℝ} (hμ : 0 < μ) (κ : ℝ) {R : LqpRobot n c m} (h : IsSPD R.M) : IsSPD (heavier μ κ R).M := by
  refine ⟨?_, fun x hx => ?_⟩
  · show (μ • R.M)ᵀ = μ • R.M
    rw [transpose_smul, h.symm]
  · show 0 < x ⬝ᵥ ((μ • R.M) *ᵥ x)
    rw [smul_mulVec, dotProduct_smul, smul_eq_mul]
    exact mul_pos hμ (h.pos x hx)

theorem heavier_frobenius {μ : ℝ} (hμ : 0 < μ) (M : Matrix (Fin 6 ⊕ Fin n) (Fin 6 ⊕ Fin n) ℝ) : Model.frobenius (μ • M) = μ * Model.frobenius M := by
  unfold Model.frobenius
  simp only [Matrix.smul_apply, smul_eq_mul, mul_pow, ← Finset.mul_sum]
  rw [Real.sqrt_mul (sq_nonneg μ), Real.sqrt_sq hμ.le]

theorem heavier_energy {μ : ℝ} (hμ : 0 < μ) (κ : ℝ) (R : LqpRobot n c m) (y : LqpVar (Fin n) c → ℝ) :
    energy (heavier μ κ R).conf (pressing μ κ y) = κ ^ 2 * energy R.conf y := by
  show 5 / Model.frobenius (μ • R.M) * ((κ • qddOf y) ⬝ᵥ ((μ • R.M) *ᵥ (κ • qddOf y))) = κ ^ 2 * (5 / Model.frobenius R.M * (qddOf y ⬝ᵥ (R.M *ᵥ qddOf y)))
  rw [heavier_frobenius hμ, smul_mulVec, mulVec_smul, dotProduct_smul, dotProduct_smul, smul_dotProduct, smul_eq_mul, smul_eq_mul, smul_eq_mul]
  by_cases h0 : Model.frobenius R.M = 0
  · rw [h0]; simp
  · field_simp

theorem faster_miss (μ κ : ℝ) (t : Σ t : ℕ, Matrix (Fin t) (Fin 6 ⊕ Fin n) ℝ × (Fin t → ℝ)) (y : LqpVar (Fin n) c → ℝ) :
    taskMiss (faster κ t) (pressing μ κ y) = κ ^ 2 * taskMiss t y := by
  obtain ⟨t, J, f⟩ := t
  show ∑ r, ((J *ᵥ (κ • qddOf y) - κ • f) r / rowLen (J r)) ^ 2 = κ ^ 2 * ∑ r, ((J *ᵥ qddOf y - f) r / rowLen (J r)) ^ 2
  rw [Finset.mul_sum, mulVec_smul, ← smul_sub]
  refine Finset.sum_congr rfl fun r _ => ?_
  rw [Pi.smul_apply, smul_eq_mul]
  ring

theorem pressing_moves {μ κ : ℝ} (hκ : 0 < κ) (hμ : 0 < μ) (h1 : 1 ≤ μ * κ) {R : LqpRobot n c m} {y : LqpVar (Fin n) c → ℝ}
    (h : Moves (heavier μ κ R).conf y) : Moves R.conf (pressing μ⁻¹ κ⁻¹ y) := by
  have h0 : 0 < μ * κ := by positivity
  have e := heavier_demand μ κ R (pressing μ⁻¹ κ⁻¹ y)
  rw [pressing_back hμ.ne' hκ.ne'] at e
  refine ⟨fun i => ?_, fun i => ?_⟩
  · have := h.1 i
    rw [e, Pi.smul_apply, smul_eq_mul] at this
    exact (mul_eq_zero.mp this).resolve_left h0.ne'
  · have : |demand (heavier μ κ R).conf y (.inr i)| ≤ 200 := h.2 i
    rw [e, Pi.smul_apply, smul_eq_mul, abs_mul, abs_of_pos h0] at this
    show |demand R.conf (pressing μ⁻¹ κ⁻¹ y) (.inr i)| ≤ 200
    nlinarith [abs_nonneg (demand R.conf (pressing μ⁻¹ κ⁻¹ y) (.inr i))]

theorem pressing_holds {μ κ : ℝ} (hκ : 0 < κ) (hμ : 0 < μ) {C : Matrix (Fin m) (Fin c) ℝ} {y : LqpVar (Fin n) c → ℝ} {r : Fin m}
    (h : (C *ᵥ forceOf y) r ≤ 0) : (C *ᵥ forceOf (pressing μ κ y)) r ≤ 0 := by
  show (C *ᵥ ((μ * κ) • forceOf y)) r ≤ 0
  rw [mulVec_smul, Pi.smul_apply, smul_eq_mul]
  exact mul_nonpos_of_nonneg_of_nonpos (by positivity) h

theorem heavier_stands {μ κ : ℝ} (hκ : 0 < κ) (hμ : 0 < μ) (hμκ : 1 ≤ μ * κ) {R : LqpRobot n c m} (h : CanStand (heavier μ κ R).conf) :
    CanStand R.conf := by
  obtain ⟨y, h1, h2, h3⟩ := h
  refine ⟨pressing μ⁻¹ κ⁻¹ y, pressing_moves hκ hμ hμκ h1, ?_, fun r => pressing_holds (inv_pos.mpr hκ) (inv_pos.mpr hμ) (h3 r)⟩
  show κ⁻¹ • qddOf y = 0
  rw [h2, smul_zero]

/-- **C85 (hierarchical controller; the units of mass and time).**  Take a robot with `μ` times the masses, told to accelerate `κ ≥ 1` times as fast under
`κ` times the gravity, with `μ κ ≥ 1`, that could stand still.  Each task accelerates it `κ` times as fast as the first robot, as long as `κ` times the joint
accelerations and `μ κ` times the torques of the first robot stay within the built-in bounds of 5 and 200. -/
theorem C85_lqp_units_partial (osqp osqp' : Osqp) (hs : OsqpExact osqp) (hs' : OsqpExact osqp') (N N' : NullSpaceFn) (hN : N.Correct) (hN' : N'.Correct)
    {μ κ : ℝ} (hμ : 0 < μ) (hκ1 : 1 ≤ κ) (hμκ : 1 ≤ μ * κ) (R : LqpRobot n c m) (hA : IsSPD R.M) (hM : R.M * R.Minv = 1)
    (hstand : CanStand (heavier μ κ R).conf) :
    ∃ a b rs a' b' rs', calcControlTorqueLQP osqp N R = a :: b :: rs ∧ calcControlTorqueLQP osqp' N' (heavier μ κ R) = a' :: b' :: rs' ∧
      rs.length = R.tasks.length ∧ rs'.length = R.tasks.length ∧ qddOf b.y = 0 ∧ qddOf b'.y = 0 ∧
      ∀ (j : ℕ) (r r' : LevelAnswer (LqpVar (Fin n) c)), rs[j]? = some r → rs'[j]? = some r' →
        (∀ i ≤ j, ∀ s : LevelAnswer (LqpVar (Fin n) c), rs[i]? = some s →
          ∀ l, μ * κ * |demand R.conf s.y (.inr l)| ≤ 200 ∧ κ * |qddOf s.y (.inr l)| ≤ 5) → qddOf r'.y = κ • qddOf r.y := by
  have hκ : 0 < κ := by linarith
  have h0 : 0 < μ * κ := by positivity
  have hA' : IsSPD (heavier μ κ R).M := heavier_spd hμ κ hA
  have hM' : (heavier μ κ R).M * (heavier μ κ R).Minv = 1 := by
    show (μ • R.M) * (μ⁻¹ • R.Minv) = 1
    rw [smul_mul_smul_comm, hM, mul_inv_cancel₀ hμ.ne', one_smul]
  obtain ⟨a, b, rs, h1, h2, ⟨-, hb⟩, ht⟩ := C57_levels_partial osqp hs N hN R hA hM
  obtain ⟨a', b', rs', h1', h2', ⟨-, hb'⟩, ht'⟩ := C57_levels_partial osqp' hs' N' hN' (heavier μ κ R) hA' hM'
  have h3' : rs'.length = R.tasks.length := h2'.trans (List.length_map _)
  have hw : 0 < R.conf.weight := conf_weight hA
  obtain ⟨b1, b2⟩ := lqp_contact_still (R := R.conf) hA hw (heavier_stands hκ hμ hμκ hstand) hb
  obtain ⟨c1, c2⟩ := lqp_contact_still (R := (heavier μ κ R).conf) hA' (conf_weight hA') hstand hb'
  refine ⟨a, b, rs, a', b', rs', h1, h1', h2, h3', b1, c1, fun j => ?_⟩
  induction j using Nat.strong_induction_on with
  | _ j ih =>
    intro r r' hr hr' hroom
    obtain ⟨t, htj⟩ : ∃ t, R.tasks[j]? = some t := by
      have := (List.getElem?_eq_some_iff.mp hr).1
      exact ⟨_, List.getElem?_eq_getElem (by omega)⟩
    have htj' : (heavier μ κ R).tasks[j]? = some (faster κ t) := by
      show (R.tasks.map (faster κ))[j]? = _
      rw [List.getElem?_map, htj]; rfl
    obtain ⟨⟨k1, k2, k3⟩, k4⟩ := ht j r t hr htj
    obtain ⟨⟨l1, l2, l3⟩, l4⟩ := ht' j r' _ hr' htj'
    have same : ∀ i < j, ∀ s s' : LevelAnswer (LqpVar (Fin n) c), rs[i]? = some s → rs'[i]? = some s' → qddOf s'.y = κ • qddOf s.y :=
      fun i hi s s' hsi hsi' => ih i hi s s' hsi hsi' fun i' hi' => hroom i' (by omega)
    -- the first robot's answer is open to the second
    have up : taskMiss (faster κ t) r'.y + energy (heavier μ κ R).conf r'.y ≤
        taskMiss (faster κ t) (pressing μ κ r.y) + energy (heavier μ κ R).conf (pressing μ κ r.y) := by
      refine l4 _ ⟨fun i => ?_, fun i => ?_⟩ ⟨?_, fun x => ?_, fun i => ?_⟩ fun i hi s' t' hsi' hti => ?_
      · rw [heavier_demand, Pi.smul_apply, k1.1 i, smul_zero]
      · rw [heavier_demand, Pi.smul_apply, smul_eq_mul, abs_mul, abs_of_pos h0]
        exact (hroom j le_rfl r hr i).1
      · have := k2.1
        rw [b1, mulVec_zero] at this
        rw [c1, mulVec_zero]
        show R.J *ᵥ (κ • qddOf r.y) = 0
        rw [mulVec_smul, show R.J *ᵥ qddOf r.y = 0 from this, smul_zero]
      · exact le_trans (pressing_holds hκ hμ ((k2.2.1 x).trans (max_le (b2 x) le_rfl))) (le_max_right _ _)
      · have := (hroom j le_rfl r hr i).2
        rw [← abs_of_pos hκ, ← abs_mul, abs_le] at this
        refine ⟨le_trans (show κ * qddOf r.y (.inr i) ≤ 5 from this.2) (le_max_right _ _),
          le_trans (show -(κ * qddOf r.y (.inr i)) ≤ 5 by linarith [this.1]) (le_max_right _ _)⟩
      · have hsi := List.getElem?_eq_getElem (l := rs) (i := i) (by have := (List.getElem?_eq_some_iff.mp hsi').1; omega)
        rw [same i hi _ s' hsi hsi']
        have hti' : (R.tasks.map (faster κ))[i]? = some t' := hti
        rw [List.getElem?_map, Option.map_eq_some_iff] at hti'
        obtain ⟨u, hu, rfl⟩ := hti'
        show u.2.1 *ᵥ (κ • qddOf r.y) = u.2.1 *ᵥ (κ • _)
        rw [mulVec_smul, mulVec_smul, k3 i hi _ u hsi hu]
    -- and the other way round
    have dm : Moves R.conf (pressing μ⁻¹ κ⁻¹ r'.y) := pressing_moves hκ hμ hμκ l1
    have hinv : κ⁻¹ ≤ 1 := inv_le_one_of_one_le₀ hκ1
    have hinv0 : 0 < κ⁻¹ := inv_pos.mpr hκ
    have dc : KeepsContact R.conf b.y (pressing μ⁻¹ κ⁻¹ r'.y) := by
      refine ⟨?_, fun x => ?_, fun i => ?_⟩
      · have := l2.1
        rw [c1, mulVec_zero] at this
        rw [b1, mulVec_zero]
        show R.J *ᵥ (κ⁻¹ • qddOf r'.y) = 0
        rw [mulVec_smul, show R.J *ᵥ qddOf r'.y = 0 from this, smul_zero]
      · exact le_trans (pressing_holds hinv0 (inv_pos.mpr hμ) ((l2.2.1 x).trans (max_le (c2 x) le_rfl))) (le_max_right _ _)
      · obtain ⟨x1, x2⟩ := l2.2.2 i
        rw [c1] at x1 x2
        have y1 : qddOf r'.y (.inr i) ≤ 5 := x1.trans (max_le (by norm_num) le_rfl)
        have y2 : -qddOf r'.y (.inr i) ≤ 5 := x2.trans (max_le (by norm_num) le_rfl)
        refine ⟨le_trans (show κ⁻¹ * qddOf r'.y (.inr i) ≤ 5 by nlinarith) (le_max_right _ _),
          le_trans (show -(κ⁻¹ * qddOf r'.y (.inr i)) ≤ 5 by nlinarith) (le_max_right _ _)⟩
    have dt : KeepsTasks R.conf rs j (pressing μ⁻¹ κ⁻¹ r'.y) := fun i hi s t' hsi hti => by
      have hsi' := List.getElem?_eq_getElem (l := rs') (i := i) (by have := (List.getElem?_eq_some_iff.mp hsi).1; omega)
      have hti' : (heavier μ κ R).tasks[i]? = some (faster κ t') := by
        show (R.tasks.map (faster κ))[i]? = _
        rw [List.getElem?_map, show R.tasks[i]? = some t' from hti]; rfl
      have e1 := l3 i hi _ _ hsi' hti'
      rw [same i hi s _ hsi hsi'] at e1
      have e2 : t'.2.1 *ᵥ qddOf r'.y = t'.2.1 *ᵥ (κ • qddOf s.y) := e1
      show t'.2.1 *ᵥ (κ⁻¹ • qddOf r'.y) = _
      rw [mulVec_smul, e2, mulVec_smul, smul_smul, inv_mul_cancel₀ hκ.ne', one_smul]
    have down := k4 _ dm dc dt
    have back := pressing_back hμ.ne' hκ.ne' r'.y
    have eq2 : taskMiss (faster κ t) r'.y + energy (heavier μ κ R).conf r'.y =
        κ ^ 2 * (taskMiss t (pressing μ⁻¹ κ⁻¹ r'.y) + energy R.conf (pressing μ⁻¹ κ⁻¹ r'.y)) := by
      rw [mul_add, ← faster_miss μ κ, ← heavier_energy hμ κ, back]
    rw [faster_miss, heavier_energy hμ, eq2, ← mul_add] at up
    have up' := le_of_mul_le_mul_left up (by positivity)
    have q := lqp_unique (R := R.conf) hA hw t (y' := pressing μ⁻¹ κ⁻¹ r'.y) (le_antisymm up' down)
      (k4 _ (moves_along k1 dm (by norm_num) (by norm_num)) (keepsContact_along k2 dc (by norm_num) (by norm_num)) (keepsTasks_along k3 dt _))
    rw [← q]
    show qddOf r'.y = κ • (κ⁻¹ • qddOf r'.y)
    rw [smul_smul, mul_inv_cancel₀ hκ.ne', one_smul]

theorem heavier_reach_stands (μ κ : ℝ) : CanStand (heavier μ κ reach).conf := by
  have e : demand (heavier μ κ reach).conf (reachY 0) = 0 := by
    have := heavier_demand μ κ reach (reachY 0)
    rw [reach_demand] at this
    have e' : pressing μ κ (reachY 0) = reachY 0 := by
      funext i
      rcases i with i | i
      · simp [pressing, reachY, qddOf]
      · exact i.elim0
    rw [e'] at this
    rw [this]; simp
  refine ⟨reachY 0, ⟨fun i => by rw [e]; rfl, fun i => ?_⟩, by simp [qddOf, reachY], fun r => r.elim0⟩
  rw [e]
  show |(0 : ℝ)| ≤ 200
  norm_num

/-- C85 (hierarchical controller; false without room for the torques).  The bound of 200 on the torques is built in.  The joint of a robot without weight,
told to accelerate with 1, is accelerated by more than 1/3 if its inertia is 1, and by at most 1/5 if its inertia is 1000. -/
theorem C85_lqp_wrong (osqp : Osqp) (hs : OsqpExact osqp) (N : NullSpaceFn) (hN : N.Correct) :
    ∃ a b r a' b' r', calcControlTorqueLQP osqp N reach = [a, b, r] ∧ calcControlTorqueLQP osqp N (heavier 1000 1 reach) = [a', b', r'] ∧
      1 / 3 < qddOf r.y (.inr 0) ∧ qddOf r'.y (.inr 0) ≤ 1 / 5 := by
  obtain ⟨-, -, -, a, b, r, h1, h2, -⟩ := C57_task_missed osqp hs N hN
  have hA' : IsSPD (heavier 1000 1 reach).M := heavier_spd (by norm_num) 1 reach_spd
  have hM' : (heavier 1000 1 reach).M * (heavier 1000 1 reach).Minv = 1 := by
    show ((1000 : ℝ) • (1 : Matrix (Fin 6 ⊕ Fin 1) (Fin 6 ⊕ Fin 1) ℝ)) * ((1000 : ℝ)⁻¹ • 1) = 1
    rw [smul_mul_smul_comm, Matrix.mul_one, mul_inv_cancel₀ (by norm_num), one_smul]
  obtain ⟨a', b', rs, k1, k2, -, k3⟩ := C57_levels_partial osqp hs N hN (heavier 1000 1 reach) hA' hM'
  obtain ⟨r', rfl⟩ := List.length_eq_one_iff.mp k2
  refine ⟨a, b, r, a', b', r', h1, k1, ?_, ?_⟩
  · rw [h2]
    have h7 : (5 / 2 : ℝ) < √7 := by rw [Real.lt_sqrt (by norm_num)]; norm_num
    have : 5 / √(7 : ℝ) < 2 := by rw [div_lt_iff₀ (by linarith)]; linarith
    have hp : 0 < 5 / √(7 : ℝ) := div_pos (by norm_num) (by linarith)
    rw [div_lt_div_iff₀ (by norm_num) (by linarith)]
    linarith
  · obtain ⟨⟨⟨-, hl⟩, -⟩, -⟩ := k3 0 r' _ rfl rfl
    have h3 : |demand (heavier 1000 1 reach).conf r'.y (.inr 0)| ≤ 200 := hl 0
    have e : demand (heavier 1000 1 reach).conf r'.y (.inr 0) = 1000 * qddOf r'.y (.inr 0) := by
      have e := heavier_demand 1000 1 reach (pressing (1000 : ℝ)⁻¹ 1⁻¹ r'.y)
      rw [pressing_back (by norm_num) (by norm_num)] at e
      rw [e, Pi.smul_apply, smul_eq_mul, mul_one]
      congr 1
      show ((1 : Matrix (Fin 6 ⊕ Fin 1) (Fin 6 ⊕ Fin 1) ℝ) *ᵥ ((1 : ℝ)⁻¹ • qddOf r'.y) + 0 + (0 : Matrix (Fin 0) (Fin 6 ⊕ Fin 1) ℝ)ᵀ *ᵥ _) (.inr 0) = _
      rw [one_mulVec]
      simp
    rw [e, abs_le] at h3
    linarith [h3.2]

/-- The hypotheses of `C85_lqp_units_partial` are met: the joint with inertia 2 told to accelerate with 3 is accelerated 3 times as fast as the one with inertia
1 told to accelerate with 1. -/
example (osqp : Osqp) (hs : OsqpExact osqp) (N : NullSpaceFn) (hN : N.Correct) :
    ∃ a b r a' b' r', calcControlTorqueLQP osqp N reach = [a, b, r] ∧ calcControlTorqueLQP osqp N (heavier 2 3 reach) = [a', b', r'] ∧
      qddOf r'.y = (3 : ℝ) • qddOf r.y ∧ 0 < qddOf r.y (.inr 0) := by
  obtain ⟨-, -, -, a, b, r, h1, h2, h3⟩ := C57_task_missed osqp hs N hN
  obtain ⟨a1, b1, rs, a', b', rs', k1, k2, -, k3, -, -, k4⟩ := C85_lqp_units_partial osqp osqp hs hs N N hN hN (μ := 2) (κ := 3) (by norm_num) (by norm_num)
    (by norm_num) reach reach_spd (by simp) (heavier_reach_stands 2 3)
  rw [h1] at k1
  simp only [List.cons.injEq] at k1
  obtain ⟨rfl, rfl, rfl⟩ := k1
  obtain ⟨r', rfl⟩ := List.length_eq_one_iff.mp k3
  have hpos : 0 < qddOf r.y (.inr 0) := by rw [h2]; positivity
  refine ⟨a, b, r, a', b', r', h1, k2, k4 0 r r' rfl rfl fun i hi s hsi l => ?_, hpos⟩
  obtain rfl : i = 0 := by omega
  obtain rfl : r = s := by simpa using hsi
  obtain rfl : l = 0 := Subsingleton.elim _ _
  have e : demand reach.conf r.y (.inr 0) = qddOf r.y (.inr 0) := by
    show ((1 : Matrix (Fin 6 ⊕ Fin 1) (Fin 6 ⊕ Fin 1) ℝ) *ᵥ qddOf r.y + 0 + (0 : Matrix (Fin 0) (Fin 6 ⊕ Fin 1) ℝ)ᵀ *ᵥ _) (.inr 0) = _
    rw [one_mulVec]
    simp
  rw [e, abs_of_pos hpos]
  constructor <;> linarith

end Verif.Props
