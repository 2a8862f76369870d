import Verif.Props.ModerateLqp
import Verif.Props.Loosen

/-!
# C95 for the hierarchical controller

Its torque bounds are fixed (src/dwbc.cpp 4359), so only the contact conditions can be made weaker.
-/

set_option linter.unusedSectionVars false

namespace Verif.Props
open Matrix Verif Verif.Spec Verif.Model

section Conf
variable {ι : Type} [Fintype ι] [DecidableEq ι] {c m m' : ℕ}

/-- The same configuration with other contact rows. -/
def _root_.Verif.Model.LqpConf.contactRows (R : LqpConf ι c m) (C' : Matrix (Fin m') (Fin c) ℝ) : LqpConf ι c m' :=
  { M := R.M, Minv := R.Minv, h := R.h, J := R.J, C := C', lim := R.lim, weight := R.weight, tasks := R.tasks }

/-- the least value of miss plus energy on a convex set is taken at one acceleration -/
theorem lqp_unique {R : LqpConf ι c m} (hA : IsSPD R.M) (hw : 0 < R.weight) (t : Σ t : ℕ, Matrix (Fin t) (Fin 6 ⊕ ι) ℝ × (Fin t → ℝ))
    {y y' : LqpVar ι c → ℝ} (he : taskMiss t y' + energy R y' = taskMiss t y + energy R y)
    (h : taskMiss t y + energy R y ≤ taskMiss t (y + (1 / 2 : ℝ) • (y' - y)) + energy R (y + (1 / 2 : ℝ) • (y' - y))) :
    qddOf y' = qddOf y := by
  by_contra hne
  have hp : 0 < R.weight * ((qddOf y' - qddOf y) ⬝ᵥ (R.M *ᵥ (qddOf y' - qddOf y))) := mul_pos hw (hA.pos _ (sub_ne_zero.mpr hne))
  have e1 := lqp_along hA.symm t y y' 1
  have e2 := lqp_along hA.symm t y y' (1 / 2)
  rw [show y + (1 : ℝ) • (y' - y) = y' by simp] at e1
  have hsq : 0 ≤ perRow t.2.1 (t.2.1 *ᵥ qddOf y' - t.2.1 *ᵥ qddOf y) ⬝ᵥ perRow t.2.1 (t.2.1 *ᵥ qddOf y' - t.2.1 *ᵥ qddOf y) :=
    Finset.sum_nonneg fun _ _ => mul_self_nonneg _
  rw [e2] at h
  nlinarith

theorem lqp_loosen (osqp : Osqp) (hs : OsqpExact osqp) (N : NullSpaceFn) (hN : N.Correct) (R : LqpConf ι c m)
    (C' : Matrix (Fin m') (Fin c) ℝ) (hA : IsSPD R.M) (hM : R.M * R.Minv = 1) (hl : ∀ i, 0 ≤ R.lim i) (hw : 0 < R.weight)
    (hstand : CanStand R) (hC : ∀ F, (∀ r, (R.C *ᵥ F) r ≤ 0) → ∀ r, (C' *ᵥ F) r ≤ 0) :
    ∃ a b rs a' b' rs', lqpRun osqp N R = a :: b :: rs ∧ lqpRun osqp N (R.contactRows C') = a' :: b' :: rs' ∧
      rs.length = R.tasks.length ∧ rs'.length = R.tasks.length ∧
      ∀ (k : ℕ) (r r' : LevelAnswer (LqpVar ι c)) t, rs[k]? = some r → rs'[k]? = some r' → R.tasks[k]? = some t →
        (∀ (j : ℕ) (s s' : LevelAnswer (LqpVar ι c)), j < k → rs[j]? = some s → rs'[j]? = some s' → qddOf s'.y = qddOf s.y) →
        taskMiss t r'.y + energy R r'.y < taskMiss t r.y + energy R r.y ∨ qddOf r'.y = qddOf r.y := by
  have hstand' : CanStand (R.contactRows C') := by
    obtain ⟨y, h1, h2, h3⟩ := hstand
    exact ⟨y, h1, h2, hC _ h3⟩
  obtain ⟨a, b, rs, hrun, hlen, ⟨-, hb⟩, ht⟩ := lqp_levels osqp hs N hN R hA hM hl hw.le
  obtain ⟨a', b', rs', hrun', hlen', ⟨-, hb'⟩, ht'⟩ := lqp_levels osqp hs N hN (R.contactRows C') hA hM hl hw.le
  obtain ⟨b1, b2⟩ := lqp_contact_still hA hw hstand hb
  obtain ⟨b1', b2'⟩ := lqp_contact_still (R := R.contactRows C') hA hw hstand' hb'
  refine ⟨a, b, rs, a', b', rs', hrun, hrun', hlen, hlen', fun k r r' t hr hr' hkt hsame => ?_⟩
  obtain ⟨⟨m1, k1, t1⟩, hmin⟩ := ht k r t hr hkt
  obtain ⟨⟨m1', k1', t1'⟩, hmin'⟩ := ht' k r' t hr' hkt
  have km : KeepsContact (R.contactRows C') b'.y r.y := by
    obtain ⟨c1, c2, c3⟩ := k1
    rw [b1] at c1 c3
    refine ⟨by rw [b1']; exact c1, fun j => (hC _ (fun i => ?_) j).trans (le_max_right _ _), by rw [b1']; exact c3⟩
    exact (c2 i).trans (max_le (b2 i) le_rfl)
  have tm : KeepsTasks (R.contactRows C') rs' k r.y := by
    intro j hj s' t'' hs' ht''
    have hjl : j < rs.length := by
      have := (List.getElem?_eq_some_iff.mp hr).1
      omega
    have e := t1 j hj rs[j] t'' (List.getElem?_eq_getElem hjl) ht''
    rw [e, hsame j _ _ hj (List.getElem?_eq_getElem hjl) hs']
  have hle : taskMiss t r'.y + energy R r'.y ≤ taskMiss t r.y + energy R r.y := hmin' r.y m1 km tm
  rcases hle.lt_or_eq with h | h
  · exact Or.inl h
  · refine Or.inr (lqp_unique (y := r'.y) (y' := r.y) hA hw t h.symm ?_).symm
    exact hmin' _ (moves_along (R := R.contactRows C') m1' m1 (by norm_num) (by norm_num))
      (keepsContact_along k1' km (by norm_num) (by norm_num)) (keepsTasks_along t1' tm _)

end Conf

variable {n c m m' : ℕ}

/-- **C95, hierarchical controller.**  Let the contact conditions be weakened from `C F ≤ 0` to `C' F ≤ 0`, on a robot that could stand
still.  In order of priority, at the first task whose answer accelerates the joints otherwise, the new answer is strictly better for
what the task minimises, its miss plus energy. -/
theorem C95_lqp_no_worse (osqp : Osqp) (hs : OsqpExact osqp) (N : NullSpaceFn) (hN : N.Correct) (R : LqpRobot n c m)
    (C' : Matrix (Fin m') (Fin c) ℝ) (hA : IsSPD R.M) (hM : R.M * R.Minv = 1) (hstand : CanStand R.conf)
    (hC : ∀ F, (∀ r, (R.C *ᵥ F) r ≤ 0) → ∀ r, (C' *ᵥ F) r ≤ 0) :
    ∃ a b rs a' b' rs', calcControlTorqueLQP osqp N R = a :: b :: rs ∧
      calcControlTorqueLQP osqp N ⟨R.M, R.Minv, R.h, R.J, C', R.tasks⟩ = a' :: b' :: rs' ∧
      rs.length = R.tasks.length ∧ rs'.length = R.tasks.length ∧
      ∀ (k : ℕ) (r r' : LevelAnswer (LqpVar (Fin n) c)) t, rs[k]? = some r → rs'[k]? = some r' → R.tasks[k]? = some t →
        (∀ (j : ℕ) (s s' : LevelAnswer (LqpVar (Fin n) c)), j < k → rs[j]? = some s → rs'[j]? = some s' → qddOf s'.y = qddOf s.y) →
        taskMiss t r'.y + 5 / frobenius R.M * accelEnergy R.M (qddOf r'.y) < taskMiss t r.y + 5 / frobenius R.M * accelEnergy R.M (qddOf r.y) ∨
          qddOf r'.y = qddOf r.y :=
  lqp_loosen osqp hs N hN R.conf C' hA hM (fun _ => lim_nonneg) (conf_weight hA) hstand hC

/-- base and one joint of unit inertia, held at the base, asked to accelerate the joint by 3 -/
noncomputable def slipRobot (μ : ℝ) : LqpRobot 1 6 2 where
  M := 1
  Minv := 1
  h := 0
  J := fun r => Sum.elim (Pi.single r 1) 0
  C := ![![1, 0, μ, 0, 0, 0], ![0, 0, 1, 0, 0, 0]]
  tasks := [⟨1, exJJ, fun _ => 3⟩]

/-- more friction -/
example (osqp : Osqp) (hs : OsqpExact osqp) (N : NullSpaceFn) (hN : N.Correct) :
    ∃ a b r a' b' r', calcControlTorqueLQP osqp N (slipRobot (2 / 10)) = [a, b, r] ∧
      calcControlTorqueLQP osqp N (slipRobot (4 / 10)) = [a', b', r'] ∧ ∀ t ∈ (slipRobot (2 / 10)).tasks,
        taskMiss t r'.y + 5 / frobenius (slipRobot (2 / 10)).M * accelEnergy (slipRobot (2 / 10)).M (qddOf r'.y) <
          taskMiss t r.y + 5 / frobenius (slipRobot (2 / 10)).M * accelEnergy (slipRobot (2 / 10)).M (qddOf r.y) ∨
          qddOf r'.y = qddOf r.y := by
  have hst : CanStand (slipRobot (2 / 10)).conf := by
    refine ⟨0, ⟨fun i => ?_, fun i => ?_⟩, rfl, fun r => ?_⟩
    · have : demand (slipRobot (2 / 10)).conf 0 = 0 := by
        have e1 : qddOf (0 : LqpVar (Fin 1) 6 → ℝ) = 0 := rfl
        have e2 : forceOf (0 : LqpVar (Fin 1) 6 → ℝ) = 0 := rfl
        simp [demand, e1, e2, LqpRobot.conf, slipRobot]
      rw [this]; rfl
    · have : demand (slipRobot (2 / 10)).conf 0 = 0 := by
        have e1 : qddOf (0 : LqpVar (Fin 1) 6 → ℝ) = 0 := rfl
        have e2 : forceOf (0 : LqpVar (Fin 1) 6 → ℝ) = 0 := rfl
        simp [demand, e1, e2, LqpRobot.conf, slipRobot]
      rw [this]; simp [LqpRobot.conf]
    · have : forceOf (0 : LqpVar (Fin 1) 6 → ℝ) = 0 := rfl
      rw [this, mulVec_zero]; exact le_rfl
  obtain ⟨a, b, rs, a', b', rs', h1, h2, l1, l2, h3⟩ := C95_lqp_no_worse osqp hs N hN (slipRobot (2 / 10)) (slipRobot (4 / 10)).C isSPD_one
    (by simp [slipRobot]) hst (by
      intro F hF r
      have f0 := hF 0
      have f1 := hF 1
      fin_cases r <;> simp [slipRobot, mulVec, dotProduct, Fin.sum_univ_six] at f0 f1 ⊢ <;> linarith)
  match rs, rs', l1, l2 with
  | [r], [r'], _, _ =>
    refine ⟨a, b, r, a', b', r', h1, h2, fun t ht => ?_⟩
    obtain rfl := List.mem_singleton.mp ht
    exact h3 0 r r' _ rfl rfl rfl fun j _ _ hj => absurd hj (Nat.not_lt_zero j)

end Verif.Props
