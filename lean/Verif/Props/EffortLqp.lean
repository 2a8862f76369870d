import Verif.Props.LoosenLqp
import Verif.Spec.Effort

/-!
# C86: the hierarchical controller spends no needless effort
-/

set_option linter.unusedSectionVars false

namespace Verif.Props
open Matrix Verif Verif.Spec Verif.Model

variable {n c m : ℕ}

/-- **C86 (hierarchical controller, energy).**  On a robot that could stand still, take any other motion with torques within ±200 that keeps the contacts,
with admissible contact forces and joint accelerations of at most 5, and that gives the task and the tasks above it the accelerations the controller gives
them.  It has at least the energy of acceleration of the controller's answer, and more unless the accelerations are the same. -/
theorem C86_lqp_energy_least (osqp : Osqp) (hs : OsqpExact osqp) (N : NullSpaceFn) (hN : N.Correct) (R : LqpRobot n c m) (hA : IsSPD R.M)
    (hM : R.M * R.Minv = 1) (hstand : CanStand R.conf) :
    ∃ a b rs, calcControlTorqueLQP osqp N R = a :: b :: rs ∧ rs.length = R.tasks.length ∧
      ∀ (k : ℕ) (r : LevelAnswer (LqpVar (Fin n) c)), rs[k]? = some r → ContactOk R.conf r.y ∧ Moves R.conf r.y ∧
        ∀ y', Moves R.conf y' → ContactOk R.conf y' →
          (∀ (i : ℕ) (u : LevelAnswer (LqpVar (Fin n) c)) (t : Σ t : ℕ, Matrix (Fin t) (Fin 6 ⊕ Fin n) ℝ × (Fin t → ℝ)), i ≤ k → rs[i]? = some u →
            R.tasks[i]? = some t → t.2.1 *ᵥ qddOf y' = t.2.1 *ᵥ qddOf u.y) →
          accelEnergy R.M (qddOf r.y) ≤ accelEnergy R.M (qddOf y') ∧
            (accelEnergy R.M (qddOf y') ≤ accelEnergy R.M (qddOf r.y) → qddOf y' = qddOf r.y) := by
  obtain ⟨a, b, rs, h1, h2, ⟨-, hb⟩, ht⟩ := C57_levels_partial osqp hs N hN R hA hM
  have hw : 0 < R.conf.weight := conf_weight hA
  obtain ⟨b1, b2⟩ := lqp_contact_still (R := R.conf) hA hw hstand hb
  have contact : ∀ y : LqpVar (Fin n) c → ℝ, KeepsContact R.conf b.y y ↔ ContactOk R.conf y := fun y => by
    have bnd : ∀ x : ℝ, (x ≤ max (0 : ℝ) 5 ∧ -x ≤ max (-0 : ℝ) 5) ↔ |x| ≤ 5 := fun x => by
      rw [neg_zero, max_eq_right (by norm_num : (0 : ℝ) ≤ 5), abs_le]
      constructor <;> rintro ⟨p, q⟩ <;> constructor <;> linarith
    unfold KeepsContact ContactOk
    rw [b1, mulVec_zero]
    refine and_congr Iff.rfl (and_congr (forall_congr' fun x => ?_) (forall_congr' fun i => bnd _))
    rw [max_eq_right (b2 x)]
  refine ⟨a, b, rs, h1, h2, fun k r hr => ?_⟩
  obtain ⟨t, htk⟩ : ∃ t, R.tasks[k]? = some t := by
    have := (List.getElem?_eq_some_iff.mp hr).1
    exact ⟨_, List.getElem?_eq_getElem (by omega)⟩
  obtain ⟨⟨k1, k2, k3⟩, k4⟩ := ht k r t hr htk
  refine ⟨(contact _).mp k2, k1, fun y' m1 m2 m3 => ?_⟩
  have hk : KeepsTasks R.conf rs k y' := fun i hi u t' hu ht' => m3 i u t' hi.le hu ht'
  have hmiss : taskMiss t y' = taskMiss t r.y := by
    unfold taskMiss
    rw [m3 k r t le_rfl hr htk]
  have hle := k4 y' m1 ((contact _).mpr m2) hk
  rw [hmiss] at hle
  have hen : ∀ y : LqpVar (Fin n) c → ℝ, energy R.conf y = R.conf.weight * accelEnergy R.M (qddOf y) := fun y => rfl
  have hle' : energy R.conf r.y ≤ energy R.conf y' := by linarith
  refine ⟨?_, fun h => ?_⟩
  · rw [hen, hen] at hle'
    exact le_of_mul_le_mul_left hle' hw
  · have h' : energy R.conf y' ≤ energy R.conf r.y := by
      rw [hen, hen]
      exact mul_le_mul_of_nonneg_left h hw.le
    exact lqp_unique (R := R.conf) hA hw t (y := r.y) (y' := y') (by rw [hmiss, le_antisymm h' hle'])
      (k4 _ (moves_along k1 m1 (by norm_num) (by norm_num)) (keepsContact_along k2 ((contact _).mpr m2) (by norm_num) (by norm_num))
        (keepsTasks_along k3 hk _))

/-- The hypotheses are met by the one-joint robot: the base, free to move, is not moved. -/
example (osqp : Osqp) (hs : OsqpExact osqp) (N : NullSpaceFn) (hN : N.Correct) :
    ∃ a b r, calcControlTorqueLQP osqp N reach = [a, b, r] ∧ qddOf r.y = Pi.single (Sum.inr 0) (1 / (1 + 5 / √7)) := by
  obtain ⟨-, -, -, a, b, r, h1, h2, h3⟩ := C57_task_missed osqp hs N hN
  obtain ⟨a', b', rs, k1, -, k2⟩ := C86_lqp_energy_least osqp hs N hN reach reach_spd (by simp)
    ⟨reachY 0, reach_moves (by norm_num), by simp [qddOf, reachY], fun r => r.elim0⟩
  rw [h1] at k1
  simp only [List.cons.injEq] at k1
  obtain ⟨rfl, rfl, rfl⟩ := k1
  refine ⟨a, b, r, h1, ?_⟩
  have hpos : (0 : ℝ) < 1 / (1 + 5 / √7) := by positivity
  rw [h2] at h3
  have hlt : |(1 : ℝ) / (1 + 5 / √7)| < 2 / 5 := by rwa [abs_of_pos hpos]
  obtain ⟨-, -, k⟩ := k2 0 r rfl
  refine ((k (reachY (1 / (1 + 5 / √7))) (reach_moves (by linarith)) (reach_contactOk (by linarith)) ?_).2 ?_).symm
  · intro i u t hi hu ht
    obtain rfl : i = 0 := by omega
    simp only [List.getElem?_cons_zero, Option.some.injEq] at hu ht
    subst hu ht
    funext x
    simp [mulVec, qddOf, reachY] at h2 ⊢
    exact h2.symm
  · have hge : qddOf r.y (Sum.inr 0) * qddOf r.y (Sum.inr 0) ≤ qddOf r.y ⬝ᵥ qddOf r.y :=
      Finset.single_le_sum (f := fun i => qddOf r.y i * qddOf r.y i) (fun _ _ => mul_self_nonneg _) (Finset.mem_univ _)
    rw [h2] at hge
    unfold accelEnergy
    rw [show reach.M = 1 from rfl, one_mulVec, one_mulVec]
    have : qddOf (reachY (1 / (1 + 5 / √7))) ⬝ᵥ qddOf (reachY (1 / (1 + 5 / √7))) = 1 / (1 + 5 / √7) * (1 / (1 + 5 / √7)) := by simp [qddOf, reachY]
    rw [this]
    linarith

end Verif.Props
