import Verif.Props.LoosenLqp
import Verif.Spec.Renumbered

/-!
# C84: how the joints are counted does not matter to the hierarchical controller
-/

set_option linter.unusedSectionVars false

namespace Verif.Props
open Matrix Verif Verif.Spec Verif.Model

variable {n c m : ℕ} {e : Equiv.Perm (Fin n)} {s : Fin n → ℝ}

/-- The robot with its joints counted otherwise. -/
noncomputable abbrev recountRobot (e : Equiv.Perm (Fin n)) (s : Fin n → ℝ) (R : LqpRobot n c m) : LqpRobot n c m :=
  { M := recountMass e s R.M, Minv := (recountMass e s R.M)⁻¹, h := recountAll e s R.h, J := recountCols e s R.J, C := R.C,
    tasks := R.tasks.map fun t => ⟨t.1, recountCols e s t.2.1, t.2.2⟩ }

/-- Accelerations counted otherwise, with the same contact forces. -/
def recountVar (e : Equiv.Perm (Fin n)) (s : Fin n → ℝ) (y : LqpVar (Fin n) c → ℝ) : LqpVar (Fin n) c → ℝ := Sum.elim (recountAll e s (qddOf y)) (forceOf y)

theorem signed_twice (hs : Signs s) (r : Fin 6 ⊕ Fin n) : signed s r * signed s r = 1 := by
  rcases r with r | r
  · simp [signed]
  · rcases hs r with h | h <;> simp [signed, h]

theorem counted_sum (e : Equiv.Perm (Fin n)) (f : Fin 6 ⊕ Fin n → ℝ) : ∑ r, f (counted e r) = ∑ r, f r :=
  Equiv.sum_comp (Equiv.sumCongr (Equiv.refl (Fin 6)) e) f

theorem recount_dot (hs : Signs s) (x y : Fin 6 ⊕ Fin n → ℝ) : recountAll e s x ⬝ᵥ recountAll e s y = x ⬝ᵥ y := by
  unfold dotProduct
  rw [← counted_sum e fun r => x r * y r]
  refine Finset.sum_congr rfl fun r _ => ?_
  have := signed_twice hs r
  show signed s r * x (counted e r) * (signed s r * y (counted e r)) = _
  linear_combination (x (counted e r) * y (counted e r)) * this

theorem recount_cols (hs : Signs s) {κ : Type*} (J : Matrix κ (Fin 6 ⊕ Fin n) ℝ) (q : Fin 6 ⊕ Fin n → ℝ) :
    recountCols e s J *ᵥ recountAll e s q = J *ᵥ q := by
  funext a
  exact recount_dot hs (J a) q

theorem recount_mass (hs : Signs s) (A : Matrix (Fin 6 ⊕ Fin n) (Fin 6 ⊕ Fin n) ℝ) (q : Fin 6 ⊕ Fin n → ℝ) :
    recountMass e s A *ᵥ recountAll e s q = recountAll e s (A *ᵥ q) := by
  funext r
  have e1 : recountMass e s A r = signed s r • recountAll e s (A (counted e r)) := by
    funext k
    show signed s r * signed s k * A (counted e r) (counted e k) = signed s r * (signed s k * A (counted e r) (counted e k))
    ring
  show recountMass e s A r ⬝ᵥ recountAll e s q = signed s r * (A (counted e r) ⬝ᵥ q)
  rw [e1, smul_dotProduct, recount_dot hs, smul_eq_mul]

theorem recount_colsT (J : Matrix (Fin c) (Fin 6 ⊕ Fin n) ℝ) (F : Fin c → ℝ) : (recountCols e s J)ᵀ *ᵥ F = recountAll e s (Jᵀ *ᵥ F) := by
  funext r
  show ∑ a, signed s r * J a (counted e r) * F a = signed s r * ∑ a, J a (counted e r) * F a
  rw [Finset.mul_sum]
  exact Finset.sum_congr rfl fun a _ => mul_assoc _ _ _

/-- Counting back. -/
def recountBack (e : Equiv.Perm (Fin n)) (s : Fin n → ℝ) (q : Fin 6 ⊕ Fin n → ℝ) : Fin 6 ⊕ Fin n → ℝ := recountAll e.symm (s ∘ e.symm) q

theorem recount_back (hs : Signs s) (q : Fin 6 ⊕ Fin n → ℝ) : recountAll e s (recountBack e s q) = q := by
  funext r
  rcases r with r | r
  · simp [recountAll, recountBack, signed, counted]
  · have := signed_twice hs (.inr r)
    simp only [signed, Sum.elim_inr] at this
    show s r * (s (e.symm (e r)) * q (.inr (e.symm (e r)))) = q (.inr r)
    rw [Equiv.symm_apply_apply]
    linear_combination q (.inr r) * this

theorem back_recount (hs : Signs s) (q : Fin 6 ⊕ Fin n → ℝ) : recountBack e s (recountAll e s q) = q := by
  funext r
  rcases r with r | r
  · simp [recountAll, recountBack, signed, counted]
  · have := signed_twice hs (.inr (e.symm r))
    simp only [signed, Sum.elim_inr] at this
    show s (e.symm r) * (s (e.symm r) * q (.inr (e (e.symm r)))) = q (.inr r)
    rw [Equiv.apply_symm_apply]
    linear_combination q (.inr r) * this

theorem recount_spd (hs : Signs s) {A : Matrix (Fin 6 ⊕ Fin n) (Fin 6 ⊕ Fin n) ℝ} (h : IsSPD A) : IsSPD (recountMass e s A) := by
  refine ⟨?_, fun x hx => ?_⟩
  · ext r k
    have := congrFun (congrFun h.symm (counted e r)) (counted e k)
    simp only [transpose_apply] at this
    show signed s k * signed s r * A (counted e k) (counted e r) = signed s r * signed s k * A (counted e r) (counted e k)
    rw [this]; ring
  · rw [← recount_back (e := e) hs x, recount_mass hs, recount_dot hs]
    refine h.pos _ fun h0 => hx ?_
    rw [← recount_back (e := e) hs x, h0]
    funext r
    simp [recountAll]

theorem recount_frobenius (hs : Signs s) (A : Matrix (Fin 6 ⊕ Fin n) (Fin 6 ⊕ Fin n) ℝ) : Model.frobenius (recountMass e s A) = Model.frobenius A := by
  unfold Model.frobenius
  congr 1
  rw [← counted_sum e fun r => ∑ k, A r k ^ 2]
  refine Finset.sum_congr rfl fun r _ => ?_
  rw [← counted_sum e fun k => A (counted e r) k ^ 2]
  refine Finset.sum_congr rfl fun k _ => ?_
  have h1 := signed_twice hs r
  have h2 := signed_twice hs k
  show (signed s r * signed s k * A (counted e r) (counted e k)) ^ 2 = _
  linear_combination (signed s k * signed s k * A (counted e r) (counted e k) ^ 2) * h1 + A (counted e r) (counted e k) ^ 2 * h2

theorem recount_rowLen (hs : Signs s) {κ : Type*} (J : Matrix κ (Fin 6 ⊕ Fin n) ℝ) (a : κ) : rowLen (recountCols e s J a) = rowLen (J a) := by
  have : recountCols e s J a ⬝ᵥ recountCols e s J a = J a ⬝ᵥ J a := recount_dot hs (J a) (J a)
  unfold rowLen
  rw [this]

theorem recount_demand (hs : Signs s) (R : LqpRobot n c m) (y : LqpVar (Fin n) c → ℝ) :
    demand (recountRobot e s R).conf (recountVar e s y) = recountAll e s (demand R.conf y) := by
  show recountMass e s R.M *ᵥ recountAll e s (qddOf y) + recountAll e s R.h + (recountCols e s R.J)ᵀ *ᵥ forceOf y
    = recountAll e s (R.M *ᵥ qddOf y + R.h + R.Jᵀ *ᵥ forceOf y)
  rw [recount_mass hs, recount_colsT]
  funext r
  simp only [recountAll, Pi.add_apply]
  ring

theorem recount_energy (hs : Signs s) (R : LqpRobot n c m) (y : LqpVar (Fin n) c → ℝ) :
    energy (recountRobot e s R).conf (recountVar e s y) = energy R.conf y := by
  show 5 / Model.frobenius (recountMass e s R.M) * (recountAll e s (qddOf y) ⬝ᵥ (recountMass e s R.M *ᵥ recountAll e s (qddOf y))) = _
  rw [recount_frobenius hs, recount_mass hs, recount_dot hs]
  rfl

theorem recount_miss (hs : Signs s) (t : Σ t : ℕ, Matrix (Fin t) (Fin 6 ⊕ Fin n) ℝ × (Fin t → ℝ)) (y : LqpVar (Fin n) c → ℝ) :
    taskMiss ⟨t.1, recountCols e s t.2.1, t.2.2⟩ (recountVar e s y) = taskMiss t y := by
  obtain ⟨t, J, f⟩ := t
  show ∑ r, ((recountCols e s J *ᵥ recountAll e s (qddOf y) - f) r / rowLen (recountCols e s J r)) ^ 2 = ∑ r, ((J *ᵥ qddOf y - f) r / rowLen (J r)) ^ 2
  rw [recount_cols hs]
  exact Finset.sum_congr rfl fun r _ => by rw [recount_rowLen hs]

theorem recount_abs (hs : Signs s) (q : Fin 6 ⊕ Fin n → ℝ) (i : Fin n) : |recountAll e s q (.inr i)| = |q (.inr (e i))| := by
  show |s i * q (.inr (e i))| = _
  rcases hs i with h | h <;> simp [h]

theorem recount_moves (hs : Signs s) (R : LqpRobot n c m) (y : LqpVar (Fin n) c → ℝ) :
    Moves (recountRobot e s R).conf (recountVar e s y) ↔ Moves R.conf y := by
  unfold Moves
  rw [recount_demand hs]
  refine and_congr (forall_congr' fun i => ?_) ⟨fun h i => ?_, fun h i => ?_⟩
  · show (1 : ℝ) * demand R.conf y (.inl i) = 0 ↔ _
    rw [one_mul]
  · have := h (e.symm i)
    rw [recount_abs hs, Equiv.apply_symm_apply] at this
    exact this
  · rw [recount_abs hs]
    exact h (e i)

/-- Counting the unknowns back. -/
def backVar (e : Equiv.Perm (Fin n)) (s : Fin n → ℝ) (y : LqpVar (Fin n) c → ℝ) : LqpVar (Fin n) c → ℝ := Sum.elim (recountBack e s (qddOf y)) (forceOf y)

theorem recountVar_back (hs : Signs s) (y : LqpVar (Fin n) c → ℝ) : recountVar e s (backVar e s y) = y := by
  funext i
  rcases i with i | i
  · exact congrFun (recount_back hs (qddOf y)) i
  · rfl

theorem recount_zero : recountAll e s (0 : Fin 6 ⊕ Fin n → ℝ) = 0 := by
  funext r; simp [recountAll]

/-- **C84 (hierarchical controller).**  A robot that could stand still is accelerated alike by every task, however its joints are counted and whichever way
their axes point. -/
theorem C84_lqp (osqp osqp' : Osqp) (ho : OsqpExact osqp) (ho' : OsqpExact osqp') (N N' : NullSpaceFn) (hN : N.Correct) (hN' : N'.Correct)
    (e : Equiv.Perm (Fin n)) {s : Fin n → ℝ} (hs : Signs s) (R : LqpRobot n c m) (hA : IsSPD R.M) (hM : R.M * R.Minv = 1) (hstand : CanStand R.conf) :
    ∃ a b rs a' b' rs', calcControlTorqueLQP osqp N R = a :: b :: rs ∧ calcControlTorqueLQP osqp' N' (recountRobot e s R) = a' :: b' :: rs' ∧
      rs.length = R.tasks.length ∧ rs'.length = R.tasks.length ∧ qddOf b.y = 0 ∧ qddOf b'.y = 0 ∧
      ∀ (j : ℕ) (r r' : LevelAnswer (LqpVar (Fin n) c)), rs[j]? = some r → rs'[j]? = some r' → qddOf r'.y = recountAll e s (qddOf r.y) := by
  have hA' : IsSPD (recountRobot e s R).M := recount_spd hs hA
  have hM' : (recountRobot e s R).M * (recountRobot e s R).Minv = 1 := hA'.mul_inv
  have hst' : CanStand (recountRobot e s R).conf := by
    obtain ⟨y, h1, h2, h3⟩ := hstand
    refine ⟨recountVar e s y, (recount_moves hs R y).mpr h1, ?_, h3⟩
    show recountAll e s (qddOf y) = 0
    rw [h2, recount_zero]
  obtain ⟨a, b, rs, h1, h2, ⟨-, hb⟩, ht⟩ := C57_levels_partial osqp ho N hN R hA hM
  obtain ⟨a', b', rs', h1', h2', ⟨-, hb'⟩, ht'⟩ := C57_levels_partial osqp' ho' N' hN' (recountRobot e s R) hA' hM'
  have h3' : rs'.length = R.tasks.length := h2'.trans (List.length_map _)
  have hw : 0 < R.conf.weight := conf_weight hA
  obtain ⟨b1, b2⟩ := lqp_contact_still (R := R.conf) hA hw hstand hb
  obtain ⟨c1, c2⟩ := lqp_contact_still (R := (recountRobot e s R).conf) hA' (conf_weight hA') hst' hb'
  have contact : ∀ y : LqpVar (Fin n) c → ℝ, KeepsContact (recountRobot e s R).conf b'.y (recountVar e s y) ↔ KeepsContact R.conf b.y y := fun y => by
    have bnd : ∀ x : ℝ, (x ≤ max (0 : ℝ) 5 ∧ -x ≤ max (-0 : ℝ) 5) ↔ |x| ≤ 5 := fun x => by
      rw [neg_zero, max_eq_right (by norm_num : (0 : ℝ) ≤ 5), abs_le]
      constructor <;> rintro ⟨p, q⟩ <;> constructor <;> linarith
    have eJ : (recountRobot e s R).conf.J *ᵥ qddOf (recountVar e s y) = R.conf.J *ᵥ qddOf y := recount_cols hs R.J (qddOf y)
    unfold KeepsContact
    rw [b1, c1, mulVec_zero, mulVec_zero, eJ]
    refine and_congr Iff.rfl (and_congr (forall_congr' fun x => ?_) ?_)
    · rw [max_eq_right (b2 x), max_eq_right (c2 x)]
      rfl
    · refine (forall_congr' fun i => bnd _).trans (Iff.trans ?_ (forall_congr' fun i => bnd _).symm)
      refine ⟨fun h i => ?_, fun h i => ?_⟩
      · have := h (e.symm i)
        rw [show qddOf (recountVar e s y) = recountAll e s (qddOf y) from rfl, recount_abs hs, Equiv.apply_symm_apply] at this
        exact this
      · rw [show qddOf (recountVar e s y) = recountAll e s (qddOf y) from rfl, recount_abs hs]
        exact h (e i)
  refine ⟨a, b, rs, a', b', rs', h1, h1', h2, h3', b1, c1, fun j => ?_⟩
  induction j using Nat.strong_induction_on with
  | _ j ih =>
    intro r r' hr hr'
    obtain ⟨t, htj⟩ : ∃ t, R.tasks[j]? = some t := by
      have := (List.getElem?_eq_some_iff.mp hr).1
      exact ⟨_, List.getElem?_eq_getElem (by omega)⟩
    have htj' : (recountRobot e s R).tasks[j]? = some ⟨t.1, recountCols e s t.2.1, t.2.2⟩ := by
      show (R.tasks.map _)[j]? = _
      rw [List.getElem?_map, htj]; rfl
    obtain ⟨⟨k1, k2, k3⟩, k4⟩ := ht j r t hr htj
    obtain ⟨⟨l1, l2, l3⟩, l4⟩ := ht' j r' _ hr' htj'
    have tasks : ∀ y : LqpVar (Fin n) c → ℝ, KeepsTasks (recountRobot e s R).conf rs' j (recountVar e s y) ↔ KeepsTasks R.conf rs j y := fun y => by
      refine ⟨fun h i hi u t' hu hti => ?_, fun h i hi u t' hu hti => ?_⟩
      · have hu' := List.getElem?_eq_getElem (l := rs') (i := i) (by have := (List.getElem?_eq_some_iff.mp hu).1; omega)
        have := h i hi _ ⟨t'.1, recountCols e s t'.2.1, t'.2.2⟩ hu' (by
          show (R.tasks.map _)[i]? = _
          rw [List.getElem?_map, show R.tasks[i]? = some t' from hti]; rfl)
        rw [ih i hi u _ hu hu'] at this
        have e2 : recountCols e s t'.2.1 *ᵥ recountAll e s (qddOf y) = recountCols e s t'.2.1 *ᵥ recountAll e s (qddOf u.y) := this
        rwa [recount_cols hs, recount_cols hs] at e2
      · have hu' := List.getElem?_eq_getElem (l := rs) (i := i) (by have := (List.getElem?_eq_some_iff.mp hu).1; omega)
        have hti' : (R.tasks.map fun t => (⟨t.1, recountCols e s t.2.1, t.2.2⟩ : Σ t : ℕ, Matrix (Fin t) (Fin 6 ⊕ Fin n) ℝ × (Fin t → ℝ)))[i]? = some t' := hti
        rw [List.getElem?_map, Option.map_eq_some_iff] at hti'
        obtain ⟨v, hv, rfl⟩ := hti'
        rw [ih i hi _ u hu' hu]
        show recountCols e s v.2.1 *ᵥ recountAll e s (qddOf y) = recountCols e s v.2.1 *ᵥ recountAll e s _
        rw [recount_cols hs, recount_cols hs]
        exact h i hi _ v hu' hv
    have up := l4 (recountVar e s r.y) ((recount_moves hs R _).mpr k1) ((contact _).mpr k2) ((tasks _).mpr k3)
    have back := recountVar_back (e := e) hs r'.y
    rw [← back] at l1 l2 l3 up
    have dm := (recount_moves hs R _).mp l1
    have dc := (contact _).mp l2
    have dt := (tasks _).mp l3
    rw [recount_miss hs, recount_energy hs, recount_miss hs, recount_energy hs] at up
    have q := lqp_unique (R := R.conf) hA hw t (y' := backVar e s r'.y) (le_antisymm up (k4 _ dm dc dt))
      (k4 _ (moves_along k1 dm (by norm_num) (by norm_num)) (keepsContact_along k2 dc (by norm_num) (by norm_num)) (keepsTasks_along k3 dt _))
    rw [← q]
    exact (recount_back hs (qddOf r'.y)).symm

/-- The hypotheses are met: the one joint told to accelerate, with its axis turned round, accelerates the other way by as much. -/
example (osqp : Osqp) (hs : OsqpExact osqp) (N : NullSpaceFn) (hN : N.Correct) :
    ∃ a b r a' b' r', calcControlTorqueLQP osqp N reach = [a, b, r] ∧ calcControlTorqueLQP osqp N (recountRobot 1 (fun _ => -1) reach) = [a', b', r'] ∧
      qddOf r'.y (.inr 0) = -qddOf r.y (.inr 0) ∧ 0 < qddOf r.y (.inr 0) := by
  obtain ⟨-, -, -, a, b, r, h1, h2, h3⟩ := C57_task_missed osqp hs N hN
  obtain ⟨a1, b1, rs, a', b', rs', k1, k2, -, k3, -, -, k4⟩ := C84_lqp osqp osqp hs hs N N hN hN 1 (s := fun _ => -1) (fun _ => .inr rfl) reach reach_spd
    (by simp) ⟨reachY 0, reach_moves (by norm_num), by simp [qddOf, reachY], fun r => r.elim0⟩
  rw [h1] at k1
  simp only [List.cons.injEq] at k1
  obtain ⟨rfl, rfl, rfl⟩ := k1
  obtain ⟨r', rfl⟩ := List.length_eq_one_iff.mp k3
  refine ⟨a, b, r, a', b', r', h1, k2, ?_, by rw [h2]; positivity⟩
  rw [k4 0 r r' rfl rfl]
  simp [recountAll, signed, counted]

end Verif.Props
