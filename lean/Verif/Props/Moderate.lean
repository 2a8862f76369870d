import Verif.Props.TaskRecord
import Verif.Props.EnergyQP
import Verif.Lemmas.TurnedQP

/-!
# C93: QP control moderates commands, it never amplifies or reverses them
-/

set_option linter.unusedSectionVars false

namespace Verif.Props
open Matrix Verif Verif.Spec Verif.Model

/-- `a` is commanded in place of `f`: it lies in the ball with diameter from standing still to `f`; so it does not point away from `f`,
is not larger than `f` and is not further from `f` than standing still is. -/
def Moderates {t : ℕ} (f a : Fin t → ℝ) : Prop := a ⬝ᵥ a ≤ a ⬝ᵥ f

theorem dot_self_nonneg' {ι : Type*} [Fintype ι] (x : ι → ℝ) : 0 ≤ x ⬝ᵥ x := by
  rw [dotProduct]; exact Finset.sum_nonneg fun j _ => mul_self_nonneg _

/-- What `Moderates` says in plain words. -/
theorem Moderates.plain {t : ℕ} {f a : Fin t → ℝ} (h : Moderates f a) :
    0 ≤ a ⬝ᵥ f ∧ a ⬝ᵥ a ≤ f ⬝ᵥ f ∧ (f - a) ⬝ᵥ (f - a) ≤ f ⬝ᵥ f ∧ (f = 0 → a = 0) := by
  have h1 := dot_self_nonneg' a
  have h2 := dot_self_nonneg' (f - a)
  unfold Moderates at h
  rw [sub_dotProduct, dotProduct_sub, dotProduct_sub, dotProduct_comm f a] at h2 ⊢
  refine ⟨h1.trans h, by linarith, by linarith, ?_⟩
  rintro rfl
  rw [dotProduct_zero] at h
  exact dotProduct_self_eq_zero.mp (le_antisymm h h1)

/-- First-order condition of a problem whose cost is the squared length of the first part of the answer. -/
theorem least_first_order {m k : ℕ} {d : QP (Fin m ⊕ Fin k)} (hcost : ∀ x, d.cost x = 2⁻¹ * ∑ a, x (Sum.inl a) * x (Sum.inl a))
    {x y : Fin m ⊕ Fin k → ℝ} (hx : d.IsSolution x) (hy : d.Feasible y) :
    0 ≤ ∑ a, x (Sum.inl a) * (y (Sum.inl a) - x (Sum.inl a)) := by
  obtain ⟨p, hp⟩ : ∃ p, ∑ a, x (Sum.inl a) * (y (Sum.inl a) - x (Sum.inl a)) = p := ⟨_, rfl⟩
  obtain ⟨q, hq⟩ : ∃ q, ∑ a, (y (Sum.inl a) - x (Sum.inl a)) * (y (Sum.inl a) - x (Sum.inl a)) = q := ⟨_, rfl⟩
  have hq0 : 0 ≤ q := hq ▸ Finset.sum_nonneg fun a _ => mul_self_nonneg _
  rw [hp]
  have key : ∀ t : ℝ, 0 ≤ t → t ≤ 1 → 0 ≤ 2 * t * p + t ^ 2 * q := by
    intro t h0 h1
    have := hx.2 _ (qp_feasible_convex hx.1 hy h0 h1)
    rw [hcost, hcost] at this
    have e : ∑ a, (x + t • (y - x)) (Sum.inl a) * (x + t • (y - x)) (Sum.inl a) =
        ∑ a, x (Sum.inl a) * x (Sum.inl a) + 2 * t * p + t ^ 2 * q := by
      rw [← hp, ← hq, Finset.mul_sum, Finset.mul_sum, ← Finset.sum_add_distrib, ← Finset.sum_add_distrib]
      refine Finset.sum_congr rfl fun a _ => ?_
      simp only [Pi.add_apply, Pi.smul_apply, Pi.sub_apply, smul_eq_mul]
      ring
    rw [e] at this
    linarith
  by_contra hneg
  push Not at hneg
  by_cases hb : -p ≤ q
  · have hqp : 0 < q := by linarith
    have h1 := key (-p / q) (by have : 0 < -p := by linarith
                                positivity) ((div_le_one hqp).mpr hb)
    have e : 2 * (-p / q) * p + (-p / q) ^ 2 * q = -(p ^ 2 / q) := by field_simp; ring
    rw [e] at h1
    have : 0 < p ^ 2 / q := div_pos (by nlinarith) hqp
    linarith
  · have := key 1 zero_le_one le_rfl
    push Not at hb
    linarith

variable {n c : ℕ}

/-- The torque is within the limit and the contact forces it gives satisfy the rows. -/
def OkT (R : QPRobot n c) {m : ℕ} (C : Matrix (Fin m) (Fin c) ℝ) (τ : Fin n → ℝ) : Prop :=
  (∀ L, R.limit = some L → ∀ j, |τ j| ≤ L j) ∧ ∀ r, 0 ≤ (C *ᵥ contactForce R.S R.P τ) r

/-- The acceleration a level commands is the nearest to its command: the angle at it between the command and any acceleration that could
be commanded instead is not acute. -/
theorem level_nearest (R : QPRobot n c) {m : ℕ} (C : Matrix (Fin m) (Fin c) ℝ) (T : TaskReady (Fin n)) (N : Matrix (Fin n) (Fin n) ℝ)
    (τ : Fin n → ℝ) {x : Fin T.t ⊕ Fin (c - 6) → ℝ} (hx : (taskQP R C T N τ).IsSolution x) {a b : Fin T.t → ℝ} {z : Fin (c - 6) → ℝ}
    (ha : a = T.f + fun j => x (Sum.inl j)) (hb : OkT R C (τ + N *ᵥ (T.Jkt *ᵥ (T.Λ *ᵥ b)) + R.NwJw *ᵥ z)) :
    0 ≤ (a - T.f) ⬝ᵥ (b - a) := by
  have hy : (taskQP R C T N τ).Feasible (Sum.elim (b - T.f) z) := by
    rw [taskQP_feasible]
    have e : (T.f + fun j => (Sum.elim (b - T.f) z : Fin T.t ⊕ Fin (c - 6) → ℝ) (Sum.inl j)) = b := by ext j; simp
    rw [e]
    exact hb
  have := least_first_order (fun x => by rw [taskQP_cost]; norm_num) hx hy
  refine this.trans (le_of_eq ?_)
  rw [dotProduct]
  refine Finset.sum_congr rfl fun j _ => ?_
  simp only [ha, Sum.elim_inl, Pi.sub_apply, Pi.add_apply]
  ring

theorem level_moderates (R : QPRobot n c) {m : ℕ} (C : Matrix (Fin m) (Fin c) ℝ) (T : TaskReady (Fin n)) (N : Matrix (Fin n) (Fin n) ℝ)
    (τ : Fin n → ℝ) {x : Fin T.t ⊕ Fin (c - 6) → ℝ} (hx : (taskQP R C T N τ).IsSolution x) {z : Fin (c - 6) → ℝ}
    (hz : OkT R C (τ + R.NwJw *ᵥ z)) : Moderates T.f (T.f + fun j => x (Sum.inl j)) := by
  have := level_nearest R C T N τ hx (b := 0) (z := z) rfl (by rw [mulVec_zero, mulVec_zero, mulVec_zero, add_zero]; exact hz)
  generalize (T.f + fun j => x (Sum.inl j)) = a at this
  rw [zero_sub, dotProduct_neg, sub_dotProduct, dotProduct_comm T.f a] at this
  unfold Moderates
  linarith

/-- What is recorded with a task moderates its command. -/
def Moderated (T : TaskReady (Fin n)) (r : TaskRecord n) : Prop := ∃ a, r.fqp = ⟨T.t, a⟩ ∧ Moderates T.f (T.f + a)

theorem loop_moderates (R : QPRobot n c) {m : ℕ} {C : Matrix (Fin m) (Fin c) ℝ} (hC : R.C = some ⟨m, C⟩) {solve : Solver} (hs : solve.Exact)
    (l : List (TaskReady (Fin n) × TaskRecord n)) (i : ℕ) (N : Matrix (Fin n) (Fin n) ℝ) (τ0 τ1 : Fin n → ℝ) {τt τc : Fin n → ℝ}
    {rs : List (TaskRecord n)} (h : qpLoopRec R solve i N τ0 τ1 l = (.ret 1 τt τc, rs)) :
    ((∃ z, OkT R C (R.τg + τ0 + R.NwJw *ᵥ z)) → List.Forall₂ (fun p r => Moderated p.1 r) l rs) ∧
      List.Forall₂ (fun p r => Moderated p.1 r) l.tail rs.tail := by
  induction l generalizing i N τ0 τ1 rs with
  | nil =>
    simp only [qpLoopRec, Prod.mk.injEq, CtrlResult.ret.injEq, true_and] at h
    obtain ⟨⟨rfl, rfl⟩, rfl⟩ := h
    exact ⟨fun _ => .nil, .nil⟩
  | cons p l ih =>
    obtain ⟨T, r⟩ := p
    simp only [qpLoopRec, hC] at h
    split at h
    · simp at h
    rename_i x hx
    split_ifs at h with h6
    · simp at h
    rw [Prod.mk.injEq] at h
    obtain ⟨h1, rfl⟩ := h
    have hsol := hs _ _ _ _ _ hx
    have hfe := (taskQP_feasible R C T N _ x).mp hsol.1
    have htail := (ih _ _ _ _ (Prod.ext h1 rfl)).1 ⟨fun b => x (Sum.inr b), by rw [← add_assoc]; exact hfe⟩
    exact ⟨fun ⟨z, hz⟩ => .cons ⟨_, rfl, level_moderates R C T N _ hsol hz⟩ htail, htail⟩

section
variable {A : Matrix (Fin 6 ⊕ Fin n) (Fin 6 ⊕ Fin n) ℝ} {J : Matrix (Fin c) (Fin 6 ⊕ Fin n) ℝ} {G : Fin 6 ⊕ Fin n → ℝ} {R : QPRobot n c}

/-- **C93 (no command amplified or reversed).**  If the robot could safely stand still, QP task control with any stack of tasks commands,
in place of each task's acceleration `f`, an acceleration in the ball between standing still and `f`. -/
theorem C93_moderates (hA : IsSPD A) (cod : (W : Matrix (Fin n) (Fin n) ℝ) → CodNull W) {v k : ℕ} {V2 : Matrix (Fin k) (Fin n) ℝ}
    (hS : contactSpace J A⁻¹ = some R.S) (hR : calculateContactConstraint J A⁻¹ cod = .ret v R.S (some ⟨k, V2, R.NwJw⟩))
    (hP : R.P = Model.gravityForce R.S G) (h6 : ∀ l ∈ R.cs, l.type = .c6d) (hp : ∀ l ∈ R.cs, 0 < l.planeX ∧ 0 < l.planeY)
    (hc : c = 6 * (active R.cs).length) (hc6 : 6 < c) {solve : Solver} (hs : solve.Exact) {ν : Fin n → ℝ}
    (hν : MovesNothing A J G ν) (hstand : SafeTorque A J G R.limit R.cs hc (R.τg + ν)) (l : List (TaskReady (Fin n) × TaskRecord n))
    {τt τc : Fin n → ℝ} {rs : List (TaskRecord n)} (h : taskControlQPRec R solve l = (.ret 1 τt τc, rs)) :
    List.Forall₂ (fun p r => Moderated p.1 r) l rs := by
  obtain ⟨C, e, h'⟩ := stackC_holds h6 hp hc
  obtain ⟨z, rfl⟩ := (movesNothing_iff hA hc6 cod hS hR ν).mp hν
  exact (loop_moderates R (show R.C = some ⟨_, C⟩ from e) hs l 0 1 0 0 h).1
    ⟨z, by rw [add_zero]; exact (safe_iff hA hS hP hc h' _).mp hstand⟩

/-- C93 (lower tasks).  For all tasks but the first this holds whether or not the robot could stand still. -/
theorem C93_lower (R : QPRobot n c) {solve : Solver} (hs : solve.Exact) (p : TaskReady (Fin n) × TaskRecord n)
    (l : List (TaskReady (Fin n) × TaskRecord n)) {τt τc : Fin n → ℝ} {r : TaskRecord n} {rs : List (TaskRecord n)}
    (h : taskControlQPRec R solve (p :: l) = (.ret 1 τt τc, r :: rs)) : List.Forall₂ (fun p r => Moderated p.1 r) l rs := by
  rcases hC : R.C with _ | ⟨m, C⟩
  · simp [taskControlQPRec, qpLoopRec, hC] at h
  · exact (loop_moderates R hC hs _ 0 1 0 0 h).2

end

theorem loop_nonexpansive (R : QPRobot n c) {m : ℕ} {C : Matrix (Fin m) (Fin c) ℝ} (hC : R.C = some ⟨m, C⟩) {solve solve' : Solver}
    (hs : solve.Exact) (hs' : solve'.Exact) (T : TaskReady (Fin n)) (g : Fin T.t → ℝ) (q q' : TaskRecord n)
    (below below' : List (TaskReady (Fin n) × TaskRecord n)) (above above' : List (TaskReady (Fin n) × TaskRecord n))
    (hab : above.map Prod.fst = above'.map Prod.fst) (i : ℕ) (N : Matrix (Fin n) (Fin n) ℝ) (τ0 τ1 τ1' : Fin n → ℝ)
    {τt τc τt' τc' : Fin n → ℝ} {rs rs' : List (TaskRecord n)}
    (h : qpLoopRec R solve i N τ0 τ1 (above ++ (T, q) :: below) = (.ret 1 τt τc, rs))
    (h' : qpLoopRec R solve' i N τ0 τ1' (above' ++ (withCommand T g, q') :: below') = (.ret 1 τt' τc', rs')) :
    ∃ r r' a a', rs[above.length]? = some r ∧ rs'[above.length]? = some r' ∧ r.fqp = ⟨T.t, a⟩ ∧ r'.fqp = ⟨T.t, a'⟩ ∧
      ((T.f + a) - (g + a')) ⬝ᵥ ((T.f + a) - (g + a')) ≤ (T.f - g) ⬝ᵥ ((T.f + a) - (g + a')) := by
  induction above generalizing above' i N τ0 τ1 τ1' rs rs' with
  | nil =>
    obtain rfl : above' = [] := by simpa using hab.symm
    simp only [List.nil_append, qpLoopRec, hC] at h h'
    split at h
    · simp at h
    rename_i x hx
    split at h'
    · simp at h'
    rename_i x' hx'
    split_ifs at h h' with h6
    · simp at h
    rw [Prod.mk.injEq] at h h'
    obtain ⟨-, rfl⟩ := h
    obtain ⟨-, rfl⟩ := h'
    refine ⟨_, _, fun j => x (Sum.inl j), fun j : Fin T.t => x' (Sum.inl j), rfl, rfl, rfl, rfl, ?_⟩
    have hsol := hs _ _ _ _ _ hx
    have hsol' := hs' _ _ _ _ _ hx'
    have f1 := (taskQP_feasible R C T N _ x).mp hsol.1
    have f2 := (taskQP_feasible R C (withCommand T g) N _ x').mp hsol'.1
    obtain ⟨a, ha⟩ : ∃ a, a = T.f + fun j => x (Sum.inl j) := ⟨_, rfl⟩
    obtain ⟨b, hb⟩ : ∃ b : Fin T.t → ℝ, b = g + fun j : Fin T.t => x' (Sum.inl j) := ⟨_, rfl⟩
    have k1 := level_nearest R C T N _ hsol ha (b := b) (z := fun j => x' (Sum.inr j)) (by rw [hb]; exact f2)
    have k2 := level_nearest R C (withCommand T g) N _ hsol' (a := b) hb (b := a) (z := fun j => x (Sum.inr j)) (by rw [ha]; exact f1)
    change 0 ≤ (b - g) ⬝ᵥ (a - b) at k2
    rw [← ha, ← hb]
    simp only [sub_dotProduct, dotProduct_sub] at k1 k2 ⊢
    have := dotProduct_comm a b
    linarith
  | cons p above ih =>
    obtain ⟨U, u⟩ := p
    rcases above' with _ | ⟨⟨U', u'⟩, above'⟩
    · simp at hab
    simp only [List.map_cons, List.cons.injEq] at hab
    obtain ⟨rfl, hab⟩ := hab
    simp only [List.cons_append, qpLoopRec, hC] at h h'
    split at h
    · simp at h
    rename_i x hx
    split at h'
    · simp at h'
    rename_i x' hx'
    split_ifs at h h' with h6
    · simp at h
    rw [Prod.mk.injEq] at h h'
    obtain ⟨h1, rfl⟩ := h
    obtain ⟨h1', rfl⟩ := h'
    have ex : (fun j => x (Sum.inl j)) = fun j => x' (Sum.inl j) :=
      funext (taskQP_left_unique R C U N _ (hs _ _ _ _ _ hx) (hs' _ _ _ _ _ hx'))
    rw [← ex] at h1'
    obtain ⟨r, r', a, a', e1, e2, e⟩ := ih _ hab _ _ _ _ _ (Prod.ext h1 rfl) (Prod.ext h1' rfl)
    exact ⟨r, r', a, a', e1, by rw [ex] at e2; exact e2, e⟩

/-- **C93 (small changes have small effects).**  Two calls for the same robot with the same tasks above: if the commands of the next task
differ, the accelerations commanded in their place differ in the same direction and by no more; whatever tasks are below and whatever
exact solvers are used. -/
theorem C93_nonexpansive (R : QPRobot n c) {solve solve' : Solver} (hs : solve.Exact) (hs' : solve'.Exact) (T : TaskReady (Fin n))
    (g : Fin T.t → ℝ) (q q' : TaskRecord n) (above above' below below' : List (TaskReady (Fin n) × TaskRecord n))
    (hab : above.map Prod.fst = above'.map Prod.fst) {τt τc τt' τc' : Fin n → ℝ} {rs rs' : List (TaskRecord n)}
    (h : taskControlQPRec R solve (above ++ (T, q) :: below) = (.ret 1 τt τc, rs))
    (h' : taskControlQPRec R solve' (above' ++ (withCommand T g, q') :: below') = (.ret 1 τt' τc', rs')) :
    ∃ r r' a a', rs[above.length]? = some r ∧ rs'[above.length]? = some r' ∧ r.fqp = ⟨T.t, a⟩ ∧ r'.fqp = ⟨T.t, a'⟩ ∧
      Moderates (T.f - g) ((T.f + a) - (g + a')) := by
  rcases hC : R.C with _ | ⟨m, C⟩
  · rcases above with _ | ⟨p, above⟩ <;> simp [taskControlQPRec, qpLoopRec, hC] at h
  · obtain ⟨r, r', a, a', e1, e2, e3, e4, e⟩ := loop_nonexpansive R hC hs hs' T g q q' below below' above above' hab 0 1 0 0 0 h h'
    refine ⟨r, r', a, a', e1, e2, e3, e4, ?_⟩
    unfold Moderates
    rw [dotProduct_comm _ (T.f - g)]
    exact e

section
variable {A : Matrix (Fin 6 ⊕ Fin n) (Fin 6 ⊕ Fin n) ℝ} {J : Matrix (Fin c) (Fin 6 ⊕ Fin n) ℝ} {G : Fin 6 ⊕ Fin n → ℝ} {R : QPRobot n c}

theorem records_of (R : QPRobot n c) {solve : Solver} {l : List (TaskReady (Fin n))} {v : ℕ} {τt τc : Fin n → ℝ}
    (h : calcTaskControlTorqueQP R solve l = .ret v τt τc) :
    ∃ rs, taskControlQPRec R solve (l.map fun T => (T, TaskRecord.fresh n)) = (.ret v τt τc, rs) := by
  have e := C92_result R solve (l.map fun T => (T, TaskRecord.fresh n))
  rw [List.map_map, show (Prod.fst ∘ fun T => (T, TaskRecord.fresh n)) = id from rfl, List.map_id, h] at e
  exact ⟨_, Prod.ext e rfl⟩

/-- **C93 (what the first task does).**  If the robot could safely stand still, then in every motion under the torque of QP task control the
acceleration of the first task is in the ball between standing still and its command, whatever tasks are below. -/
theorem C93_first_task (hA : IsSPD A) (cod : (W : Matrix (Fin n) (Fin n) ℝ) → CodNull W) {v k : ℕ} {V2 : Matrix (Fin k) (Fin n) ℝ}
    (hS : contactSpace J A⁻¹ = some R.S) (hR : calculateContactConstraint J A⁻¹ cod = .ret v R.S (some ⟨k, V2, R.NwJw⟩))
    (hP : R.P = Model.gravityForce R.S G) (hg : R.τg = gravityTorque R.S A⁻¹ G) (h6 : ∀ l ∈ R.cs, l.type = .c6d)
    (hp : ∀ l ∈ R.cs, 0 < l.planeX ∧ 0 < l.planeY) (hc : c = 6 * (active R.cs).length) (hc6 : 6 < c) (hB : BaseDetermined J)
    {solve : Solver} (hs : solve.Exact) {ν : Fin n → ℝ} (hν : MovesNothing A J G ν)
    (hstand : SafeTorque A J G R.limit R.cs hc (R.τg + ν)) {T : TaskReady (Fin n)} (hT : calculateJKT R.S A⁻¹ T.toTaskIn = some T)
    (lower : List (TaskReady (Fin n))) {τt τc : Fin n → ℝ} (h : calcTaskControlTorqueQP R solve (T :: lower) = .ret 1 τt τc)
    {qdd : Fin 6 ⊕ Fin n → ℝ} {F : Fin c → ℝ} (hM : Motion A J G (R.τg + τt + τc) qdd F) : Moderates T.f (T.J *ᵥ qdd) := by
  obtain ⟨rs, hrs⟩ := records_of R h
  obtain ⟨r, rest, a, rfl, ha, hacc⟩ := C92_attained hA R hS hB hg hc6 cod hR solve hT hrs
  rcases C93_moderates hA cod hS hR hP h6 hp hc hc6 hs hν hstand _ hrs with _ | ⟨⟨b, hb, hmod⟩, -⟩
  rw [ha] at hb
  obtain rfl := eq_of_heq (Sigma.mk.inj hb).2
  rw [hacc _ _ hM]
  exact hmod

/-- **C93 (a damped task slows down).**  If the command of the first task only damps, the task's speed does not grow, for any number of
rows and whatever the limits and contacts keep the QP from doing: the rate of change of half its square is not positive. -/
theorem C93_slows (hA : IsSPD A) (cod : (W : Matrix (Fin n) (Fin n) ℝ) → CodNull W) {v k : ℕ} {V2 : Matrix (Fin k) (Fin n) ℝ}
    (hS : contactSpace J A⁻¹ = some R.S) (hR : calculateContactConstraint J A⁻¹ cod = .ret v R.S (some ⟨k, V2, R.NwJw⟩))
    (hP : R.P = Model.gravityForce R.S G) (hg : R.τg = gravityTorque R.S A⁻¹ G) (h6 : ∀ l ∈ R.cs, l.type = .c6d)
    (hp : ∀ l ∈ R.cs, 0 < l.planeX ∧ 0 < l.planeY) (hc : c = 6 * (active R.cs).length) (hc6 : 6 < c) (hB : BaseDetermined J)
    {solve : Solver} (hs : solve.Exact) {ν : Fin n → ℝ} (hν : MovesNothing A J G ν)
    (hstand : SafeTorque A J G R.limit R.cs hc (R.τg + ν)) {T : TaskReady (Fin n)} (hT : calculateJKT R.S A⁻¹ T.toTaskIn = some T)
    {qd : Fin 6 ⊕ Fin n → ℝ} {d : ℝ} (hd : 0 < d) (hf : T.f = -(d • (T.J *ᵥ qd)))
    (lower : List (TaskReady (Fin n))) {τt τc : Fin n → ℝ} (h : calcTaskControlTorqueQP R solve (T :: lower) = .ret 1 τt τc)
    {qdd : Fin 6 ⊕ Fin n → ℝ} {F : Fin c → ℝ} (hM : Motion A J G (R.τg + τt + τc) qdd F) :
    (T.J *ᵥ qd) ⬝ᵥ (T.J *ᵥ qdd) ≤ 0 := by
  have h1 := (C93_first_task hA cod hS hR hP hg h6 hp hc hc6 hB hs hν hstand hT lower h hM).plain.1
  rw [hf, dotProduct_neg, dotProduct_smul, smul_eq_mul, dotProduct_comm] at h1
  nlinarith

/-- C93 (what the first task does, small changes).  Two calls for the same robot that differ in the command of the first task and in
anything below: the accelerations of the first task differ in the direction of the change and by no more. -/
theorem C93_first_change (hA : IsSPD A) (cod : (W : Matrix (Fin n) (Fin n) ℝ) → CodNull W) {v k : ℕ} {V2 : Matrix (Fin k) (Fin n) ℝ}
    (hS : contactSpace J A⁻¹ = some R.S) (hR : calculateContactConstraint J A⁻¹ cod = .ret v R.S (some ⟨k, V2, R.NwJw⟩))
    (hg : R.τg = gravityTorque R.S A⁻¹ G) (hc6 : 6 < c) (hB : BaseDetermined J) {solve solve' : Solver} (hs : solve.Exact)
    (hs' : solve'.Exact) {T : TaskReady (Fin n)} (hT : calculateJKT R.S A⁻¹ T.toTaskIn = some T) (g : Fin T.t → ℝ)
    (lower lower' : List (TaskReady (Fin n))) {τt τc τt' τc' : Fin n → ℝ}
    (h : calcTaskControlTorqueQP R solve (T :: lower) = .ret 1 τt τc)
    (h' : calcTaskControlTorqueQP R solve' (withCommand T g :: lower') = .ret 1 τt' τc') {qdd qdd' : Fin 6 ⊕ Fin n → ℝ}
    {F F' : Fin c → ℝ} (hM : Motion A J G (R.τg + τt + τc) qdd F) (hM' : Motion A J G (R.τg + τt' + τc') qdd' F') :
    Moderates (T.f - g) (T.J *ᵥ qdd - T.J *ᵥ qdd') := by
  obtain ⟨rs, hrs⟩ := records_of R h
  obtain ⟨rs', hrs'⟩ := records_of R h'
  obtain ⟨q, q', b, b', e1, e2, e3, e4, hmod⟩ := C93_nonexpansive R hs hs' T g _ _ [] [] _ _ rfl hrs hrs'
  obtain ⟨r, rest, a, rfl, ha, hacc⟩ := C92_attained hA R hS hB hg hc6 cod hR solve hT hrs
  obtain ⟨r', rest', a', rfl, ha', hacc'⟩ := C92_attained hA R hS hB hg hc6 cod hR solve' (jkt_withCommand hT g) hrs'
  obtain rfl : r = q := by simpa using e1
  obtain rfl : r' = q' := by simpa using e2
  rw [ha] at e3
  rw [ha'] at e4
  obtain rfl := eq_of_heq (Sigma.mk.inj e3).2
  have e5 : (show Fin T.t → ℝ from a') = b' := eq_of_heq (Sigma.mk.inj e4).2
  have k1 := hacc _ _ hM
  have k2 : T.J *ᵥ qdd' = g + b' := by
    rw [← e5]
    exact hacc' _ _ hM'
  rw [k1, k2]
  exact hmod

end

/-- The hypotheses are met by the biped with an arm whose motor is too weak for the command: it could stand still; called with the command
one and the command minus one for the arm, control succeeds both times. -/
theorem C93_hypotheses_met (cod : (W : Matrix (Fin 7) (Fin 7) ℝ) → CodNull W) : ∃ S k V2 N T τt τc τt' τc',
    calculateContactConstraint Reach.J Reach.A⁻¹ cod = .ret 1 S (some ⟨k, V2, N⟩) ∧ contactSpace Reach.J Reach.A⁻¹ = some S ∧
    calculateJKT S Reach.A⁻¹ Reach.T = some T ∧ MovesNothing Reach.A Reach.J Reach.G 0 ∧
    SafeTorque Reach.A Reach.J Reach.G (Reach.robot S N).limit (Reach.robot S N).cs Stand.dof ((Reach.robot S N).τg + 0) ∧
    calcTaskControlTorqueQP (Reach.robot S N) Stand.solver [T, T] = .ret 1 τt τc ∧
    calcTaskControlTorqueQP (Reach.robot S N) Stand.solver [withCommand T (-T.f), T] = .ret 1 τt' τc' ∧
    T.f ≠ 0 ∧ T.f = -((1 : ℝ) • (T.J *ᵥ Pi.single (Sum.inr 6) (-1))) := by
  obtain ⟨S, k, V2, N, T, o, hR, hS, hT, hg, -, hf1, -⟩ := reach_data cod
  have h0 : MovesNothing Reach.A Reach.J Reach.G 0 :=
    (movesNothing_iff Reach.hA (by norm_num) cod hS hR 0).mpr ⟨0, (mulVec_zero _).symm⟩
  have hsafe : SafeTorque Reach.A Reach.J Reach.G (Reach.robot S N).limit (Reach.robot S N).cs Stand.dof
      ((Reach.robot S N).τg + 0) := by
    rw [show (Reach.robot S N).τg = 0 from hg, add_zero]
    constructor
    · intro L hL j
      obtain rfl := Option.some.inj hL
      norm_num
    · intro qdd F hM
      rw [(C01_contact_force_exact Reach.hA hS _ _).2.1 _ _ hM, ← (C01_contact_force_exact Reach.hA hS _ _).2.1 _ _ Reach.motion]
      exact Stand.hold
  have hok := fun ts => C60_never_fails Reach.hA (R := Reach.robot S N) hS rfl Stand.six Stand.plane Stand.dof (by norm_num) cod hR
    Stand.solver_sound Stand.solver_complete h0 hsafe ts
  obtain ⟨τt, τc, h⟩ := hok [T, T]
  obtain ⟨τt', τc', h'⟩ := hok [withCommand T (-T.f), T]
  refine ⟨S, k, V2, N, T, τt, τc, τt', τc', hR, hS, hT, h0, hsafe, h, h', fun e => ?_, ?_⟩
  · have := congrFun e o
    rw [hf1] at this
    exact one_ne_zero this
  · have key : ∀ x : TaskIn (Fin 7), x = Reach.T → x.f = -((1 : ℝ) • (x.J *ᵥ Pi.single (Sum.inr 6) (-1))) := by
      rintro _ rfl
      ext i
      have e : (Reach.T.J *ᵥ Pi.single (Sum.inr 6) (-1)) i = -1 := by
        rw [mulVec_single]
        change (Pi.single (M := fun _ : Fin 6 ⊕ Fin 7 => ℝ) (Sum.inr 6) 1) (Sum.inr 6) * (-1) = -1
        rw [Pi.single_eq_same (M := fun _ : Fin 6 ⊕ Fin 7 => ℝ) (Sum.inr 6) 1]; norm_num
      change (1 : ℝ) = -((1 : ℝ) * (Reach.T.J *ᵥ Pi.single (Sum.inr 6) (-1)) i)
      rw [e]; norm_num
    exact key _ (ready_rows hT)

end Verif.Props
