import Verif.Model.QPControl
import Verif.Lemmas.ConstraintRows

set_option linter.unusedSectionVars false

namespace Verif
open Matrix Verif.Model Verif.Spec

section
variable {V : Type*} [Fintype V] {n c m : ℕ}

theorem setA_in (d : QP V) (s : ℕ) (B : Matrix (Fin m) V ℝ) (i : Fin m) : (qpSetA d s B).A (s + i) = B i := by
  simp only [qpSetA]
  rw [dif_pos ⟨by omega, by omega⟩]
  congr; omega

theorem setA_out (d : QP V) (s : ℕ) (B : Matrix (Fin m) V ℝ) {r : ℕ} (h : ¬ (s ≤ r ∧ r < s + m)) :
    (qpSetA d s B).A r = d.A r := by simp only [qpSetA]; rw [dif_neg h]

theorem setUb_in (d : QP V) (s : ℕ) (b : Fin m → ℝ) (i : Fin m) : (qpSetUb d s b).ub (s + i) = b i := by
  simp only [qpSetUb]
  rw [dif_pos ⟨by omega, by omega⟩]
  congr; omega

theorem setUb_out (d : QP V) (s : ℕ) (b : Fin m → ℝ) {r : ℕ} (h : ¬ (s ≤ r ∧ r < s + m)) :
    (qpSetUb d s b).ub r = d.ub r := by simp only [qpSetUb]; rw [dif_neg h]

/-- Feasibility of the contact rows on top of rows that leave them alone. -/
theorem contactRows_feasible (off rows : ℕ) (C : Matrix (Fin m) (Fin c) ℝ) (Jr : Matrix (Fin c) (Fin n) ℝ)
    (P : Fin c → ℝ) (τ : Fin n → ℝ) (B : Matrix (Fin n) V ℝ) (d : QP V) (hr : d.rows = rows)
    (hrows : off + m ≤ rows) (x : V → ℝ)
    (hz : ∀ r, off + m ≤ r → d.A r = 0 ∧ d.lb r = some 0 ∧ d.ub r = 0) :
    (contactRows off C Jr P τ B d).Feasible x ↔
      (∀ r < off, (∀ b ∈ d.lb r, b ≤ d.A r ⬝ᵥ x) ∧ d.A r ⬝ᵥ x ≤ d.ub r) ∧
      ∀ r : Fin m, 0 ≤ (C *ᵥ (Jr *ᵥ (τ + B *ᵥ x) - P)) r := by
  have hin : ∀ i : Fin m, ((contactRows off C Jr P τ B d).A (off + i) ⬝ᵥ x ≤
      (contactRows off C Jr P τ B d).ub (off + i) ↔ 0 ≤ (C *ᵥ (Jr *ᵥ (τ + B *ᵥ x) - P)) i) := by
    intro i
    unfold contactRows
    simp only
    rw [setUb_in]
    change (qpSetA d off (-(C * Jr * B))).A (off + i) ⬝ᵥ x ≤ _ ↔ _
    rw [setA_in]
    have e : (C *ᵥ (Jr *ᵥ (τ + B *ᵥ x) - P)) = (C * Jr) *ᵥ τ + (C * Jr * B) *ᵥ x - C *ᵥ P := by
      rw [mulVec_sub, mulVec_add, mulVec_add, mulVec_mulVec, mulVec_mulVec, mulVec_mulVec, Matrix.mul_assoc]
    rw [e]
    have e2 : (-(C * Jr * B)) i ⬝ᵥ x = -((C * Jr * B) *ᵥ x) i := by
      change (-(C * Jr * B) *ᵥ x) i = _
      rw [neg_mulVec]; rfl
    rw [e2]
    simp only [Pi.neg_apply, Pi.sub_apply, Pi.add_apply]
    constructor <;> intro h <;> linarith
  have hout : ∀ r, ¬ (off ≤ r ∧ r < off + m) → (contactRows off C Jr P τ B d).A r = d.A r ∧
      (contactRows off C Jr P τ B d).lb r = d.lb r ∧ (contactRows off C Jr P τ B d).ub r = d.ub r := by
    intro r h
    unfold contactRows
    refine ⟨setA_out d off _ h, ?_, setUb_out _ off _ h⟩
    simp only [qpSetUb, qpNoLb, if_neg h]
    rfl
  have hlb : ∀ r, off ≤ r ∧ r < off + m → (contactRows off C Jr P τ B d).lb r = none := by
    intro r h
    simp only [contactRows, qpSetUb, qpNoLb, if_pos h]
  have hR : (contactRows off C Jr P τ B d).rows = rows := hr
  unfold QP.Feasible
  rw [hR]
  constructor
  · intro h
    refine ⟨fun r hr' => ?_, fun r => ?_⟩
    · obtain ⟨h1, h2, h3⟩ := hout r (by omega)
      have := h r (by omega)
      rwa [h1, h2, h3] at this
    · exact (hin r).mp (h (off + r) (by omega)).2
  · rintro ⟨h1, h2⟩ r hr'
    by_cases hin' : off ≤ r ∧ r < off + m
    · refine ⟨by rw [hlb r hin']; simp, ?_⟩
      have := (hin ⟨r - off, by omega⟩).mpr (h2 _)
      have e : off + (r - off) = r := by omega
      simp only [e] at this
      exact this
    · obtain ⟨e1, e2, e3⟩ := hout r hin'
      rw [e1, e2, e3]
      by_cases hlt : r < off
      · exact h1 r hlt
      · obtain ⟨z1, z2, z3⟩ := hz r (by omega)
        rw [z1, z2, z3]
        simp

/-- Torque rows mean the limit on both sides. -/
theorem torqueRows_mean (L τ : Fin n → ℝ) (B : Matrix (Fin n) V ℝ) (d : QP V) (x : V → ℝ) :
    (∀ r < 2 * n, (∀ b ∈ (torqueRows L τ B d).lb r, b ≤ (torqueRows L τ B d).A r ⬝ᵥ x) ∧
        (torqueRows L τ B d).A r ⬝ᵥ x ≤ (torqueRows L τ B d).ub r) ↔
      ∀ j, |(τ + B *ᵥ x) j| ≤ L j := by
  have h1 : ∀ i : Fin n, (torqueRows L τ B d).A i = B i := by
    intro i
    have := setA_out (qpSetUb (qpSetA d 0 B) 0 (L - τ)) n (-B) (r := i) (by omega)
    refine this.trans ?_
    have := setA_in d 0 B i
    rw [Nat.zero_add] at this
    exact this
  have h2 : ∀ i : Fin n, (torqueRows L τ B d).A (n + i) = (-B) i := fun i =>
    setA_in (qpSetUb (qpSetA d 0 B) 0 (L - τ)) n (-B) i
  have h3 : ∀ i : Fin n, (torqueRows L τ B d).ub i = (L - τ) i := by
    intro i
    have := setUb_out (qpSetA (qpSetUb (qpSetA d 0 B) 0 (L - τ)) n (-B)) n (L + τ) (r := i) (by omega)
    refine this.trans ?_
    have := setUb_in (qpSetA d 0 B) 0 (L - τ) i
    rw [Nat.zero_add] at this
    exact this
  have h4 : ∀ i : Fin n, (torqueRows L τ B d).ub (n + i) = (L + τ) i := fun i =>
    setUb_in (qpSetA (qpSetUb (qpSetA d 0 B) 0 (L - τ)) n (-B)) n (L + τ) i
  have hlb : ∀ r < 2 * n, (torqueRows L τ B d).lb r = none := by
    intro r hr; simp [torqueRows, qpNoLb, hr]
  have key : ∀ j, (B j ⬝ᵥ x ≤ (L - τ) j ∧ (-B) j ⬝ᵥ x ≤ (L + τ) j) ↔ |(τ + B *ᵥ x) j| ≤ L j := by
    intro j
    have e2 : (-B) j ⬝ᵥ x = -(B j ⬝ᵥ x) := by
      change (-B *ᵥ x) j = _
      rw [neg_mulVec]; rfl
    have e3 : (τ + B *ᵥ x) j = τ j + B j ⬝ᵥ x := rfl
    rw [e2, abs_le, e3]
    change _ ≤ L j - τ j ∧ _ ≤ L j + τ j ↔ _
    constructor <;> rintro ⟨a, b⟩ <;> constructor <;> linarith
  constructor
  · intro h j
    rw [← key]
    have a := (h j (by omega)).2
    have b := (h (n + j) (by omega)).2
    rw [h1, h3] at a
    rw [h2, h4] at b
    exact ⟨a, b⟩
  · intro h r hr
    refine ⟨by rw [hlb r hr]; simp, ?_⟩
    by_cases hlt : r < n
    · have a := ((key ⟨r, hlt⟩).mpr (h _)).1
      have := h1 ⟨r, hlt⟩
      have h3' := h3 ⟨r, hlt⟩
      simp only at this h3'
      rw [this, h3']; exact a
    · have a := ((key ⟨r - n, by omega⟩).mpr (h _)).2
      have := h2 ⟨r - n, by omega⟩
      have h3' := h4 ⟨r - n, by omega⟩
      have e : n + (r - n) = r := by omega
      simp only [e] at this h3'
      rw [this, h3']; exact a

theorem torqueRows_rest (L τ : Fin n → ℝ) (B : Matrix (Fin n) V ℝ) (H : Matrix V V ℝ) (g : V → ℝ) (rows r : ℕ)
    (h : 2 * n ≤ r) :
    (torqueRows L τ B (qpZero H g rows)).A r = 0 ∧ (torqueRows L τ B (qpZero H g rows)).lb r = some 0 ∧
      (torqueRows L τ B (qpZero H g rows)).ub r = 0 := by
  refine ⟨?_, ?_, ?_⟩
  · refine (setA_out _ n (-B) (r := r) (by omega)).trans ?_
    exact (setA_out _ 0 B (r := r) (by omega)).trans rfl
  · simp only [torqueRows, qpNoLb]
    rw [if_neg (by omega)]; rfl
  · refine (setUb_out _ n (L + τ) (r := r) (by omega)).trans ?_
    exact (setUb_out _ 0 (L - τ) (r := r) (by omega)).trans rfl

/-- Both kinds of rows together. -/
theorem rows_feasible (R : QPRobot n c) (rows : ℕ) (H : Matrix V V ℝ) (g : V → ℝ) (C : Matrix (Fin m) (Fin c) ℝ)
    (Jr : Matrix (Fin c) (Fin n) ℝ)
    (P : Fin c → ℝ) (τ : Fin n → ℝ) (B : Matrix (Fin n) V ℝ) (hrows : m + R.limitRows ≤ rows) (x : V → ℝ) :
    (contactRows R.limitRows C Jr P τ B
      (ifLimit R.limit (torqueRows · τ B) (qpZero H g rows))).Feasible x ↔
      (∀ L, R.limit = some L → ∀ j, |(τ + B *ᵥ x) j| ≤ L j) ∧
      ∀ r : Fin m, 0 ≤ (C *ᵥ (Jr *ᵥ (τ + B *ᵥ x) - P)) r := by
  rcases hl : R.limit with _ | L
  · have h0 : R.limitRows = 0 := by simp [QPRobot.limitRows, hl]
    rw [contactRows_feasible _ rows C Jr P τ B _ rfl (by omega) x (fun r _ => ⟨rfl, rfl, rfl⟩), h0]
    simp
  · have h0 : R.limitRows = 2 * n := by simp [QPRobot.limitRows, hl]
    rw [show ifLimit (some L) (torqueRows · τ B) (qpZero H g rows) = torqueRows L τ B (qpZero H g rows) from rfl,
      contactRows_feasible _ rows C Jr P τ B _ rfl (by omega) x
      (fun r hr => torqueRows_rest L τ B H g rows r (by omega)), h0]
    rw [torqueRows_mean]
    simp

end

section
variable {n c : ℕ}

/-- For 6-D contacts the constraint product exists and means that no active contact tips or slips. -/
theorem stackC_spec (cs : List ContactLink) (h6 : ∀ l ∈ cs, l.type = .c6d) (hc : c = 6 * (active cs).length) :
    ∃ C, stackC cs c = some ⟨10 * (active cs).length, C⟩ ∧
      ∀ F : Fin c → ℝ, (∀ r, 0 ≤ (C *ᵥ F) r) ↔
        ∀ i : Fin (active cs).length, ∀ r,
          0 ≤ (contactConst (active cs)[i] *ᵥ
            inFrame (active cs)[i].rotm (wrenchOf (F ∘ Fin.cast hc.symm) i)) r := by
  subst hc
  have hall : All6 (active cs) := fun l hl => by
    have := List.mem_filter.mp hl
    exact ⟨this.2, h6 l this.1⟩
  obtain ⟨C, Rm, e, hr, h⟩ := rows_apply (active cs) hall
  refine ⟨C.toMatrix (10 * (active cs).length) (6 * (active cs).length) * Rm.toMatrix _ (6 * (active cs).length),
    ?_, ?_⟩
  · have hm : constraintMats cs = some (C, Rm) := by
      unfold constraintMats
      rw [totalDof_filter, totalConstraints_filter,
        totalDof_six hall, totalConstraints_six hall]
      simp only [Option.bind_eq_bind, Option.bind_some]
      rw [fillRows_filter]
      exact e
    unfold stackC
    rw [hm, totalDof_filter, totalDof_six hall]
    simp only [Option.bind_eq_bind, Option.bind_some, if_true, Option.pure_def]
    rw [hr]
  · intro F
    constructor
    · intro hr i r
      rw [show F ∘ Fin.cast rfl = F from rfl, ← h]; exact hr _
    · intro hr r
      have := hr ⟨r / 10, by omega⟩ ⟨r % 10, by omega⟩
      rw [show F ∘ Fin.cast rfl = F from rfl, ← h] at this
      have e : (⟨10 * (r.val / 10) + r.val % 10, by omega⟩ : Fin (10 * (active cs).length)) = r := by
        ext; simp; omega
      simp only [e] at this
      exact this

theorem taskCols_mulVec {t k : ℕ} (N : Matrix (Fin n) (Fin t) ℝ) (W : Matrix (Fin n) (Fin k) ℝ)
    (x : Fin t ⊕ Fin k → ℝ) :
    taskCols N W *ᵥ x = N *ᵥ (fun a => x (Sum.inl a)) + W *ᵥ (fun b => x (Sum.inr b)) := by
  ext i
  simp [taskCols, mulVec, dotProduct, Fintype.sum_sum_type]

theorem taskQP_feasible (R : QPRobot n c) {m : ℕ} (C : Matrix (Fin m) (Fin c) ℝ) (T : TaskReady (Fin n))
    (N : Matrix (Fin n) (Fin n) ℝ) (τprev : Fin n → ℝ) (x : Fin T.t ⊕ Fin (c - 6) → ℝ) :
    (taskQP R C T N τprev).Feasible x ↔
      (∀ L, R.limit = some L → ∀ j, |(τprev + N *ᵥ (T.Jkt *ᵥ (T.Λ *ᵥ (T.f + fun a => x (Sum.inl a))))
          + R.NwJw *ᵥ fun b => x (Sum.inr b)) j| ≤ L j) ∧
      ∀ r, 0 ≤ (C *ᵥ contactForce R.S R.P (τprev + N *ᵥ (T.Jkt *ᵥ (T.Λ *ᵥ (T.f + fun a => x (Sum.inl a))))
          + R.NwJw *ᵥ fun b => x (Sum.inr b))) r := by
  unfold taskQP
  simp only
  rw [rows_feasible R _ _ _ C _ _ _ _ le_rfl]
  have e : τprev + (N * T.Jkt * T.Λ) *ᵥ T.f + taskCols (N * T.Jkt * T.Λ) R.NwJw *ᵥ x
      = τprev + N *ᵥ (T.Jkt *ᵥ (T.Λ *ᵥ (T.f + fun a => x (Sum.inl a)))) + R.NwJw *ᵥ fun b => x (Sum.inr b) := by
    rw [taskCols_mulVec, mulVec_mulVec, mulVec_mulVec, mulVec_add, Matrix.mul_assoc]
    abel
  rw [e]
  rfl

theorem redistributeQP_feasible (R : QPRobot n c) {m : ℕ} (C : Matrix (Fin m) (Fin c) ℝ) (τin : Fin n → ℝ)
    (hact : 1 ≤ (active R.cs).length) (q : Fin (c - 6) → ℝ) :
    (redistributeQP R C τin).Feasible q ↔
      (∀ L, R.limit = some L → ∀ j, |(τin + R.NwJw *ᵥ q) j| ≤ L j) ∧
      ∀ r, 0 ≤ (C *ᵥ contactForce R.S R.P (τin + R.NwJw *ᵥ q)) r := by
  unfold redistributeQP
  simp only
  have : m ≤ (active R.cs).length * m := by
    calc m = 1 * m := (one_mul m).symm
      _ ≤ _ := Nat.mul_le_mul_right m hact
  rw [rows_feasible R _ _ _ C _ _ _ _ (Nat.add_le_add_right this _)]
  rfl

/-- The last level's QP answer bounds the final torque. -/
theorem qpLoop_success (R : QPRobot n c) {solve : Solver} (hs : solve.Sound) (i : ℕ) (N : Matrix (Fin n) (Fin n) ℝ)
    (τt τc : Fin n → ℝ) (T : TaskReady (Fin n)) (rest : List (TaskReady (Fin n))) {τt' τc' : Fin n → ℝ}
    (h : qpLoop R solve i N τt τc (T :: rest) = .ret 1 τt' τc') :
    ∃ m C, R.C = some ⟨m, C⟩ ∧ (∀ L, R.limit = some L → ∀ j, |(R.τg + τt' + τc') j| ≤ L j) ∧
      ∀ r, 0 ≤ (C *ᵥ contactForce R.S R.P (R.τg + τt' + τc')) r := by
  induction rest generalizing i N τt τc T with
  | nil =>
    simp only [qpLoop] at h
    split at h
    · cases h
    · rename_i m C hC
      split at h
      · simp at h
      · rename_i x hx
        split_ifs at h
        simp only [CtrlResult.ret.injEq, true_and] at h
        obtain ⟨rfl, rfl⟩ := h
        have := (taskQP_feasible R C T N _ x).mp (hs _ _ _ _ _ hx)
        rw [add_assoc R.τg] at this
        exact ⟨m, C, hC, this⟩
  | cons T' rest ih =>
    rw [qpLoop] at h
    split at h
    · cases h
    · split at h
      · simp at h
      · simp only at h
        split_ifs at h
        exact ih _ _ _ _ _ h

theorem dotProduct_self_nonneg {V : Type*} [Fintype V] (x : V → ℝ) : 0 ≤ x ⬝ᵥ x :=
  Finset.sum_nonneg fun i _ => mul_self_nonneg (x i)

/-- A QP with constraints kept by zero and objective `½|x|²` has only the zero solution. -/
theorem solution_zero {V : Type*} [Fintype V] [DecidableEq V] {d : QP V} (hH : d.H = 1) (hg : d.g = 0)
    (h0 : d.Feasible 0) {x : V → ℝ} (hx : d.IsSolution x) : x = 0 := by
  have := hx.2 0 h0
  simp only [QP.cost, hH, hg, one_mulVec, zero_dotProduct, add_zero] at this
  have h2 : x ⬝ᵥ x ≤ 0 := by linarith
  exact dotProduct_self_eq_zero.mp (le_antisymm h2 (dotProduct_self_nonneg x))

/-- The torque rows of the reduced redistribution mean the lower limit only. -/
theorem torqueRowsR_mean {V : Type*} [Fintype V] (L τ : Fin n → ℝ) (B : Matrix (Fin n) V ℝ) (H : Matrix V V ℝ)
    (g : V → ℝ) (rows : ℕ) (x : V → ℝ) :
    (∀ r < 2 * n, (∀ b ∈ (torqueRowsR L τ B (qpZero H g rows)).lb r,
        b ≤ (torqueRowsR L τ B (qpZero H g rows)).A r ⬝ᵥ x) ∧
        (torqueRowsR L τ B (qpZero H g rows)).A r ⬝ᵥ x ≤ (torqueRowsR L τ B (qpZero H g rows)).ub r) ↔
      ∀ j, -L j ≤ (τ + B *ᵥ x) j := by
  set d := torqueRowsR L τ B (qpZero H g rows) with hd
  have h1 : ∀ i : Fin n, d.A i = (-B) i := by
    intro i
    have := setA_in (qpSetUb (qpSetA (qpZero H g rows) 0 B) 0 (L - τ)) 0 (-B) i
    rw [Nat.zero_add] at this
    exact this
  have h3 : ∀ i : Fin n, d.ub i = (L + τ) i := by
    intro i
    have := setUb_in (qpSetA (qpSetUb (qpSetA (qpZero H g rows) 0 B) 0 (L - τ)) 0 (-B)) 0 (L + τ) i
    rw [Nat.zero_add] at this
    exact this
  have h2 : ∀ r, n ≤ r → d.A r = 0 ∧ d.ub r = 0 := by
    intro r hr
    refine ⟨?_, ?_⟩
    · refine (setA_out _ 0 (-B) (r := r) (by omega)).trans ?_
      exact (setA_out _ 0 B (r := r) (by omega)).trans rfl
    · refine (setUb_out _ 0 (L + τ) (r := r) (by omega)).trans ?_
      exact (setUb_out _ 0 (L - τ) (r := r) (by omega)).trans rfl
  have hlb : ∀ r < 2 * n, d.lb r = none := by
    intro r hr; simp [hd, torqueRowsR, qpNoLb, hr]
  have key : ∀ j, ((-B) j ⬝ᵥ x ≤ (L + τ) j) ↔ -L j ≤ (τ + B *ᵥ x) j := by
    intro j
    have e2 : (-B) j ⬝ᵥ x = -(B j ⬝ᵥ x) := by
      change (-B *ᵥ x) j = _
      rw [neg_mulVec]; rfl
    have e3 : (τ + B *ᵥ x) j = τ j + B j ⬝ᵥ x := rfl
    rw [e2, e3]
    change _ ≤ L j + τ j ↔ _
    constructor <;> intro a <;> linarith
  constructor
  · intro h j
    rw [← key]
    have a := (h j (by omega)).2
    rwa [h1, h3] at a
  · intro h r hr
    refine ⟨by rw [hlb r hr]; simp, ?_⟩
    by_cases hlt : r < n
    · have a := (key ⟨r, hlt⟩).mpr (h _)
      have := h1 ⟨r, hlt⟩
      have h3' := h3 ⟨r, hlt⟩
      simp only at this h3'
      rw [this, h3']; exact a
    · rw [(h2 r (by omega)).1, (h2 r (by omega)).2]; simp

theorem redistributeRQP_feasible (R : QPRobot n c) {m : ℕ} (C : Matrix (Fin m) (Fin c) ℝ)
    (Wt : Matrix (Fin c) (Fin c) ℝ) (τin : Fin n → ℝ) (q : Fin (c - 6) → ℝ) :
    (redistributeRQP R C Wt τin).Feasible q ↔
      (∀ L, R.limit = some L → ∀ j, -L j ≤ (τin + R.NwJw *ᵥ q) j) ∧
      ∀ r, 0 ≤ (C *ᵥ contactForce R.S R.P (τin + R.NwJw *ᵥ q)) r := by
  unfold redistributeRQP
  simp only
  rcases hl : R.limit with _ | L
  · have h0 : R.limitRows = 0 := by simp [QPRobot.limitRows, hl]
    rw [contactRows_feasible _ (m + R.limitRows) C _ _ _ _ _ rfl (by omega) q (fun r _ => ⟨rfl, rfl, rfl⟩), h0]
    simp [contactForce, rightCols]
  · have h0 : R.limitRows = 2 * n := by simp [QPRobot.limitRows, hl]
    rw [contactRows_feasible _ (m + R.limitRows) C _ _ _ _ (ifLimit (some L) _ _) rfl (by omega) q ?_, h0]
    · rw [show ∀ d : QP (Fin (c - 6)), ifLimit (some L) (torqueRowsR · τin R.NwJw) d
        = torqueRowsR L τin R.NwJw d from fun _ => rfl, torqueRowsR_mean]
      simp [contactForce, rightCols]
    · intro r hr
      refine ⟨?_, ?_, ?_⟩
      · refine (setA_out _ 0 (-R.NwJw) (r := r) (by omega)).trans ?_
        exact (setA_out _ 0 R.NwJw (r := r) (by omega)).trans rfl
      · simp only [ifLimit, torqueRowsR, qpNoLb]
        rw [if_neg (by omega)]; rfl
      · refine (setUb_out _ 0 (L + τin) (r := r) (by omega)).trans ?_
        exact (setUb_out _ 0 (L - τin) (r := r) (by omega)).trans rfl

theorem taskQP_cost (R : QPRobot n c) {m : ℕ} (C : Matrix (Fin m) (Fin c) ℝ) (T : TaskReady (Fin n))
    (N : Matrix (Fin n) (Fin n) ℝ) (τprev : Fin n → ℝ) (x : Fin T.t ⊕ Fin (c - 6) → ℝ) :
    (taskQP R C T N τprev).cost x = (1 / 2) * ∑ a, x (Sum.inl a) * x (Sum.inl a) := by
  have hH : (taskQP R C T N τprev).H = Matrix.of fun a b => if a = b ∧ a.isLeft then 1 else 0 := by
    unfold taskQP; rcases R.limit with _ | L <;> rfl
  have hg : (taskQP R C T N τprev).g = 0 := by
    unfold taskQP; rcases R.limit with _ | L <;> rfl
  rw [QP.cost, hH, hg]
  simp [dotProduct, mulVec, Fintype.sum_sum_type]

theorem taskQP_solution_zero (R : QPRobot n c) {m : ℕ} (C : Matrix (Fin m) (Fin c) ℝ) (T : TaskReady (Fin n))
    (N : Matrix (Fin n) (Fin n) ℝ) (τprev : Fin n → ℝ) (h : (taskQP R C T N τprev).Feasible 0) :
    (taskQP R C T N τprev).IsSolution 0 := by
  refine ⟨h, fun y _ => ?_⟩
  rw [taskQP_cost, taskQP_cost]
  have : 0 ≤ ∑ a, y (Sum.inl a) * y (Sum.inl a) := Finset.sum_nonneg fun a _ => mul_self_nonneg _
  simpa using this

/-- With zero feasible, every exact answer leaves the commanded accelerations alone. -/
theorem taskQP_solution_left (R : QPRobot n c) {m : ℕ} (C : Matrix (Fin m) (Fin c) ℝ) (T : TaskReady (Fin n))
    (N : Matrix (Fin n) (Fin n) ℝ) (τprev : Fin n → ℝ) (h : (taskQP R C T N τprev).Feasible 0)
    {x : Fin T.t ⊕ Fin (c - 6) → ℝ} (hx : (taskQP R C T N τprev).IsSolution x) (a : Fin T.t) :
    x (Sum.inl a) = 0 := by
  have := hx.2 0 h
  rw [taskQP_cost, taskQP_cost] at this
  have h2 : ∑ a, x (Sum.inl a) * x (Sum.inl a) = 0 := by
    apply le_antisymm
    · simp only [Pi.zero_apply, mul_zero, Finset.sum_const_zero] at this
      linarith
    · exact Finset.sum_nonneg fun a _ => mul_self_nonneg _
  have := (Finset.sum_eq_zero_iff_of_nonneg (fun a _ => mul_self_nonneg (x (Sum.inl a)))).mp h2 a (Finset.mem_univ _)
  exact mul_self_eq_zero.mp this

end

end Verif
