import Verif.Spec.Tolerance
import Verif.Lemmas.QPControl

/-! # QPs of the controller whose rows hold up to a tolerance -/

set_option linter.unusedSectionVars false

namespace Verif
open Matrix Verif.Model Verif.Spec

section
variable {V : Type*} [Fintype V] {n c m : ℕ}

theorem feasibleWithin_of {ε : ℝ} (hε : 0 ≤ ε) {d : QP V} {x : V → ℝ} (h : d.Feasible x) : d.FeasibleWithin ε x :=
  fun r hr => ⟨fun b hb => by have := (h r hr).1 b hb; linarith, by have := (h r hr).2; linarith⟩

/-- Rows up to a tolerance: torque and contact rows. -/
theorem rows_within {ε : ℝ} (hε : 0 ≤ ε) (R : QPRobot n c) (rows : ℕ) (H : Matrix V V ℝ) (g : V → ℝ) (C : Matrix (Fin m) (Fin c) ℝ)
    (Jr : Matrix (Fin c) (Fin n) ℝ) (P : Fin c → ℝ) (τ : Fin n → ℝ) (B : Matrix (Fin n) V ℝ) (hrows : m + R.limitRows ≤ rows) (x : V → ℝ) :
    (contactRows R.limitRows C Jr P τ B (ifLimit R.limit (torqueRows · τ B) (qpZero H g rows))).FeasibleWithin ε x ↔
      (∀ L, R.limit = some L → ∀ j, |(τ + B *ᵥ x) j| ≤ L j + ε) ∧ ∀ r : Fin m, -ε ≤ (C *ᵥ (Jr *ᵥ (τ + B *ᵥ x) - P)) r := by
  set d := ifLimit R.limit (torqueRows · τ B) (qpZero H g rows) with hd
  have hdr : d.rows = rows := by
    rw [hd]; rcases R.limit with _ | L <;> rfl
  have hin : ∀ i : Fin m, ((contactRows R.limitRows C Jr P τ B d).A (R.limitRows + i) ⬝ᵥ x ≤
      (contactRows R.limitRows C Jr P τ B d).ub (R.limitRows + i) + ε ↔ -ε ≤ (C *ᵥ (Jr *ᵥ (τ + B *ᵥ x) - P)) i) := by
    intro i
    unfold contactRows
    simp only
    rw [setUb_in]
    change (qpSetA d R.limitRows (-(C * Jr * B))).A (R.limitRows + i) ⬝ᵥ x ≤ _ ↔ _
    rw [setA_in]
    have e : (C *ᵥ (Jr *ᵥ (τ + B *ᵥ x) - P)) = (C * Jr) *ᵥ τ + (C * Jr * B) *ᵥ x - C *ᵥ P := by
      rw [mulVec_sub, mulVec_add, mulVec_add, mulVec_mulVec, mulVec_mulVec, mulVec_mulVec, Matrix.mul_assoc]
    rw [e]
    have e2 : (-(C * Jr * B)) i ⬝ᵥ x = -((C * Jr * B) *ᵥ x) i := by
      change (-(C * Jr * B) *ᵥ x) i = _
      rw [neg_mulVec]; rfl
    rw [e2]
    simp only [Pi.neg_apply, Pi.sub_apply, Pi.add_apply]
    constructor <;> intro h <;> linarith
  have hout : ∀ r, ¬ (R.limitRows ≤ r ∧ r < R.limitRows + m) → (contactRows R.limitRows C Jr P τ B d).A r = d.A r ∧
      (contactRows R.limitRows C Jr P τ B d).lb r = d.lb r ∧ (contactRows R.limitRows C Jr P τ B d).ub r = d.ub r := by
    intro r h
    unfold contactRows
    refine ⟨setA_out d _ _ h, ?_, setUb_out _ _ _ h⟩
    simp only [qpSetUb, qpNoLb, if_neg h]
    rfl
  have hlb : ∀ r, R.limitRows ≤ r ∧ r < R.limitRows + m → (contactRows R.limitRows C Jr P τ B d).lb r = none := by
    intro r h
    simp only [contactRows, qpSetUb, qpNoLb, if_pos h]
  have hR : (contactRows R.limitRows C Jr P τ B d).rows = rows := hdr
  have hz : ∀ r, R.limitRows + m ≤ r → d.A r = 0 ∧ d.lb r = some 0 ∧ d.ub r = 0 := by
    intro r hr
    rcases hl : R.limit with _ | L
    · rw [hd, hl]; exact ⟨rfl, rfl, rfl⟩
    · have h0 : R.limitRows = 2 * n := by simp [QPRobot.limitRows, hl]
      rw [hd, hl]
      exact torqueRows_rest L τ B H g rows r (by omega)
  -- the torque rows
  have htor : (∀ r < R.limitRows, (∀ b ∈ d.lb r, b - ε ≤ d.A r ⬝ᵥ x) ∧ d.A r ⬝ᵥ x ≤ d.ub r + ε) ↔
      ∀ L, R.limit = some L → ∀ j, |(τ + B *ᵥ x) j| ≤ L j + ε := by
    rcases hl : R.limit with _ | L
    · have h0 : R.limitRows = 0 := by simp [QPRobot.limitRows, hl]
      rw [h0]; simp
    · have h0 : R.limitRows = 2 * n := by simp [QPRobot.limitRows, hl]
      have hd' : d = torqueRows L τ B (qpZero H g rows) := by rw [hd, hl]; rfl
      have hm := torqueRows_mean (fun j => L j + ε) τ B (qpZero H g rows) x
      rw [h0, hd']
      have key : ∀ r < 2 * n, (torqueRows (fun j => L j + ε) τ B (qpZero H g rows)).ub r = (torqueRows L τ B (qpZero H g rows)).ub r + ε := by
        intro r hr
        by_cases hlt : r < n
        · have h3 : ∀ L' : Fin n → ℝ, (torqueRows L' τ B (qpZero H g rows)).ub r = (L' - τ) ⟨r, hlt⟩ := by
            intro L'
            have := setUb_out (qpSetA (qpSetUb (qpSetA (qpZero H g rows) 0 B) 0 (L' - τ)) n (-B)) n (L' + τ) (r := r) (by omega)
            refine this.trans ?_
            have := setUb_in (qpSetA (qpZero H g rows) 0 B) 0 (L' - τ) ⟨r, hlt⟩
            rw [Nat.zero_add] at this
            exact this
          rw [h3, h3]
          simp only [Pi.sub_apply]
          ring
        · have h4 : ∀ L' : Fin n → ℝ, (torqueRows L' τ B (qpZero H g rows)).ub r = (L' + τ) ⟨r - n, by omega⟩ := by
            intro L'
            have := setUb_in (qpSetA (qpSetUb (qpSetA (qpZero H g rows) 0 B) 0 (L' - τ)) n (-B)) n (L' + τ) ⟨r - n, by omega⟩
            have e : n + (r - n) = r := by omega
            simp only [e] at this
            exact this
          rw [h4, h4]
          simp only [Pi.add_apply]
          ring
      have hlb' : ∀ (L' : Fin n → ℝ), ∀ r < 2 * n, (torqueRows L' τ B (qpZero H g rows)).lb r = none := by
        intro L' r hr; simp [torqueRows, qpNoLb, hr]
      have hA' : ∀ L' : Fin n → ℝ, (torqueRows L' τ B (qpZero H g rows)).A = (torqueRows L τ B (qpZero H g rows)).A := fun _ => rfl
      constructor
      · intro h L' hL'
        obtain rfl := Option.some.inj hL'
        refine hm.mp fun r hr => ⟨by rw [hlb' _ r hr]; simp, ?_⟩
        rw [key r hr, hA']
        exact (h r hr).2
      · intro h r hr
        have := hm.mpr (h L rfl) r hr
        refine ⟨by rw [hlb' _ r hr]; simp, ?_⟩
        rw [← key r hr, ← hA' fun j => L j + ε]
        exact this.2
  unfold QP.FeasibleWithin
  rw [hR, ← htor]
  constructor
  · intro h
    refine ⟨fun r hr' => ?_, fun r => ?_⟩
    · obtain ⟨h1, h2, h3⟩ := hout r (by omega)
      have := h r (by omega)
      rwa [h1, h2, h3] at this
    · exact (hin r).mp (h (R.limitRows + r) (by omega)).2
  · rintro ⟨h1, h2⟩ r hr'
    by_cases hin' : R.limitRows ≤ r ∧ r < R.limitRows + m
    · refine ⟨by rw [hlb r hin']; simp, ?_⟩
      have := (hin ⟨r - R.limitRows, by omega⟩).mpr (h2 _)
      have e : R.limitRows + (r - R.limitRows) = r := by omega
      simp only [e] at this
      exact this
    · obtain ⟨e1, e2, e3⟩ := hout r hin'
      rw [e1, e2, e3]
      by_cases hlt : r < R.limitRows
      · exact h1 r hlt
      · obtain ⟨z1, z2, z3⟩ := hz r (by omega)
        rw [z1, z2, z3]
        simpa using hε

theorem taskQP_within {ε : ℝ} (hε : 0 ≤ ε) (R : QPRobot n c) {m : ℕ} (C : Matrix (Fin m) (Fin c) ℝ) (T : TaskReady (Fin n))
    (N : Matrix (Fin n) (Fin n) ℝ) (τprev : Fin n → ℝ) (x : Fin T.t ⊕ Fin (c - 6) → ℝ) :
    (taskQP R C T N τprev).FeasibleWithin ε x ↔
      (∀ L, R.limit = some L → ∀ j, |(τprev + N *ᵥ (T.Jkt *ᵥ (T.Λ *ᵥ (T.f + fun a => x (Sum.inl a))))
          + R.NwJw *ᵥ fun b => x (Sum.inr b)) j| ≤ L j + ε) ∧
      ∀ r, -ε ≤ (C *ᵥ contactForce R.S R.P (τprev + N *ᵥ (T.Jkt *ᵥ (T.Λ *ᵥ (T.f + fun a => x (Sum.inl a))))
          + R.NwJw *ᵥ fun b => x (Sum.inr b))) r := by
  unfold taskQP
  simp only
  rw [rows_within hε R _ _ _ C _ _ _ _ le_rfl]
  have e : τprev + (N * T.Jkt * T.Λ) *ᵥ T.f + taskCols (N * T.Jkt * T.Λ) R.NwJw *ᵥ x
      = τprev + N *ᵥ (T.Jkt *ᵥ (T.Λ *ᵥ (T.f + fun a => x (Sum.inl a)))) + R.NwJw *ᵥ fun b => x (Sum.inr b) := by
    rw [taskCols_mulVec, mulVec_mulVec, mulVec_mulVec, mulVec_add, Matrix.mul_assoc]
    abel
  rw [e]
  rfl

theorem redistributeQP_within {ε : ℝ} (hε : 0 ≤ ε) (R : QPRobot n c) {m : ℕ} (C : Matrix (Fin m) (Fin c) ℝ) (τin : Fin n → ℝ)
    (hact : 1 ≤ (active R.cs).length) (q : Fin (c - 6) → ℝ) :
    (redistributeQP R C τin).FeasibleWithin ε q ↔
      (∀ L, R.limit = some L → ∀ j, |(τin + R.NwJw *ᵥ q) j| ≤ L j + ε) ∧
      ∀ r, -ε ≤ (C *ᵥ contactForce R.S R.P (τin + R.NwJw *ᵥ q)) r := by
  unfold redistributeQP
  simp only
  have : m ≤ (active R.cs).length * m := by
    calc m = 1 * m := (one_mul m).symm
      _ ≤ _ := Nat.mul_le_mul_right m hact
  rw [rows_within hε R _ _ _ C _ _ _ _ (Nat.add_le_add_right this _)]
  rfl

/-- The rows of one contact up to a tolerance. -/
theorem contactConst_within (ε : ℝ) (l : ContactLink) (w : Fin 6 → ℝ) :
    (∀ r, -ε ≤ (contactConst l *ᵥ w) r) ↔ CarriesWithin ε l.planeX l.planeY l.friction l.frictionZ w := by
  have h1 : ∀ r : Fin 4, (contactConst l *ᵥ w) ⟨r, by omega⟩ = (zmpConst l.planeX l.planeY *ᵥ w) r := by
    intro r; simp [contactConst, mulVec]
  have h2 : ∀ r : Fin 6, (contactConst l *ᵥ w) ⟨r + 4, by omega⟩ = (forceConst l.friction l.frictionZ *ᵥ w) r := by
    intro r; simp [contactConst, mulVec]
  have hz : (∀ i, -ε ≤ (zmpConst l.planeX l.planeY *ᵥ w) i) ↔ |w 4| ≤ l.planeX * press w + ε ∧ |w 3| ≤ l.planeY * press w + ε := by
    simp only [abs_le, press]
    constructor
    · intro h
      have h0 := h 0; have h1 := h 1; have h2 := h 2; have h3 := h 3
      simp [zmpConst, mulVec, dotProduct, Fin.sum_univ_succ] at h0 h1 h2 h3
      refine ⟨⟨?_, ?_⟩, ?_, ?_⟩ <;> linarith
    · rintro ⟨⟨h0, h1⟩, h2, h3⟩ i
      fin_cases i <;> simp [zmpConst, mulVec, dotProduct, Fin.sum_univ_succ] <;> linarith
  have hf : (∀ i, -ε ≤ (forceConst l.friction l.frictionZ *ᵥ w) i) ↔
      |w 0| ≤ l.friction * press w + ε ∧ |w 1| ≤ l.friction * press w + ε ∧ |w 5| ≤ l.frictionZ * press w + ε := by
    simp only [abs_le, press]
    constructor
    · intro h
      have h0 := h 0; have h1 := h 1; have h2 := h 2; have h3 := h 3; have h4 := h 4; have h5 := h 5
      simp [forceConst, mulVec, dotProduct, Fin.sum_univ_succ] at h0 h1 h2 h3 h4 h5
      refine ⟨⟨?_, ?_⟩, ⟨?_, ?_⟩, ?_, ?_⟩ <;> linarith
    · rintro ⟨⟨h0, h1⟩, ⟨h2, h3⟩, h4, h5⟩ i
      fin_cases i <;> simp [forceConst, mulVec, dotProduct, Fin.sum_univ_succ] <;> linarith
  have hall : (∀ r, -ε ≤ (contactConst l *ᵥ w) r) ↔
      (∀ r, -ε ≤ (zmpConst l.planeX l.planeY *ᵥ w) r) ∧ ∀ r, -ε ≤ (forceConst l.friction l.frictionZ *ᵥ w) r := by
    constructor
    · intro h
      exact ⟨fun r => by rw [← h1]; exact h _, fun r => by rw [← h2]; exact h _⟩
    · rintro ⟨ha, hb⟩ r
      by_cases hr : r.val < 4
      · have := ha ⟨r, hr⟩; rw [← h1] at this; exact this
      · have := hb ⟨r - 4, by omega⟩; rw [← h2] at this
        have e : (⟨r.val - 4 + 4, by omega⟩ : Fin 10) = r := by ext; simp; omega
        simp only [e] at this; exact this
  rw [hall, hz, hf]
  unfold CarriesWithin
  tauto

/-- The rows of all contacts up to a tolerance; also the statement for exact rows (`stackC_spec`) with the same matrix. -/
theorem stackC_within (cs : List ContactLink) (h6 : ∀ l ∈ cs, l.type = .c6d) (hc : c = 6 * (active cs).length) :
    ∃ C, stackC cs c = some ⟨10 * (active cs).length, C⟩ ∧
      ∀ (ε : ℝ) (F : Fin c → ℝ), (∀ r, -ε ≤ (C *ᵥ F) r) ↔
        ∀ i : Fin (active cs).length, CarriesWithin ε (active cs)[i].planeX (active cs)[i].planeY (active cs)[i].friction
          (active cs)[i].frictionZ (inFrame (active cs)[i].rotm (wrenchOf (F ∘ Fin.cast hc.symm) i)) := by
  subst hc
  have hall : All6 (active cs) := fun l hl => by
    have := List.mem_filter.mp hl
    exact ⟨this.2, h6 l this.1⟩
  obtain ⟨C, Rm, e, hr, h⟩ := rows_apply (active cs) hall
  refine ⟨C.toMatrix (10 * (active cs).length) (6 * (active cs).length) * Rm.toMatrix _ (6 * (active cs).length), ?_, ?_⟩
  · have hm : constraintMats cs = some (C, Rm) := by
      unfold constraintMats
      rw [totalDof_filter, totalConstraints_filter,
        totalDof_six hall, totalConstraints_six hall]
      simp only [Option.bind_eq_bind, Option.bind_some]
      rw [fillRows_filter]
      exact e
    unfold stackC
    rw [hm, totalDof_filter, totalDof_six hall]
    simp only [Option.bind_eq_bind, Option.bind_some, if_true, Option.pure_def]
    rw [hr]
  · intro ε F
    simp only [← contactConst_within]
    constructor
    · intro hr i r
      rw [show F ∘ Fin.cast rfl = F from rfl, ← h]; exact hr _
    · intro hr r
      have := hr ⟨r / 10, by omega⟩ ⟨r % 10, by omega⟩
      rw [show F ∘ Fin.cast rfl = F from rfl, ← h] at this
      have e : (⟨10 * (r.val / 10) + r.val % 10, by omega⟩ : Fin (10 * (active cs).length)) = r := by
        ext; simp; omega
      simp only [e] at this
      exact this

end

end Verif
