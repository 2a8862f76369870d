import Verif.Model.JaccQP
import Verif.Spec.Dynamics
import Mathlib.Algebra.Order.Group.Abs
import Mathlib.Tactic.Linarith

/-!
# Lemmas about the joint-acceleration QP
-/
set_option linter.unusedSectionVars false

namespace Verif
open Matrix Verif.Spec Verif.Model

variable {ι : Type} [Fintype ι] [DecidableEq ι] {c : ℕ} {tb : ι → Option ℝ}

theorem jCols_dot {t : ℕ} (a : Fin 6 ⊕ ι → ℝ) (τ : ι → ℝ) (F : Fin c → ℝ) (s : Fin t → ℝ)
    (x : JVar ι c t → ℝ) :
    jCols a τ F s ⬝ᵥ x = a ⬝ᵥ (fun i => x (.inl i)) + (τ ⬝ᵥ (fun j => x (.inr (.inl j))) +
      (F ⬝ᵥ (fun k => x (.inr (.inr (.inl k)))) + s ⬝ᵥ (fun k => x (.inr (.inr (.inr k)))))) := by
  simp only [jCols, dotProduct, Fintype.sum_sum_type, Sum.elim_inl, Sum.elim_inr]

theorem jST_dot (τ : ι → ℝ) (i : Fin 6 ⊕ ι) : (jST (ι := ι)) i ⬝ᵥ τ = actuate τ i := by
  rcases i with i | i <;> simp [jST, dotProduct, actuate]

/-- A point of the joint-acceleration QP is feasible exactly when it is an admissible motion. -/
theorem jaccQP_feasible (tb : ι → Option ℝ) (R : JRobot ι c) {m : ℕ} (M : Matrix (Fin m) (Fin c) ℝ) (prev : List (JPrev ι)) (t : ℕ)
    (J : Matrix (Fin t) (Fin 6 ⊕ ι) ℝ) (f : Fin t → ℝ) (x : JVar ι c t → ℝ) :
    let a := fun i => x (.inl i)
    let τ := fun j => x (.inr (.inl j))
    let F := fun k => x (.inr (.inr (.inl k)))
    let s := fun k => x (.inr (.inr (.inr k)))
    (jaccQP tb R M prev t J f).Feasible x ↔
      Motion R.A R.Jc R.G τ a F ∧ (∀ i : Fin prev.length, (prev[i]).J *ᵥ a = (prev[i]).b) ∧ J *ᵥ a = f + s ∧
      (∀ r, (M *ᵥ F) r ≤ 0) ∧ (∀ j, ∀ b ∈ tb j, |τ j| ≤ b) ∧ ∀ j, |a (.inr j)| ≤ 10 := by
  intro a τ F s
  unfold BoxQP.Feasible
  simp only [Sum.forall, jaccQP, Option.mem_def, Option.some.injEq, forall_eq', jCols_dot, zero_dotProduct,
    add_zero, zero_add, neg_dotProduct, reduceCtorEq, false_implies, implies_true, true_and, and_true, jST_dot,
    Sigma.forall]
  have e1 : Motion R.A R.Jc R.G τ a F ↔
      ((∀ i, -R.G (.inl i) ≤ R.A (.inl i) ⬝ᵥ a + (-actuate τ (.inl i) + R.Jcᵀ (.inl i) ⬝ᵥ F) ∧
          R.A (.inl i) ⬝ᵥ a + (-actuate τ (.inl i) + R.Jcᵀ (.inl i) ⬝ᵥ F) ≤ -R.G (.inl i)) ∧
        ∀ i, -R.G (.inr i) ≤ R.A (.inr i) ⬝ᵥ a + (-actuate τ (.inr i) + R.Jcᵀ (.inr i) ⬝ᵥ F) ∧
          R.A (.inr i) ⬝ᵥ a + (-actuate τ (.inr i) + R.Jcᵀ (.inr i) ⬝ᵥ F) ≤ -R.G (.inr i)) ∧
      ∀ k, 0 ≤ R.Jc k ⬝ᵥ a ∧ R.Jc k ⬝ᵥ a ≤ 0 := by
    unfold Motion Dynamics ContactsFixed
    refine and_congr ?_ ?_
    · rw [funext_iff, Sum.forall]
      refine and_congr (forall_congr' fun i => ?_) (forall_congr' fun i => ?_)
      all_goals
        simp only [Pi.add_apply, mulVec]
        constructor
        · intro h; constructor <;> linarith
        · rintro ⟨h1, h2⟩; linarith
    · rw [funext_iff]
      refine forall_congr' fun k => ?_
      simp only [mulVec, Pi.zero_apply]
      constructor
      · intro h; constructor <;> linarith
      · rintro ⟨h1, h2⟩; linarith
  have e2 : (∀ i : Fin prev.length, (prev[i]).J *ᵥ a = (prev[i]).b) ↔
      ∀ (i : Fin prev.length) (k : Fin (prev[i]).t), (prev[i]).b k ≤ (prev[i]).J k ⬝ᵥ a ∧
        (prev[i]).J k ⬝ᵥ a ≤ (prev[i]).b k := by
    refine forall_congr' fun i => ?_
    rw [funext_iff]
    refine forall_congr' fun k => ?_
    simp only [mulVec]
    constructor
    · intro h; constructor <;> linarith
    · rintro ⟨h1, h2⟩; linarith
  have e3 : J *ᵥ a = f + s ↔ ∀ k, f k ≤ J k ⬝ᵥ a + -((1 : Matrix (Fin t) (Fin t) ℝ) k ⬝ᵥ s) ∧
      J k ⬝ᵥ a + -((1 : Matrix (Fin t) (Fin t) ℝ) k ⬝ᵥ s) ≤ f k := by
    rw [funext_iff]
    refine forall_congr' fun k => ?_
    have : (1 : Matrix (Fin t) (Fin t) ℝ) k ⬝ᵥ s = s k := congrFun (one_mulVec s) k
    rw [this]
    simp only [mulVec, Pi.add_apply]
    constructor
    · intro h; constructor <;> linarith
    · rintro ⟨h1, h2⟩; linarith
  rw [e1, e2, e3]
  have e4 : (∀ (j : ι) (b : ℝ), tb j = some b → |τ j| ≤ b) ↔ ∀ j, (∀ b, Option.map (-·) (tb j) = some b → b ≤ τ j) ∧ ∀ b, tb j = some b → τ j ≤ b := by
    refine forall_congr' fun j => ?_
    rcases tb j with _ | b
    · simp
    · simp [abs_le]
  rw [e4]
  simp only [abs_le, mulVec]
  constructor
  · rintro ⟨⟨h1, h2, h3, h4, h5⟩, h6, h7⟩
    exact ⟨⟨h1, h2⟩, h3, h4, h5, h7, h6⟩
  · rintro ⟨⟨h1, h2⟩, h3, h4, h5, h7, h6⟩
    exact ⟨⟨h1, h2, h3, h4, h5⟩, h6, h7⟩

theorem jPrevs_eq : ∀ (l : List (JTask ι c)) (p : List (JPrev ι)), jPrevs l = some p →
    p.length = l.length ∧ ∀ (i : ℕ) (T : JTask ι c), l[i]? = some T → ∃ q, T.fqp = some q ∧
      p[i]? = some ⟨T.t, T.J, T.f + q⟩
  | [], p, h => by simp [jPrevs] at h; subst h; simp
  | T :: rest, p, h => by
    unfold jPrevs at h
    split at h
    · rename_i q l hq hl
      simp only [Option.some.injEq] at h
      subst h
      obtain ⟨h1, h2⟩ := jPrevs_eq rest l hl
      refine ⟨by simp [h1], fun i T' hT => ?_⟩
      rcases i with _ | i
      · simp only [List.getElem?_cons_zero, Option.some.injEq] at hT
        subst hT
        exact ⟨q, hq, by simp⟩
      · simp only [List.getElem?_cons_succ] at hT ⊢
        exact h2 i T' hT
    · cases h

/-- With contacts of which some is a point contact the number of rows counted is less than ten per contact. -/
theorem totalConstraints_le : ∀ (cs : List ContactLink) {m : ℕ}, totalConstraints cs = some m →
    m ≤ 10 * (active cs).length ∧ ((∃ l ∈ cs, l.contact = true ∧ l.type = .point) → m < 10 * (active cs).length)
  | [], m, h => by simp [totalConstraints] at h; subst h; simp [active]
  | l :: rest, m, h => by
    unfold totalConstraints at h
    by_cases hl : l.contact
    · rw [if_pos hl] at h
      rcases ha : l.type.constraints with _ | a
      · simp [ha] at h
      rcases hb : totalConstraints rest with _ | b
      · simp [ha, hb] at h
      simp only [ha, hb, Option.bind_eq_bind, Option.bind_some, Option.pure_def, Option.some.injEq] at h
      subst h
      have ih := totalConstraints_le rest hb
      have e : (active (l :: rest)).length = (active rest).length + 1 := by simp [active, hl]
      have ha' : a ≤ 10 ∧ (l.type = .point → a = 6) := by
        rcases ht : l.type <;> simp_all [ContactType.constraints] <;> omega
      rw [e]
      refine ⟨by omega, ?_⟩
      rintro ⟨l', hl', hc, hp⟩
      rcases List.mem_cons.mp hl' with rfl | hr
      · have := ha'.2 hp; omega
      · have := ih.2 ⟨l', hr, hc, hp⟩; omega
    · rw [if_neg hl] at h
      have ih := totalConstraints_le rest h
      have e : active (l :: rest) = active rest := by simp [active, hl]
      rw [e]
      refine ⟨ih.1, ?_⟩
      rintro ⟨l', hl', hc, hp⟩
      rcases List.mem_cons.mp hl' with rfl | hr
      · exact absurd hc hl
      · exact ih.2 ⟨l', hr, hc, hp⟩

theorem getContactConstraintMatrix_rows {cs : List ContactLink} {m c : ℕ} {M : Matrix (Fin m) (Fin c) ℝ}
    (h : getContactConstraintMatrix cs = some ⟨m, c, M⟩) : m = 10 * (active cs).length := by
  unfold getContactConstraintMatrix at h
  rcases hc : totalDof cs with _ | k
  · simp [hc] at h
  rcases hf : fillRows cs 0 0 (.zero (10 * (active cs).length) k) (.zero k k) with _ | M'
  · simp [hc, hf] at h
  simp only [hc, hf, Option.bind_eq_bind, Option.bind_some, Option.pure_def, Option.some.injEq] at h
  exact (congrArg Sigma.fst h).symm

theorem jContactRows_point {cs : List ContactLink} {c : ℕ}
    (h : ∃ l ∈ cs, l.contact = true ∧ l.type = .point) : jContactRows cs c = none := by
  unfold jContactRows
  split
  · rename_i m m' c' M hm hM _
    have h1 := getContactConstraintMatrix_rows hM
    have h2 := (totalConstraints_le cs hm).2 h
    rw [dif_neg (by omega)]
  · rfl

/-- One successful call. -/
theorem jaccCall_success {rows : Option ((m : ℕ) × Matrix (Fin m) (Fin c) ℝ)} {R : JRobot ι c} {solve : JSolver} (hs : solve.Sound) {ts ts' : List (JTask ι c)} {j : ℕ}
    (h : jaccCallWith tb rows R solve ts j = some (true, ts')) :
    ∃ (T : JTask ι c) (m : ℕ) (M : Matrix (Fin m) (Fin c) ℝ) (o : JAnswer ι c) (s : Fin T.t → ℝ),
      ts[j]? = some T ∧ ts' = ts.set j { T with fqp := some s, out := some o } ∧
      rows = some ⟨m, M⟩ ∧
      Motion R.A R.Jc R.G o.torque o.acc o.force ∧
      (∀ (i : ℕ) (P : JTask ι c), i < j → ts[i]? = some P → ∃ q, P.fqp = some q ∧ P.J *ᵥ o.acc = P.f + q) ∧
      T.J *ᵥ o.acc = T.f + s ∧ (∀ r, (M *ᵥ o.force) r ≤ 0) ∧
      (∀ i, ∀ b ∈ tb i, |o.torque i| ≤ b) ∧ ∀ i, |o.acc (.inr i)| ≤ 10 := by
  unfold jaccCallWith at h
  split at h
  · cases h
  rename_i T hT
  split at h
  · rename_i prev m M hp
    split at h
    · simp at h
    · rename_i x hx
      simp only [Option.some.injEq, Prod.mk.injEq, true_and] at h
      subst h
      obtain ⟨h1, h2, h3, h4, h5, h6⟩ := (jaccQP_feasible tb R M prev T.t T.J T.f x).mp (hs _ _ _ _ _ hx)
      refine ⟨T, m, M, ⟨fun i => x (.inl i), fun k => x (.inr (.inl k)), fun k => x (.inr (.inr (.inl k)))⟩,
        fun k => x (.inr (.inr (.inr k))), hT, rfl, rfl, h1, fun i P hi hP => ?_, h3, h4, h5, h6⟩
      obtain ⟨hl, hq⟩ := jPrevs_eq _ _ hp
      obtain ⟨q, e, hq⟩ := hq i P (by rw [List.getElem?_take_of_lt hi]; exact hP)
      refine ⟨q, e, ?_⟩
      have key : ∀ Q : JPrev ι, prev[i]? = some Q → Q.J *ᵥ (fun i => x (.inl i)) = Q.b := by
        intro Q hQ
        obtain ⟨hi', rfl⟩ := List.getElem?_eq_some_iff.mp hQ
        exact h2 ⟨i, hi'⟩
      exact key _ hq
  · cases h

end Verif
