import Verif.Props.Tolerance
import Verif.Props.JaccQP
import Verif.Props.JaccAnswers

/-!
# C88: the joint-acceleration QP with a solver that stops at a tolerance
-/

set_option linter.unusedSectionVars false

namespace Verif.Props
open Matrix Verif Verif.Spec Verif.Model

variable {ι : Type} [Fintype ι] [DecidableEq ι] {c : ℕ}

/-- Answers keep the constraints up to `ε` and cost at most `δ` too much. -/
def JSolverWithin (ε δ : ℝ) (solve : JSolver) : Prop :=
  ∀ (i : ℕ) (V R : Type) [Fintype V] (d : BoxQP V R) (x : V → ℝ), solve i V R d = some x → d.SolvedWithin ε δ x

/-- A problem that has a solution within the tolerances is answered. -/
def JAnswersWithin (ε δ : ℝ) (solve : JSolver) : Prop :=
  ∀ (i : ℕ) (V R : Type) [Fintype V] (d : BoxQP V R), (∃ x, d.SolvedWithin ε δ x) → solve i V R d ≠ none

/-- An answer is admissible up to `ε`: the equations of motion and the contact accelerations are off by at most `ε` in each row, and torque,
acceleration and contact bounds are exceeded by at most `ε`. -/
structure JAdmissibleWithin (ε : ℝ) (R : JRobot ι c) (hc : c = 6 * (active R.cs).length) (o : JAnswer ι c) : Prop where
  dynamics : ∀ i, |(R.A *ᵥ o.acc + R.Jcᵀ *ᵥ o.force + R.G - actuate o.torque) i| ≤ ε
  fixed : ∀ k, |(R.Jc *ᵥ o.acc) k| ≤ ε
  torque : ∀ i, |o.torque i| ≤ 200 + ε
  acc : ∀ i, |o.acc (.inr i)| ≤ 10 + ε
  contacts : ContactsNear ε R.cs (o.force ∘ Fin.cast hc.symm)

theorem jaccQP_within (ε : ℝ) (R : JRobot ι c) {m : ℕ} (M : Matrix (Fin m) (Fin c) ℝ) (prev : List (JPrev ι)) (t : ℕ)
    (J : Matrix (Fin t) (Fin 6 ⊕ ι) ℝ) (f : Fin t → ℝ) (x : JVar ι c t → ℝ) :
    let a := fun i => x (.inl i)
    let τ := fun j => x (.inr (.inl j))
    let F := fun k => x (.inr (.inr (.inl k)))
    let s := fun k => x (.inr (.inr (.inr k)))
    (jaccQP (fun _ => some 200) R M prev t J f).FeasibleWithin ε x ↔
      (∀ i, |(R.A *ᵥ a + R.Jcᵀ *ᵥ F + R.G - actuate τ) i| ≤ ε) ∧ (∀ k, |(R.Jc *ᵥ a) k| ≤ ε) ∧
      (∀ (i : Fin prev.length) (k : Fin (prev[i]).t), |((prev[i]).J *ᵥ a) k - (prev[i]).b k| ≤ ε) ∧
      (∀ k, |(J *ᵥ a) k - (f k + s k)| ≤ ε) ∧
      (∀ r, (M *ᵥ F) r ≤ ε) ∧ (∀ j, |τ j| ≤ 200 + ε) ∧ ∀ j, |a (.inr j)| ≤ 10 + ε := by
  intro a τ F s
  have hone : ∀ k, (1 : Matrix (Fin t) (Fin t) ℝ) k ⬝ᵥ s = s k := fun k => congrFun (one_mulVec s) k
  unfold BoxQP.FeasibleWithin
  simp only [Sum.forall, jaccQP, Option.mem_def, Option.some.injEq, forall_eq', jCols_dot, zero_dotProduct,
    add_zero, zero_add, neg_dotProduct, reduceCtorEq, false_implies, implies_true, true_and, and_true, jST_dot,
    Sigma.forall, Option.map_some]
  simp only [abs_le, Pi.add_apply, Pi.sub_apply, mulVec]
  constructor
  · rintro ⟨⟨⟨h1, h2⟩, h3, h4, h5, h6⟩, h7, h8⟩
    refine ⟨⟨fun i => ?_, fun i => ?_⟩, fun k => ?_, fun i k => ?_, fun k => ?_, fun r => ?_, fun j => ?_, fun j => ?_⟩
    · have := h1 i; constructor <;> linarith
    · have := h2 i; constructor <;> linarith
    · have := h3 k; constructor <;> linarith
    · have := h4 i k; constructor <;> linarith
    · have := h5 k; have e := hone k; constructor <;> linarith
    · exact h6 r
    · have := h8 j; constructor <;> linarith
    · have := h7 j; constructor <;> linarith
  · rintro ⟨⟨h1, h2⟩, h3, h4, h5, h6, h8, h7⟩
    refine ⟨⟨⟨fun i => ?_, fun i => ?_⟩, fun k => ?_, fun i k => ?_, fun k => ?_, fun r => ?_⟩, fun j => ?_, fun j => ?_⟩
    · have := h1 i; constructor <;> linarith
    · have := h2 i; constructor <;> linarith
    · have := h3 k; constructor <;> linarith
    · have := h4 i k; constructor <;> linarith
    · have := h5 k; have e := hone k; constructor <;> linarith
    · exact h6 r
    · have := h7 j; constructor <;> linarith
    · have := h8 j; constructor <;> linarith

theorem jContactRows_within {cs : List ContactLink} (h6 : ∀ l ∈ cs, l.type = .c6d) (hc : c = 6 * (active cs).length) :
    ∃ M, jContactRows cs c = some ⟨10 * (active cs).length, M⟩ ∧
      ∀ (ε : ℝ) (F : Fin c → ℝ), (∀ r, (M *ᵥ F) r ≤ ε) ↔ ContactsNear ε cs (F ∘ Fin.cast hc.symm) := by
  subst hc
  have hall : All6 (active cs) := fun l hl => by
    have := List.mem_filter.mp hl
    exact ⟨this.2, h6 l this.1⟩
  obtain ⟨C, Rm, e, -, h⟩ := rows_apply (active cs) hall
  refine ⟨-(C.toMatrix (10 * (active cs).length) (6 * (active cs).length) * Rm.toMatrix _ (6 * (active cs).length)), ?_, ?_⟩
  · have hg : getContactConstraintMatrix cs = some ⟨_, _, -(C.toMatrix (10 * (active cs).length) (6 * (active cs).length) *
        Rm.toMatrix _ (6 * (active cs).length))⟩ := by
      unfold getContactConstraintMatrix
      rw [totalDof_filter, totalDof_six hall]
      simp only [Option.bind_eq_bind, Option.bind_some]
      rw [fillRows_filter]
      change Option.bind (fillRows (active cs) 0 0 (.zero (10 * (active cs).length) (6 * (active cs).length)) _) _ = _
      rw [e]
      rfl
    obtain ⟨C2, e2, -⟩ := stackC_spec cs h6 rfl
    have hm : ∃ Q, constraintMats cs = some Q := by
      rcases hQ : constraintMats cs with _ | Q
      · simp [stackC, hQ] at e2
      · exact ⟨Q, rfl⟩
    obtain ⟨Q, hQ⟩ := hm
    have ht : totalConstraints cs = some (10 * (active cs).length) := by
      rw [totalConstraints_filter, totalConstraints_six hall]
    unfold jContactRows
    rw [ht, hg, hQ]
    simp
  · intro ε F
    simp only [ContactsNear, ← contactConst_within, neg_mulVec, Pi.neg_apply]
    constructor
    · intro hr i r
      rw [show F ∘ Fin.cast rfl = F from rfl, ← h]
      exact neg_le.mp (hr _)
    · intro hr r
      have := hr ⟨r / 10, by omega⟩ ⟨r % 10, by omega⟩
      rw [show F ∘ Fin.cast rfl = F from rfl, ← h] at this
      have e : (⟨10 * (r.val / 10) + r.val % 10, by omega⟩ : Fin (10 * (active cs).length)) = r := by
        ext; simp; omega
      simp only [e] at this
      exact neg_le.mp this

/-- one successful call -/
theorem jaccCall_within {ε δ : ℝ} {R : JRobot ι c} (h6 : ∀ l ∈ R.cs, l.type = .c6d) (hc : c = 6 * (active R.cs).length)
    {solve : JSolver} (hs : JSolverWithin ε δ solve) {ts ts' : List (JTask ι c)} {j : ℕ} (h : jaccCall R solve ts j = some (true, ts')) :
    ∃ (T : JTask ι c) (o : JAnswer ι c) (s : Fin T.t → ℝ), ts[j]? = some T ∧ ts' = ts.set j { T with fqp := some s, out := some o } ∧
      JAdmissibleWithin ε R hc o ∧
      (∀ (i : ℕ) (P : JTask ι c), i < j → ts[i]? = some P → ∃ q, P.fqp = some q ∧ ∀ k, |(P.J *ᵥ o.acc) k - (P.f k + q k)| ≤ ε) ∧
      (∀ k, |(T.J *ᵥ o.acc) k - (T.f k + s k)| ≤ ε) := by
  obtain ⟨M, hM, hMF⟩ := jContactRows_within h6 hc
  unfold jaccCall jaccCallWith at h
  rw [hM] at h
  split at h
  · cases h
  rename_i T hT
  split at h
  · rename_i prev m' M' hp hM'
    simp only [Option.some.injEq, Sigma.mk.injEq] at hM'
    obtain ⟨rfl, hM'⟩ := hM'
    obtain rfl := eq_of_heq hM'
    split at h
    · simp at h
    rename_i x hx
    simp only [Option.some.injEq, Prod.mk.injEq, true_and] at h
    subst h
    obtain ⟨h1, h2, h3, h4, h5, h7, h8⟩ := (jaccQP_within ε R M prev T.t T.J T.f x).mp (hs _ _ _ _ _ hx).1
    refine ⟨T, ⟨fun i => x (.inl i), fun k => x (.inr (.inl k)), fun k => x (.inr (.inr (.inl k)))⟩,
      fun k => x (.inr (.inr (.inr k))), hT, rfl, ⟨h1, h2, h7, h8, (hMF _ _).mp h5⟩, fun i P hi hP => ?_, h4⟩
    obtain ⟨hl, hq⟩ := jPrevs_eq _ _ hp
    obtain ⟨q, e, hq⟩ := hq i P (by rw [List.getElem?_take_of_lt hi]; exact hP)
    refine ⟨q, e, ?_⟩
    have key : ∀ Q : JPrev ι, prev[i]? = some Q → ∀ k, |(Q.J *ᵥ fun i => x (.inl i)) k - Q.b k| ≤ ε := by
      intro Q hQ
      obtain ⟨hi', rfl⟩ := List.getElem?_eq_some_iff.mp hQ
      exact h3 ⟨i, hi'⟩
    exact key _ hq
  · cases h

/-- the stored state after a successful pass -/
theorem jaccPass_within {ε δ : ℝ} {R : JRobot ι c} (h6 : ∀ l ∈ R.cs, l.type = .c6d) (hc : c = 6 * (active R.cs).length)
    {solve : JSolver} (hs : JSolverWithin ε δ solve) (ts : List (JTask ι c)) : ∀ (k : ℕ) (ts' : List (JTask ι c)),
    jaccPass R solve ts k = some (true, ts') →
      (∀ (i : ℕ) (T' : JTask ι c), ts'[i]? = some T' → ∃ T q o, ts[i]? = some T ∧ T' = { T with fqp := q, out := o }) ∧
      ∀ j < k, ∃ (T : JTask ι c) (o : JAnswer ι c) (s : Fin T.t → ℝ), ts'[j]? = some T ∧ T.out = some o ∧
        T.fqp = some s ∧ JAdmissibleWithin ε R hc o ∧ (∀ k, |(T.J *ᵥ o.acc) k - (T.f k + s k)| ≤ ε) ∧
        ∀ (i : ℕ) (P : JTask ι c), i < j → ts'[i]? = some P →
          ∃ q, P.fqp = some q ∧ ∀ k, |(P.J *ᵥ o.acc) k - (P.f k + q k)| ≤ ε
  | 0, ts', h => by
    simp only [jaccPass, jaccPassWith, Option.some.injEq, Prod.mk.injEq, true_and] at h
    subst h
    exact ⟨fun i T' h => ⟨T', T'.fqp, T'.out, h, rfl⟩, fun j hj => absurd hj (Nat.not_lt_zero _)⟩
  | k + 1, ts'', h => by
    unfold jaccPass jaccPassWith at h
    split at h
    · cases h
    rename_i ok ts' h1
    split at h
    · cases h
    rename_i ok' t2 h2
    simp only [Option.some.injEq, Prod.mk.injEq, Bool.and_eq_true] at h
    obtain ⟨⟨rfl, rfl⟩, rfl⟩ := h
    obtain ⟨ih1, ih2⟩ := jaccPass_within h6 hc hs ts k ts' h1
    obtain ⟨T, o, s, hT, rfl, hadm, hprev, hcur⟩ := jaccCall_within h6 hc hs h2
    obtain ⟨hk, -⟩ := List.getElem?_eq_some_iff.mp hT
    have hself : (ts'.set k { T with fqp := some s, out := some o })[k]? =
        some { T with fqp := some s, out := some o } := by
      rw [List.getElem?_set_self hk]
    have hother : ∀ i, i ≠ k → (ts'.set k { T with fqp := some s, out := some o })[i]? = ts'[i]? :=
      fun i hi => by rw [List.getElem?_set_ne (Ne.symm hi)]
    refine ⟨fun i T' hT' => ?_, fun j hj => ?_⟩
    · by_cases hi : i = k
      · subst hi
        rw [hself] at hT'
        simp only [Option.some.injEq] at hT'
        subst hT'
        obtain ⟨T0, q0, o0, h0, rfl⟩ := ih1 _ T hT
        exact ⟨T0, some s, some o, h0, rfl⟩
      · rw [hother i hi] at hT'
        exact ih1 i T' hT'
    · by_cases hjk : j = k
      · subst hjk
        refine ⟨{ T with fqp := some s, out := some o }, o, s, hself, rfl, rfl, hadm, hcur, fun i P hi hP => ?_⟩
        rw [hother i (by omega)] at hP
        exact hprev i P hi hP
      · obtain ⟨T1, o1, s1, a1, a2, a3, a4, a5, a6⟩ := ih2 j (by omega)
        refine ⟨T1, o1, s1, by rw [hother j hjk]; exact a1, a2, a3, a4, a5, fun i P hi hP => ?_⟩
        rw [hother i (by omega)] at hP
        exact a6 i P hi hP

/-- C88.  The joint-acceleration QP: if every call of a pass succeeds, every level's answer is admissible up to the tolerance, and gives each
level above the acceleration that level had achieved up to twice the tolerance, however many levels there are. -/
theorem C88_jacc_stack {ε δ : ℝ} (hε : 0 ≤ ε) {R : JRobot ι c} (h6 : ∀ l ∈ R.cs, l.type = .c6d) (hc : c = 6 * (active R.cs).length)
    {solve : JSolver} (hs : JSolverWithin ε δ solve) {ts ts' : List (JTask ι c)} {k : ℕ}
    (h : jaccPass R solve ts k = some (true, ts')) :
    ∃ o : ℕ → JAnswer ι c, (∀ j < k, ∃ T', ts'[j]? = some T' ∧ T'.out = some (o j)) ∧
      ∀ j < k, JAdmissibleWithin ε R hc (o j) ∧
        ∀ i ≤ j, ∀ T, ts[i]? = some T → ∀ r, |(T.J *ᵥ (o j).acc) r - (T.J *ᵥ (o i).acc) r| ≤ 2 * ε := by
  obtain ⟨h1, h2⟩ := jaccPass_within h6 hc hs ts k ts' h
  have h3 : ∀ j, ∃ o : JAnswer ι c, j < k → ∃ (T : JTask ι c) (s : Fin T.t → ℝ), ts'[j]? = some T ∧ T.out = some o ∧
        T.fqp = some s ∧ JAdmissibleWithin ε R hc o ∧ (∀ k, |(T.J *ᵥ o.acc) k - (T.f k + s k)| ≤ ε) ∧
        ∀ (i : ℕ) (P : JTask ι c), i < j → ts'[i]? = some P →
          ∃ q, P.fqp = some q ∧ ∀ k, |(P.J *ᵥ o.acc) k - (P.f k + q k)| ≤ ε := by
    intro j
    by_cases hj : j < k
    · obtain ⟨T, o, s, h⟩ := h2 j hj
      exact ⟨o, fun _ => ⟨T, s, h⟩⟩
    · exact ⟨⟨0, 0, 0⟩, fun h => absurd h hj⟩
  choose o ho using h3
  refine ⟨o, fun j hj => ?_, fun j hj => ?_⟩
  · obtain ⟨T, s, a1, a2, -⟩ := ho j hj
    exact ⟨T, a1, a2⟩
  · obtain ⟨Tj, s, a1, a2, a3, a4, a5, a6⟩ := ho j hj
    refine ⟨a4, fun i hi T hT r => ?_⟩
    rcases Nat.lt_or_eq_of_le hi with hlt | rfl
    · obtain ⟨Ti, s', b1, b2, b3, b4, b5, b6⟩ := ho i (by omega)
      obtain ⟨T0, q0, o0, c1, rfl⟩ := h1 i Ti b1
      rw [hT, Option.some.injEq] at c1
      subst c1
      obtain ⟨q, d1, d2⟩ := a6 i _ hlt b1
      rw [b3, Option.some.injEq] at d1
      subst d1
      have e1 := abs_le.mp (d2 r)
      have e2 := abs_le.mp (b5 r)
      rw [abs_le]
      constructor <;> linarith
    · rw [sub_self, abs_zero]; linarith

/-- C88.  Each level's answer is nearly the best one.  The stored deviation `s` of a level is what its task is missed by, up to the tolerance,
and `½ q̈ᵀ A q̈ + 50 ‖s‖²` exceeds by at most `δ` the least value of `½ q̈ᵀ A q̈ + 50 ‖J q̈ - f‖²` over the admissible motions that give
the levels above the accelerations stored with them. -/
theorem C88_jacc_best {ε δ : ℝ} {R : JRobot ι c} (h6 : ∀ l ∈ R.cs, l.type = .c6d)
    (hp : ∀ l ∈ R.cs, 0 < l.planeX ∧ 0 < l.planeY) (hc : c = 6 * (active R.cs).length)
    {solve : JSolver} (hs : JSolverWithin ε δ solve) {ts ts' : List (JTask ι c)} {j : ℕ} (h : jaccCall R solve ts j = some (true, ts')) :
    ∃ (T : JTask ι c) (o : JAnswer ι c) (s : Fin T.t → ℝ), ts[j]? = some T ∧ ts'[j]? = some { T with fqp := some s, out := some o } ∧
      JAdmissibleWithin ε R hc o ∧ (∀ k, |(T.J *ᵥ o.acc - T.f) k - s k| ≤ ε) ∧
      ∀ o', JAdmissible R hc o' →
        (∀ (i : ℕ) (P : JTask ι c) (q : Fin P.t → ℝ), i < j → ts[i]? = some P → P.fqp = some q → P.J *ᵥ o'.acc = P.f + q) →
        (1 / 2) * (o.acc ⬝ᵥ (R.A *ᵥ o.acc)) + 50 * (s ⬝ᵥ s) ≤ jaccEffort R T o'.acc + δ := by
  obtain ⟨M, hM, hMF⟩ := jContactRows_six h6 hp hc
  obtain ⟨M2, hM2, hMF2⟩ := jContactRows_within h6 hc
  rw [hM] at hM2
  simp only [Option.some.injEq, Sigma.mk.injEq, heq_eq_eq, true_and] at hM2
  subst hM2
  unfold jaccCall jaccCallWith at h
  rw [hM] at h
  split at h
  · cases h
  rename_i T hT
  split at h
  · rename_i prev m' M' hp' hM'
    simp only [Option.some.injEq, Sigma.mk.injEq] at hM'
    obtain ⟨rfl, hM'⟩ := hM'
    obtain rfl := eq_of_heq hM'
    split at h
    · simp at h
    rename_i x hx
    simp only [Option.some.injEq, Prod.mk.injEq, true_and] at h
    subst h
    obtain ⟨hf, hbest⟩ := hs _ _ _ _ _ hx
    obtain ⟨h1, h2, -, h4, h5, h7, h8⟩ := (jaccQP_within ε R M prev T.t T.J T.f x).mp hf
    obtain ⟨hk, -⟩ := List.getElem?_eq_some_iff.mp hT
    refine ⟨T, ⟨fun i => x (.inl i), fun k => x (.inr (.inl k)), fun k => x (.inr (.inr (.inl k)))⟩,
      fun k => x (.inr (.inr (.inr k))), hT, List.getElem?_set_self hk, ⟨h1, h2, h7, h8, (hMF2 _ _).mp h5⟩, fun k => ?_,
      fun o' ho' hprev => ?_⟩
    · have e : (T.J *ᵥ (fun i => x (.inl i)) - T.f) k - x (.inr (.inr (.inr k))) =
          (T.J *ᵥ fun i => x (.inl i)) k - (T.f k + x (.inr (.inr (.inr k)))) := by
        rw [Pi.sub_apply]; ring
      exact (congrArg abs e).trans_le (h4 k)
    let y : JVar ι c T.t → ℝ := jCols o'.acc o'.torque o'.force (T.J *ᵥ o'.acc - T.f)
    have hy : (jaccQP (fun _ => some 200) R M prev T.t T.J T.f).Feasible y := by
      have ho2 := jAdmissible_iff.mpr ho'
      refine (jaccQP_feasible _ R M prev T.t T.J T.f y).mpr ⟨ho2.motion, fun i => ?_, ?_, (hMF _).mpr ho2.contacts,
        ho2.torque, ho2.acc⟩
      · obtain ⟨hl, hq⟩ := jPrevs_eq _ _ hp'
        have hlt : i.val < (ts.take j).length := by rw [← hl]; exact i.isLt
        have hlt' : i.val < j ∧ i.val < ts.length := by simpa using hlt
        obtain ⟨P, hP⟩ : ∃ P, ts[i.val]? = some P := ⟨_, List.getElem?_eq_getElem hlt'.2⟩
        obtain ⟨q, e, hq⟩ := hq i P (by rw [List.getElem?_take_of_lt hlt'.1]; exact hP)
        have key := hprev i P q hlt'.1 hP e
        obtain ⟨hi', he⟩ := List.getElem?_eq_some_iff.mp hq
        have : ∀ Q : JPrev ι, prev[i] = Q → Q.J *ᵥ o'.acc = Q.b → prev[i].J *ᵥ o'.acc = prev[i].b := by
          rintro Q rfl h; exact h
        exact this _ he key
      · funext k
        simp [y, jCols]
    have := hbest y hy
    rw [jaccQP_cost, jaccQP_cost] at this
    exact this
  · cases h

/-- a point within the tolerance is enough for a solution within the tolerances -/
theorem jaccQP_solvedWithin {ε δ : ℝ} (hε : 0 ≤ ε) (hδ : 0 ≤ δ) {R : JRobot ι c} (hA : IsSPD R.A) {m : ℕ} (M : Matrix (Fin m) (Fin c) ℝ)
    (prev : List (JPrev ι)) (t : ℕ) (J : Matrix (Fin t) (Fin 6 ⊕ ι) ℝ) (f : Fin t → ℝ)
    (h : ∃ x, (jaccQP (fun _ => some 200) R M prev t J f).FeasibleWithin ε x) :
    ∃ x, (jaccQP (fun _ => some 200) R M prev t J f).SolvedWithin ε δ x := by
  by_cases he : ∃ x, (jaccQP (fun _ => some 200) R M prev t J f).Feasible x
  · obtain ⟨x, hx, hb⟩ := jaccQP_exists hA M prev t J f he
    refine ⟨x, ⟨fun r => ⟨fun b hb => ?_, fun b hb => ?_⟩, fun v => ⟨fun b hb => ?_, fun b hb => ?_⟩⟩, fun y hy => ?_⟩
    · linarith [(hx.1 r).1 b hb]
    · linarith [(hx.1 r).2 b hb]
    · linarith [(hx.2 v).1 b hb]
    · linarith [(hx.2 v).2 b hb]
    · linarith [hb y hy]
  · obtain ⟨x, hx⟩ := h
    exact ⟨x, hx, fun y hy => absurd ⟨y, hy⟩ he⟩

/-- C88.  Levels never block each other if solvability is decided with the tolerance of the answers: after the levels `0 … k-1` (`k ≥ 1`)
level `k` succeeds. -/
theorem C88_jacc_next {ε δ : ℝ} (hε : 0 ≤ ε) (hδ : 0 ≤ δ) {R : JRobot ι c} (hA : IsSPD R.A) (h6 : ∀ l ∈ R.cs, l.type = .c6d) (hc : c = 6 * (active R.cs).length)
    {solve : JSolver} (hs : JSolverWithin ε δ solve) (hans : JAnswersWithin ε δ solve) {ts ts' : List (JTask ι c)} {k : ℕ} (hk : 0 < k)
    (hlen : k < ts'.length) (h : jaccPass R solve ts k = some (true, ts')) :
    ∃ ts'', jaccPass R solve ts (k + 1) = some (true, ts'') ∧ ts''.length = ts'.length := by
  obtain ⟨h1, h2⟩ := jaccPass_within h6 hc hs ts k ts' h
  obtain ⟨M, hM, hMF⟩ := jContactRows_within h6 hc
  obtain ⟨T, o, s, a1, a2, a3, a4, a5, a6⟩ := h2 (k - 1) (by omega)
  obtain ⟨K, hK⟩ : ∃ K, ts'[k]? = some K := ⟨_, List.getElem?_eq_getElem hlen⟩
  obtain ⟨prev, hprev⟩ : ∃ p, jPrevs (ts'.take k) = some p := by
    refine jPrevs_some fun P hP => ?_
    obtain ⟨i, hi, rfl⟩ := List.mem_take_iff_getElem.mp hP
    obtain ⟨T', o', s', b1, -, b3, -⟩ := h2 i (by omega)
    rw [List.getElem?_eq_getElem (by omega), Option.some.injEq] at b1
    subst b1
    rw [b3]; simp
  have hkeep : ∀ (i : ℕ) (P : JTask ι c), i < k → ts'[i]? = some P →
      ∃ q, P.fqp = some q ∧ ∀ k, |(P.J *ᵥ o.acc) k - (P.f k + q k)| ≤ ε := by
    intro i P hi hP
    by_cases e : i = k - 1
    · subst e
      rw [a1, Option.some.injEq] at hP
      subst hP
      exact ⟨s, a3, a5⟩
    · exact a6 i P (by omega) hP
  have hfeas : ∃ x, (jaccQP (fun _ => some 200) R M prev K.t K.J K.f).FeasibleWithin ε x := by
    refine ⟨jCols o.acc o.torque o.force (K.J *ᵥ o.acc - K.f), (jaccQP_within ε R M prev _ _ _ _).mpr
      ⟨a4.dynamics, a4.fixed, fun i => ?_, fun r => ?_, (hMF _ _).mpr a4.contacts, a4.torque, a4.acc⟩⟩
    · obtain ⟨hl, hq⟩ := jPrevs_eq _ _ hprev
      have hlt : i.val < (ts'.take k).length := by rw [← hl]; exact i.isLt
      have hlt' : i.val < k ∧ i.val < ts'.length := by simpa using hlt
      obtain ⟨P, hP⟩ : ∃ P, ts'[i.val]? = some P := ⟨_, List.getElem?_eq_getElem hlt'.2⟩
      obtain ⟨q, e, hq⟩ := hq i P (by rw [List.getElem?_take_of_lt hlt'.1]; exact hP)
      obtain ⟨q', e', key⟩ := hkeep i P hlt'.1 hP
      rw [e, Option.some.injEq] at e'
      subst e'
      obtain ⟨hi', he⟩ := List.getElem?_eq_some_iff.mp hq
      have : ∀ Q : JPrev ι, prev[i] = Q → (∀ k, |(Q.J *ᵥ o.acc) k - Q.b k| ≤ ε) →
          ∀ k : Fin (prev[i]).t, |((prev[i]).J *ᵥ o.acc) k - (prev[i]).b k| ≤ ε := by
        rintro Q rfl h; exact h
      exact this _ he key
    · have e : (K.J *ᵥ o.acc) r - (K.f r + (K.J *ᵥ o.acc - K.f) r) = 0 := by simp
      exact (congrArg abs e).trans_le (by rw [abs_zero]; exact hε)
  obtain ⟨x, hx⟩ := Option.ne_none_iff_exists'.mp (hans k _ _ _ (jaccQP_solvedWithin hε hδ hA _ _ _ _ _ hfeas))
  refine ⟨ts'.set k (K.store x), ?_, by simp⟩
  unfold jaccPass at h ⊢
  unfold jaccPassWith
  rw [h]
  simp only [jaccCall, jaccCallWith, hK, hprev, hM, hx, Bool.and_self]

/-- C88.  If the robot has any admissible motion at all, no level fails, however many there are. -/
theorem C88_jacc_never_fails {ε δ : ℝ} (hε : 0 ≤ ε) (hδ : 0 ≤ δ) {R : JRobot ι c} (hA : IsSPD R.A) (h6 : ∀ l ∈ R.cs, l.type = .c6d)
    (hp : ∀ l ∈ R.cs, 0 < l.planeX ∧ 0 < l.planeY) (hc : c = 6 * (active R.cs).length)
    {solve : JSolver} (hs : JSolverWithin ε δ solve) (hans : JAnswersWithin ε δ solve) (ho : ∃ o, JAdmissible R hc o)
    (ts : List (JTask ι c)) : ∀ k ≤ ts.length, ∃ ts', jaccPass R solve ts k = some (true, ts') ∧ ts'.length = ts.length := by
  intro k
  induction k with
  | zero => exact fun _ => ⟨ts, rfl, rfl⟩
  | succ k ih =>
    intro hk
    obtain ⟨ts', h, hl⟩ := ih (by omega)
    rcases Nat.eq_zero_or_pos k with rfl | hk0
    · obtain ⟨o, ho⟩ := ho
      obtain ⟨M, hM, hMF⟩ := jContactRows_within h6 hc
      obtain ⟨K, hK⟩ : ∃ K, ts[0]? = some K := ⟨_, List.getElem?_eq_getElem (by omega)⟩
      have hfeas : ∃ x, (jaccQP (fun _ => some 200) R M [] K.t K.J K.f).FeasibleWithin ε x := by
        refine ⟨jCols o.acc o.torque o.force (K.J *ᵥ o.acc - K.f), (jaccQP_within ε R M [] _ _ _ _).mpr
          ⟨fun i => ?_, fun k => ?_, fun i => i.elim0, fun r => ?_, (hMF _ _).mpr ?_, fun j => ?_, fun j => ?_⟩⟩
        · have e : R.A *ᵥ o.acc + R.Jcᵀ *ᵥ o.force + R.G = actuate o.torque := ho.motion.1
          have e' : (R.A *ᵥ o.acc + R.Jcᵀ *ᵥ o.force + R.G - actuate o.torque) i = 0 := by rw [e, sub_self]; rfl
          exact (congrArg abs e').trans_le (by rw [abs_zero]; exact hε)
        · have e' : (R.Jc *ᵥ o.acc) k = 0 := congrFun ho.motion.2 k
          exact (congrArg abs e').trans_le (by rw [abs_zero]; exact hε)
        · have e : (K.J *ᵥ o.acc) r - (K.f r + (K.J *ᵥ o.acc - K.f) r) = 0 := by simp
          exact (congrArg abs e).trans_le (by rw [abs_zero]; exact hε)
        · have := (near_zero hp _).mpr ho.contacts
          intro i
          obtain ⟨b1, b2, b3, b4, b5⟩ := this i
          refine ⟨?_, ?_, ?_, ?_, ?_⟩
          · exact b1.trans (add_le_add le_rfl hε)
          · exact b2.trans (add_le_add le_rfl hε)
          · exact b3.trans (add_le_add le_rfl hε)
          · exact b4.trans (add_le_add le_rfl hε)
          · exact b5.trans (add_le_add le_rfl hε)
        · exact (ho.torque j).trans (by linarith)
        · exact (ho.acc j).trans (by linarith)
      obtain ⟨x, hx⟩ := Option.ne_none_iff_exists'.mp (hans 0 _ _ _ (jaccQP_solvedWithin hε hδ hA _ _ _ _ _ hfeas))
      refine ⟨ts.set 0 (K.store x), ?_, by simp⟩
      unfold jaccPass
      simp only [jaccPassWith, jaccCall, jaccCallWith, hK, hM, List.take_zero, jPrevs, hx, Bool.and_self]
    · obtain ⟨ts'', h', hl'⟩ := C88_jacc_next hε hδ hA h6 hc hs hans hk0 (by omega) h
      exact ⟨ts'', h', hl'.trans hl⟩

/-- the equations of motion with fixed independent contacts have a bounded inverse -/
theorem motion_bound {A : Matrix (Fin 6 ⊕ ι) (Fin 6 ⊕ ι) ℝ} {J : Matrix (Fin c) (Fin 6 ⊕ ι) ℝ} (hA : IsSPD A)
    (hJ : ∀ y, Jᵀ *ᵥ y = 0 → y = 0) :
    ∃ K, 0 ≤ K ∧ ∀ (ε : ℝ) (a : Fin 6 ⊕ ι → ℝ) (F : Fin c → ℝ), 0 ≤ ε → (∀ i, |(A *ᵥ a + Jᵀ *ᵥ F) i| ≤ ε) → (∀ k, |(J *ᵥ a) k| ≤ ε) →
      (∀ i, |a i| ≤ K * ε) ∧ ∀ k, |F k| ≤ K * ε := by
  let B : Matrix ((Fin 6 ⊕ ι) ⊕ Fin c) ((Fin 6 ⊕ ι) ⊕ Fin c) ℝ := Matrix.fromBlocks A Jᵀ J 0
  have hB : ∀ (a : Fin 6 ⊕ ι → ℝ) (F : Fin c → ℝ), B *ᵥ Sum.elim a F = Sum.elim (A *ᵥ a + Jᵀ *ᵥ F) (J *ᵥ a) := by
    intro a F
    simp [B, Matrix.fromBlocks_mulVec]
  have hker : ∀ x, B *ᵥ x = 0 → x = 0 := by
    intro x hx
    obtain ⟨a, F, rfl⟩ : ∃ a F, x = Sum.elim a F := ⟨x ∘ Sum.inl, x ∘ Sum.inr, (Sum.elim_comp_inl_inr x).symm⟩
    rw [hB] at hx
    have e1 : A *ᵥ a + Jᵀ *ᵥ F = 0 := funext fun i => congrFun hx (Sum.inl i)
    have e2 : J *ᵥ a = 0 := funext fun i => congrFun hx (Sum.inr i)
    have e3 : a ⬝ᵥ (A *ᵥ a) = 0 := by
      have : a ⬝ᵥ (A *ᵥ a + Jᵀ *ᵥ F) = 0 := by rw [e1, dotProduct_zero]
      rw [dotProduct_add, dotProduct_mulVec a Jᵀ F, vecMul_transpose, e2, zero_dotProduct, add_zero] at this
      exact this
    have ha : a = 0 := by
      by_contra hne
      exact absurd e3 (hA.pos a hne).ne'
    subst ha
    rw [mulVec_zero, zero_add] at e1
    rw [hJ F e1]
    funext v; rcases v with v | v <;> rfl
  have hu : IsUnit B := by
    rw [← Matrix.mulVec_injective_iff_isUnit]
    intro x y hxy
    have := hker (x - y) (by rw [mulVec_sub]; exact sub_eq_zero.mpr hxy)
    exact sub_eq_zero.mp this
  refine ⟨∑ i, ∑ j, |B⁻¹ i j|, Finset.sum_nonneg fun _ _ => Finset.sum_nonneg fun _ _ => abs_nonneg _, fun ε a F hε h1 h2 => ?_⟩
  have key : ∀ v, |Sum.elim a F v| ≤ (∑ i, ∑ j, |B⁻¹ i j|) * ε := by
    intro v
    have e : Sum.elim a F = B⁻¹ *ᵥ (B *ᵥ Sum.elim a F) := by
      rw [mulVec_mulVec, Matrix.nonsing_inv_mul _ ((Matrix.isUnit_iff_isUnit_det _).mp hu), one_mulVec]
    have hr : ∀ w, |(B *ᵥ Sum.elim a F) w| ≤ ε := by
      rw [hB]; rintro (w | w)
      · exact h1 w
      · exact h2 w
    rw [e]
    calc |(B⁻¹ *ᵥ (B *ᵥ Sum.elim a F)) v| ≤ ∑ j, |B⁻¹ v j * (B *ᵥ Sum.elim a F) j| := Finset.abs_sum_le_sum_abs _ _
      _ ≤ ∑ j, |B⁻¹ v j| * ε := Finset.sum_le_sum fun j _ => by
          rw [abs_mul]; exact mul_le_mul_of_nonneg_left (hr j) (abs_nonneg _)
      _ = (∑ j, |B⁻¹ v j|) * ε := (Finset.sum_mul ..).symm
      _ ≤ _ := mul_le_mul_of_nonneg_right
          (Finset.single_le_sum (f := fun i => ∑ j, |B⁻¹ i j|) (fun _ _ => Finset.sum_nonneg fun _ _ => abs_nonneg _) (Finset.mem_univ v)) hε
  exact ⟨fun i => key (Sum.inl i), fun k => key (Sum.inr k)⟩

/-- C88.  The robot does what the answer says up to a multiple of the tolerance that depends on the robot's state only: the motion that the
answer's torques cause differs from the answer's acceleration and contact forces by at most `K ε`. -/
theorem C88_jacc_motion {R : JRobot ι c} (hA : IsSPD R.A) (hJ : IndependentRows R.Jc) (hc : c = 6 * (active R.cs).length) :
    ∃ K, 0 ≤ K ∧ ∀ (ε : ℝ) (o : JAnswer ι c), 0 ≤ ε → JAdmissibleWithin ε R hc o →
      ∀ qdd F, Motion R.A R.Jc R.G o.torque qdd F → (∀ i, |qdd i - o.acc i| ≤ K * ε) ∧ ∀ k, |F k - o.force k| ≤ K * ε := by
  obtain ⟨K, hK, h⟩ := motion_bound hA hJ
  refine ⟨K, hK, fun ε o hε ho qdd F hm => ?_⟩
  obtain ⟨hd, hf⟩ := hm
  unfold Dynamics at hd
  unfold ContactsFixed at hf
  refine h ε (qdd - o.acc) (F - o.force) hε (fun i => ?_) fun k => ?_
  · have e : (R.A *ᵥ (qdd - o.acc) + R.Jcᵀ *ᵥ (F - o.force)) i =
        -(R.A *ᵥ o.acc + R.Jcᵀ *ᵥ o.force + R.G - actuate o.torque) i := by
      have := congrFun hd i
      simp only [mulVec_sub, Pi.add_apply, Pi.sub_apply, Pi.neg_apply] at this ⊢
      linarith
    rw [e, abs_neg]
    exact ho.dynamics i
  · rw [mulVec_sub, hf, zero_sub, Pi.neg_apply, abs_neg]
    exact ho.fixed k

open Classical in
/-- A solver with tolerances `ε` and `δ`. -/
noncomputable def jWithin (ε δ : ℝ) : JSolver := fun _ _ _ _ d => if h : ∃ x, d.SolvedWithin ε δ x then some h.choose else none

theorem jWithin_within (ε δ : ℝ) : JSolverWithin ε δ (jWithin ε δ) := by
  intro i V R _ d x h
  unfold jWithin at h
  split at h
  · rename_i he
    simp only [Option.some.injEq] at h
    rw [← h]; exact he.choose_spec
  · cases h

theorem jWithin_answers (ε δ : ℝ) : JAnswersWithin ε δ (jWithin ε δ) := by
  intro i V R _ d h
  unfold jWithin
  rw [dif_pos h]
  exact Option.some_ne_none _

/-- Two conflicting levels on a robot standing on its foot. -/
theorem C88_jacc_hypotheses_met : ∃ ts' o, jaccPass exStand (jWithin (1 / 1000) (1 / 1000))
      [⟨1, exJJ, fun _ => 5, none, none⟩, ⟨1, exJJ, fun _ => 7, none, none⟩] 2 = some (true, ts') ∧
    JAdmissibleWithin (1 / 1000) exStand (by simp [exStand, exContact, active]) o ∧ IndependentRows exStand.Jc := by
  have hc : 6 = 6 * (active exStand.cs).length := by simp [exStand, exContact, active]
  obtain ⟨ts', h, -⟩ := C88_jacc_never_fails (ε := 1 / 1000) (δ := 1 / 1000) (by norm_num) (by norm_num) (R := exStand) isSPD_one
    (by simp [exStand, exContact]) (by simp [exStand, exContact]) hc (jWithin_within _ _) (jWithin_answers _ _) ⟨_, exStand_admissible hc⟩
    [⟨1, exJJ, fun _ => 5, none, none⟩, ⟨1, exJJ, fun _ => 7, none, none⟩] 2 (by simp)
  obtain ⟨o, -, ho⟩ := C88_jacc_stack (by norm_num) (by simp [exStand, exContact]) hc (jWithin_within _ _) h
  refine ⟨ts', o 1, h, (ho 1 (by norm_num)).1, fun F hF => ?_⟩
  funext k
  have := congrFun hF (Sum.inl k)
  simpa [exStand, mulVec, dotProduct, Matrix.one_apply] using this

end Verif.Props
