import Verif.Lemmas.JaccQP

/-!
# Levels of the joint-acceleration QPs: invariants of a pass and optimality of a call
-/
set_option linter.unusedSectionVars false

namespace Verif
open Matrix Verif.Spec Verif.Model

variable {ι : Type} [Fintype ι] [DecidableEq ι] {c : ℕ} {tb : ι → Option ℝ} {hold : (Fin c → ℝ) → Prop}

/-- An answer is admissible for torque bounds `tb` and contact conditions `hold`. -/
structure JAdm (tb : ι → Option ℝ) (hold : (Fin c → ℝ) → Prop) (R : JRobot ι c) (o : JAnswer ι c) : Prop where
  motion : Motion R.A R.Jc R.G o.torque o.acc o.force
  torque : ∀ i, ∀ b ∈ tb i, |o.torque i| ≤ b
  acc : ∀ i, |o.acc (.inr i)| ≤ 10
  contacts : hold o.force

section
variable {m : ℕ} {M : Matrix (Fin m) (Fin c) ℝ} (hMF : ∀ F : Fin c → ℝ, (∀ r, (M *ᵥ F) r ≤ 0) ↔ hold F)
include hMF

/-- The stored state after a successful pass. -/
theorem jaccPassWith_inv {R : JRobot ι c} {solve : JSolver} (hs : solve.Sound) (ts : List (JTask ι c)) : ∀ (k : ℕ) (ts' : List (JTask ι c)),
    jaccPassWith (jaccCallWith tb (some ⟨m, M⟩) R solve) ts k = some (true, ts') →
      (∀ (i : ℕ) (T' : JTask ι c), ts'[i]? = some T' → ∃ T q o, ts[i]? = some T ∧
        T' = { T with fqp := q, out := o }) ∧
      ∀ j < k, ∃ (T : JTask ι c) (o : JAnswer ι c) (s : Fin T.t → ℝ), ts'[j]? = some T ∧ T.out = some o ∧
        T.fqp = some s ∧ JAdm tb hold R o ∧ T.J *ᵥ o.acc = T.f + s ∧
        ∀ (i : ℕ) (P : JTask ι c), i < j → ts'[i]? = some P → ∃ q, P.fqp = some q ∧ P.J *ᵥ o.acc = P.f + q
  | 0, ts', h => by
    simp only [jaccPassWith, Option.some.injEq, Prod.mk.injEq, true_and] at h
    subst h
    exact ⟨fun i T' h => ⟨T', T'.fqp, T'.out, h, rfl⟩, fun j hj => absurd hj (Nat.not_lt_zero _)⟩
  | k + 1, ts'', h => by
    unfold jaccPassWith at h
    split at h
    · cases h
    rename_i ok ts' h1
    split at h
    · cases h
    rename_i ok' t2 h2
    simp only [Option.some.injEq, Prod.mk.injEq, Bool.and_eq_true] at h
    obtain ⟨⟨rfl, rfl⟩, rfl⟩ := h
    obtain ⟨ih1, ih2⟩ := jaccPassWith_inv hs ts k ts' h1
    obtain ⟨T, m, M, o, s, hT, rfl, hM, hmot, hprev, hcur, hcon, hτ, ha⟩ := jaccCall_success hs h2
    obtain ⟨hk, -⟩ := List.getElem?_eq_some_iff.mp hT
    simp only [Option.some.injEq, Sigma.mk.injEq] at hM
    obtain ⟨rfl, hM⟩ := hM
    obtain rfl := eq_of_heq hM
    have hadm : JAdm tb hold R o := ⟨hmot, hτ, ha, (hMF _).mp hcon⟩
    have hself : (ts'.set k { T with fqp := some s, out := some o })[k]? =
        some { T with fqp := some s, out := some o } := by
      rw [List.getElem?_set_self hk]
    have hother : ∀ i, i ≠ k → (ts'.set k { T with fqp := some s, out := some o })[i]? = ts'[i]? :=
      fun i hi => by rw [List.getElem?_set_ne (Ne.symm hi)]
    refine ⟨fun i T' hT' => ?_, fun j hj => ?_⟩
    · by_cases hi : i = k
      · subst hi
        rw [hself] at hT'
        simp only [Option.some.injEq] at hT'
        subst hT'
        obtain ⟨T0, q0, o0, h0, rfl⟩ := ih1 _ T hT
        exact ⟨T0, some s, some o, h0, rfl⟩
      · rw [hother i hi] at hT'
        exact ih1 i T' hT'
    · by_cases hjk : j = k
      · subst hjk
        refine ⟨{ T with fqp := some s, out := some o }, o, s, hself, rfl, rfl, hadm, hcur, fun i P hi hP => ?_⟩
        rw [hother i (by omega)] at hP
        exact hprev i P hi hP
      · obtain ⟨T1, o1, s1, a1, a2, a3, a4, a5, a6⟩ := ih2 j (by omega)
        refine ⟨T1, o1, s1, by rw [hother j hjk]; exact a1, a2, a3, a4, a5, fun i P hi hP => ?_⟩
        rw [hother i (by omega)] at hP
        exact a6 i P hi hP

theorem jaccPassWith_stack {R : JRobot ι c} {solve : JSolver} (hs : solve.Sound) {ts ts' : List (JTask ι c)} {k : ℕ}
    (h : jaccPassWith (jaccCallWith tb (some ⟨m, M⟩) R solve) ts k = some (true, ts')) :
    ∃ o : ℕ → JAnswer ι c, (∀ j < k, ∃ T', ts'[j]? = some T' ∧ T'.out = some (o j)) ∧
      ∀ j < k, JAdm tb hold R (o j) ∧
        ∀ i ≤ j, ∀ T, ts[i]? = some T → T.J *ᵥ (o j).acc = T.J *ᵥ (o i).acc := by
  obtain ⟨h1, h2⟩ := jaccPassWith_inv hMF hs ts k ts' h
  have h3 : ∀ j, ∃ o : JAnswer ι c, j < k → ∃ (T : JTask ι c) (s : Fin T.t → ℝ), ts'[j]? = some T ∧ T.out = some o ∧
        T.fqp = some s ∧ JAdm tb hold R o ∧ T.J *ᵥ o.acc = T.f + s ∧
        ∀ (i : ℕ) (P : JTask ι c), i < j → ts'[i]? = some P → ∃ q, P.fqp = some q ∧ P.J *ᵥ o.acc = P.f + q := by
    intro j
    by_cases hj : j < k
    · obtain ⟨T, o, s, h⟩ := h2 j hj
      exact ⟨o, fun _ => ⟨T, s, h⟩⟩
    · exact ⟨⟨0, 0, 0⟩, fun h => absurd h hj⟩
  choose o ho using h3
  refine ⟨o, fun j hj => ?_, fun j hj => ?_⟩
  · obtain ⟨T, s, a1, a2, -⟩ := ho j hj
    exact ⟨T, a1, a2⟩
  · obtain ⟨Tj, s, a1, a2, a3, a4, a5, a6⟩ := ho j hj
    refine ⟨a4, fun i hi T hT => ?_⟩
    rcases Nat.lt_or_eq_of_le hi with hlt | rfl
    · obtain ⟨Ti, s', b1, b2, b3, b4, b5, b6⟩ := ho i (by omega)
      obtain ⟨T0, q0, o0, c1, rfl⟩ := h1 i Ti b1
      rw [hT, Option.some.injEq] at c1
      subst c1
      obtain ⟨q, d1, d2⟩ := a6 i _ hlt b1
      rw [b3, Option.some.injEq] at d1
      subst d1
      exact d2.trans b5.symm
    · rfl

end

theorem jPrevs_some {l : List (JTask ι c)} (h : ∀ T ∈ l, T.fqp ≠ none) : ∃ p, jPrevs l = some p := by
  induction l with
  | nil => exact ⟨[], rfl⟩
  | cons T rest ih =>
    obtain ⟨p, hp⟩ := ih fun T hT => h T (List.mem_cons_of_mem _ hT)
    obtain ⟨q, hq⟩ := Option.ne_none_iff_exists'.mp (h T List.mem_cons_self)
    exact ⟨⟨T.t, T.J, T.f + q⟩ :: p, by simp [jPrevs, hp, hq]⟩

/-- `½ q̈ᵀ A q̈ + 50 ‖J q̈ - f‖²`. -/
noncomputable def jaccEffort (R : JRobot ι c) (T : JTask ι c) (a : Fin 6 ⊕ ι → ℝ) : ℝ :=
  (1 / 2) * (a ⬝ᵥ (R.A *ᵥ a)) + 50 * ((T.J *ᵥ a - T.f) ⬝ᵥ (T.J *ᵥ a - T.f))

theorem jaccQP_cost (R : JRobot ι c) {m : ℕ} (M : Matrix (Fin m) (Fin c) ℝ) (prev : List (JPrev ι)) (t : ℕ)
    (J : Matrix (Fin t) (Fin 6 ⊕ ι) ℝ) (f : Fin t → ℝ) (x : JVar ι c t → ℝ) :
    (jaccQP tb R M prev t J f).cost x = (1 / 2) * ((fun i => x (.inl i)) ⬝ᵥ (R.A *ᵥ fun i => x (.inl i))) +
      50 * ((fun k => x (.inr (.inr (.inr k)))) ⬝ᵥ (fun k => x (.inr (.inr (.inr k))))) := by
  simp only [BoxQP.cost, jaccQP, zero_dotProduct, add_zero]
  simp only [dotProduct, mulVec, Matrix.of_apply, Fintype.sum_sum_type, zero_mul, Finset.sum_const_zero, add_zero,
    zero_add, mul_zero, ite_mul, Finset.sum_ite_eq, Finset.mem_univ, if_true]
  have e : ∑ k, x (.inr (.inr (.inr k))) * (100 * x (.inr (.inr (.inr k)))) =
      100 * ∑ k, x (.inr (.inr (.inr k))) * x (.inr (.inr (.inr k))) := by
    rw [Finset.mul_sum]
    exact Finset.sum_congr rfl fun i _ => by ring
  rw [e]
  ring

section
variable {m : ℕ} {M : Matrix (Fin m) (Fin c) ℝ} (hMF : ∀ F : Fin c → ℝ, (∀ r, (M *ᵥ F) r ≤ 0) ↔ hold F)
include hMF

theorem jaccPassWith_next {R : JRobot ι c} {solve : JSolver} (hs : solve.Sound) {ts ts' : List (JTask ι c)} {k : ℕ} (hk : 0 < k) (hlen : k < ts'.length)
    (h : jaccPassWith (jaccCallWith tb (some ⟨m, M⟩) R solve) ts k = some (true, ts'))
    (hans : ∀ (i : ℕ) (prev : List (JPrev ι)) (t : ℕ) (J : Matrix (Fin t) (Fin 6 ⊕ ι) ℝ) (f : Fin t → ℝ),
      (∃ x, (jaccQP tb R M prev t J f).Feasible x) → solve i _ _ (jaccQP tb R M prev t J f) ≠ none) :
    ∃ ts'', jaccPassWith (jaccCallWith tb (some ⟨m, M⟩) R solve) ts (k + 1) = some (true, ts'') ∧ ts''.length = ts'.length := by
  obtain ⟨h1, h2⟩ := jaccPassWith_inv hMF hs ts k ts' h
  obtain ⟨T, o, s, a1, a2, a3, a4, a5, a6⟩ := h2 (k - 1) (by omega)
  obtain ⟨K, hK⟩ : ∃ K, ts'[k]? = some K := ⟨_, List.getElem?_eq_getElem hlen⟩
  obtain ⟨prev, hprev⟩ : ∃ p, jPrevs (ts'.take k) = some p := by
    refine jPrevs_some fun P hP => ?_
    obtain ⟨i, hi, rfl⟩ := List.mem_take_iff_getElem.mp hP
    obtain ⟨T', o', s', b1, -, b3, -⟩ := h2 i (by omega)
    rw [List.getElem?_eq_getElem (by omega), Option.some.injEq] at b1
    subst b1
    rw [b3]; simp
  have hkeep : ∀ (i : ℕ) (P : JTask ι c), i < k → ts'[i]? = some P → ∃ q, P.fqp = some q ∧ P.J *ᵥ o.acc = P.f + q := by
    intro i P hi hP
    by_cases e : i = k - 1
    · subst e
      rw [a1, Option.some.injEq] at hP
      subst hP
      exact ⟨s, a3, a5⟩
    · exact a6 i P (by omega) hP
  have hfeas : ∃ x, (jaccQP tb R M prev K.t K.J K.f).Feasible x := by
    refine ⟨jCols o.acc o.torque o.force (K.J *ᵥ o.acc - K.f), (jaccQP_feasible tb R M prev _ _ _ _).mpr
      ⟨a4.motion, fun i => ?_, ?_, (hMF _).mpr a4.contacts, a4.torque, a4.acc⟩⟩
    · obtain ⟨hl, hq⟩ := jPrevs_eq _ _ hprev
      have hlt : i.val < (ts'.take k).length := by rw [← hl]; exact i.isLt
      have hlt' : i.val < k ∧ i.val < ts'.length := by simpa using hlt
      obtain ⟨P, hP⟩ : ∃ P, ts'[i.val]? = some P := ⟨_, List.getElem?_eq_getElem hlt'.2⟩
      obtain ⟨q, e, hq⟩ := hq i P (by rw [List.getElem?_take_of_lt hlt'.1]; exact hP)
      obtain ⟨q', e', key⟩ := hkeep i P hlt'.1 hP
      rw [e, Option.some.injEq] at e'
      subst e'
      obtain ⟨hi', he⟩ := List.getElem?_eq_some_iff.mp hq
      have : ∀ Q : JPrev ι, prev[i] = Q → Q.J *ᵥ o.acc = Q.b → prev[i].J *ᵥ o.acc = prev[i].b := by
        rintro Q rfl h; exact h
      exact this _ he key
    · funext k
      simp [jCols]
  obtain ⟨x, hx⟩ := Option.ne_none_iff_exists'.mp (hans k _ _ _ _ hfeas)
  refine ⟨ts'.set k (K.store x), ?_, by simp⟩
  unfold jaccPassWith
  rw [h]
  simp only [jaccCallWith, hK, hprev, hx, Bool.and_self]

theorem jaccCallWith_best {R : JRobot ι c} {solve : JSolver} (hs : solve.Exact) {ts ts' : List (JTask ι c)} {j : ℕ}
    (h : jaccCallWith tb (some ⟨m, M⟩) R solve ts j = some (true, ts')) :
    ∃ (T T' : JTask ι c) (o : JAnswer ι c), ts[j]? = some T ∧ ts'[j]? = some T' ∧ T'.out = some o ∧
      JAdm tb hold R o ∧
      ∀ o', JAdm tb hold R o' →
        (∀ (i : ℕ) (P : JTask ι c) (q : Fin P.t → ℝ), i < j → ts[i]? = some P → P.fqp = some q →
          P.J *ᵥ o'.acc = P.f + q) →
        jaccEffort R T o.acc ≤ jaccEffort R T o'.acc := by
  unfold jaccCallWith at h
  split at h
  · cases h
  rename_i T hT
  split at h
  · rename_i prev m' M' hp' hM'
    simp only [Option.some.injEq, Sigma.mk.injEq] at hM'
    obtain ⟨rfl, hM'⟩ := hM'
    obtain rfl := eq_of_heq hM'
    split at h
    · simp at h
    rename_i x hx
    simp only [Option.some.injEq, Prod.mk.injEq, true_and] at h
    subst h
    obtain ⟨hf, hbest⟩ := hs _ _ _ _ _ hx
    obtain ⟨h1, h2, h3, h4, h5, h7⟩ := (jaccQP_feasible tb R M prev T.t T.J T.f x).mp hf
    obtain ⟨hk, -⟩ := List.getElem?_eq_some_iff.mp hT
    refine ⟨T, T.store x, _, hT, List.getElem?_set_self hk, rfl, ⟨h1, h5, h7, (hMF _).mp h4⟩,
      fun o' ho' hprev => ?_⟩
    let y : JVar ι c T.t → ℝ := jCols o'.acc o'.torque o'.force (T.J *ᵥ o'.acc - T.f)
    have hy : (jaccQP tb R M prev T.t T.J T.f).Feasible y := by
      refine (jaccQP_feasible tb R M prev T.t T.J T.f y).mpr ⟨ho'.motion, fun i => ?_, ?_, (hMF _).mpr ho'.contacts,
        ho'.torque, ho'.acc⟩
      · obtain ⟨hl, hq⟩ := jPrevs_eq _ _ hp'
        have hlt : i.val < (ts.take j).length := by rw [← hl]; exact i.isLt
        have hlt' : i.val < j ∧ i.val < ts.length := by simpa using hlt
        obtain ⟨P, hP⟩ : ∃ P, ts[i.val]? = some P := ⟨_, List.getElem?_eq_getElem hlt'.2⟩
        obtain ⟨q, e, hq⟩ := hq i P (by rw [List.getElem?_take_of_lt hlt'.1]; exact hP)
        have key := hprev i P q hlt'.1 hP e
        obtain ⟨hi', he⟩ := List.getElem?_eq_some_iff.mp hq
        have : ∀ Q : JPrev ι, prev[i] = Q → Q.J *ᵥ o'.acc = Q.b → prev[i].J *ᵥ o'.acc = prev[i].b := by
          rintro Q rfl h; exact h
        exact this _ he key
      · funext k
        simp [y, jCols]
    have := hbest y hy
    rw [jaccQP_cost, jaccQP_cost] at this
    have hsx : (fun k => x (.inr (.inr (.inr k)))) = T.J *ᵥ (fun i => x (.inl i)) - T.f := by
      rw [h3]; simp
    rw [hsx] at this
    exact this
  · cases h

end

end Verif
