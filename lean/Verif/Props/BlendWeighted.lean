import Verif.Props.LoosenJacc
import Verif.Props.ModerateLqp

/-!
# C96: the controllers that weigh effort against tasks follow no command but rest
-/

set_option linter.unusedSectionVars false

namespace Verif.Props
open Matrix Verif Verif.Spec Verif.Model

section Jacc
variable {ι : Type} [Fintype ι] [DecidableEq ι] {c : ℕ} {R : JRobot ι c} {tb : ι → Option ℝ} {hold : (Fin c → ℝ) → Prop} {m : ℕ} {M : Matrix (Fin m) (Fin c) ℝ}

/-- An answer that follows its command exactly does not accelerate, if standing still was open to it. -/
theorem jacc_followed_still (hMF : ∀ F : Fin c → ℝ, (∀ r, (M *ᵥ F) r ≤ 0) ↔ hold F) (hA : IsSPD R.A) {T : JTask ι c} {o o₀ : JAnswer ι c}
    (ho : JAdm tb hold R o) (h0 : JAdm tb hold R o₀) (hstill : o₀.acc = 0)
    (hbest : ∀ s : ℝ, JAdm tb hold R (JAnswer.along o o₀ s) → jaccEffort R T o.acc ≤ jaccEffort R T (JAnswer.along o o₀ s).acc)
    (hf : T.J *ᵥ o.acc = T.f) : o.acc = 0 := by
  by_contra hne
  have h2 := hA.pos _ hne
  have hq : 0 ≤ (1 / 2) * ((0 - o.acc) ⬝ᵥ (R.A *ᵥ (0 - o.acc))) + 50 * ((T.J *ᵥ (0 - o.acc)) ⬝ᵥ (T.J *ᵥ (0 - o.acc))) := by
    have a1 := (hA.pos (0 - o.acc) (by simpa using hne)).le
    have a2 := dot_self_nonneg' (T.J *ᵥ (0 - o.acc))
    positivity
  have key := first_order_of hq (p := (1 / 2) * (o.acc ⬝ᵥ (R.A *ᵥ (0 - o.acc)) + 100 * ((T.J *ᵥ o.acc - T.f) ⬝ᵥ (T.J *ᵥ (0 - o.acc)))))
    fun s s0 s1 => by
      have := hbest s (jadm_along hMF ho h0 s0 s1)
      have e : (JAnswer.along o o₀ s).acc = o.acc + s • (0 - o.acc) := by rw [← hstill]; rfl
      rw [e, jaccEffort_along hA.symm] at this
      linarith
  rw [hf, sub_self, zero_dotProduct, mul_zero, add_zero, zero_sub, mulVec_neg, dotProduct_neg] at key
  linarith

theorem jaccPassWith_follows (hMF : ∀ F : Fin c → ℝ, (∀ r, (M *ᵥ F) r ≤ 0) ↔ hold F) (hA : IsSPD R.A) {solve : JSolver} (hs : solve.Exact)
    {ts ts' : List (JTask ι c)} {k : ℕ} (h : jaccPassWith (jaccCallWith tb (some ⟨m, M⟩) R solve) ts k = some (true, ts')) {o₀ : JAnswer ι c}
    (h0 : JAdm tb hold R o₀) (hstill : o₀.acc = 0) :
    ∃ o : ℕ → JAnswer ι c, (∀ j < k, ∃ T', ts'[j]? = some T' ∧ T'.out = some (o j)) ∧ (∀ j < k, JAdm tb hold R (o j)) ∧ ∀ p ≤ k,
      ((∀ j < p, ∀ T, ts[j]? = some T → T.J *ᵥ (o j).acc = T.f) ↔ ∀ j < p, ∀ T, ts[j]? = some T → T.f = 0) ∧
      ((∀ j < p, ∀ T, ts[j]? = some T → T.J *ᵥ (o j).acc = T.f) → ∀ j < p, (∃ T, ts[j]? = some T) → (o j).acc = 0) := by
  obtain ⟨o, h1, h2⟩ := jaccPassWith_best hMF hs k h
  have still : ∀ p ≤ k, (∀ j < p, ∀ T, ts[j]? = some T → T.J *ᵥ (o j).acc = T.f) → ∀ j < p, (∃ T, ts[j]? = some T) → (o j).acc = 0 := by
    intro p hpk hf j
    induction j using Nat.strong_induction_on with
    | _ j ih =>
      rintro hj ⟨T, hT⟩
      obtain ⟨k1, k2, k3⟩ := h2 j (by omega)
      refine jacc_followed_still hMF hA k1 h0 hstill (fun s hadm => k3 T hT _ hadm fun i hi P hP => ?_) (hf j hj T hT)
      have z := ih i hi (by omega) ⟨P, hP⟩
      have w := k2 i hi P hP
      rw [z, mulVec_zero] at w ⊢
      show P.J *ᵥ ((o j).acc + s • (o₀.acc - (o j).acc)) = 0
      rw [hstill, mulVec_add, mulVec_smul, mulVec_sub, w]; simp
  have zero : ∀ p ≤ k, (∀ j < p, ∀ T, ts[j]? = some T → T.f = 0) → ∀ j < p, (∃ T, ts[j]? = some T) → (o j).acc = 0 := by
    intro p hpk hf j
    induction j using Nat.strong_induction_on with
    | _ j ih =>
      rintro hj ⟨T, hT⟩
      obtain ⟨k1, k2, k3⟩ := h2 j (by omega)
      have := k3 T hT o₀ h0 fun i hi P hP => by rw [hstill, ih i hi (by omega) ⟨P, hP⟩]
      rw [hstill] at this
      unfold jaccEffort at this
      rw [hf j hj T hT, mulVec_zero, mulVec_zero, sub_zero, sub_zero, dotProduct_zero, dotProduct_zero] at this
      by_contra hne
      have a1 := hA.pos _ hne
      have a2 := dot_self_nonneg' (T.J *ᵥ (o j).acc)
      linarith
  refine ⟨o, h1, fun j hj => (h2 j hj).1, fun p hpk => ⟨⟨fun hf j hj T hT => ?_, fun hf j hj T hT => ?_⟩, still p hpk⟩⟩
  · rw [← hf j hj T hT, still p hpk hf j hj ⟨T, hT⟩, mulVec_zero]
  · rw [zero p hpk hf j hj ⟨T, hT⟩, mulVec_zero, hf j hj T hT]

/-- **C96 (negation for the joint-acceleration QP).**  If the robot could stand still, the first `p` tasks are all given exactly the accelerations commanded
if and only if all these commands are zero; then nothing accelerates.  So no motion at all is followed exactly, and what is followed can be blended. -/
theorem C96_jacc_follows_only_rest (hA : IsSPD R.A) (h6 : ∀ l ∈ R.cs, l.type = .c6d) (hp : ∀ l ∈ R.cs, 0 < l.planeX ∧ 0 < l.planeY)
    (hc : c = 6 * (active R.cs).length) {solve : JSolver} (hs : solve.Exact) {ts ts' : List (JTask ι c)} {k : ℕ}
    (h : jaccPass R solve ts k = some (true, ts')) {o₀ : JAnswer ι c} (h0 : JAdmissible R hc o₀) (hstill : o₀.acc = 0) :
    ∃ o : ℕ → JAnswer ι c, (∀ j < k, ∃ T', ts'[j]? = some T' ∧ T'.out = some (o j)) ∧ ∀ p ≤ k,
      ((∀ j < p, ∀ T, ts[j]? = some T → T.J *ᵥ (o j).acc = T.f) ↔ ∀ j < p, ∀ T, ts[j]? = some T → T.f = 0) ∧
      ((∀ j < p, ∀ T, ts[j]? = some T → T.J *ᵥ (o j).acc = T.f) → ∀ j < p, (∃ T, ts[j]? = some T) → (o j).acc = 0) := by
  obtain ⟨M, hM, hMF⟩ := jContactRows_six h6 hp hc
  unfold jaccPass jaccCall at h
  rw [hM] at h
  obtain ⟨o, h1, -, h2⟩ := jaccPassWith_follows hMF hA hs h (jAdmissible_iff.mpr h0) hstill
  exact ⟨o, h1, h2⟩

/-- The hypotheses are met: the joint asked for acceleration 5 is not given it. -/
example : ∃ ts' T' o, jaccPass exJ bestSolver [exJT] 1 = some (true, ts') ∧ ts'[0]? = some T' ∧ T'.out = some o ∧ exJT.J *ᵥ o.acc ≠ exJT.f := by
  obtain ⟨ts', -, h⟩ := exJ_pass
  have hpass : jaccPass exJ bestSolver [exJT] 1 = some (true, ts') := by simp [jaccPass, jaccPassWith, h]
  obtain ⟨o, h1, h2⟩ := C96_jacc_follows_only_rest (R := exJ) isSPD_one (by simp [exJ]) (by simp [exJ]) (by simp [exJ, active]) bestSolver_exact hpass
    exJ_still rfl
  obtain ⟨T', a, b⟩ := h1 0 one_pos
  refine ⟨ts', T', o 0, hpass, a, b, fun he => ?_⟩
  have := ((h2 1 le_rfl).1.mp fun j hj T hT => by
    obtain rfl : j = 0 := by omega
    simp only [List.getElem?_cons_zero, Option.some.injEq] at hT
    subst hT
    exact he) 0 one_pos exJT rfl
  have := congrFun this 0
  simp at this

end Jacc

section Reduced
variable {k c : ℕ} {ν : Type} [Fintype ν] [DecidableEq ν]
variable {A : Matrix (RSys (Fin k) ν) (RSys (Fin k) ν) ℝ} {J : Matrix (Fin 6) ν ℝ} {G : RSys (Fin k) ν → ℝ} {D : Reduced (Fin k) ν}
  {Jc : Matrix (Fin c) (RSys (Fin k) ν) ℝ} {SI : Mat6} {R : Mat3} {cs : List ContactLink} {solve : JSolver}

/-- **C96 (negation for the joint-acceleration QP of the reduced model;** partial: the free joints are sent their own weight).  If the robot could stand still
with torques of the contact-chain joints within ±200, the motions caused by the answers of the first `p` levels all give their tasks exactly the accelerations
commanded if and only if all these commands are zero; then the robot does not accelerate. -/
theorem C96_jacc_reduced_follows_only_rest_partial (hA : IsSPD A) (hR : R * Rᵀ = 1) (hJ : jInc SI R (baseNc A) = some J)
    (hcpl : ∀ (i : Fin k) (j : ν), A (.inr (.inl i)) (.inr (.inr j)) = 0) (h : reduce vcOf ncOf A⁻¹ J G = some D) (h0 : ∀ r j, Jc r (ncOf j) = 0)
    (h6 : ∀ l ∈ cs, l.type = .c6d) (hp : ∀ l ∈ cs, 0 < l.planeX ∧ 0 < l.planeY) (hc : c = 6 * (active cs).length)
    (hs : solve.Exact) {ts ts' : List (RJTask (Fin k) ν c)} {n : ℕ} (hpass : rjaccPass D Jc cs solve ts n = some (true, ts'))
    {τ₀ : Fin k ⊕ ν → ℝ} {F₀ : Fin c → ℝ} (hm₀ : Motion A Jc G τ₀ 0 F₀) (hF₀ : ContactsHold cs (F₀ ∘ Fin.cast hc.symm))
    (ht₀ : ∀ i, |τ₀ (.inl i)| ≤ 200) :
    ∃ (o : ℕ → JAnswer (Fin k ⊕ Fin 6) c) (q : ℕ → RSys (Fin k) ν → ℝ), (∀ j < n, ∃ T', ts'[j]? = some T' ∧ T'.out = some (o j)) ∧
      (∀ j < n, ∃ F, Motion A Jc G (assembleTorque D (o j).torque fun s => G (ncOf s)) (q j) F) ∧ ∀ p ≤ n,
      ((∀ j < p, ∀ T, ts[j]? = some T → T.J *ᵥ q j = T.f) ↔ ∀ j < p, ∀ T, ts[j]? = some T → T.f = 0) ∧
      ((∀ j < p, ∀ T, ts[j]? = some T → T.J *ᵥ q j = T.f) → ∀ j < p, (∃ T, ts[j]? = some T) → q j = 0) := by
  obtain ⟨M, hM, hMF⟩ := rjRows_six h6 hp hc
  have hl := rjaccPass_low (D := D) (Jc := Jc) (cs := cs) (solve := solve) ts n
  rw [hpass, hM] at hl
  have hlow := motion_low hA hR hJ hcpl h h0 hm₀
  obtain ⟨o, s1, ad, hfo⟩ := jaccPassWith_follows (R := rjRobot D Jc cs) hMF (AR_spd h).1 hs hl.symm (o₀ := ⟨D.JR *ᵥ 0, lowTorque D τ₀, F₀⟩)
    { motion := hlow
      torque := fun i b hb => by
        rcases i with i | i
        · cases hb; exact ht₀ i
        · cases hb
      acc := fun i => by simp
      contacts := hF₀ } (mulVec_zero _)
  have eN : D.GNC = fun j => G (ncOf j) := funext (reduce_eq_some h).2.2.2.2.2.2.2.2.1
  have low : ∀ (j : ℕ) (P : JTask (Fin k ⊕ Fin 6) c), (ts.map (RJTask.low D))[j]? = some P ↔ ∃ T, ts[j]? = some T ∧ RJTask.low D T = P := fun j P => by
    rw [List.getElem?_map, Option.map_eq_some_iff]
  have e1 : ∀ p, (∀ j < p, ∀ T, ts[j]? = some T → T.J *ᵥ (D.JRinvTᵀ *ᵥ (o j).acc) = T.f) ↔
      ∀ j < p, ∀ P, (ts.map (RJTask.low D))[j]? = some P → P.J *ᵥ (o j).acc = P.f := fun p => by
    refine ⟨fun hx j hj P hP => ?_, fun hx j hj T hT => ?_⟩
    · obtain ⟨T, hT, rfl⟩ := (low j P).mp hP
      have := hx j hj T hT
      rw [mulVec_mulVec] at this
      exact this
    · have := hx j hj _ ((low j _).mpr ⟨T, hT, rfl⟩)
      rw [mulVec_mulVec]
      exact this
  refine ⟨o, fun j => D.JRinvTᵀ *ᵥ (o j).acc, fun j hj => ?_, fun j hj => ?_, fun p hpn => ⟨?_, fun hx j hj hT => ?_⟩⟩
  · obtain ⟨T', a, b⟩ := s1 j hj
    rw [List.getElem?_map] at a
    obtain ⟨U, hU, rfl⟩ := Option.map_eq_some_iff.mp a
    exact ⟨U, hU, b⟩
  · have m1 := motion_free hA hR hJ hcpl h h0 (ad j hj).motion
    rw [eN] at m1
    exact ⟨_, m1⟩
  · refine (e1 p).trans ((hfo p hpn).1.trans ⟨fun hx j hj T hT => hx j hj _ ((low j _).mpr ⟨T, hT, rfl⟩), fun hx j hj P hP => ?_⟩)
    obtain ⟨T, hT, rfl⟩ := (low j P).mp hP
    exact hx j hj T hT
  · obtain ⟨T, hT⟩ := hT
    show D.JRinvTᵀ *ᵥ (o j).acc = 0
    rw [(hfo p hpn).2 ((e1 p).mp hx) j hj ⟨_, (low j _).mpr ⟨T, hT, rfl⟩⟩, mulVec_zero]

/-- The hypotheses are met: a leg joint of the robot with the heavy arm is not given the acceleration asked for, unless it is zero. -/
example {f : ℝ} (hf : (HeavyArm.task f).f ≠ 0) : ∃ D ts' T' o q F, reduce vcOf ncOf (exRed 6)⁻¹ 1 HeavyArm.G = some D ∧
    rjaccPass D (exFoot 6) HeavyArm.cs bestSolver [HeavyArm.task f] 1 = some (true, ts') ∧ ts'[0]? = some T' ∧ T'.out = some o ∧
    Motion (exRed 6) (exFoot 6) HeavyArm.G (assembleTorque D o.torque fun s => HeavyArm.G (ncOf s)) q F ∧
    (HeavyArm.task f).J *ᵥ q ≠ (HeavyArm.task f).f := by
  obtain ⟨D, ts', hD, h⟩ := C62_answers_hypotheses_met f
  obtain ⟨o, q, h1, h2, h3⟩ := C96_jacc_reduced_follows_only_rest_partial exRed_spd (by simp) exRed_jInc exRed_coupling hD (fun _ _ => rfl)
    HeavyArm.six HeavyArm.plane HeavyArm.dof bestSolver_exact h HeavyArm.standing HeavyArm.standing_holds HeavyArm.standing_torque
  obtain ⟨T', a, b⟩ := h1 0 one_pos
  obtain ⟨F, hF⟩ := h2 0 one_pos
  refine ⟨D, ts', T', o 0, q 0, F, hD, h, a, b, hF, fun he => hf ?_⟩
  exact (h3 1 le_rfl).1.mp (fun j hj T hT => by
    obtain rfl : j = 0 := by omega
    simp only [List.getElem?_cons_zero, Option.some.injEq] at hT
    subst hT
    exact he) 0 one_pos _ rfl

end Reduced

section Lqp
variable {n c m : ℕ}

/-- **C96 (negation for the hierarchical controller).**  If the robot could stand still, the first `p` tasks are all given exactly the accelerations
commanded if and only if all these commands are zero; then nothing accelerates. -/
theorem C96_lqp_follows_only_rest (osqp : Osqp) (hs : OsqpExact osqp) (N : NullSpaceFn) (hN : N.Correct) (R : LqpRobot n c m)
    (hA : IsSPD R.M) (hM : R.M * R.Minv = 1) (hstand : CanStand R.conf) :
    ∃ a b rs, calcControlTorqueLQP osqp N R = a :: b :: rs ∧ rs.length = R.tasks.length ∧ ∀ p ≤ rs.length,
      ((∀ j < p, ∀ r t, rs[j]? = some r → R.tasks[j]? = some t → t.2.1 *ᵥ qddOf r.y = t.2.2) ↔ ∀ j < p, ∀ t, R.tasks[j]? = some t → t.2.2 = 0) ∧
      ((∀ j < p, ∀ r t, rs[j]? = some r → R.tasks[j]? = some t → t.2.1 *ᵥ qddOf r.y = t.2.2) → ∀ j < p, ∀ r, rs[j]? = some r → qddOf r.y = 0) := by
  obtain ⟨a, b, rs, hrun, hlen, ⟨-, hb⟩, ht⟩ := C57_levels_partial osqp hs N hN R hA hM
  have hw : 0 < R.conf.weight := conf_weight hA
  obtain ⟨b1, b2⟩ := lqp_contact_still (R := R.conf) hA hw hstand hb
  obtain ⟨y, s1, s2, s3⟩ := hstand
  have hk := stand_keeps (R := R.conf) b1 s2 s3
  have step : ∀ (j : ℕ) (r : LevelAnswer (LqpVar (Fin n) c)) (t : Σ t : ℕ, Matrix (Fin t) (Fin 6 ⊕ Fin n) ℝ × (Fin t → ℝ)), rs[j]? = some r → R.tasks[j]? = some t → (∀ i < j, ∀ r' : LevelAnswer (LqpVar (Fin n) c), rs[i]? = some r' → qddOf r'.y = 0) →
      (t.2.1 *ᵥ qddOf r.y = t.2.2 ∨ t.2.2 = 0) → qddOf r.y = 0 := by
    intro j r t hr ht' hz hor
    obtain ⟨h1, h2⟩ := ht j r t hr ht'
    have := lqp_first_order (R := R.conf) hA hw.le h1 ⟨s1, hk, fun i hi r' t' hr' _ => by rw [s2, hz i hi r' hr']⟩ h2
    rw [s2, zero_sub, mulVec_neg, dotProduct_neg, mulVec_zero, zero_sub] at this
    by_contra hne
    have a1 := mul_pos hw (hA.pos _ hne)
    rcases hor with e | e
    · have e0 : perRow t.2.1 (t.2.1 *ᵥ qddOf r.y - t.2.2) = 0 := by rw [e, sub_self]; funext i; simp [perRow]
      rw [e0, zero_dotProduct] at this
      have e1 : R.conf.M = R.M := rfl
      rw [e1] at this
      linarith
    · have e0 : perRow t.2.1 (-(t.2.1 *ᵥ qddOf r.y)) = -perRow t.2.1 (t.2.1 *ᵥ qddOf r.y) := by funext i; simp [perRow, neg_div]
      rw [e, sub_zero, e0, dotProduct_neg] at this
      have a2 := dot_self_nonneg' (perRow t.2.1 (t.2.1 *ᵥ qddOf r.y))
      have e1 : R.conf.M = R.M := rfl
      rw [e1] at this
      linarith
  have task : ∀ {j : ℕ} {r : LevelAnswer (LqpVar (Fin n) c)}, rs[j]? = some r → ∃ t, R.tasks[j]? = some t := fun {j r} hr => by
    have := (List.getElem?_eq_some_iff.mp hr).1
    exact ⟨_, List.getElem?_eq_getElem (by omega)⟩
  have all : ∀ p : ℕ, (∀ j < p, ∀ (r : LevelAnswer (LqpVar (Fin n) c)) (t : Σ t : ℕ, Matrix (Fin t) (Fin 6 ⊕ Fin n) ℝ × (Fin t → ℝ)), rs[j]? = some r → R.tasks[j]? = some t →
      t.2.1 *ᵥ qddOf r.y = t.2.2 ∨ t.2.2 = 0) → ∀ j < p, ∀ r : LevelAnswer (LqpVar (Fin n) c), rs[j]? = some r → qddOf r.y = 0 := by
    intro p hf j
    induction j using Nat.strong_induction_on with
    | _ j ih =>
      intro hj r hr
      obtain ⟨t, ht'⟩ := task hr
      exact step j r t hr ht' (fun i hi r' hr' => ih i hi (by omega) r' hr') (hf j hj r t hr ht')
  refine ⟨a, b, rs, hrun, hlen, fun p hp => ⟨⟨fun hf j hj t ht' => ?_, fun hf j hj r t hr ht' => ?_⟩, fun hf => all p fun j hj r t hr ht' =>
    .inl (hf j hj r t hr ht')⟩⟩
  · have hr := List.getElem?_eq_getElem (l := rs) (i := j) (by omega)
    rw [← hf j hj _ t hr ht', all p (fun j hj r t hr ht' => .inl (hf j hj r t hr ht')) j hj _ hr, mulVec_zero]
  · rw [all p (fun j hj r t _ ht' => .inr (hf j hj t ht')) j hj r hr, mulVec_zero, hf j hj t ht']

/-- The hypotheses are met: the joint asked for acceleration 1 is not given it. -/
example (osqp : Osqp) (hs : OsqpExact osqp) (N : NullSpaceFn) (hN : N.Correct) : ∃ a b r, calcControlTorqueLQP osqp N reach = [a, b, r] ∧
    ∀ t, reach.tasks[0]? = some t → t.2.1 *ᵥ qddOf r.y ≠ t.2.2 := by
  have hst : CanStand reach.conf := ⟨reachY 0, reach_moves (by norm_num), by simp [qddOf, reachY], fun r => r.elim0⟩
  obtain ⟨a, b, rs, h1, h2, h3⟩ := C96_lqp_follows_only_rest osqp hs N hN reach isSPD_one (by simp) hst
  obtain ⟨r, rfl⟩ := List.length_eq_one_iff.mp h2
  refine ⟨a, b, r, h1, fun t ht he => ?_⟩
  have := (h3 1 le_rfl).1.mp (fun j hj r' t' hr ht' => by
    obtain rfl : j = 0 := by omega
    obtain rfl : r = r' := by simpa using hr
    obtain rfl : t = t' := Option.some.inj (ht.symm.trans ht')
    exact he) 0 one_pos _ rfl
  have := congrFun this 0
  simp at this

end Lqp

end Verif.Props
