import Verif.Props.LoosenMet
import Verif.Props.ModerateJacc

/-!
# C95 for all levels of the joint-acceleration QPs
-/

set_option linter.unusedSectionVars false

namespace Verif.Props
open Matrix Verif Verif.Spec Verif.Model

section
variable {ι : Type} [Fintype ι] [DecidableEq ι] {c : ℕ} {tb : ι → Option ℝ} {hold : (Fin c → ℝ) → Prop}
  {m : ℕ} {M : Matrix (Fin m) (Fin c) ℝ}

/-- after a pass every level's answer is the best one that keeps what the answers of the levels above achieved -/
theorem jaccPassWith_best (hMF : ∀ F : Fin c → ℝ, (∀ r, (M *ᵥ F) r ≤ 0) ↔ hold F) {R : JRobot ι c} {solve : JSolver} (hs : solve.Exact)
    {ts : List (JTask ι c)} : ∀ (k : ℕ) {ts' : List (JTask ι c)}, jaccPassWith (jaccCallWith tb (some ⟨m, M⟩) R solve) ts k = some (true, ts') →
    ∃ o : ℕ → JAnswer ι c, (∀ j < k, ∃ T', ts'[j]? = some T' ∧ T'.out = some (o j)) ∧
      ∀ j < k, JAdm tb hold R (o j) ∧ (∀ i < j, ∀ T, ts[i]? = some T → T.J *ᵥ (o j).acc = T.J *ᵥ (o i).acc) ∧
        ∀ T, ts[j]? = some T → ∀ o', JAdm tb hold R o' → (∀ i < j, ∀ P, ts[i]? = some P → P.J *ᵥ o'.acc = P.J *ᵥ (o i).acc) →
          jaccEffort R T (o j).acc ≤ jaccEffort R T o'.acc
  | 0, ts', _ => ⟨fun _ => ⟨0, 0, 0⟩, fun j hj => absurd hj (Nat.not_lt_zero _), fun j hj => absurd hj (Nat.not_lt_zero _)⟩
  | k + 1, ts'', h => by
    have hpass := h
    unfold jaccPassWith at h
    split at h
    · cases h
    rename_i ok ts' h1
    split at h
    · cases h
    rename_i ok' t2 h2
    simp only [Option.some.injEq, Prod.mk.injEq, Bool.and_eq_true] at h
    obtain ⟨⟨rfl, rfl⟩, rfl⟩ := h
    have hsound := JSolver.Exact.sound hs
    obtain ⟨o, i1, i2⟩ := jaccPassWith_best hMF hs k h1
    obtain ⟨v1, v2⟩ := jaccPassWith_inv hMF hsound ts k ts' h1
    obtain ⟨T1, m1, M1, o1, s1, hT1, hts, -⟩ := jaccCall_success hsound h2
    obtain ⟨T, T', ok, b1, b2, b3, b4, b5⟩ := jaccCallWith_best hMF hs h2
    obtain ⟨w, w1, w2⟩ := jaccPassWith_stack hMF hsound hpass
    have hother : ∀ i, i ≠ k → t2[i]? = ts'[i]? := fun i hi => by rw [hts, List.getElem?_set_ne (Ne.symm hi)]
    have hw : ∀ j < k, w j = o j := fun j hj => by
      obtain ⟨A1, p1, p2⟩ := w1 j (by omega)
      obtain ⟨A2, q1, q2⟩ := i1 j hj
      rw [hother j (by omega), q1, Option.some.injEq] at p1
      subst p1
      exact Option.some.inj (p2.symm.trans q2)
    refine ⟨w, w1, fun j hj => ⟨(w2 j hj).1, fun i hi => (w2 j hj).2 i hi.le, fun U hU o' ho' hk => ?_⟩⟩
    rcases Nat.lt_or_eq_of_le (Nat.le_of_lt_succ hj) with hlt | rfl
    · rw [hw j hlt]
      refine (i2 j hlt).2.2 U hU o' ho' fun i hi P hP => ?_
      rw [hk i hi P hP, hw i (by omega)]
    · obtain ⟨A1, p1, p2⟩ := w1 j hj
      rw [b2, Option.some.injEq] at p1
      subst p1
      obtain rfl : ok = w j := Option.some.inj (b3.symm.trans p2)
      obtain ⟨T0, q0, o0, z1, rfl⟩ := v1 j T b1
      obtain rfl : U = T0 := Option.some.inj (hU.symm.trans z1)
      refine b5 o' ho' fun i P q hi hP hq => ?_
      obtain ⟨Q, oi, s, y1, y2, y3, -, y5, -⟩ := v2 i hi
      obtain rfl : P = Q := Option.some.inj (hP.symm.trans y1)
      obtain rfl : q = s := Option.some.inj (hq.symm.trans y3)
      obtain ⟨P0, q1, o2, x1, x2⟩ := v1 i P hP
      obtain ⟨A2, r1, r2⟩ := i1 i hi
      rw [y1, Option.some.injEq] at r1
      subst r1
      obtain rfl : oi = o i := Option.some.inj (y2.symm.trans r2)
      have := hk i hi P0 x1
      rw [hw i hi] at this
      subst x2
      rw [← y5]
      exact this

/-- equal efforts at the ends of a segment on which neither end is beaten: equal accelerations -/
theorem jacc_unique {R : JRobot ι c} (hA : IsSPD R.A) (T : JTask ι c) {a b : Fin 6 ⊕ ι → ℝ} (he : jaccEffort R T b = jaccEffort R T a)
    (h : jaccEffort R T a ≤ jaccEffort R T (a + (1 / 2 : ℝ) • (b - a))) : b = a := by
  by_contra hne
  have hp := hA.pos _ (sub_ne_zero.mpr hne)
  have e1 := jaccEffort_along hA.symm T a (b - a) 1
  have e2 := jaccEffort_along hA.symm T a (b - a) (1 / 2)
  rw [show a + (1 : ℝ) • (b - a) = b by simp] at e1
  have hsq := dot_self_nonneg' (T.J *ᵥ (b - a))
  rw [e2] at h
  nlinarith

theorem jaccPassWith_loosen {hold' : (Fin c → ℝ) → Prop} {m' : ℕ} {M' : Matrix (Fin m') (Fin c) ℝ}
    (hMF : ∀ F : Fin c → ℝ, (∀ r, (M *ᵥ F) r ≤ 0) ↔ hold F) (hMF' : ∀ F : Fin c → ℝ, (∀ r, (M' *ᵥ F) r ≤ 0) ↔ hold' F)
    (hh : ∀ F, hold F → hold' F) {R : JRobot ι c} (hA : IsSPD R.A) (cs' : List ContactLink) (limit' : Option (ι → ℝ))
    {solve solve' : JSolver} (hs : solve.Exact) (hs' : solve'.Exact) {ts t1 t2 : List (JTask ι c)} {k : ℕ}
    (h : jaccPassWith (jaccCallWith tb (some ⟨m, M⟩) R solve) ts k = some (true, t1))
    (h' : jaccPassWith (jaccCallWith tb (some ⟨m', M'⟩) { R with cs := cs', limit := limit' } solve') ts k = some (true, t2)) :
    ∃ o o' : ℕ → JAnswer ι c, (∀ j < k, ∃ T', t1[j]? = some T' ∧ T'.out = some (o j)) ∧
      (∀ j < k, ∃ T', t2[j]? = some T' ∧ T'.out = some (o' j)) ∧
      (∀ j < k, JAdm tb hold R (o j) ∧ JAdm tb hold' R (o' j)) ∧
      ∀ j < k, ∀ T, ts[j]? = some T → (∀ i < j, (o' i).acc = (o i).acc) →
        jaccEffort R T (o' j).acc < jaccEffort R T (o j).acc ∨ (o' j).acc = (o j).acc := by
  obtain ⟨o, h1, h2⟩ := jaccPassWith_best hMF hs k h
  obtain ⟨o', h1', h2'⟩ := jaccPassWith_best hMF' hs' k h'
  have ad : ∀ {x : JAnswer ι c}, JAdm tb hold' { R with cs := cs', limit := limit' } x ↔ JAdm tb hold' R x :=
    ⟨fun z => ⟨z.motion, z.torque, z.acc, z.contacts⟩, fun z => ⟨z.motion, z.torque, z.acc, z.contacts⟩⟩
  refine ⟨o, o', h1, h1', fun j hj => ⟨(h2 j hj).1, ad.mp (h2' j hj).1⟩, fun j hj T hT hsame => ?_⟩
  obtain ⟨a1, a2, -⟩ := h2 j hj
  obtain ⟨b1, b2, b3⟩ := h2' j hj
  have am : JAdm tb hold' { R with cs := cs', limit := limit' } (o j) := ⟨a1.motion, a1.torque, a1.acc, hh _ a1.contacts⟩
  have kp : ∀ i < j, ∀ P, ts[i]? = some P → P.J *ᵥ (o j).acc = P.J *ᵥ (o' i).acc := fun i hi P hP => by
    rw [a2 i hi P hP, hsame i hi]
  have hle : jaccEffort R T (o' j).acc ≤ jaccEffort R T (o j).acc := b3 T hT (o j) am kp
  rcases hle.lt_or_eq with hlt | he
  · exact Or.inl hlt
  · refine Or.inr (jacc_unique (a := (o' j).acc) (b := (o j).acc) hA T he.symm ?_).symm
    refine b3 T hT (JAnswer.along (o' j) (o j) (1 / 2)) (jadm_along hMF' b1 am (by norm_num) (by norm_num)) fun i hi P hP => ?_
    show P.J *ᵥ ((o' j).acc + (1 / 2 : ℝ) • ((o j).acc - (o' j).acc)) = _
    rw [mulVec_add, mulVec_smul, mulVec_sub, kp i hi P hP, b2 i hi P hP]; simp

end

section Full
variable {ι : Type} [Fintype ι] [DecidableEq ι] {c : ℕ} {R : JRobot ι c} {cs' : List ContactLink}

/-- C35 (a whole pass).  Every level's answer has the least effort among all admissible motions that give the levels above the
accelerations which the answers of those levels gave them. -/
theorem C35_pass_best (h6 : ∀ l ∈ R.cs, l.type = .c6d) (hp : ∀ l ∈ R.cs, 0 < l.planeX ∧ 0 < l.planeY) (hc : c = 6 * (active R.cs).length)
    {solve : JSolver} (hs : solve.Exact) {ts ts' : List (JTask ι c)} {k : ℕ} (h : jaccPass R solve ts k = some (true, ts')) :
    ∃ o : ℕ → JAnswer ι c, (∀ j < k, ∃ T', ts'[j]? = some T' ∧ T'.out = some (o j)) ∧
      ∀ j < k, JAdmissible R hc (o j) ∧ (∀ i < j, ∀ T, ts[i]? = some T → T.J *ᵥ (o j).acc = T.J *ᵥ (o i).acc) ∧
        ∀ T, ts[j]? = some T → ∀ o', JAdmissible R hc o' → (∀ i < j, ∀ P, ts[i]? = some P → P.J *ᵥ o'.acc = P.J *ᵥ (o i).acc) →
          jaccEffort R T (o j).acc ≤ jaccEffort R T o'.acc := by
  obtain ⟨M, hM, hMF⟩ := jContactRows_six h6 hp hc
  unfold jaccPass jaccCall at h
  rw [hM] at h
  obtain ⟨o, h1, h2⟩ := jaccPassWith_best hMF hs k h
  exact ⟨o, h1, fun j hj => ⟨jAdmissible_iff.mp (h2 j hj).1, (h2 j hj).2.1, fun T hT o' ho' hk =>
    (h2 j hj).2.2 T hT o' (jAdmissible_iff.mpr ho') hk⟩⟩

/-- **C95, joint-acceleration QP (all levels).**  With larger feet and friction: at the first level whose answer accelerates the joints
otherwise, the effort is strictly less. -/
theorem C95_jacc_no_worse (hA : IsSPD R.A) (h6 : ∀ l ∈ R.cs, l.type = .c6d) (hp : ∀ l ∈ R.cs, 0 < l.planeX ∧ 0 < l.planeY)
    (hc : c = 6 * (active R.cs).length) (hcs : List.Forall₂ ContactLe R.cs cs') {solve solve' : JSolver} (hs : solve.Exact)
    (hs' : solve'.Exact) (limit' : Option (ι → ℝ)) {ts t1 t2 : List (JTask ι c)} {k : ℕ} (h : jaccPass R solve ts k = some (true, t1))
    (h' : jaccPass { R with cs := cs', limit := limit' } solve' ts k = some (true, t2)) :
    ∃ o o' : ℕ → JAnswer ι c, (∀ j < k, ∃ T', t1[j]? = some T' ∧ T'.out = some (o j)) ∧
      (∀ j < k, ∃ T', t2[j]? = some T' ∧ T'.out = some (o' j)) ∧
      ∀ j < k, ∀ T, ts[j]? = some T → (∀ i < j, (o' i).acc = (o i).acc) →
        jaccEffort R T (o' j).acc < jaccEffort R T (o j).acc ∨ (o' j).acc = (o j).acc := by
  obtain ⟨h6', hp', hc'⟩ := loosen_contacts h6 hp hc hcs
  obtain ⟨M, hM, hMF⟩ := jContactRows_six h6 hp hc
  obtain ⟨M', hM', hMF'⟩ := jContactRows_six h6' hp' hc'
  unfold jaccPass jaccCall at h h'
  simp only at h'
  rw [hM] at h
  rw [hM'] at h'
  obtain ⟨o, o', h1, h2, -, h3⟩ := jaccPassWith_loosen hMF hMF' (fun F hF => contactsHold_mono hcs hc hc' hF) hA cs' limit' hs hs' h h'
  exact ⟨o, o', h1, h2, h3⟩

end Full

section Reduced
variable {k c : ℕ} {ν : Type} [Fintype ν] [DecidableEq ν]
variable {A : Matrix (RSys (Fin k) ν) (RSys (Fin k) ν) ℝ} {J : Matrix (Fin 6) ν ℝ} {G : RSys (Fin k) ν → ℝ} {D : Reduced (Fin k) ν}
  {Jc : Matrix (Fin c) (RSys (Fin k) ν) ℝ} {SI : Mat6} {R : Mat3} {cs cs' : List ContactLink} {solve solve' : JSolver}

/-- C95 (the joint-acceleration QP of the reduced model does not begin to fail). -/
theorem C95_jacc_reduced_success (hA : IsSPD A) (hR : R * Rᵀ = 1) (hJ : jInc SI R (baseNc A) = some J)
    (hcpl : ∀ (i : Fin k) (j : ν), A (.inr (.inl i)) (.inr (.inr j)) = 0) (h : reduce vcOf ncOf A⁻¹ J G = some D)
    (h0 : ∀ r j, Jc r (ncOf j) = 0)
    (h6 : ∀ l ∈ cs, l.type = .c6d) (hp : ∀ l ∈ cs, 0 < l.planeX ∧ 0 < l.planeY) (hc : c = 6 * (active cs).length)
    (hcs : List.Forall₂ ContactLe cs cs') (hs : solve.Exact) (hcomp : JSolver.Complete solve) (hs' : solve'.Exact)
    (hcomp' : JSolver.Complete solve') {ts ts' : List (RJTask (Fin k) ν c)} {n : ℕ} (hn : 0 < n) (hlen : n ≤ ts.length)
    (hpass : rjaccPass D Jc cs solve ts n = some (true, ts')) : ∃ ts'', rjaccPass D Jc cs' solve' ts n = some (true, ts'') := by
  obtain ⟨h6', hp', hc'⟩ := loosen_contacts h6 hp hc hcs
  obtain ⟨τ, qdd, F, m1, m2, m3⟩ := (C62_succeeds_iff hA hR hJ hcpl h h0 h6 hp hc hs hcomp hn hlen).mp ⟨_, hpass⟩
  exact (C62_succeeds_iff hA hR hJ hcpl h h0 h6' hp' hc' hs' hcomp' hn hlen).mpr ⟨τ, qdd, F, m1, contactsHold_mono hcs hc hc' m2, m3⟩

/-- C95, joint-acceleration QP of the reduced model (partial: the free joints are sent their own weight).  With larger feet and
friction, at the first level whose answer moves the robot otherwise, the motion has less acceleration energy plus miss. -/
theorem C95_jacc_reduced_no_worse_partial (hA : IsSPD A) (hR : R * Rᵀ = 1) (hJ : jInc SI R (baseNc A) = some J)
    (hcpl : ∀ (i : Fin k) (j : ν), A (.inr (.inl i)) (.inr (.inr j)) = 0) (h : reduce vcOf ncOf A⁻¹ J G = some D)
    (h0 : ∀ r j, Jc r (ncOf j) = 0)
    (h6 : ∀ l ∈ cs, l.type = .c6d) (hp : ∀ l ∈ cs, 0 < l.planeX ∧ 0 < l.planeY) (hc : c = 6 * (active cs).length)
    (hcs : List.Forall₂ ContactLe cs cs') (hs : solve.Exact) (hs' : solve'.Exact) {ts t1 t2 : List (RJTask (Fin k) ν c)} {n : ℕ}
    (hpass : rjaccPass D Jc cs solve ts n = some (true, t1)) (hpass' : rjaccPass D Jc cs' solve' ts n = some (true, t2)) :
    ∃ o o' : ℕ → JAnswer (Fin k ⊕ Fin 6) c, (∀ j < n, ∃ T', t1[j]? = some T' ∧ T'.out = some (o j)) ∧
      (∀ j < n, ∃ T', t2[j]? = some T' ∧ T'.out = some (o' j)) ∧
      ∃ q q' : ℕ → RSys (Fin k) ν → ℝ,
        (∀ j < n, (∃ F, Motion A Jc G (assembleTorque D (o j).torque fun s => G (ncOf s)) (q j) F) ∧
          ∃ F, Motion A Jc G (assembleTorque D (o' j).torque fun s => G (ncOf s)) (q' j) F) ∧
        ∀ j < n, ∀ T, ts[j]? = some T → (∀ i < j, q' i = q i) →
          (1 / 2) * accelEnergy A (q' j) + 50 * ((T.J *ᵥ q' j - T.f) ⬝ᵥ (T.J *ᵥ q' j - T.f)) <
            (1 / 2) * accelEnergy A (q j) + 50 * ((T.J *ᵥ q j - T.f) ⬝ᵥ (T.J *ᵥ q j - T.f)) ∨ q' j = q j := by
  obtain ⟨h6', hp', hc'⟩ := loosen_contacts h6 hp hc hcs
  obtain ⟨M, hM, hMF⟩ := rjRows_six h6 hp hc
  obtain ⟨M', hM', hMF'⟩ := rjRows_six h6' hp' hc'
  have hl := rjaccPass_low (D := D) (Jc := Jc) (cs := cs) (solve := solve) ts n
  have hl' := rjaccPass_low (D := D) (Jc := Jc) (cs := cs') (solve := solve') ts n
  rw [hpass, hM] at hl
  rw [hpass', hM'] at hl'
  obtain ⟨o, o', s1, s2, ad, hlex⟩ := jaccPassWith_loosen (R := rjRobot D Jc cs) hMF hMF' (fun F hF => contactsHold_mono hcs hc hc' hF)
    (AR_spd h).1 cs' none hs hs' hl.symm hl'.symm
  have stored : ∀ {t : List (RJTask (Fin k) ν c)} {w : ℕ → JAnswer (Fin k ⊕ Fin 6) c},
      (∀ j < n, ∃ T', (t.map (RJTask.low D))[j]? = some T' ∧ T'.out = some (w j)) → ∀ j < n, ∃ T', t[j]? = some T' ∧ T'.out = some (w j) :=
    fun hst j hj => by
      obtain ⟨T', e1, e2⟩ := hst j hj
      rw [List.getElem?_map] at e1
      obtain ⟨U, hU, rfl⟩ := Option.map_eq_some_iff.mp e1
      exact ⟨U, hU, e2⟩
  have eN : D.GNC = fun j => G (ncOf j) := funext (reduce_eq_some h).2.2.2.2.2.2.2.2.1
  obtain ⟨-, f2⟩ := effort_low hA hR hJ hcpl h 0
  have hkeep : ∀ a, D.JR *ᵥ (D.JRinvTᵀ *ᵥ a) = a := fun a => by
    have := congrArg transpose (C40_consistent_inverse hA hR hJ hcpl h).2.1
    rw [transpose_mul, transpose_transpose, transpose_one] at this
    rw [mulVec_mulVec, this, one_mulVec]
  refine ⟨o, o', stored s1, stored s2, fun j => D.JRinvTᵀ *ᵥ (o j).acc, fun j => D.JRinvTᵀ *ᵥ (o' j).acc, fun j hj => ?_,
    fun j hj T hT hsame => ?_⟩
  · have m1 := motion_free hA hR hJ hcpl h h0 (ad j hj).1.motion
    have m2 := motion_free hA hR hJ hcpl h h0 (ad j hj).2.motion
    rw [eN] at m1 m2
    exact ⟨⟨_, m1⟩, ⟨_, m2⟩⟩
  · have := hlex j hj (T.low D) (by rw [List.getElem?_map, hT]; rfl) fun i hi => by
      have e := congrArg (D.JR *ᵥ ·) (hsame i hi)
      simp only [hkeep] at e
      exact e
    refine this.imp (fun hlt => ?_) fun e => congrArg (D.JRinvTᵀ *ᵥ ·) e
    unfold accelEnergy
    rw [f2, f2, mulVec_mulVec, mulVec_mulVec]
    exact hlt

end Reduced

/-- two levels on a standing robot, with a better foot -/
example : ∃ t1 t2 : List (JTask (Fin 1) 6),
    jaccPass exStand bestSolver [⟨1, exJJ, fun _ => 5, none, none⟩, ⟨1, exJJ, fun _ => 7, none, none⟩] 2 = some (true, t1) ∧
    jaccPass { exStand with cs := exStand.cs.map betterFoot, limit := none } bestSolver
      [⟨1, exJJ, fun _ => 5, none, none⟩, ⟨1, exJJ, fun _ => 7, none, none⟩] 2 = some (true, t2) ∧
    ∃ o o' : ℕ → JAnswer (Fin 1) 6, (∀ j < 2, ∃ T', t1[j]? = some T' ∧ T'.out = some (o j)) ∧
      (∀ j < 2, ∃ T', t2[j]? = some T' ∧ T'.out = some (o' j)) ∧
      (jaccEffort exStand ⟨1, exJJ, fun _ => 5, none, none⟩ (o' 0).acc < jaccEffort exStand ⟨1, exJJ, fun _ => 5, none, none⟩ (o 0).acc ∨
        (o' 0).acc = (o 0).acc) := by
  have hc : 6 = 6 * (active exStand.cs).length := by simp [exStand, exContact, active]
  have h6 : ∀ l ∈ exStand.cs, l.type = .c6d := by simp [exStand, exContact]
  have hp : ∀ l ∈ exStand.cs, 0 < l.planeX ∧ 0 < l.planeY := by simp [exStand, exContact]
  obtain ⟨t1, e1⟩ := C35_answers_hypotheses_met
  obtain ⟨t2, e2⟩ := C95_jacc_success (R := exStand) isSPD_one h6 hp hc (betterFeet_le _) bestSolver_exact bestSolver_complete bestSolver_exact
    bestSolver_complete two_pos (by simp) none e1
  obtain ⟨o, o', s1, s2, hl⟩ := C95_jacc_no_worse (R := exStand) isSPD_one h6 hp hc (betterFeet_le _) bestSolver_exact bestSolver_exact none e1 e2
  exact ⟨t1, t2, e1, e2, o, o', s1, s2, hl 0 two_pos _ rfl fun i hi => absurd hi (Nat.not_lt_zero i)⟩

/-- the robot with the heavy arm, with a better foot -/
example (f : ℝ) : ∃ D t1 t2 o o' q q', reduce vcOf ncOf (exRed 6)⁻¹ 1 HeavyArm.G = some D ∧
    rjaccPass D (exFoot 6) HeavyArm.cs bestSolver [HeavyArm.task f] 1 = some (true, t1) ∧
    rjaccPass D (exFoot 6) (HeavyArm.cs.map betterFoot) bestSolver [HeavyArm.task f] 1 = some (true, t2) ∧
    (∃ F, Motion (exRed 6) (exFoot 6) HeavyArm.G (assembleTorque D o fun s => HeavyArm.G (ncOf s)) q F) ∧
    (∃ F, Motion (exRed 6) (exFoot 6) HeavyArm.G (assembleTorque D o' fun s => HeavyArm.G (ncOf s)) q' F) ∧
    ((1 / 2) * accelEnergy (exRed 6) q' + 50 * (((HeavyArm.task f).J *ᵥ q' - (HeavyArm.task f).f) ⬝ᵥ ((HeavyArm.task f).J *ᵥ q' - (HeavyArm.task f).f)) <
      (1 / 2) * accelEnergy (exRed 6) q + 50 * (((HeavyArm.task f).J *ᵥ q - (HeavyArm.task f).f) ⬝ᵥ ((HeavyArm.task f).J *ᵥ q - (HeavyArm.task f).f)) ∨
      q' = q) := by
  obtain ⟨D, t1, hD, e1⟩ := C62_answers_hypotheses_met f
  obtain ⟨t2, e2⟩ := C95_jacc_reduced_success exRed_spd (by simp) exRed_jInc exRed_coupling hD (fun _ _ => rfl) HeavyArm.six HeavyArm.plane
    HeavyArm.dof (betterFeet_le _) bestSolver_exact bestSolver_complete bestSolver_exact bestSolver_complete one_pos (by simp) e1
  obtain ⟨o, o', -, -, q, q', hm, hl⟩ := C95_jacc_reduced_no_worse_partial exRed_spd (by simp) exRed_jInc exRed_coupling hD (fun _ _ => rfl)
    HeavyArm.six HeavyArm.plane HeavyArm.dof (betterFeet_le _) bestSolver_exact bestSolver_exact e1 e2
  exact ⟨D, t1, t2, (o 0).torque, (o' 0).torque, q 0, q' 0, hD, e1, e2, (hm 0 one_pos).1, (hm 0 one_pos).2,
    hl 0 one_pos _ rfl fun i hi => absurd hi (Nat.not_lt_zero i)⟩

end Verif.Props
