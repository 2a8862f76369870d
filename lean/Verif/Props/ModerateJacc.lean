import Verif.Props.JaccAnswers
import Verif.Props.Moderate

/-!
# C93: the joint-acceleration QP moderates the first command, and never amplifies a change of any command
-/

set_option linter.unusedSectionVars false

namespace Verif.Props
open Matrix Verif Verif.Spec Verif.Model

/-- First-order condition from a quadratic bound on the segment. -/
theorem first_order_of {p q : ℝ} (hq : 0 ≤ q) (key : ∀ t : ℝ, 0 ≤ t → t ≤ 1 → 0 ≤ 2 * t * p + t ^ 2 * q) : 0 ≤ p := by
  by_contra hneg
  push Not at hneg
  by_cases hb : -p ≤ q
  · have hqp : 0 < q := by linarith
    have h1 := key (-p / q) (by have : 0 < -p := by linarith
                                positivity) ((div_le_one hqp).mpr hb)
    have e : 2 * (-p / q) * p + (-p / q) ^ 2 * q = -(p ^ 2 / q) := by field_simp; ring
    rw [e] at h1
    have : 0 < p ^ 2 / q := div_pos (by nlinarith) hqp
    linarith
  · have := key 1 zero_le_one le_rfl
    push Not at hb
    linarith

theorem abs_along {x y b s : ℝ} (hx : |x| ≤ b) (hy : |y| ≤ b) (h0 : 0 ≤ s) (h1 : s ≤ 1) : |x + s * (y - x)| ≤ b := by
  rw [abs_le] at *
  constructor <;> nlinarith

variable {ι : Type} [Fintype ι] [DecidableEq ι] {c : ℕ} {tb : ι → Option ℝ} {hold : (Fin c → ℝ) → Prop}

/-- The answer a part `s` of the way from `o` to `o'`. -/
def JAnswer.along (o o' : JAnswer ι c) (s : ℝ) : JAnswer ι c :=
  ⟨o.acc + s • (o'.acc - o.acc), o.torque + s • (o'.torque - o.torque), o.force + s • (o'.force - o.force)⟩

theorem jadm_along {m : ℕ} {M : Matrix (Fin m) (Fin c) ℝ} (hMF : ∀ F : Fin c → ℝ, (∀ r, (M *ᵥ F) r ≤ 0) ↔ hold F)
    {R : JRobot ι c} {o o' : JAnswer ι c} (h : JAdm tb hold R o) (h' : JAdm tb hold R o') {s : ℝ} (h0 : 0 ≤ s) (h1 : s ≤ 1) :
    JAdm tb hold R (JAnswer.along o o' s) := by
  refine ⟨⟨?_, ?_⟩, fun i b hb => abs_along (h.torque i b hb) (h'.torque i b hb) h0 h1, fun i => abs_along (h.acc i) (h'.acc i) h0 h1,
    (hMF _).mp fun r => ?_⟩
  · have e1 : R.A *ᵥ o.acc + R.Jcᵀ *ᵥ o.force + R.G = actuate o.torque := h.motion.1
    have e2 : R.A *ᵥ o'.acc + R.Jcᵀ *ᵥ o'.force + R.G = actuate o'.torque := h'.motion.1
    show R.A *ᵥ (o.acc + s • (o'.acc - o.acc)) + R.Jcᵀ *ᵥ (o.force + s • (o'.force - o.force)) + R.G =
      actuate (o.torque + s • (o'.torque - o.torque))
    have e3 : actuate (o.torque + s • (o'.torque - o.torque)) = actuate o.torque + s • (actuate o'.torque - actuate o.torque) := by
      funext i; rcases i with i | i <;> simp [actuate]
    rw [e3, ← e1, ← e2]
    simp only [mulVec_add, mulVec_smul, mulVec_sub]
    module
  · have e1 : R.Jc *ᵥ o.acc = 0 := h.motion.2
    have e2 : R.Jc *ᵥ o'.acc = 0 := h'.motion.2
    show R.Jc *ᵥ (o.acc + s • (o'.acc - o.acc)) = 0
    rw [mulVec_add, mulVec_smul, mulVec_sub, e1, e2]; simp
  · have e1 := (hMF _).mpr h.contacts r
    have e2 := (hMF _).mpr h'.contacts r
    show (M *ᵥ (o.force + s • (o'.force - o.force))) r ≤ 0
    simp only [mulVec_add, mulVec_smul, mulVec_sub, Pi.add_apply, Pi.smul_apply, Pi.sub_apply, smul_eq_mul]
    nlinarith

theorem JSolver.Exact.sound {solve : JSolver} (h : solve.Exact) : solve.Sound := fun i V R _ d x hx => (h i V R d x hx).1

/-- The effort along a segment. -/
theorem jaccEffort_along {R : JRobot ι c} (hA : R.Aᵀ = R.A) (T : JTask ι c) (a d : Fin 6 ⊕ ι → ℝ) (s : ℝ) :
    jaccEffort R T (a + s • d) = jaccEffort R T a +
      2 * s * ((1 / 2) * (a ⬝ᵥ (R.A *ᵥ d) + 100 * ((T.J *ᵥ a - T.f) ⬝ᵥ (T.J *ᵥ d)))) +
      s ^ 2 * ((1 / 2) * (d ⬝ᵥ (R.A *ᵥ d)) + 50 * ((T.J *ᵥ d) ⬝ᵥ (T.J *ᵥ d))) := by
  have hs : d ⬝ᵥ (R.A *ᵥ a) = a ⬝ᵥ (R.A *ᵥ d) := by
    rw [dotProduct_mulVec, ← mulVec_transpose, hA, dotProduct_comm]
  have e : T.J *ᵥ (a + s • d) - T.f = (T.J *ᵥ a - T.f) + s • (T.J *ᵥ d) := by
    rw [mulVec_add, mulVec_smul]; module
  unfold jaccEffort
  rw [e, mulVec_add, mulVec_smul]
  generalize T.J *ᵥ a - T.f = u
  generalize T.J *ᵥ d = v
  simp only [add_dotProduct, dotProduct_add, smul_dotProduct, dotProduct_smul, smul_eq_mul, hs, dotProduct_comm v u]
  ring

/-- First-order condition of one level: no admissible motion that keeps the levels above lies in a direction of descent. -/
theorem jacc_first_order {m : ℕ} {M : Matrix (Fin m) (Fin c) ℝ} (hMF : ∀ F : Fin c → ℝ, (∀ r, (M *ᵥ F) r ≤ 0) ↔ hold F)
    {R : JRobot ι c} (hA : IsSPD R.A) {solve : JSolver} (hs : solve.Exact) {ts ts' : List (JTask ι c)} {j : ℕ}
    (h : jaccCallWith tb (some ⟨m, M⟩) R solve ts j = some (true, ts')) :
    ∃ (T : JTask ι c) (o : JAnswer ι c) (q : Fin T.t → ℝ), ts[j]? = some T ∧
      ts' = ts.set j { T with fqp := some q, out := some o } ∧ T.J *ᵥ o.acc = T.f + q ∧
      JAdm tb hold R o ∧
      (∀ (i : ℕ) (P : JTask ι c), i < j → ts[i]? = some P → ∃ q, P.fqp = some q ∧ P.J *ᵥ o.acc = P.f + q) ∧
      ∀ o', JAdm tb hold R o' →
        (∀ (i : ℕ) (P : JTask ι c) (q : Fin P.t → ℝ), i < j → ts[i]? = some P → P.fqp = some q →
          P.J *ᵥ o'.acc = P.f + q) →
        0 ≤ o.acc ⬝ᵥ (R.A *ᵥ (o'.acc - o.acc)) + 100 * ((T.J *ᵥ o.acc - T.f) ⬝ᵥ (T.J *ᵥ (o'.acc - o.acc))) := by
  obtain ⟨T, m', M', o, q, hT, hts, -, -, hprev, hcur, -⟩ := jaccCall_success (JSolver.Exact.sound hs) h
  obtain ⟨T2, T', o2, hT2, hT', ho2, hadm, hbest⟩ := jaccCallWith_best hMF hs h
  rw [hT, Option.some.injEq] at hT2
  subst hT2
  obtain ⟨hk, -⟩ := List.getElem?_eq_some_iff.mp hT
  rw [hts, List.getElem?_set_self hk, Option.some.injEq] at hT'
  subst hT'
  simp only [Option.some.injEq] at ho2
  subst ho2
  refine ⟨T, o, q, hT, hts, hcur, hadm, hprev, fun o' ho' hq' => ?_⟩
  have hd : 0 ≤ (1 / 2) * ((o'.acc - o.acc) ⬝ᵥ (R.A *ᵥ (o'.acc - o.acc))) +
      50 * ((T.J *ᵥ (o'.acc - o.acc)) ⬝ᵥ (T.J *ᵥ (o'.acc - o.acc))) := by
    have h1 := dot_self_nonneg' (T.J *ᵥ (o'.acc - o.acc))
    have h2 : 0 ≤ (o'.acc - o.acc) ⬝ᵥ (R.A *ᵥ (o'.acc - o.acc)) := by
      by_cases h0 : o'.acc - o.acc = 0
      · rw [h0]; simp
      · exact (hA.pos _ h0).le
    positivity
  have := first_order_of (p := (1 / 2) * (o.acc ⬝ᵥ (R.A *ᵥ (o'.acc - o.acc)) +
      100 * ((T.J *ᵥ o.acc - T.f) ⬝ᵥ (T.J *ᵥ (o'.acc - o.acc))))) hd fun s h0 h1 => by
    have hb := hbest _ (jadm_along hMF hadm ho' h0 h1) fun i P q1 hi hP hq1 => by
      obtain ⟨q2, e1, e2⟩ := hprev i P hi hP
      rw [hq1, Option.some.injEq] at e1
      subst e1
      show P.J *ᵥ (o.acc + s • (o'.acc - o.acc)) = _
      rw [mulVec_add, mulVec_smul, mulVec_sub, hq' i P q1 hi hP hq1, e2]; simp
    have e := jaccEffort_along hA.symm T o.acc (o'.acc - o.acc) s
    have hb' : jaccEffort R T o.acc ≤ jaccEffort R T (o.acc + s • (o'.acc - o.acc)) := hb
    rw [e] at hb'
    linarith
  linarith

/-- If the robot can stand still, the first level's acceleration moderates its command. -/
theorem jacc_moderates {R : JRobot ι c} (hA : IsSPD R.A) (T : JTask ι c) {a : Fin 6 ⊕ ι → ℝ}
    (h : 0 ≤ a ⬝ᵥ (R.A *ᵥ (0 - a)) + 100 * ((T.J *ᵥ a - T.f) ⬝ᵥ (T.J *ᵥ (0 - a)))) :
    Moderates T.f (T.J *ᵥ a) ∧ a ⬝ᵥ (R.A *ᵥ a) ≤ 25 * (T.f ⬝ᵥ T.f) := by
  have h2 : 0 ≤ a ⬝ᵥ (R.A *ᵥ a) := by
    by_cases h0 : a = 0
    · rw [h0]; simp
    · exact (hA.pos _ h0).le
  have h3 := dot_self_nonneg' ((T.J *ᵥ a) - (1 / 2 : ℝ) • T.f)
  unfold Moderates
  simp only [zero_sub, mulVec_neg, dotProduct_neg, sub_dotProduct, dotProduct_sub, smul_dotProduct, dotProduct_smul, smul_eq_mul,
    dotProduct_comm T.f (T.J *ᵥ a)] at h h3
  constructor <;> linarith

/-- C93, joint-acceleration QP.  If the robot could stand still (some admissible answer has zero acceleration), the acceleration
that the first level's answer gives its task moderates the command: it does not point away from it, is not larger and is not
further from it than standing still is.  The whole acceleration is bounded by the command: `q̈ᵀ A q̈ ≤ 25 ‖f‖²`. -/
theorem C93_jacc_moderates {R : JRobot ι c} (hA : IsSPD R.A) (h6 : ∀ l ∈ R.cs, l.type = .c6d)
    (hp : ∀ l ∈ R.cs, 0 < l.planeX ∧ 0 < l.planeY) (hc : c = 6 * (active R.cs).length)
    {solve : JSolver} (hs : solve.Exact) {ts ts' : List (JTask ι c)}
    (h : jaccCall R solve ts 0 = some (true, ts')) {o₀ : JAnswer ι c} (h0 : JAdmissible R hc o₀) (hstill : o₀.acc = 0) :
    ∃ (T T' : JTask ι c) (o : JAnswer ι c), ts[0]? = some T ∧ ts'[0]? = some T' ∧ T'.out = some o ∧
      Moderates T.f (T.J *ᵥ o.acc) ∧ o.acc ⬝ᵥ (R.A *ᵥ o.acc) ≤ 25 * (T.f ⬝ᵥ T.f) := by
  obtain ⟨M, hM, hMF⟩ := jContactRows_six h6 hp hc
  unfold jaccCall at h
  rw [hM] at h
  obtain ⟨T, o, q, hT, rfl, -, -, -, hfo⟩ := jacc_first_order hMF hA hs h
  obtain ⟨hk, -⟩ := List.getElem?_eq_some_iff.mp hT
  have := hfo o₀ (jAdmissible_iff.mpr h0) fun i P q hi => absurd hi (Nat.not_lt_zero _)
  rw [hstill] at this
  exact ⟨T, _, o, hT, List.getElem?_set_self hk, rfl, jacc_moderates hA T this⟩

/-- C93, joint-acceleration QP.  No level amplifies a change of its command: if the same level of the same stack is solved once with
command `f` and once with command `g`, the difference of the task accelerations moderates the difference of the commands.  The
solvers may differ. -/
theorem C93_jacc_nonexpansive {R : JRobot ι c} (hA : IsSPD R.A) (h6 : ∀ l ∈ R.cs, l.type = .c6d)
    (hp : ∀ l ∈ R.cs, 0 < l.planeX ∧ 0 < l.planeY) (hc : c = 6 * (active R.cs).length)
    {solve solve' : JSolver} (hs : solve.Exact) (hs' : solve'.Exact) {ts t1 t2 : List (JTask ι c)} {j : ℕ} {T : JTask ι c}
    (hT : ts[j]? = some T) (g : Fin T.t → ℝ)
    (h : jaccCall R solve ts j = some (true, t1)) (h' : jaccCall R solve' (ts.set j { T with f := g }) j = some (true, t2)) :
    ∃ (T1 T2 : JTask ι c) (o1 o2 : JAnswer ι c), t1[j]? = some T1 ∧ T1.out = some o1 ∧ t2[j]? = some T2 ∧ T2.out = some o2 ∧
      Moderates (T.f - g) (T.J *ᵥ o1.acc - T.J *ᵥ o2.acc) := by
  obtain ⟨M, hM, hMF⟩ := jContactRows_six h6 hp hc
  unfold jaccCall at h h'
  rw [hM] at h h'
  obtain ⟨U, o1, q1, hU, rfl, -, a1, p1, f1⟩ := jacc_first_order hMF hA hs h
  rw [hT, Option.some.injEq] at hU
  subst hU
  obtain ⟨hk, -⟩ := List.getElem?_eq_some_iff.mp hT
  obtain ⟨V, o2, q2, hV, rfl, -, a2, p2, f2⟩ := jacc_first_order hMF hA hs' h'
  rw [List.getElem?_set_self hk, Option.some.injEq] at hV
  subst hV
  have hsame : ∀ i < j, (ts.set j { T with f := g })[i]? = ts[i]? := fun i hi => List.getElem?_set_ne (by omega)
  have b1 := f1 o2 a2 fun i P q hi hP hq => by
    obtain ⟨q', e1, e2⟩ := p2 i P hi (by rw [hsame i hi]; exact hP)
    rw [hq, Option.some.injEq] at e1
    rw [e2, e1]
  have b2 := f2 o1 a1 fun i P q hi hP hq => by
    obtain ⟨q', e1, e2⟩ := p1 i P hi (by rw [← hsame i hi]; exact hP)
    rw [hq, Option.some.injEq] at e1
    rw [e2, e1]
  refine ⟨_, _, o1, o2, List.getElem?_set_self hk, rfl, List.getElem?_set_self (by simpa using hk), rfl, ?_⟩
  have hsym : ∀ x y : Fin 6 ⊕ ι → ℝ, x ⬝ᵥ (R.A *ᵥ y) = y ⬝ᵥ (R.A *ᵥ x) := fun x y => by
    rw [dotProduct_mulVec, ← mulVec_transpose, hA.symm, dotProduct_comm]
  have h2 : 0 ≤ (o1.acc - o2.acc) ⬝ᵥ (R.A *ᵥ (o1.acc - o2.acc)) := by
    by_cases h0 : o1.acc - o2.acc = 0
    · rw [h0]; simp
    · exact (hA.pos _ h0).le
  unfold Moderates
  simp only [mulVec_sub, sub_dotProduct, dotProduct_sub, hsym o2.acc o1.acc, dotProduct_comm T.f, dotProduct_comm g,
    dotProduct_comm (T.J *ᵥ o2.acc) (T.J *ᵥ o1.acc)] at b1 b2 h2 ⊢
  linarith

/-- C93, joint-acceleration QP.  If all commands are zero and the robot could stand still, it stands still at every level. -/
theorem C93_jacc_still {R : JRobot ι c} (hA : IsSPD R.A) (h6 : ∀ l ∈ R.cs, l.type = .c6d)
    (hp : ∀ l ∈ R.cs, 0 < l.planeX ∧ 0 < l.planeY) (hc : c = 6 * (active R.cs).length)
    {solve : JSolver} (hs : solve.Exact) {ts : List (JTask ι c)} (hz : ∀ T ∈ ts, T.f = 0)
    {o₀ : JAnswer ι c} (h0 : JAdmissible R hc o₀) (hstill : o₀.acc = 0) :
    ∀ (k : ℕ) (ts' : List (JTask ι c)), jaccPass R solve ts k = some (true, ts') →
      ∀ j < k, ∃ (T' : JTask ι c) (o : JAnswer ι c), ts'[j]? = some T' ∧ T'.out = some o ∧ o.acc = 0 := by
  obtain ⟨M, hM, hMF⟩ := jContactRows_six h6 hp hc
  have key : ∀ (k : ℕ) (ts' : List (JTask ι c)), jaccPass R solve ts k = some (true, ts') →
      (∀ T ∈ ts', T.f = 0) ∧
      ∀ j < k, ∃ (T' : JTask ι c) (o : JAnswer ι c), ts'[j]? = some T' ∧ T'.out = some o ∧ o.acc = 0 ∧ T'.fqp = some 0 := by
    intro k
    induction k with
    | zero =>
      intro ts' h
      simp only [jaccPass, jaccPassWith, Option.some.injEq, Prod.mk.injEq, true_and] at h
      subst h
      exact ⟨hz, fun j hj => absurd hj (Nat.not_lt_zero _)⟩
    | succ k ih =>
      intro ts'' h
      unfold jaccPass jaccPassWith at h
      split at h
      · cases h
      rename_i ok ts' h1
      split at h
      · cases h
      rename_i ok' t2 h2
      simp only [Option.some.injEq, Prod.mk.injEq, Bool.and_eq_true] at h
      obtain ⟨⟨rfl, rfl⟩, rfl⟩ := h
      obtain ⟨i1, i2⟩ := ih ts' h1
      unfold jaccCall at h2
      rw [hM] at h2
      obtain ⟨T, o, q, hT, rfl, hcur, -, hprev, hfo⟩ := jacc_first_order hMF hA hs h2
      obtain ⟨hk, -⟩ := List.getElem?_eq_some_iff.mp hT
      have hTf : T.f = 0 := i1 T (List.mem_of_getElem? hT)
      have hv := hfo o₀ (jAdmissible_iff.mpr h0) fun i P q hi hP hq => by
        obtain ⟨T', o', e1, -, -, e4⟩ := i2 i hi
        rw [hP, Option.some.injEq] at e1
        subst e1
        rw [hq, Option.some.injEq] at e4
        rw [e4, i1 P (List.mem_of_getElem? hP), hstill]; simp
      rw [hstill] at hv
      have hb := (jacc_moderates hA T hv).2
      have ha : o.acc = 0 := by
        by_contra hne
        have := hA.pos _ hne
        rw [hTf] at hb
        simp at hb
        linarith
      have hq0 : q = 0 := by
        rw [ha, hTf, mulVec_zero, zero_add] at hcur
        exact hcur.symm
      refine ⟨fun U hU => ?_, fun j hj => ?_⟩
      · rcases List.mem_or_eq_of_mem_set hU with hU | rfl
        · exact i1 U hU
        · exact hTf
      · by_cases hjk : j = k
        · subst hjk
          exact ⟨_, o, List.getElem?_set_self hk, rfl, ha, by rw [hq0]⟩
        · rw [List.getElem?_set_ne (Ne.symm hjk)]
          exact i2 j (by omega)
  exact fun k ts' h j hj => let ⟨T', o, a, b, d, _⟩ := (key k ts' h).2 j hj; ⟨T', o, a, b, d⟩

/-! ### The reduced model -/

section Reduced
variable {k : ℕ} {ν : Type} [Fintype ν] [DecidableEq ν] {c : ℕ}
variable {A : Matrix (RSys (Fin k) ν) (RSys (Fin k) ν) ℝ} {J : Matrix (Fin 6) ν ℝ} {G : RSys (Fin k) ν → ℝ} {D : Reduced (Fin k) ν}
  {Jc : Matrix (Fin c) (RSys (Fin k) ν) ℝ} {SI : Mat6} {R : Mat3} {cs : List ContactLink} {solve : JSolver}

/-- C93, joint-acceleration QP of the reduced model (partial: the free joints are sent their own weight).  If the robot could stand
still with its contacts holding and the torques of the contact-chain joints within ±200, then in every motion caused by the
first level's answer the acceleration of its task moderates the command, and the whole acceleration is bounded by the command. -/
theorem C93_jacc_reduced_moderates_partial (hA : IsSPD A) (hR : R * Rᵀ = 1) (hJ : jInc SI R (baseNc A) = some J)
    (hcpl : ∀ (i : Fin k) (j : ν), A (.inr (.inl i)) (.inr (.inr j)) = 0) (h : reduce vcOf ncOf A⁻¹ J G = some D)
    (h0 : ∀ r j, Jc r (ncOf j) = 0)
    (h6 : ∀ l ∈ cs, l.type = .c6d) (hp : ∀ l ∈ cs, 0 < l.planeX ∧ 0 < l.planeY) (hc : c = 6 * (active cs).length)
    (hs : solve.Exact) {ts ts' : List (RJTask (Fin k) ν c)} (hcall : rjaccCall D Jc cs solve ts 0 = some (true, ts'))
    {τ₀ : Fin k ⊕ ν → ℝ} {F₀ : Fin c → ℝ} (hm₀ : Motion A Jc G τ₀ 0 F₀) (hF₀ : ContactsHold cs (F₀ ∘ Fin.cast hc.symm))
    (ht₀ : ∀ i, |τ₀ (.inl i)| ≤ 200) :
    ∃ (T T' : RJTask (Fin k) ν c) (o : JAnswer (Fin k ⊕ Fin 6) c), ts[0]? = some T ∧ ts'[0]? = some T' ∧ T'.out = some o ∧
      ∀ qdd F, Motion A Jc G (assembleTorque D o.torque fun s => G (ncOf s)) qdd F →
        Moderates T.f (T.J *ᵥ qdd) ∧ qdd ⬝ᵥ (A *ᵥ qdd) ≤ 25 * (T.f ⬝ᵥ T.f) := by
  obtain ⟨M, hM, hMF⟩ := rjRows_six h6 hp hc
  have hl := rjaccCall_low (D := D) (Jc := Jc) (cs := cs) (solve := solve) ts 0
  rw [hcall, hM] at hl
  obtain ⟨T1, o, q, a1, a2, -, a4, -, a5⟩ := jacc_first_order hMF (R := rjRobot D Jc cs) (AR_spd h).1 hs hl.symm
  rw [List.getElem?_map] at a1
  obtain ⟨T, hT, rfl⟩ := Option.map_eq_some_iff.mp a1
  obtain ⟨hk, -⟩ := List.getElem?_eq_some_iff.mp hT
  have a3 := congrArg (fun L => L[0]?) a2
  simp only at a3
  rw [List.getElem?_set_self (by simpa using hk), List.getElem?_map] at a3
  obtain ⟨T', hT', e⟩ := Option.map_eq_some_iff.mp a3
  have eo : T'.out = some o := congrArg JTask.out e
  have hlow := motion_low hA hR hJ hcpl h h0 hm₀
  have hv := a5 ⟨D.JR *ᵥ 0, lowTorque D τ₀, F₀⟩
    { motion := hlow
      torque := fun i b hb => by
        rcases i with i | i
        · cases hb; exact ht₀ i
        · cases hb
      acc := fun i => by simp
      contacts := hF₀ } fun i P q hi => absurd hi (Nat.not_lt_zero _)
  simp only [mulVec_zero] at hv
  obtain ⟨m1, m2⟩ := jacc_moderates (R := rjRobot D Jc cs) (AR_spd h).1 (T.low D) hv
  have hm := motion_free hA hR hJ hcpl h h0 a4.motion
  have eN : D.GNC = fun j => G (ncOf j) := funext (reduce_eq_some h).2.2.2.2.2.2.2.2.1
  rw [eN] at hm
  refine ⟨T, T', o, hT, hT', eo, fun qdd F hq => ?_⟩
  rw [(motion_unique hA hq hm).1]
  obtain ⟨f1, f2⟩ := effort_low hA hR hJ hcpl h 0
  refine ⟨?_, ?_⟩
  · rw [mulVec_mulVec]; exact m1
  · rw [f2]; exact m2

end Reduced

/-! ### The hypotheses are met -/

/-- the joint is to keep still -/
abbrev exJT0 : JTask (Fin 1) 0 := { exJT with f := 0 }

theorem exJ_still : JAdmissible exJ (by simp [exJ, active]) (⟨0, 0, 0⟩ : JAnswer (Fin 1) 0) := by
  refine ⟨⟨?_, ?_⟩, fun i => by simp, fun i => by simp, fun i => absurd i.isLt (by simp [exJ, active])⟩
  · have : actuate (0 : Fin 1 → ℝ) = 0 := by funext i; rcases i with i | i <;> rfl
    simp [Dynamics, exJ, this]
  · simp [ContactsFixed, exJ]

theorem exJ_call0 : ∃ ts', jaccCall exJ bestSolver [exJT0] 0 = some (true, ts') := by
  obtain ⟨M, hM, -⟩ := jContactRows_six (c := 0) (cs := exJ.cs) (by simp [exJ]) (by simp [exJ]) (by simp [exJ, active])
  have hex : ∃ x, (jaccQP (fun _ => some 200) exJ M [] 1 exJJ 0).IsSolution x := by
    refine ⟨jCols 0 0 0 0, ?_, fun y hy => ?_⟩
    · refine (jaccQP_feasible _ exJ M [] _ _ _ _).mpr ⟨⟨?_, ?_⟩, fun i => absurd i.isLt (by simp), ?_,
        fun r => absurd r.isLt (by simp [exJ, active]), fun j => ?_, fun j => ?_⟩
      · simp only [Dynamics, exJ, jCols, Sum.elim_inl, Sum.elim_inr]
        funext i
        rcases i with i | i <;> simp [actuate]
      · simp [ContactsFixed, exJ, jCols]
      · rw [exJJ_mul]
        funext k
        simp [jCols]
      · simp [jCols]
      · simp [jCols]
    · rw [jaccQP_cost, jaccQP_cost]
      simp only [exJ, one_mulVec]
      have h1 := dot_self_nonneg' fun i => y (.inl i)
      have h2 := dot_self_nonneg' fun i => y (.inr (.inr (.inr i)))
      have e1 : ((fun i => jCols (0 : Fin 6 ⊕ Fin 1 → ℝ) (0 : Fin 1 → ℝ) (0 : Fin 0 → ℝ) (0 : Fin 1 → ℝ) (.inl i)) : Fin 6 ⊕ Fin 1 → ℝ) = 0 := by
        funext i; rfl
      have e2 : ((fun i => jCols (0 : Fin 6 ⊕ Fin 1 → ℝ) (0 : Fin 1 → ℝ) (0 : Fin 0 → ℝ) (0 : Fin 1 → ℝ) (.inr (.inr (.inr i)))) : Fin 1 → ℝ) = 0 := by
        funext i; rfl
      rw [e1, e2]
      simp only [dotProduct_zero, mul_zero, add_zero]
      positivity
  have hb : ∃ x, bestSolver 0 _ _ (jaccQP (fun _ => some 200) exJ M [] 1 exJJ 0) = some x := by
    unfold bestSolver
    rw [dif_pos hex]
    exact ⟨_, rfl⟩
  obtain ⟨x, hx⟩ := hb
  refine ⟨[exJT0].set 0 (exJT0.store x), ?_⟩
  unfold jaccCall jaccCallWith
  simp only [List.getElem?_cons_zero, List.take_zero, jPrevs]
  rw [hM]
  simp only []
  rw [hx]

/-- the joint asked for acceleration 5 gets a moderated one -/
example : ∃ ts' T' o, jaccCall exJ bestSolver [exJT] 0 = some (true, ts') ∧ ts'[0]? = some T' ∧ T'.out = some o ∧
    Moderates exJT.f (exJT.J *ᵥ o.acc) := by
  obtain ⟨ts', -, h⟩ := exJ_pass
  obtain ⟨T, T', o, a, b, d, e, -⟩ := C93_jacc_moderates (R := exJ) isSPD_one (by simp [exJ]) (by simp [exJ])
    (by simp [exJ, active]) bestSolver_exact h exJ_still rfl
  simp only [List.getElem?_cons_zero, Option.some.injEq] at a
  subst a
  exact ⟨ts', T', o, h, b, d, e⟩

/-- commands 5 and 0 compared -/
example : ∃ t1 t2 T1 T2 o1 o2, jaccCall exJ bestSolver [exJT] 0 = some (true, t1) ∧
    jaccCall exJ bestSolver [exJT0] 0 = some (true, t2) ∧
    t1[0]? = some T1 ∧ T1.out = some o1 ∧ t2[0]? = some T2 ∧ T2.out = some o2 ∧
      Moderates (exJT.f - 0) (exJT.J *ᵥ o1.acc - exJT.J *ᵥ o2.acc) := by
  obtain ⟨t1, -, h⟩ := exJ_pass
  obtain ⟨t2, h'⟩ := exJ_call0
  obtain ⟨T1, T2, o1, o2, a⟩ := C93_jacc_nonexpansive (R := exJ) isSPD_one (by simp [exJ]) (by simp [exJ])
    (by simp [exJ, active]) bestSolver_exact bestSolver_exact (ts := [exJT]) (j := 0) rfl 0 h h'
  exact ⟨t1, t2, T1, T2, o1, o2, h, h', a⟩

/-- nothing is asked, so nothing moves -/
example : ∃ ts' T' o, jaccPass exJ bestSolver [exJT0] 1 = some (true, ts') ∧ ts'[0]? = some T' ∧ T'.out = some o ∧ o.acc = 0 := by
  obtain ⟨t2, h'⟩ := exJ_call0
  have hp : jaccPass exJ bestSolver [exJT0] 1 = some (true, t2) := by simp [jaccPass, jaccPassWith, h']
  obtain ⟨T', o, a⟩ := C93_jacc_still (R := exJ) isSPD_one (by simp [exJ]) (by simp [exJ])
    (by simp [exJ, active]) bestSolver_exact (ts := [exJT0]) (by simp) exJ_still rfl 1 t2 hp 0 one_pos
  exact ⟨t2, T', o, hp, a⟩

/-- a leg joint of the robot with the heavy arm, asked for any acceleration, gets a moderated one -/
example (f : ℝ) : ∃ D ts' T' o, reduce vcOf ncOf (exRed 6)⁻¹ 1 HeavyArm.G = some D ∧
    rjaccCall D (exFoot 6) HeavyArm.cs bestSolver [HeavyArm.task f] 0 = some (true, ts') ∧ ts'[0]? = some T' ∧ T'.out = some o ∧
    ∀ qdd F, Motion (exRed 6) (exFoot 6) HeavyArm.G (assembleTorque D o.torque fun s => HeavyArm.G (ncOf s)) qdd F →
      Moderates (HeavyArm.task f).f ((HeavyArm.task f).J *ᵥ qdd) := by
  obtain ⟨D, ts', hD, h⟩ := C62_answers_hypotheses_met f
  have hcall : rjaccCall D (exFoot 6) HeavyArm.cs bestSolver [HeavyArm.task f] 0 = some (true, ts') := by
    unfold rjaccPass rjaccPass at h
    simp only at h
    rcases hr : rjaccCall D (exFoot 6) HeavyArm.cs bestSolver [HeavyArm.task f] 0 with _ | ⟨ok, t⟩
    · rw [hr] at h; cases h
    · rw [hr] at h
      simpa using h
  obtain ⟨T, T', o, a, b, d, e⟩ := C93_jacc_reduced_moderates_partial exRed_spd (by simp) exRed_jInc exRed_coupling hD (fun _ _ => rfl)
    HeavyArm.six HeavyArm.plane HeavyArm.dof bestSolver_exact hcall HeavyArm.standing HeavyArm.standing_holds HeavyArm.standing_torque
  simp only [List.getElem?_cons_zero, Option.some.injEq] at a
  subst a
  exact ⟨D, ts', T', o, hD, hcall, b, d, fun qdd F hq => (e qdd F hq).1⟩

end Verif.Props
