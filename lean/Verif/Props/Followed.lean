import Verif.Props.ModerateLqp
import Verif.Lemmas.Moving

/-!
# C94: whether a command that could be followed is followed by the joint-acceleration QP and the hierarchical controller
-/

set_option linter.unusedSectionVars false

namespace Verif.Props
open Matrix Verif Verif.Spec Verif.Model

/-- `J` gives the acceleration of the centre of mass of the links (the velocity terms apart): mass times it is the rate of momentum. -/
def IsComRows {σ : Type*} [Fintype σ] (L : List (MovingLink σ)) (J : Matrix (Fin 3) σ ℝ) : Prop :=
  ∀ q, mass L • (J *ᵥ q) = linearMomentum L q

/-- The energy of any motion is at least that of the whole mass moving with the centre of mass. -/
theorem com_energy {σ : Type*} [Fintype σ] {L : List (MovingLink σ)} (hm : ∀ l ∈ L, 0 ≤ l.m) (hI : ∀ l ∈ L, ∀ w, 0 ≤ w ⬝ᵥ (l.I *ᵥ w))
    {J : Matrix (Fin 3) σ ℝ} (hJ : IsComRows L J) (q : σ → ℝ) :
    mass L * ((J *ᵥ q) ⬝ᵥ (J *ᵥ q)) ≤ q ⬝ᵥ (massMatrix L *ᵥ q) := by
  have key : ∀ (L : List (MovingLink σ)), (∀ l ∈ L, 0 ≤ l.m) → (∀ l ∈ L, ∀ w, 0 ≤ w ⬝ᵥ (l.I *ᵥ w)) → ∀ v : Fin 3 → ℝ,
      2 * (v ⬝ᵥ linearMomentum L q) - mass L * (v ⬝ᵥ v) ≤ q ⬝ᵥ (massMatrix L *ᵥ q) := by
    intro L
    induction L with
    | nil => intro _ _ v; simp [linearMomentum, mass, massMatrix]
    | cons l L ih =>
      intro hm hI v
      have h1 := ih (fun x hx => hm x (List.mem_cons_of_mem _ hx)) (fun x hx => hI x (List.mem_cons_of_mem _ hx)) v
      have e1 : massMatrix (l :: L) = (l.m • (l.Jvᵀ * l.Jv) + l.Jwᵀ * l.I * l.Jw) + massMatrix L := by
        simp [massMatrix]
      have e2 : linearMomentum (l :: L) q = l.m • (l.Jv *ᵥ q) + linearMomentum L q := by simp [linearMomentum]
      have e3 : mass (l :: L) = l.m + mass L := by simp [mass]
      have e4 : q ⬝ᵥ (massMatrix (l :: L) *ᵥ q) = l.m * ((l.Jv *ᵥ q) ⬝ᵥ (l.Jv *ᵥ q)) + (l.Jw *ᵥ q) ⬝ᵥ (l.I *ᵥ (l.Jw *ᵥ q)) +
          q ⬝ᵥ (massMatrix L *ᵥ q) := by
        rw [e1, add_mulVec, dotProduct_add, add_mulVec, dotProduct_add, smul_mulVec, dotProduct_smul, smul_eq_mul, ← mulVec_mulVec,
          dotProduct_mulVec q l.Jvᵀ, vecMul_transpose, ← mulVec_mulVec, ← mulVec_mulVec, dotProduct_mulVec q l.Jwᵀ, vecMul_transpose]
      rw [e2, e3, e4, dotProduct_add, dotProduct_smul, smul_eq_mul]
      have h2 := mul_nonneg (hm l List.mem_cons_self) (dot_self_nonneg' (v - l.Jv *ᵥ q))
      have h3 := hI l List.mem_cons_self (l.Jw *ᵥ q)
      rw [sub_dotProduct, dotProduct_sub, dotProduct_sub, dotProduct_comm (l.Jv *ᵥ q) v] at h2
      linarith
  have := key L hm hI (J *ᵥ q)
  rw [← hJ q, dotProduct_smul, smul_eq_mul] at this
  linarith

section Jacc
variable {ι : Type} [Fintype ι] [DecidableEq ι] {c : ℕ}

/-- What the first level gives its task when the robot could stand still: acceleration energy is paid for with accuracy. -/
theorem jacc_pays {R : JRobot ι c} (hA : IsSPD R.A) (h6 : ∀ l ∈ R.cs, l.type = .c6d)
    (hp : ∀ l ∈ R.cs, 0 < l.planeX ∧ 0 < l.planeY) (hc : c = 6 * (active R.cs).length)
    {solve : JSolver} (hs : solve.Exact) {ts ts' : List (JTask ι c)}
    (h : jaccCall R solve ts 0 = some (true, ts')) {o₀ : JAnswer ι c} (h0 : JAdmissible R hc o₀) (hstill : o₀.acc = 0) :
    ∃ (T T' : JTask ι c) (o : JAnswer ι c), ts[0]? = some T ∧ ts'[0]? = some T' ∧ T'.out = some o ∧ JAdmissible R hc o ∧
      o.acc ⬝ᵥ (R.A *ᵥ o.acc) + 100 * ((T.J *ᵥ o.acc) ⬝ᵥ (T.J *ᵥ o.acc)) ≤ 100 * ((T.J *ᵥ o.acc) ⬝ᵥ T.f) := by
  obtain ⟨M, hM, hMF⟩ := jContactRows_six h6 hp hc
  unfold jaccCall at h
  rw [hM] at h
  obtain ⟨T, o, q, hT, rfl, -, ha, -, hfo⟩ := jacc_first_order hMF hA hs h
  obtain ⟨hk, -⟩ := List.getElem?_eq_some_iff.mp hT
  have := hfo o₀ (jAdmissible_iff.mpr h0) fun i P q hi => absurd hi (Nat.not_lt_zero _)
  rw [hstill] at this
  refine ⟨T, _, o, hT, List.getElem?_set_self hk, rfl, jAdmissible_iff.mp ha, ?_⟩
  simp only [zero_sub, mulVec_neg, dotProduct_neg, sub_dotProduct, dotProduct_comm T.f (T.J *ᵥ o.acc)] at this
  linarith

/-- **C94 fails for the joint-acceleration QP, on every robot.**  If the robot could stand still, the first level never gives its task the
commanded acceleration unless the command is zero, whether or not the robot could follow it. -/
theorem C94_jacc_never {R : JRobot ι c} (hA : IsSPD R.A) (h6 : ∀ l ∈ R.cs, l.type = .c6d)
    (hp : ∀ l ∈ R.cs, 0 < l.planeX ∧ 0 < l.planeY) (hc : c = 6 * (active R.cs).length)
    {solve : JSolver} (hs : solve.Exact) {ts ts' : List (JTask ι c)}
    (h : jaccCall R solve ts 0 = some (true, ts')) {o₀ : JAnswer ι c} (h0 : JAdmissible R hc o₀) (hstill : o₀.acc = 0) :
    ∃ (T T' : JTask ι c) (o : JAnswer ι c), ts[0]? = some T ∧ ts'[0]? = some T' ∧ T'.out = some o ∧
      (T.J *ᵥ o.acc = T.f → T.f = 0) := by
  obtain ⟨T, T', o, a1, a2, a3, -, a4⟩ := jacc_pays hA h6 hp hc hs h h0 hstill
  refine ⟨T, T', o, a1, a2, a3, fun e => ?_⟩
  rw [e] at a4
  by_cases hz : o.acc = 0
  · rw [← e, hz, mulVec_zero]
  · have := hA.pos _ hz
    linarith

/-- C94, joint-acceleration QP.  A task whose motions take an acceleration energy of at least `λ ‖J q̈‖²` gets at most the share
`100 / (100 + λ)` of its command, in every state in which the robot could stand still. -/
theorem C94_jacc_share {R : JRobot ι c} (hA : IsSPD R.A) (h6 : ∀ l ∈ R.cs, l.type = .c6d)
    (hp : ∀ l ∈ R.cs, 0 < l.planeX ∧ 0 < l.planeY) (hc : c = 6 * (active R.cs).length)
    {solve : JSolver} (hs : solve.Exact) {ts ts' : List (JTask ι c)}
    (h : jaccCall R solve ts 0 = some (true, ts')) {o₀ : JAnswer ι c} (h0 : JAdmissible R hc o₀) (hstill : o₀.acc = 0) :
    ∃ (T T' : JTask ι c) (o : JAnswer ι c), ts[0]? = some T ∧ ts'[0]? = some T' ∧ T'.out = some o ∧
      ∀ lam : ℝ, 0 ≤ lam → (∀ q, R.Jc *ᵥ q = 0 → lam * ((T.J *ᵥ q) ⬝ᵥ (T.J *ᵥ q)) ≤ q ⬝ᵥ (R.A *ᵥ q)) →
        (100 + lam) * ((T.J *ᵥ o.acc) ⬝ᵥ (T.J *ᵥ o.acc)) ≤ 100 * ((T.J *ᵥ o.acc) ⬝ᵥ T.f) ∧
        (100 + lam) ^ 2 * ((T.J *ᵥ o.acc) ⬝ᵥ (T.J *ᵥ o.acc)) ≤ 100 ^ 2 * (T.f ⬝ᵥ T.f) := by
  obtain ⟨T, T', o, a1, a2, a3, ha, a4⟩ := jacc_pays hA h6 hp hc hs h h0 hstill
  refine ⟨T, T', o, a1, a2, a3, fun lam hl hb => ?_⟩
  have h1 := hb o.acc ha.motion.2
  have h2 : (100 + lam) * ((T.J *ᵥ o.acc) ⬝ᵥ (T.J *ᵥ o.acc)) ≤ 100 * ((T.J *ᵥ o.acc) ⬝ᵥ T.f) := by linarith
  refine ⟨h2, ?_⟩
  have h3 := dot_self_nonneg' ((100 + lam) • (T.J *ᵥ o.acc) - (100 : ℝ) • T.f)
  simp only [sub_dotProduct, dotProduct_sub, smul_dotProduct, dotProduct_smul, smul_eq_mul, dotProduct_comm T.f (T.J *ᵥ o.acc)] at h3
  nlinarith

/-- C94, joint-acceleration QP.  The centre of mass of a robot of mass `M` gets at most the share `100 / (100 + M)` of the acceleration
commanded, on any contacts and with any limits, if the robot could stand still. -/
theorem C94_jacc_com {R : JRobot ι c} {L : List (MovingLink (Fin 6 ⊕ ι))} (hRA : R.A = massMatrix L) (hA : IsSPD R.A)
    (hm : ∀ l ∈ L, 0 ≤ l.m) (hI : ∀ l ∈ L, ∀ w, 0 ≤ w ⬝ᵥ (l.I *ᵥ w)) (h6 : ∀ l ∈ R.cs, l.type = .c6d)
    (hp : ∀ l ∈ R.cs, 0 < l.planeX ∧ 0 < l.planeY) (hc : c = 6 * (active R.cs).length)
    {solve : JSolver} (hs : solve.Exact) {Jcom : Matrix (Fin 3) (Fin 6 ⊕ ι) ℝ} (hJ : IsComRows L Jcom) {f : Fin 3 → ℝ}
    {fqp out} {lower ts' : List (JTask ι c)}
    (h : jaccCall R solve (⟨3, Jcom, f, fqp, out⟩ :: lower) 0 = some (true, ts')) {o₀ : JAnswer ι c} (h0 : JAdmissible R hc o₀)
    (hstill : o₀.acc = 0) :
    ∃ (T' : JTask ι c) (o : JAnswer ι c), ts'[0]? = some T' ∧ T'.out = some o ∧
      (100 + mass L) ^ 2 * ((Jcom *ᵥ o.acc) ⬝ᵥ (Jcom *ᵥ o.acc)) ≤ 100 ^ 2 * (f ⬝ᵥ f) := by
  obtain ⟨T, T', o, a1, a2, a3, a4⟩ := C94_jacc_share hA h6 hp hc hs h h0 hstill
  simp only [List.getElem?_cons_zero, Option.some.injEq] at a1
  subst a1
  refine ⟨T', o, a2, a3, (a4 (mass L) ?_ fun q _ => ?_).2⟩
  · exact List.sum_nonneg (by simpa [List.mem_map] using hm)
  · rw [hRA]; exact com_energy hm hI hJ q

/-- C94, joint-acceleration QP (partial: a bound instead of equality).  If the robot could follow the command, the first level misses it
by at most a tenth of the square root of the acceleration energy that takes. -/
theorem C94_jacc_miss_partial {R : JRobot ι c} (hA : IsSPD R.A) (h6 : ∀ l ∈ R.cs, l.type = .c6d)
    (hp : ∀ l ∈ R.cs, 0 < l.planeX ∧ 0 < l.planeY) (hc : c = 6 * (active R.cs).length)
    {solve : JSolver} (hs : solve.Exact) {ts ts' : List (JTask ι c)} (h : jaccCall R solve ts 0 = some (true, ts')) :
    ∃ (T T' : JTask ι c) (o : JAnswer ι c), ts[0]? = some T ∧ ts'[0]? = some T' ∧ T'.out = some o ∧
      ∀ o', JAdmissible R hc o' → T.J *ᵥ o'.acc = T.f →
        100 * ((T.J *ᵥ o.acc - T.f) ⬝ᵥ (T.J *ᵥ o.acc - T.f)) ≤ o'.acc ⬝ᵥ (R.A *ᵥ o'.acc) := by
  obtain ⟨T, T', o, a1, a2, a3, a4, a5⟩ := C35_best h6 hp hc hs h
  refine ⟨T, T', o, a1, a2, a3, fun o' ho' he => ?_⟩
  have := a5 o' ho' fun i P q hi => absurd hi (Nat.not_lt_zero _)
  unfold jaccEffort at this
  rw [he, sub_self, dotProduct_zero] at this
  have h2 : 0 ≤ o.acc ⬝ᵥ (R.A *ᵥ o.acc) := by
    by_cases h0 : o.acc = 0
    · rw [h0]; simp
    · exact (hA.pos _ h0).le
  linarith

end Jacc

section Lqp
variable {ι : Type} [Fintype ι] [DecidableEq ι] {n c m : ℕ}

theorem lqp_pays (osqp : Osqp) (hs : OsqpExact osqp) (N : NullSpaceFn) (hN : N.Correct) (R : LqpConf ι c m)
    (hA : IsSPD R.M) (hM : R.M * R.Minv = 1) (hl : ∀ i, 0 ≤ R.lim i) (hw : 0 < R.weight) (hstand : CanStand R) :
    ∃ a b rs, lqpRun osqp N R = a :: b :: rs ∧ rs.length = R.tasks.length ∧
      ∀ r t, rs[0]? = some r → R.tasks[0]? = some t →
        R.J *ᵥ qddOf r.y = 0 ∧
        perRow t.2.1 (t.2.1 *ᵥ qddOf r.y) ⬝ᵥ perRow t.2.1 (t.2.1 *ᵥ qddOf r.y) + R.weight * (qddOf r.y ⬝ᵥ (R.M *ᵥ qddOf r.y)) ≤
          perRow t.2.1 (t.2.1 *ᵥ qddOf r.y) ⬝ᵥ perRow t.2.1 t.2.2 := by
  obtain ⟨a, b, rs, hrun, hlen, ⟨-, hb⟩, ht⟩ := lqp_levels osqp hs N hN R hA hM hl hw.le
  obtain ⟨b1, b2⟩ := lqp_contact_still hA hw hstand hb
  obtain ⟨y, s1, s2, s3⟩ := hstand
  have hk := stand_keeps (R := R) b1 s2 s3
  refine ⟨a, b, rs, hrun, hlen, fun r t hr ht' => ?_⟩
  obtain ⟨h1, h2⟩ := ht 0 r t hr ht'
  have := lqp_first_order hA hw.le h1 ⟨s1, hk, fun j hj => absurd hj (Nat.not_lt_zero _)⟩ h2
  rw [s2] at this
  refine ⟨by rw [h1.2.1.1, b1, mulVec_zero], ?_⟩
  have e1 : perRow t.2.1 (t.2.1 *ᵥ qddOf r.y - t.2.2) = perRow t.2.1 (t.2.1 *ᵥ qddOf r.y) - perRow t.2.1 t.2.2 := by
    funext r; simp [perRow, sub_div]
  have e2 : perRow t.2.1 (t.2.1 *ᵥ 0 - t.2.1 *ᵥ qddOf r.y) = -perRow t.2.1 (t.2.1 *ᵥ qddOf r.y) := by
    funext r; simp [perRow, neg_div]
  rw [e1, e2] at this
  generalize perRow t.2.1 (t.2.1 *ᵥ qddOf r.y) = α at *
  generalize perRow t.2.1 t.2.2 = φ at *
  simp only [zero_sub, mulVec_neg, dotProduct_neg, sub_dotProduct, dotProduct_comm φ α] at this
  linarith

/-- **C94 fails for the hierarchical controller, on every robot.**  If the robot could stand still, the first task never gets the commanded
acceleration unless the command is zero. -/
theorem C94_lqp_never (osqp : Osqp) (hs : OsqpExact osqp) (N : NullSpaceFn) (hN : N.Correct) (R : LqpRobot n c m)
    (hA : IsSPD R.M) (hM : R.M * R.Minv = 1) (hstand : CanStand R.conf) :
    ∃ a b rs, calcControlTorqueLQP osqp N R = a :: b :: rs ∧ rs.length = R.tasks.length ∧
      ∀ r t, rs[0]? = some r → R.tasks[0]? = some t → t.2.1 *ᵥ qddOf r.y = t.2.2 → t.2.2 = 0 := by
  obtain ⟨a, b, rs, h1, h2, h3⟩ := lqp_pays osqp hs N hN R.conf hA hM (fun _ => lim_nonneg) (conf_weight hA) hstand
  refine ⟨a, b, rs, h1, h2, fun r t hr ht e => ?_⟩
  obtain ⟨-, h4⟩ := h3 r t hr ht
  rw [e] at h4
  by_cases hz : qddOf r.y = 0
  · rw [← e, hz, mulVec_zero]
  · have := mul_pos (conf_weight hA) (hA.pos _ hz)
    have h5 : R.conf.weight * (qddOf r.y ⬝ᵥ (R.conf.M *ᵥ qddOf r.y)) = R.conf.weight * (qddOf r.y ⬝ᵥ (R.M *ᵥ qddOf r.y)) := rfl
    linarith

/-- C94, hierarchical controller.  A task whose motions take an acceleration energy of at least `λ` times the square of its acceleration
(each row relative to the length of its Jacobian row) gets at most the share `1 / (1 + 5 λ / ‖A‖)` of its command. -/
theorem C94_lqp_share (osqp : Osqp) (hs : OsqpExact osqp) (N : NullSpaceFn) (hN : N.Correct) (R : LqpRobot n c m)
    (hA : IsSPD R.M) (hM : R.M * R.Minv = 1) (hstand : CanStand R.conf) :
    ∃ a b rs, calcControlTorqueLQP osqp N R = a :: b :: rs ∧ rs.length = R.tasks.length ∧
      ∀ r t, rs[0]? = some r → R.tasks[0]? = some t → ∀ lam : ℝ, 0 ≤ lam →
        (∀ q, R.J *ᵥ q = 0 → lam * (perRow t.2.1 (t.2.1 *ᵥ q) ⬝ᵥ perRow t.2.1 (t.2.1 *ᵥ q)) ≤ q ⬝ᵥ (R.M *ᵥ q)) →
        (1 + 5 * lam / frobenius R.M) ^ 2 * (perRow t.2.1 (t.2.1 *ᵥ qddOf r.y) ⬝ᵥ perRow t.2.1 (t.2.1 *ᵥ qddOf r.y)) ≤
          perRow t.2.1 t.2.2 ⬝ᵥ perRow t.2.1 t.2.2 := by
  have hw : 0 < 5 / frobenius R.M := conf_weight hA
  obtain ⟨a, b, rs, h1, h2, h3⟩ := lqp_pays osqp hs N hN R.conf hA hM (fun _ => lim_nonneg) (conf_weight hA) hstand
  refine ⟨a, b, rs, h1, h2, fun r t hr ht lam hl hb => ?_⟩
  obtain ⟨h5, h4⟩ := h3 r t hr ht
  have h6 := mul_le_mul_of_nonneg_left (hb _ h5) hw.le
  have h4' : perRow t.2.1 (t.2.1 *ᵥ qddOf r.y) ⬝ᵥ perRow t.2.1 (t.2.1 *ᵥ qddOf r.y) +
      5 / frobenius R.M * (qddOf r.y ⬝ᵥ (R.M *ᵥ qddOf r.y)) ≤ perRow t.2.1 (t.2.1 *ᵥ qddOf r.y) ⬝ᵥ perRow t.2.1 t.2.2 := h4
  have e : 1 + 5 * lam / frobenius R.M = 1 + 5 / frobenius R.M * lam := by ring
  rw [e]
  generalize 5 / frobenius R.M = w at *
  generalize perRow t.2.1 (t.2.1 *ᵥ qddOf r.y) = α at *
  generalize perRow t.2.1 t.2.2 = φ at *
  have h7 := dot_self_nonneg' ((1 + w * lam) • α - φ)
  simp only [sub_dotProduct, dotProduct_sub, smul_dotProduct, dotProduct_smul, smul_eq_mul, dotProduct_comm φ α] at h7
  have h8 : (1 + w * lam) * (α ⬝ᵥ α) ≤ α ⬝ᵥ φ := by linarith
  have h9 : 0 ≤ 1 + w * lam := by positivity
  nlinarith

end Lqp

end Verif.Props
