import Verif.Props.EffortJacc
import Verif.Props.RenumberedLqp

/-!
# C82, C84: how task rows and joints are counted does not matter to the joint-acceleration QP
-/

set_option linter.unusedSectionVars false

namespace Verif.Props
open Matrix Verif Verif.Spec Verif.Model

section
variable {ι : Type} [Fintype ι] [DecidableEq ι] {c : ℕ}

/-- The answers of a pass: each of least effort among the admissible ones that keep the accelerations of the levels above. -/
def JBest (adm : JAnswer ι c → Prop) (R : JRobot ι c) (ts : List (JTask ι c)) (k : ℕ) (o : ℕ → JAnswer ι c) : Prop :=
  ∀ j < k, adm (o j) ∧ (∀ i < j, ∀ T, ts[i]? = some T → T.J *ᵥ (o j).acc = T.J *ᵥ (o i).acc) ∧
    ∀ T, ts[j]? = some T → ∀ x, adm x → (∀ i < j, ∀ P, ts[i]? = some P → P.J *ᵥ x.acc = P.J *ᵥ (o i).acc) →
      jaccEffort R T (o j).acc ≤ jaccEffort R T x.acc

/-- Two passes whose admissible answers and efforts correspond have corresponding accelerations. -/
theorem jbest_twin {R R' : JRobot ι c} (hA' : IsSPD R'.A) {adm adm' : JAnswer ι c → Prop} {ts ts' : List (JTask ι c)} {k : ℕ}
    {o o' : ℕ → JAnswer ι c} (h : JBest adm R ts k o) (h' : JBest adm' R' ts' k o')
    (hmid : ∀ x y, adm' x → adm' y → adm' (JAnswer.along x y (1 / 2)))
    {Φ Ψ : JAnswer ι c → JAnswer ι c} {φ : (Fin 6 ⊕ ι → ℝ) → Fin 6 ⊕ ι → ℝ} (hΦ : ∀ x, adm x → adm' (Φ x)) (hΨ : ∀ x, adm' x → adm (Ψ x))
    (eΦ : ∀ x, (Φ x).acc = φ x.acc) (eΨ : ∀ x, φ (Ψ x).acc = x.acc)
    (hT : ∀ i < k, ∃ T T', ts[i]? = some T ∧ ts'[i]? = some T' ∧ (∀ a b, T'.J *ᵥ φ a = T'.J *ᵥ φ b ↔ T.J *ᵥ a = T.J *ᵥ b) ∧
      ∀ a, jaccEffort R' T' (φ a) = jaccEffort R T a) :
    ∀ j < k, (o' j).acc = φ (o j).acc := by
  intro j
  induction j using Nat.strong_induction_on with
  | _ j ih =>
    intro hj
    obtain ⟨a1, a2, a3⟩ := h j hj
    obtain ⟨b1, b2, b3⟩ := h' j hj
    obtain ⟨T, T', t1, t2, -, t4⟩ := hT j hj
    have kp : ∀ i < j, ∀ P, ts'[i]? = some P → P.J *ᵥ (Φ (o j)).acc = P.J *ᵥ (o' i).acc := fun i hi P hP => by
      obtain ⟨U, U', u1, u2, u3, -⟩ := hT i (by omega)
      obtain rfl : U' = P := Option.some.inj (u2.symm.trans hP)
      rw [eΦ, ih i hi (by omega)]
      exact (u3 _ _).mpr (a2 i hi U u1)
    have kp' : ∀ i < j, ∀ P, ts[i]? = some P → P.J *ᵥ (Ψ (o' j)).acc = P.J *ᵥ (o i).acc := fun i hi P hP => by
      obtain ⟨U, U', u1, u2, u3, -⟩ := hT i (by omega)
      obtain rfl : U = P := Option.some.inj (u1.symm.trans hP)
      refine (u3 _ _).mp ?_
      rw [eΨ, ← ih i hi (by omega)]
      exact b2 i hi U' u2
    have l1 := b3 T' t2 _ (hΦ _ a1) kp
    have l2 := a3 T t1 _ (hΨ _ b1) kp'
    rw [eΦ, t4] at l1
    rw [← t4 (Ψ (o' j)).acc, eΨ] at l2
    have he : jaccEffort R' T' (Φ (o j)).acc = jaccEffort R' T' (o' j).acc := by
      rw [eΦ, t4]
      exact le_antisymm l2 l1
    have hu := jacc_unique hA' T' he (b3 T' t2 (JAnswer.along (o' j) (Φ (o j)) (1 / 2)) (hmid _ _ b1 (hΦ _ a1)) fun i hi P hP => by
      show P.J *ᵥ ((o' j).acc + (1 / 2 : ℝ) • ((Φ (o j)).acc - (o' j).acc)) = _
      rw [mulVec_add, mulVec_smul, mulVec_sub, kp i hi P hP, b2 i hi P hP]; simp)
    rw [← hu, eΦ]

variable {R : JRobot ι c}

/-- A successful pass, and midpoints of admissible answers. -/
theorem jbest_of_pass (h6 : ∀ l ∈ R.cs, l.type = .c6d) (hp : ∀ l ∈ R.cs, 0 < l.planeX ∧ 0 < l.planeY) (hc : c = 6 * (active R.cs).length)
    {solve : JSolver} (hs : solve.Exact) {ts ts' : List (JTask ι c)} {k : ℕ} (h : jaccPass R solve ts k = some (true, ts')) :
    (∃ o : ℕ → JAnswer ι c, (∀ j < k, ∃ T', ts'[j]? = some T' ∧ T'.out = some (o j)) ∧ JBest (JAdmissible R hc) R ts k o) ∧
      (∀ i < k, ∃ T, ts[i]? = some T) ∧ ∀ x y, JAdmissible R hc x → JAdmissible R hc y → JAdmissible R hc (JAnswer.along x y (1 / 2)) := by
  refine ⟨C35_pass_best h6 hp hc hs h, ?_⟩
  obtain ⟨M, hM, hMF⟩ := jContactRows_six h6 hp hc
  unfold jaccPass jaccCall at h
  rw [hM] at h
  obtain ⟨o, h1, -⟩ := jaccPassWith_best hMF hs k h
  refine ⟨fun i hi => ?_, fun x y hx hy => ?_⟩
  · obtain ⟨T', hT', -⟩ := h1 i hi
    obtain ⟨T, -, -, hT, -⟩ := (jaccPassWith_inv hMF (JSolver.Exact.sound hs) ts k ts' h).1 i T' hT'
    exact ⟨T, hT⟩
  · exact jAdmissible_iff.mp (jadm_along hMF (jAdmissible_iff.mpr hx) (jAdmissible_iff.mpr hy) (by norm_num) (by norm_num))

/-- A task whose rows are turned: `Q` is orthogonal (another order of the rows, rows turned round, another frame of the task). -/
def turnRows (T : JTask ι c) (Q : Matrix (Fin T.t) (Fin T.t) ℝ) : JTask ι c := ⟨T.t, Q * T.J, Q *ᵥ T.f, none, none⟩

/-- **C82 (joint-acceleration QP).**  6-D contacts and exact solvers: if the rows of every task are given in another order, turned round, or in another
orthonormal frame, the answers of all levels accelerate the robot alike. -/
theorem C82_jacc_rows (hA : IsSPD R.A) (h6 : ∀ l ∈ R.cs, l.type = .c6d) (hp : ∀ l ∈ R.cs, 0 < l.planeX ∧ 0 < l.planeY)
    (hc : c = 6 * (active R.cs).length) {solve solve' : JSolver} (hs : solve.Exact) (hs' : solve'.Exact) {ts ts' t1 t2 : List (JTask ι c)} {k : ℕ}
    (hts : ∀ (i : ℕ) (T : JTask ι c), ts[i]? = some T → ∃ Q : Matrix (Fin T.t) (Fin T.t) ℝ, Qᵀ * Q = 1 ∧ ts'[i]? = some (turnRows T Q))
    (h : jaccPass R solve ts k = some (true, t1)) (h' : jaccPass R solve' ts' k = some (true, t2)) :
    ∃ o o' : ℕ → JAnswer ι c, (∀ j < k, ∃ T', t1[j]? = some T' ∧ T'.out = some (o j)) ∧ (∀ j < k, ∃ T', t2[j]? = some T' ∧ T'.out = some (o' j)) ∧
      ∀ j < k, (o' j).acc = (o j).acc := by
  obtain ⟨⟨o, o1, o2⟩, hl, hmid⟩ := jbest_of_pass h6 hp hc hs h
  obtain ⟨⟨o', o1', o2'⟩, -, -⟩ := jbest_of_pass h6 hp hc hs' h'
  refine ⟨o, o', o1, o1', jbest_twin hA o2 o2' hmid (Φ := id) (Ψ := id) (φ := id) (fun _ => id) (fun _ => id) (fun _ => rfl) (fun _ => rfl) fun i hi => ?_⟩
  obtain ⟨T, hT⟩ := hl i hi
  obtain ⟨Q, hQ, hT'⟩ := hts i T hT
  have back : ∀ v : Fin T.t → ℝ, Qᵀ *ᵥ (Q *ᵥ v) = v := fun v => by rw [mulVec_mulVec, hQ, one_mulVec]
  refine ⟨T, _, hT, hT', fun a b => ?_, fun a => ?_⟩
  · show (Q * T.J) *ᵥ a = (Q * T.J) *ᵥ b ↔ _
    rw [← mulVec_mulVec, ← mulVec_mulVec]
    exact ⟨fun e => by rw [← back (T.J *ᵥ a), e, back], fun e => by rw [e]⟩
  · show (1 / 2) * (a ⬝ᵥ (R.A *ᵥ a)) + 50 * (((Q * T.J) *ᵥ a - Q *ᵥ T.f) ⬝ᵥ ((Q * T.J) *ᵥ a - Q *ᵥ T.f)) = jaccEffort R T a
    have hq : ∀ v : Fin T.t → ℝ, (Q *ᵥ v) ⬝ᵥ (Q *ᵥ v) = v ⬝ᵥ v := fun v => by rw [dotProduct_mulVec, ← mulVec_transpose, back]
    rw [← mulVec_mulVec, ← mulVec_sub, hq]
    rfl

end

section
variable {n c : ℕ} {e : Equiv.Perm (Fin n)} {s : Fin n → ℝ} {R : JRobot (Fin n) c}

/-- The robot with its joints counted otherwise. -/
noncomputable abbrev recountJ (e : Equiv.Perm (Fin n)) (s : Fin n → ℝ) (R : JRobot (Fin n) c) : JRobot (Fin n) c :=
  { A := recountMass e s R.A, G := recountAll e s R.G, Jc := recountCols e s R.Jc, cs := R.cs, limit := R.limit.map (recountLimit e) }

/-- A task for that robot. -/
def recountJTask (e : Equiv.Perm (Fin n)) (s : Fin n → ℝ) (T : JTask (Fin n) c) : JTask (Fin n) c := ⟨T.t, recountCols e s T.J, T.f, none, none⟩

/-- A motion of that robot. -/
def recountAnswer (e : Equiv.Perm (Fin n)) (s : Fin n → ℝ) (o : JAnswer (Fin n) c) : JAnswer (Fin n) c :=
  ⟨recountAll e s o.acc, recount e s o.torque, o.force⟩

theorem recount_actuate (τ : Fin n → ℝ) : actuate (recount e s τ) = recountAll e s (actuate τ) := by
  funext r
  rcases r with r | r
  · simp [actuate, recountAll, counted]
  · rfl

theorem recount_admissible (hs : Signs s) (hc : c = 6 * (active R.cs).length) {o : JAnswer (Fin n) c} (h : JAdmissible R hc o) :
    JAdmissible (recountJ e s R) hc (recountAnswer e s o) := by
  refine ⟨⟨?_, ?_⟩, fun i => ?_, fun i => ?_, h.contacts⟩
  · have := h.motion.1
    show recountMass e s R.A *ᵥ recountAll e s o.acc + (recountCols e s R.Jc)ᵀ *ᵥ o.force + recountAll e s R.G = actuate (recount e s o.torque)
    rw [recount_mass hs, recount_colsT, recount_actuate, ← this]
    funext r
    simp only [recountAll, Pi.add_apply]
    ring
  · show recountCols e s R.Jc *ᵥ recountAll e s o.acc = 0
    rw [recount_cols hs]
    exact h.motion.2
  · have := h.torque (e i)
    show |s i * o.torque (e i)| ≤ 200
    rcases hs i with h | h <;> simpa [h] using this
  · show |recountAll e s o.acc (.inr i)| ≤ 10
    rw [recount_abs hs]
    exact h.acc (e i)

theorem recount_inverse (hs : Signs s) : recountMass e.symm (s ∘ e.symm) (recountMass e s R.A) = R.A ∧
    recountAll e.symm (s ∘ e.symm) (recountAll e s R.G) = R.G ∧ recountCols e.symm (s ∘ e.symm) (recountCols e s R.Jc) = R.Jc := by
  have hr : ∀ r, signed (s ∘ e.symm) r * signed s (counted e.symm r) = 1 := fun r => by
    rcases r with r | r
    · simp [signed, counted]
    · exact signed_twice hs (.inr (e.symm r))
  have hcc : ∀ r, counted e (counted e.symm r) = r := fun r => by rcases r with r | r <;> simp [counted]
  refine ⟨?_, back_recount hs _, ?_⟩
  · ext r q
    show signed (s ∘ e.symm) r * signed (s ∘ e.symm) q * (signed s (counted e.symm r) * signed s (counted e.symm q) *
      R.A (counted e (counted e.symm r)) (counted e (counted e.symm q))) = R.A r q
    rw [hcc, hcc]
    have h1 := hr r
    have h2 := hr q
    linear_combination (signed (s ∘ e.symm) q * signed s (counted e.symm q) * R.A r q) * h1 + R.A r q * h2
  · funext a
    exact back_recount hs (R.Jc a)

theorem recount_admissible_back (hs : Signs s) (hc : c = 6 * (active R.cs).length) {o : JAnswer (Fin n) c} (h : JAdmissible (recountJ e s R) hc o) :
    JAdmissible R hc (recountAnswer e.symm (s ∘ e.symm) o) := by
  have hs' : Signs (s ∘ e.symm) := fun i => hs (e.symm i)
  have := recount_admissible (e := e.symm) (R := recountJ e s R) hs' hc h
  obtain ⟨i1, i2, i3⟩ := recount_inverse (e := e) (R := R) hs
  obtain ⟨⟨m1, m2⟩, m3, m4, m5⟩ := this
  simp only [i1, i2, i3] at m1 m2
  exact ⟨⟨m1, m2⟩, m3, m4, m5⟩

/-- **C84 (joint-acceleration QP).**  6-D contacts, exact solvers.  With the joints in another order and axes turned round, the answers of all levels
accelerate every joint as before, with the sign of its axis. -/
theorem C84_jacc (hsg : Signs s) (hA : IsSPD R.A) (h6 : ∀ l ∈ R.cs, l.type = .c6d) (hp : ∀ l ∈ R.cs, 0 < l.planeX ∧ 0 < l.planeY)
    (hc : c = 6 * (active R.cs).length) {solve solve' : JSolver} (hs : solve.Exact) (hs' : solve'.Exact) {ts t1 t2 : List (JTask (Fin n) c)} {k : ℕ}
    (h : jaccPass R solve ts k = some (true, t1)) (h' : jaccPass (recountJ e s R) solve' (ts.map (recountJTask e s)) k = some (true, t2)) :
    ∃ o o' : ℕ → JAnswer (Fin n) c, (∀ j < k, ∃ T', t1[j]? = some T' ∧ T'.out = some (o j)) ∧
      (∀ j < k, ∃ T', t2[j]? = some T' ∧ T'.out = some (o' j)) ∧ ∀ j < k, (o' j).acc = recountAll e s (o j).acc := by
  obtain ⟨⟨o, o1, o2⟩, hl, -⟩ := jbest_of_pass h6 hp hc hs h
  obtain ⟨⟨o', o1', o2'⟩, -, hmid⟩ := jbest_of_pass (R := recountJ e s R) h6 hp hc hs' h'
  refine ⟨o, o', o1, o1', jbest_twin (recount_spd hsg hA) o2 o2' hmid (Φ := recountAnswer e s) (Ψ := recountAnswer e.symm (s ∘ e.symm))
    (φ := recountAll e s) (fun _ => recount_admissible hsg hc) (fun _ => recount_admissible_back hsg hc) (fun _ => rfl)
    (fun x => recount_back hsg x.acc) fun i hi => ?_⟩
  obtain ⟨T, hT⟩ := hl i hi
  refine ⟨T, recountJTask e s T, hT, by simp [hT], fun a b => ?_, fun a => ?_⟩
  · show recountCols e s T.J *ᵥ recountAll e s a = recountCols e s T.J *ᵥ recountAll e s b ↔ _
    rw [recount_cols hsg, recount_cols hsg]
  · show (1 / 2) * (recountAll e s a ⬝ᵥ (recountMass e s R.A *ᵥ recountAll e s a)) + 50 * ((recountCols e s T.J *ᵥ recountAll e s a - T.f) ⬝ᵥ
      (recountCols e s T.J *ᵥ recountAll e s a - T.f)) = jaccEffort R T a
    rw [recount_cols hsg, recount_mass hsg, recount_dot hsg]
    rfl

/-- **C84 (joint-acceleration QP, return values).**  Solvers that answer whatever can be answered: the pass succeeds for both descriptions or for neither. -/
theorem C84_jacc_success (hsg : Signs s) (hA : IsSPD R.A) (h6 : ∀ l ∈ R.cs, l.type = .c6d) (hp : ∀ l ∈ R.cs, 0 < l.planeX ∧ 0 < l.planeY)
    (hc : c = 6 * (active R.cs).length) {solve solve' : JSolver} (hs : solve.Exact) (hs' : solve'.Exact) (hf : JSolver.Complete solve) (hf' : JSolver.Complete solve')
    {ts : List (JTask (Fin n) c)} {k : ℕ} (hk : 0 < k) (hkl : k ≤ ts.length) :
    (∃ t1, jaccPass R solve ts k = some (true, t1)) ↔ ∃ t2, jaccPass (recountJ e s R) solve' (ts.map (recountJTask e s)) k = some (true, t2) := by
  rw [C35_succeeds_iff hA h6 hp hc hs hf hk hkl,
    C35_succeeds_iff (R := recountJ e s R) (recount_spd hsg hA) h6 hp hc hs' hf' hk (by simpa using hkl)]
  exact ⟨fun ⟨x, hx⟩ => ⟨_, recount_admissible hsg hc hx⟩, fun ⟨x, hx⟩ => ⟨_, recount_admissible_back hsg hc hx⟩⟩

end

/-- The hypotheses are met: a robot on its foot, two conflicting tasks, the axis of its joint turned round, the row of each task turned round. -/
theorem C84_jacc_hypotheses_met : ∃ t1 t2 t3, jaccPass exStand bestSolver [⟨1, exJJ, fun _ => 5, none, none⟩, ⟨1, exJJ, fun _ => 7, none, none⟩] 2 = some (true, t1) ∧
    jaccPass (recountJ 1 (fun _ => -1) exStand) bestSolver
      ([⟨1, exJJ, fun _ => 5, none, none⟩, ⟨1, exJJ, fun _ => 7, none, none⟩].map (recountJTask 1 fun _ => -1)) 2 = some (true, t2) ∧
    jaccPass exStand bestSolver [turnRows ⟨1, exJJ, fun _ => 5, none, none⟩ (-1), turnRows ⟨1, exJJ, fun _ => 7, none, none⟩ (-1)] 2 = some (true, t3) := by
  have hc : 6 = 6 * (active exStand.cs).length := by simp [exStand, exContact, active]
  have h6 : ∀ l ∈ exStand.cs, l.type = .c6d := by simp [exStand, exContact]
  have hp : ∀ l ∈ exStand.cs, 0 < l.planeX ∧ 0 < l.planeY := by simp [exStand, exContact]
  obtain ⟨t1, e1⟩ := C35_answers_hypotheses_met
  obtain ⟨t2, e2⟩ := (C84_jacc_success (R := exStand) (e := 1) (s := fun _ => -1) (fun _ => .inr rfl) isSPD_one h6 hp hc bestSolver_exact bestSolver_exact
    bestSolver_complete bestSolver_complete (by norm_num) (by simp)).mp ⟨t1, e1⟩
  obtain ⟨t3, e3⟩ := (C35_succeeds_iff (R := exStand) isSPD_one h6 hp hc bestSolver_exact bestSolver_complete
    (ts := [turnRows ⟨1, exJJ, fun _ => 5, none, none⟩ (-1), turnRows ⟨1, exJJ, fun _ => 7, none, none⟩ (-1)]) (k := 2) (by norm_num) (by simp)).mpr
    ⟨_, exStand_admissible hc⟩
  exact ⟨t1, t2, t3, e1, e2, e3⟩

end Verif.Props
