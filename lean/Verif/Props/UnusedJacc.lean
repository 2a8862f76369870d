import Verif.Props.LoosenJacc
import Verif.Props.LoosenLqp

/-!
# C95 (unused room) for the joint-acceleration QPs and the hierarchical controller
-/

set_option linter.unusedSectionVars false

namespace Verif.Props
open Matrix Verif Verif.Spec Verif.Model

section
variable {ι : Type} [Fintype ι] [DecidableEq ι] {c : ℕ} {tb : ι → Option ℝ} {hold hold' : (Fin c → ℝ) → Prop}
  {m m' : ℕ} {M : Matrix (Fin m) (Fin c) ℝ} {M' : Matrix (Fin m') (Fin c) ℝ}

theorem jaccPassWith_unused (hMF : ∀ F : Fin c → ℝ, (∀ r, (M *ᵥ F) r ≤ 0) ↔ hold F) (hMF' : ∀ F : Fin c → ℝ, (∀ r, (M' *ᵥ F) r ≤ 0) ↔ hold' F)
    (hh : ∀ F, hold F → hold' F) {R : JRobot ι c} (hA : IsSPD R.A) (cs' : List ContactLink) (limit' : Option (ι → ℝ))
    {solve solve' : JSolver} (hs : solve.Exact) (hs' : solve'.Exact) {ts t1 t2 : List (JTask ι c)} {k : ℕ} (hk : k ≤ ts.length)
    (h : jaccPassWith (jaccCallWith tb (some ⟨m, M⟩) R solve) ts k = some (true, t1))
    (h' : jaccPassWith (jaccCallWith tb (some ⟨m', M'⟩) { R with cs := cs', limit := limit' } solve') ts k = some (true, t2))
    (hroom : ∀ j < k, ∀ (T' : JTask ι c) (x : JAnswer ι c), t2[j]? = some T' → T'.out = some x → hold x.force) :
    ∃ o o' : ℕ → JAnswer ι c, (∀ j < k, ∃ T', t1[j]? = some T' ∧ T'.out = some (o j)) ∧
      (∀ j < k, ∃ T', t2[j]? = some T' ∧ T'.out = some (o' j)) ∧
      (∀ j < k, JAdm tb hold R (o j) ∧ JAdm tb hold' R (o' j)) ∧ ∀ j < k, (o' j).acc = (o j).acc := by
  obtain ⟨o, h1, h2⟩ := jaccPassWith_best hMF hs k h
  obtain ⟨o', h1', h2'⟩ := jaccPassWith_best hMF' hs' k h'
  have ad : ∀ {x : JAnswer ι c}, JAdm tb hold' { R with cs := cs', limit := limit' } x ↔ JAdm tb hold' R x :=
    ⟨fun z => ⟨z.motion, z.torque, z.acc, z.contacts⟩, fun z => ⟨z.motion, z.torque, z.acc, z.contacts⟩⟩
  refine ⟨o, o', h1, h1', fun j hj => ⟨(h2 j hj).1, ad.mp (h2' j hj).1⟩, fun j => ?_⟩
  induction j using Nat.strong_induction_on with
  | _ j ih =>
    intro hj
    obtain ⟨T, hT⟩ : ∃ T, ts[j]? = some T := ⟨_, List.getElem?_eq_getElem (by omega)⟩
    obtain ⟨a1, a2, a3⟩ := h2 j hj
    obtain ⟨b1, b2, b3⟩ := h2' j hj
    obtain ⟨U, hU, hUo⟩ := h1' j hj
    have am : JAdm tb hold R (o' j) := ⟨b1.motion, b1.torque, b1.acc, hroom j hj U _ hU hUo⟩
    have am' : JAdm tb hold' { R with cs := cs', limit := limit' } (o j) := ⟨a1.motion, a1.torque, a1.acc, hh _ a1.contacts⟩
    have kp : ∀ i < j, ∀ P, ts[i]? = some P → P.J *ᵥ (o' j).acc = P.J *ᵥ (o i).acc := fun i hi P hP => by
      rw [b2 i hi P hP, ih i hi (by omega)]
    have kp' : ∀ i < j, ∀ P, ts[i]? = some P → P.J *ᵥ (o j).acc = P.J *ᵥ (o' i).acc := fun i hi P hP => by
      rw [a2 i hi P hP, ih i hi (by omega)]
    have le1 : jaccEffort R T (o j).acc ≤ jaccEffort R T (o' j).acc := a3 T hT _ am kp
    have le2 : jaccEffort R T (o' j).acc ≤ jaccEffort R T (o j).acc := b3 T hT _ am' kp'
    refine jacc_unique (a := (o j).acc) (b := (o' j).acc) hA T (le_antisymm le2 le1) ?_
    refine a3 T hT (JAnswer.along (o j) (o' j) (1 / 2)) (jadm_along hMF a1 am (by norm_num) (by norm_num)) fun i hi P hP => ?_
    show P.J *ᵥ ((o j).acc + (1 / 2 : ℝ) • ((o' j).acc - (o j).acc)) = _
    rw [mulVec_add, mulVec_smul, mulVec_sub, kp i hi P hP, a2 i hi P hP]; simp

end

section Full
variable {ι : Type} [Fintype ι] [DecidableEq ι] {c : ℕ} {R : JRobot ι c} {cs' : List ContactLink}

/-- **C95, joint-acceleration QP (room that is not used does not matter).**  If with larger feet and friction the contact forces of all levels
are already admissible for the smaller feet and friction, then the answers for those accelerate the joints in the same way at every
level. -/
theorem C95_jacc_unused_room (hA : IsSPD R.A) (h6 : ∀ l ∈ R.cs, l.type = .c6d) (hp : ∀ l ∈ R.cs, 0 < l.planeX ∧ 0 < l.planeY)
    (hc : c = 6 * (active R.cs).length) (hcs : List.Forall₂ ContactLe R.cs cs') {solve solve' : JSolver} (hs : solve.Exact)
    (hs' : solve'.Exact) (limit' : Option (ι → ℝ)) {ts t1 t2 : List (JTask ι c)} {k : ℕ} (hk : k ≤ ts.length)
    (h : jaccPass R solve ts k = some (true, t1)) (h' : jaccPass { R with cs := cs', limit := limit' } solve' ts k = some (true, t2))
    (hroom : ∀ j < k, ∀ (T' : JTask ι c) (x : JAnswer ι c), t2[j]? = some T' → T'.out = some x →
      ContactsHold R.cs (x.force ∘ Fin.cast hc.symm)) :
    ∀ j < k, ∃ T1 T2 x1 x2, t1[j]? = some T1 ∧ T1.out = some x1 ∧ t2[j]? = some T2 ∧ T2.out = some x2 ∧ x2.acc = x1.acc := by
  obtain ⟨h6', hp', hc'⟩ := loosen_contacts h6 hp hc hcs
  obtain ⟨M, hM, hMF⟩ := jContactRows_six h6 hp hc
  obtain ⟨M', hM', hMF'⟩ := jContactRows_six h6' hp' hc'
  unfold jaccPass jaccCall at h h'
  simp only at h'
  rw [hM] at h
  rw [hM'] at h'
  obtain ⟨o, o', h1, h2, -, h3⟩ := jaccPassWith_unused hMF hMF' (fun F hF => contactsHold_mono hcs hc hc' hF) hA cs' limit' hs hs' hk h h' hroom
  intro j hj
  obtain ⟨T1, e1, e2⟩ := h1 j hj
  obtain ⟨T2, e3, e4⟩ := h2 j hj
  exact ⟨T1, T2, _, _, e1, e2, e3, e4, h3 j hj⟩

end Full

section Reduced
variable {k c : ℕ} {ν : Type} [Fintype ν] [DecidableEq ν]
variable {A : Matrix (RSys (Fin k) ν) (RSys (Fin k) ν) ℝ} {J : Matrix (Fin 6) ν ℝ} {G : RSys (Fin k) ν → ℝ} {D : Reduced (Fin k) ν}
  {Jc : Matrix (Fin c) (RSys (Fin k) ν) ℝ} {SI : Mat6} {R : Mat3} {cs cs' : List ContactLink} {solve solve' : JSolver}

/-- C95, joint-acceleration QP of the reduced model (room that is not used does not matter).  The answers accelerate base and joints of the
reduced model in the same way at every level. -/
theorem C95_jacc_reduced_unused_room (h : reduce vcOf ncOf A⁻¹ J G = some D) (h6 : ∀ l ∈ cs, l.type = .c6d)
    (hp : ∀ l ∈ cs, 0 < l.planeX ∧ 0 < l.planeY) (hc : c = 6 * (active cs).length) (hcs : List.Forall₂ ContactLe cs cs') (hs : solve.Exact)
    (hs' : solve'.Exact) {ts t1 t2 : List (RJTask (Fin k) ν c)} {n : ℕ} (hn : n ≤ ts.length)
    (hpass : rjaccPass D Jc cs solve ts n = some (true, t1)) (hpass' : rjaccPass D Jc cs' solve' ts n = some (true, t2))
    (hroom : ∀ j < n, ∀ (T' : RJTask (Fin k) ν c) (x : JAnswer (Fin k ⊕ Fin 6) c), t2[j]? = some T' → T'.out = some x →
      ContactsHold cs (x.force ∘ Fin.cast hc.symm)) :
    ∀ j < n, ∃ T1 T2 x1 x2, t1[j]? = some T1 ∧ T1.out = some x1 ∧ t2[j]? = some T2 ∧ T2.out = some x2 ∧ x2.acc = x1.acc := by
  obtain ⟨h6', hp', hc'⟩ := loosen_contacts h6 hp hc hcs
  obtain ⟨M, hM, hMF⟩ := rjRows_six h6 hp hc
  obtain ⟨M', hM', hMF'⟩ := rjRows_six h6' hp' hc'
  have hl := rjaccPass_low (D := D) (Jc := Jc) (cs := cs) (solve := solve) ts n
  have hl' := rjaccPass_low (D := D) (Jc := Jc) (cs := cs') (solve := solve') ts n
  rw [hpass, hM] at hl
  rw [hpass', hM'] at hl'
  have stored : ∀ {t : List (RJTask (Fin k) ν c)} {j : ℕ} {w : JAnswer (Fin k ⊕ Fin 6) c},
      (∃ T', (t.map (RJTask.low D))[j]? = some T' ∧ T'.out = some w) → ∃ T', t[j]? = some T' ∧ T'.out = some w := by
    rintro t j w ⟨T', e1, e2⟩
    rw [List.getElem?_map] at e1
    obtain ⟨U, hU, rfl⟩ := Option.map_eq_some_iff.mp e1
    exact ⟨U, hU, e2⟩
  obtain ⟨o, o', s1, s2, -, h3⟩ := jaccPassWith_unused (R := rjRobot D Jc cs) hMF hMF' (fun F hF => contactsHold_mono hcs hc hc' hF)
    (AR_spd h).1 cs' none hs hs' (by simpa using hn) hl.symm hl'.symm (fun j hj T' x e1 e2 => by
      obtain ⟨U, u1, u2⟩ := stored ⟨T', e1, e2⟩
      exact hroom j hj U x u1 u2)
  intro j hj
  obtain ⟨T1, e1, e2⟩ := stored (s1 j hj)
  obtain ⟨T2, e3, e4⟩ := stored (s2 j hj)
  exact ⟨T1, T2, _, _, e1, e2, e3, e4, h3 j hj⟩

end Reduced

section Lqp
variable {ι : Type} [Fintype ι] [DecidableEq ι] {n c m m' : ℕ}

theorem lqp_unused (osqp : Osqp) (hs : OsqpExact osqp) (N : NullSpaceFn) (hN : N.Correct) (R : LqpConf ι c m)
    (C' : Matrix (Fin m') (Fin c) ℝ) (hA : IsSPD R.M) (hM : R.M * R.Minv = 1) (hl : ∀ i, 0 ≤ R.lim i) (hw : 0 < R.weight)
    (hstand : CanStand R) (hC : ∀ F, (∀ r, (R.C *ᵥ F) r ≤ 0) → ∀ r, (C' *ᵥ F) r ≤ 0)
    {a' b' : LevelAnswer (LqpVar ι c)} {rs' : List (LevelAnswer (LqpVar ι c))} (hrun' : lqpRun osqp N (R.contactRows C') = a' :: b' :: rs')
    (hroom : ∀ r' ∈ rs', ∀ i, (R.C *ᵥ forceOf r'.y) i ≤ 0) :
    ∃ a b rs, lqpRun osqp N R = a :: b :: rs ∧ rs.length = R.tasks.length ∧ rs'.length = R.tasks.length ∧
      ∀ (k : ℕ) (r r' : LevelAnswer (LqpVar ι c)), rs[k]? = some r → rs'[k]? = some r' → qddOf r'.y = qddOf r.y := by
  have hstand' : CanStand (R.contactRows C') := by
    obtain ⟨y, h1, h2, h3⟩ := hstand
    exact ⟨y, h1, h2, hC _ h3⟩
  obtain ⟨a, b, rs, hrun, hlen, ⟨-, hb⟩, ht⟩ := lqp_levels osqp hs N hN R hA hM hl hw.le
  obtain ⟨a1, b1', rs1, hrun1, hlen', ⟨-, hb'⟩, ht'⟩ := lqp_levels osqp hs N hN (R.contactRows C') hA hM hl hw.le
  rw [hrun'] at hrun1
  obtain ⟨rfl, hx⟩ := List.cons.inj hrun1
  obtain ⟨rfl, rfl⟩ := List.cons.inj hx
  have hlen'' : rs'.length = R.tasks.length := hlen'
  obtain ⟨b1, b2⟩ := lqp_contact_still hA hw hstand hb
  obtain ⟨b1', b2'⟩ := lqp_contact_still (R := R.contactRows C') hA hw hstand' hb'
  refine ⟨a, b, rs, hrun, hlen, hlen'', fun k => ?_⟩
  induction k using Nat.strong_induction_on with
  | _ k ih =>
    intro r r' hr hr'
    have hkl : k < rs.length := (List.getElem?_eq_some_iff.mp hr).1
    obtain ⟨t, hkt⟩ : ∃ t, R.tasks[k]? = some t := ⟨_, List.getElem?_eq_getElem (by omega)⟩
    obtain ⟨⟨m1, k1, t1⟩, hmin⟩ := ht k r t hr hkt
    obtain ⟨⟨m1', k1', t1'⟩, hmin'⟩ := ht' k r' t hr' hkt
    have km : KeepsContact (R.contactRows C') b'.y r.y := by
      obtain ⟨c1, c2, c3⟩ := k1
      rw [b1] at c1 c3
      refine ⟨by rw [b1']; exact c1, fun j => (hC _ (fun i => ?_) j).trans (le_max_right _ _), by rw [b1']; exact c3⟩
      exact (c2 i).trans (max_le (b2 i) le_rfl)
    have km' : KeepsContact R b.y r'.y := by
      obtain ⟨c1, c2, c3⟩ := k1'
      rw [b1'] at c1 c3
      exact ⟨by rw [b1]; exact c1, fun j => (hroom r' (List.mem_of_getElem? hr') j).trans (le_max_right _ _), by rw [b1]; exact c3⟩
    have tm : KeepsTasks (R.contactRows C') rs' k r.y := by
      intro j hj s' t'' hs' ht''
      have e := t1 j hj rs[j] t'' (List.getElem?_eq_getElem (by omega)) ht''
      rw [e, ih j hj _ _ (List.getElem?_eq_getElem (by omega)) hs']
    have tm' : KeepsTasks R rs k r'.y := by
      intro j hj s t'' hs ht''
      have e := t1' j hj rs'[j] t'' (List.getElem?_eq_getElem (by omega)) ht''
      rw [e, ih j hj _ _ hs (List.getElem?_eq_getElem (by omega))]
    have le1 : taskMiss t r'.y + energy R r'.y ≤ taskMiss t r.y + energy R r.y := hmin' r.y m1 km tm
    have le2 : taskMiss t r.y + energy R r.y ≤ taskMiss t r'.y + energy R r'.y := hmin r'.y m1' km' tm'
    refine lqp_unique (y := r.y) (y' := r'.y) hA hw t (le_antisymm le1 le2) ?_
    exact hmin _ (moves_along m1 m1' (by norm_num) (by norm_num)) (keepsContact_along k1 km' (by norm_num) (by norm_num))
      (keepsTasks_along t1 tm' _)

/-- **C95, hierarchical controller (room that is not used does not matter).**  Contact conditions weakened from `C F ≤ 0` to `C' F ≤ 0` on a
robot that could stand still: if the forces of the answers to all tasks satisfy the stronger conditions anyway, the answers under the
stronger conditions accelerate base and joints in the same way for every task. -/
theorem C95_lqp_unused_room (osqp : Osqp) (hs : OsqpExact osqp) (N : NullSpaceFn) (hN : N.Correct) (R : LqpRobot n c m)
    (C' : Matrix (Fin m') (Fin c) ℝ) (hA : IsSPD R.M) (hM : R.M * R.Minv = 1) (hstand : CanStand R.conf)
    (hC : ∀ F, (∀ r, (R.C *ᵥ F) r ≤ 0) → ∀ r, (C' *ᵥ F) r ≤ 0) {a' b' : LevelAnswer (LqpVar (Fin n) c)}
    {rs' : List (LevelAnswer (LqpVar (Fin n) c))}
    (hrun' : calcControlTorqueLQP osqp N ⟨R.M, R.Minv, R.h, R.J, C', R.tasks⟩ = a' :: b' :: rs')
    (hroom : ∀ r' ∈ rs', ∀ i, (R.C *ᵥ forceOf r'.y) i ≤ 0) :
    ∃ a b rs, calcControlTorqueLQP osqp N R = a :: b :: rs ∧ rs.length = R.tasks.length ∧ rs'.length = R.tasks.length ∧
      ∀ (k : ℕ) (r r' : LevelAnswer (LqpVar (Fin n) c)), rs[k]? = some r → rs'[k]? = some r' → qddOf r'.y = qddOf r.y :=
  lqp_unused osqp hs N hN R.conf C' hA hM (fun _ => lim_nonneg) (conf_weight hA) hstand hC hrun' hroom

end Lqp

/-- standing on the foot leaves no choice of the contact force: two levels, with a better foot and with the foot as it is -/
example : ∃ t1 t2 : List (JTask (Fin 1) 6),
    jaccPass exStand bestSolver [⟨1, exJJ, fun _ => 5, none, none⟩, ⟨1, exJJ, fun _ => 7, none, none⟩] 2 = some (true, t1) ∧
    jaccPass { exStand with cs := exStand.cs.map betterFoot, limit := none } bestSolver
      [⟨1, exJJ, fun _ => 5, none, none⟩, ⟨1, exJJ, fun _ => 7, none, none⟩] 2 = some (true, t2) ∧
    ∀ j < 2, ∃ T1 T2 x1 x2, t1[j]? = some T1 ∧ T1.out = some x1 ∧ t2[j]? = some T2 ∧ T2.out = some x2 ∧ x2.acc = x1.acc := by
  have hc : 6 = 6 * (active exStand.cs).length := by simp [exStand, exContact, active]
  have h6 : ∀ l ∈ exStand.cs, l.type = .c6d := by simp [exStand, exContact]
  have hp : ∀ l ∈ exStand.cs, 0 < l.planeX ∧ 0 < l.planeY := by simp [exStand, exContact]
  obtain ⟨h6', hp', hc'⟩ := loosen_contacts h6 hp hc (betterFeet_le exStand.cs)
  obtain ⟨t1, e1⟩ := C35_answers_hypotheses_met
  obtain ⟨t2, e2⟩ := C95_jacc_success (R := exStand) isSPD_one h6 hp hc (betterFeet_le _) bestSolver_exact bestSolver_complete bestSolver_exact
    bestSolver_complete two_pos (by simp) none e1
  refine ⟨t1, t2, e1, e2, C95_jacc_unused_room (R := exStand) isSPD_one h6 hp hc (betterFeet_le _) bestSolver_exact bestSolver_exact none (by simp)
    e1 e2 fun j hj T' x hT hx => ?_⟩
  obtain ⟨o, s1, s2⟩ := C35_pass_best (R := { exStand with cs := exStand.cs.map betterFoot, limit := none }) h6' hp' hc' bestSolver_exact e2
  obtain ⟨U, u1, u2⟩ := s1 j hj
  obtain rfl : U = T' := Option.some.inj (u1.symm.trans hT)
  obtain rfl : o j = x := Option.some.inj (u2.symm.trans hx)
  have hm := (s2 j hj).1.motion
  have hst := exStand_admissible hc
  have key : (o j).force = ![0, 0, -500, 0, 0, 0] := by
    obtain ⟨d, f⟩ := hm
    obtain ⟨d', -⟩ := hst.motion
    funext i
    have g : (o j).acc (Sum.inl i) = 0 := by
      have := congrFun f i
      simpa [exStand, mulVec, dotProduct, Matrix.one_apply, Pi.single_apply] using this
    have d1 := congrFun d (Sum.inl i)
    have d2 := congrFun d' (Sum.inl i)
    simp only [exStand, one_mulVec, Pi.add_apply, g, actuate, mulVec_zero, Pi.zero_apply] at d1 d2
    have t : ∀ F : Fin 6 → ℝ, (exStand.Jcᵀ *ᵥ F) (Sum.inl i) = F i := by
      intro F
      simp [exStand, mulVec, dotProduct, Matrix.one_apply, Pi.single_apply]
    have t1 := t (o j).force
    have t2 := t ![0, 0, -500, 0, 0, 0]
    simp only [exStand] at t1 t2
    rw [t1] at d1
    rw [t2] at d2
    change _ = (0 : ℝ) at d1 d2
    linarith
  rw [key]
  exact hst.contacts

/-- the robot with the heavy arm -/
example (f : ℝ) : ∃ D t1, reduce vcOf ncOf (exRed 6)⁻¹ 1 HeavyArm.G = some D ∧
    rjaccPass D (exFoot 6) HeavyArm.cs bestSolver [HeavyArm.task f] 1 = some (true, t1) ∧
    ∀ j < 1, ∃ T1 T2 x1 x2, t1[j]? = some T1 ∧ T1.out = some x1 ∧ t1[j]? = some T2 ∧ T2.out = some x2 ∧ x2.acc = x1.acc := by
  obtain ⟨D, t1, hD, e1⟩ := C62_answers_hypotheses_met f
  refine ⟨D, t1, hD, e1, C95_jacc_reduced_unused_room hD HeavyArm.six HeavyArm.plane HeavyArm.dof
    (List.forall₂_same.mpr fun l _ => ContactLe.refl l) bestSolver_exact bestSolver_exact (by simp) e1 e1 fun j hj T' x hT hx => ?_⟩
  obtain ⟨M, hM, hMF⟩ := rjRows_six HeavyArm.six HeavyArm.plane HeavyArm.dof
  have hl := rjaccPass_low (D := D) (Jc := exFoot 6) (cs := HeavyArm.cs) (solve := bestSolver) [HeavyArm.task f] 1
  rw [e1, hM] at hl
  obtain ⟨o, s1, s2⟩ := jaccPassWith_best hMF bestSolver_exact 1 hl.symm
  obtain ⟨U, u1, u2⟩ := s1 j hj
  rw [List.getElem?_map, hT] at u1
  obtain rfl := Option.some.inj u1
  have u2' : T'.out = some (o j) := u2
  obtain rfl : x = o j := Option.some.inj (hx.symm.trans u2')
  exact (s2 j hj).1.contacts

/-- held at the base, the robot needs no contact force: more friction changes nothing -/
example (osqp : Osqp) (hs : OsqpExact osqp) (N : NullSpaceFn) (hN : N.Correct) :
    ∃ a b r a' b' r', calcControlTorqueLQP osqp N (slipRobot (2 / 10)) = [a, b, r] ∧
      calcControlTorqueLQP osqp N (slipRobot (4 / 10)) = [a', b', r'] ∧ qddOf r'.y = qddOf r.y := by
  have st : ∀ μ, CanStand (slipRobot μ).conf := by
    intro μ
    have e1 : qddOf (0 : LqpVar (Fin 1) 6 → ℝ) = 0 := rfl
    have e2 : forceOf (0 : LqpVar (Fin 1) 6 → ℝ) = 0 := rfl
    have e3 : demand (slipRobot μ).conf 0 = 0 := by simp [demand, e1, e2, LqpRobot.conf, slipRobot]
    refine ⟨0, ⟨fun i => by rw [e3]; rfl, fun i => by rw [e3]; simp [LqpRobot.conf]⟩, rfl, fun r => by rw [e2, mulVec_zero]; exact le_rfl⟩
  have hM : (slipRobot (4 / 10)).M * (slipRobot (4 / 10)).Minv = 1 := by simp [slipRobot]
  obtain ⟨a', b', rs', hrun', hlen', ⟨-, hb'⟩, ht'⟩ := lqp_levels osqp hs N hN (slipRobot (4 / 10)).conf isSPD_one hM (fun _ => lim_nonneg)
    (conf_weight isSPD_one).le
  obtain ⟨q0, -⟩ := lqp_contact_still isSPD_one (conf_weight isSPD_one) (st (4 / 10)) hb'
  have hF : ∀ r' ∈ rs', forceOf r'.y = 0 := by
    intro r' hr'
    obtain ⟨k, hk⟩ := List.getElem?_of_mem hr'
    have hkl : k < rs'.length := (List.getElem?_eq_some_iff.mp hk).1
    obtain ⟨t, hkt⟩ : ∃ t, (slipRobot (4 / 10)).conf.tasks[k]? = some t := ⟨_, List.getElem?_eq_getElem (by omega)⟩
    obtain ⟨⟨⟨m1, -⟩, ⟨k1, -⟩, -⟩, -⟩ := ht' k r' t hk hkt
    rw [q0, mulVec_zero] at k1
    funext i
    have g : qddOf r'.y (Sum.inl i) = 0 := by
      have := congrFun k1 i
      simpa [slipRobot, LqpRobot.conf, mulVec, dotProduct, Matrix.one_apply, Pi.single_apply] using this
    have d := m1 i
    have t : ((slipRobot (4 / 10)).conf.Jᵀ *ᵥ forceOf r'.y) (Sum.inl i) = forceOf r'.y i := by
      change ∑ x : Fin 6, (Pi.single x (1 : ℝ) : Fin 6 → ℝ) i * forceOf r'.y x = _
      simp [Pi.single_apply]
    rw [demand, Pi.add_apply, Pi.add_apply, t] at d
    have z : ((slipRobot (4 / 10)).conf.M *ᵥ qddOf r'.y) (Sum.inl i) = 0 := by
      change ((1 : Matrix (Fin 6 ⊕ Fin 1) (Fin 6 ⊕ Fin 1) ℝ) *ᵥ qddOf r'.y) (Sum.inl i) = 0
      rw [one_mulVec, g]
    have z2 : (slipRobot (4 / 10)).conf.h (Sum.inl i) = 0 := rfl
    rw [z, z2, zero_add, zero_add] at d
    exact d
  obtain ⟨a, b, rs, h1, l1, l2, h3⟩ := C95_lqp_unused_room osqp hs N hN (slipRobot (2 / 10)) (slipRobot (4 / 10)).C isSPD_one
    (by simp [slipRobot]) (st _) (by
      intro F hF r
      have f0 := hF 0
      have f1 := hF 1
      fin_cases r <;> simp [slipRobot, mulVec, dotProduct, Fin.sum_univ_six] at f0 f1 ⊢ <;> linarith) hrun' (by
      intro r' hr' i
      rw [hF r' hr', mulVec_zero]
      exact le_rfl)
  match rs, rs', l1, l2 with
  | [r], [r'], _, _ => exact ⟨a, b, r, a', b', r', h1, hrun', h3 0 r r' rfl rfl⟩

end Verif.Props
