import Verif.Lemmas.JaccExists
import Verif.Props.ReducedJacc
import Verif.Props.ReducedLqp

/-!
# C35, C62: when the joint-acceleration QP succeeds
-/
set_option linter.unusedSectionVars false

namespace Verif.Props
open Matrix Verif Verif.Spec Verif.Model

/-- The solver answers every problem that has an exact solution. -/
def JSolver.Complete (solve : JSolver) : Prop :=
  ∀ (i : ℕ) (V R : Type) [Fintype V] (d : BoxQP V R), (∃ x, d.IsSolution x) → solve i V R d ≠ none

theorem bestSolver_complete : JSolver.Complete bestSolver := by
  intro i V R _ d h
  unfold bestSolver
  rw [dif_pos h]; simp

variable {ι : Type} [Fintype ι] [DecidableEq ι] {c : ℕ} {tb : ι → Option ℝ} {hold : (Fin c → ℝ) → Prop}

theorem jaccPassWith_answers {m : ℕ} {M : Matrix (Fin m) (Fin c) ℝ} (hMF : ∀ F : Fin c → ℝ, (∀ r, (M *ᵥ F) r ≤ 0) ↔ hold F)
    {R : JRobot ι c} (hA : IsSPD R.A) {solve : JSolver} (hs : solve.Exact) (hcomp : JSolver.Complete solve)
    {ts : List (JTask ι c)} {o : JAnswer ι c} (ho : JAdm tb hold R o) :
    ∀ k, k < ts.length → ∃ ts', jaccPassWith (jaccCallWith tb (some ⟨m, M⟩) R solve) ts (k + 1) = some (true, ts') ∧
      ts'.length = ts.length
  | 0, hk => by
    obtain ⟨T, hT⟩ : ∃ T, ts[0]? = some T := ⟨_, List.getElem?_eq_getElem hk⟩
    have hfeas : ∃ x, (jaccQP tb R M [] T.t T.J T.f).Feasible x := by
      refine ⟨jCols o.acc o.torque o.force (T.J *ᵥ o.acc - T.f), (jaccQP_feasible tb R M [] _ _ _ _).mpr
        ⟨ho.motion, fun i => absurd i.isLt (by simp), ?_, (hMF _).mpr ho.contacts, ho.torque, ho.acc⟩⟩
      funext k
      simp [jCols]
    obtain ⟨x, hx⟩ := Option.ne_none_iff_exists'.mp (hcomp 0 _ _ _ (jaccQP_exists hA M [] _ _ _ hfeas))
    refine ⟨ts.set 0 (T.store x), ?_, by simp⟩
    have : jaccCallWith tb (some ⟨m, M⟩) R solve ts 0 = some (true, ts.set 0 (T.store x)) := by
      unfold jaccCallWith
      rw [hT]
      simp only [List.take_zero, jPrevs, hx]
    simp [jaccPassWith, this]
  | k + 1, hk => by
    obtain ⟨ts', h1, hl⟩ := jaccPassWith_answers hMF hA hs hcomp (ts := ts) ho k (by omega)
    obtain ⟨ts'', h2, hl2⟩ := jaccPassWith_next hMF (fun i V Rw _ d x hx => (hs i V Rw d x hx).1) (Nat.succ_pos k) (by omega) h1
      fun i prev t J f hf => hcomp i _ _ _ (jaccQP_exists hA M prev t J f hf)
    exact ⟨ts'', h2, by omega⟩

/-- C35.  With a solver that is exact and answers whenever there is a solution, the levels `0 … k-1` are all solved exactly when
the robot has an admissible motion, whatever the tasks are: tasks never make the QP fail. -/
theorem C35_succeeds_iff {R : JRobot ι c} (hA : IsSPD R.A) (h6 : ∀ l ∈ R.cs, l.type = .c6d)
    (hp : ∀ l ∈ R.cs, 0 < l.planeX ∧ 0 < l.planeY) (hc : c = 6 * (active R.cs).length)
    {solve : JSolver} (hs : solve.Exact) (hcomp : JSolver.Complete solve) {ts : List (JTask ι c)} {k : ℕ} (hk : 0 < k)
    (hlen : k ≤ ts.length) :
    (∃ ts', jaccPass R solve ts k = some (true, ts')) ↔ ∃ o, JAdmissible R hc o := by
  obtain ⟨M, hM, hMF⟩ := jContactRows_six h6 hp hc
  constructor
  · rintro ⟨ts', h⟩
    obtain ⟨o, -, h2⟩ := C35_stack_partial h6 hp hc (fun i V Rw _ d x hx => (hs i V Rw d x hx).1) h
    exact ⟨o 0, (h2 0 hk).1⟩
  · rintro ⟨o, ho⟩
    obtain ⟨k, rfl⟩ := Nat.exists_eq_succ_of_ne_zero hk.ne'
    obtain ⟨ts', h, -⟩ := jaccPassWith_answers (tb := fun _ => some 200) hMF hA hs hcomp (ts := ts) (jAdmissible_iff.mpr ho) k (by omega)
    refine ⟨ts', ?_⟩
    unfold jaccPass jaccCall
    rw [hM]
    exact h

/-- C35.  If the robot has no admissible motion, the first level reports failure and changes nothing. -/
theorem C35_no_motion_fails {R : JRobot ι c} (h6 : ∀ l ∈ R.cs, l.type = .c6d)
    (hp : ∀ l ∈ R.cs, 0 < l.planeX ∧ 0 < l.planeY) (hc : c = 6 * (active R.cs).length)
    {solve : JSolver} (hs : solve.Sound) {ts : List (JTask ι c)} (hlen : 0 < ts.length)
    (hno : ¬ ∃ o, JAdmissible R hc o) : jaccCall R solve ts 0 = some (false, ts) := by
  obtain ⟨M, hM, hMF⟩ := jContactRows_six h6 hp hc
  rcases hr : jaccCall R solve ts 0 with _ | ⟨ok, ts'⟩
  · exfalso
    unfold jaccCall jaccCallWith at hr
    rw [List.getElem?_eq_getElem hlen, hM] at hr
    simp only [List.take_zero, jPrevs] at hr
    split at hr <;> cases hr
  · cases ok
    · unfold jaccCall jaccCallWith at hr
      rw [List.getElem?_eq_getElem hlen, hM] at hr
      simp only [List.take_zero, jPrevs] at hr
      split at hr
      · exact hr.symm
      · simp at hr
    · exfalso
      have : jaccPass R solve ts 1 = some (true, ts') := by simp [jaccPass, jaccPassWith, hr]
      obtain ⟨o, -, h2⟩ := C35_stack_partial h6 hp hc hs this
      exact hno ⟨o 0, (h2 0 one_pos).1⟩

section Reduced
variable {k : ℕ} {ν : Type} [Fintype ν] [DecidableEq ν] {c : ℕ}
variable {A : Matrix (RSys (Fin k) ν) (RSys (Fin k) ν) ℝ} {J : Matrix (Fin 6) ν ℝ} {G : RSys (Fin k) ν → ℝ} {D : Reduced (Fin k) ν}
  {Jc : Matrix (Fin c) (RSys (Fin k) ν) ℝ} {SI : Mat6} {R : Mat3} {cs : List ContactLink} {solve : JSolver}

/-- C62.  With such a solver the levels of the reduced QP are all solved exactly when the robot has a motion whose contacts hold,
whose contact-chain torques are within ±200 and accelerations within ±10, and whose free joints accelerate within ±10 as seen
through `J_I_nc_`; the torques of the free joints do not matter. -/
theorem C62_succeeds_iff (hA : IsSPD A) (hR : R * Rᵀ = 1) (hJ : jInc SI R (baseNc A) = some J)
    (hcpl : ∀ (i : Fin k) (j : ν), A (.inr (.inl i)) (.inr (.inr j)) = 0) (h : reduce vcOf ncOf A⁻¹ J G = some D)
    (h0 : ∀ r j, Jc r (ncOf j) = 0)
    (h6 : ∀ l ∈ cs, l.type = .c6d) (hp : ∀ l ∈ cs, 0 < l.planeX ∧ 0 < l.planeY) (hc : c = 6 * (active cs).length)
    (hs : solve.Exact) (hcomp : JSolver.Complete solve) {ts : List (RJTask (Fin k) ν c)} {n : ℕ} (hn : 0 < n) (hlen : n ≤ ts.length) :
    (∃ ts', rjaccPass D Jc cs solve ts n = some (true, ts')) ↔
      ∃ τ qdd F, Motion A Jc G τ qdd F ∧ ContactsHold cs (F ∘ Fin.cast hc.symm) ∧ (∀ i, |τ (.inl i)| ≤ 200) ∧
        (∀ i, |qdd (.inr (.inl i))| ≤ 10) ∧ ∀ s, |(J *ᵥ fun i => qdd (ncOf i)) s| ≤ 10 := by
  obtain ⟨M, hM, hMF⟩ := rjRows_six h6 hp hc
  have hl := rjaccPass_low (D := D) (Jc := Jc) (cs := cs) (solve := solve) ts n
  rw [hM] at hl
  constructor
  · rintro ⟨ts', hpass⟩
    rw [hpass] at hl
    obtain ⟨o, -, h2⟩ := jaccPassWith_stack hMF (fun i V Rw _ d x hx => (hs i V Rw d x hx).1) hl.symm
    have ha := (h2 0 hn).1
    have hm := motion_free hA hR hJ hcpl h h0 ha.motion
    have hv := C40_reduction_jacobian h (D.JRinvTᵀ *ᵥ (o 0).acc)
    have hkeep : D.JR *ᵥ (D.JRinvTᵀ *ᵥ (o 0).acc) = (o 0).acc := by
      have := congrArg transpose (C40_consistent_inverse hA hR hJ hcpl h).2.1
      rw [transpose_mul, transpose_transpose, transpose_one] at this
      rw [mulVec_mulVec, this, one_mulVec]
    rw [hkeep] at hv
    refine ⟨_, _, _, hm, ha.contacts, fun i => ha.torque (.inl i) 200 rfl, fun i => ?_, fun s => ?_⟩
    · have e : (o 0).acc (.inr (.inl i)) = (D.JRinvTᵀ *ᵥ (o 0).acc) (.inr (.inl i)) := hv.1 (.inr i)
      rw [← e]; exact ha.acc (.inl i)
    · rw [← hv.2 s]; exact ha.acc (.inr s)
  · rintro ⟨τ, qdd, F, hm, hF, ht, ha, hb⟩
    have hlow := motion_low hA hR hJ hcpl h h0 hm
    have hv := C40_reduction_jacobian h qdd
    have hadm : JAdm rjBound (fun F => ContactsHold cs (F ∘ Fin.cast hc.symm)) (rjRobot D Jc cs) ⟨D.JR *ᵥ qdd, lowTorque D τ, F⟩ :=
      { motion := hlow
        torque := fun i b hb => by
          rcases i with i | i
          · cases hb; exact ht i
          · cases hb
        acc := fun i => by
          rcases i with i | i
          · have := hv.1 (.inr i)
            simp only [vcOf] at this
            simp only [this]
            exact ha i
          · have := hv.2 i
            simp only [ncOf] at this
            simp only [this]
            exact hb i
        contacts := hF }
    obtain ⟨n, rfl⟩ := Nat.exists_eq_succ_of_ne_zero hn.ne'
    obtain ⟨t2, e, -⟩ := jaccPassWith_answers hMF (R := rjRobot D Jc cs) (AR_spd h).1 hs hcomp (ts := ts.map (RJTask.low D)) hadm n
      (by simpa using hlen)
    rw [e] at hl
    obtain ⟨⟨ok, t3⟩, e3, e4⟩ := Option.map_eq_some_iff.mp hl
    simp only [Prod.mk.injEq] at e4
    obtain ⟨rfl, -⟩ := e4
    exact ⟨t3, e3⟩

end Reduced

/-! ### The hypotheses are met -/

theorem exStand_admissible (hc : 6 = 6 * (active exStand.cs).length) :
    JAdmissible exStand hc ⟨0, 0, ![0, 0, -500, 0, 0, 0]⟩ := by
  refine ⟨⟨?_, ?_⟩, fun i => by simp, fun i => by simp, fun i => ?_⟩
  · funext i
    rcases i with i | i
    · fin_cases i <;> simp [actuate, mulVec, dotProduct, Fin.sum_univ_succ, Matrix.one_apply]
    · simp [actuate, mulVec, dotProduct]
  · simp [ContactsFixed]
  · have e : (active exStand.cs)[i] = exContact true := by
      have : active exStand.cs = [exContact true] := by simp [exStand, exContact, active]
      have hm := List.getElem_mem (l := active exStand.cs) i.isLt
      have h2 : ∀ x ∈ active exStand.cs, x = exContact true := by rw [this]; simp
      exact h2 _ hm
    have ei : i.val = 0 := by omega
    rw [e, noTip_iff (by simp [exContact]) (by simp [exContact])]
    simp [exContact, inFrame, wrenchOf, NoSlip, press, ei, Fin.cast, Matrix.transpose_one]

/-- the exact solver solves two conflicting levels on a robot standing on its foot -/
theorem C35_answers_hypotheses_met : ∃ ts', jaccPass exStand bestSolver
    [⟨1, exJJ, fun _ => 5, none, none⟩, ⟨1, exJJ, fun _ => 7, none, none⟩] 2 = some (true, ts') := by
  have hc : 6 = 6 * (active exStand.cs).length := by simp [exStand, exContact, active]
  exact (C35_succeeds_iff (R := exStand) isSPD_one (by simp [exStand, exContact]) (by simp [exStand, exContact]) hc
    bestSolver_exact bestSolver_complete (by norm_num) (by simp)).mpr ⟨_, exStand_admissible hc⟩

/-- A joint that has to carry 1000. -/
def exLoaded : JRobot (Fin 1) 0 := { A := 1, G := Sum.elim 0 fun _ => 1000, Jc := 0, cs := [], limit := none }

/-- no admissible motion carries the load: failure is reported and nothing changes -/
example : jaccCall exLoaded bestSolver [exJT] 0 = some (false, [exJT]) := by
  refine C35_no_motion_fails (by simp [exLoaded]) (by simp [exLoaded]) (by simp [exLoaded, active])
    (fun i V Rw _ d x hx => (bestSolver_exact i V Rw d x hx).1) (by simp) ?_
  rintro ⟨o, ho⟩
  have h1 := congrFun ho.motion.1 (.inr 0)
  have h2 := abs_le.mp (ho.torque 0)
  have h3 := abs_le.mp (ho.acc 0)
  simp [exLoaded, actuate] at h1
  linarith [h2.2, h3.1]

/-- the robot with the heavy arm stands still -/
theorem HeavyArm.standing : Motion (exRed 6) (exFoot 6) HeavyArm.G (fun j => HeavyArm.G (.inr j)) 0 0 := by
  constructor
  · unfold Dynamics
    rw [mulVec_zero, mulVec_zero]
    ext i
    rcases i with i | i <;> simp [actuate, HeavyArm.G]
  · simp [ContactsFixed]

theorem HeavyArm.standing_holds : ContactsHold HeavyArm.cs ((0 : Fin 6 → ℝ) ∘ Fin.cast HeavyArm.dof.symm) := by
  intro i
  have e : (active HeavyArm.cs)[i] = exContact true := by
    have hm := List.getElem_mem (l := active HeavyArm.cs) i.isLt
    have h2 : ∀ x ∈ active HeavyArm.cs, x = exContact true := by rw [HeavyArm.cs_active]; simp
    exact h2 _ hm
  rw [e, noTip_iff (by simp [exContact]) (by simp [exContact])]
  simp [exContact, inFrame, wrenchOf, NoSlip, press, Matrix.transpose_one]

theorem HeavyArm.standing_torque (i : Fin 6) : |(fun j => HeavyArm.G (.inr j) : Fin 6 ⊕ Fin 6 → ℝ) (.inl i)| ≤ 200 := by
  simp [HeavyArm.G]

/-- the reduced QP is solved for the robot with the heavy arm -/
theorem C62_answers_hypotheses_met (f : ℝ) : ∃ D ts', reduce vcOf ncOf (exRed 6)⁻¹ 1 HeavyArm.G = some D ∧
    rjaccPass D (exFoot 6) HeavyArm.cs bestSolver [HeavyArm.task f] 1 = some (true, ts') := by
  obtain ⟨D, hD⟩ := exRed_reduce (k := 6) HeavyArm.G
  obtain ⟨ts', h⟩ := (C62_succeeds_iff (ts := [HeavyArm.task f]) exRed_spd (by simp) exRed_jInc exRed_coupling hD (fun _ _ => rfl)
    HeavyArm.six HeavyArm.plane HeavyArm.dof bestSolver_exact bestSolver_complete one_pos (by simp)).mpr
    ⟨_, 0, 0, HeavyArm.standing, HeavyArm.standing_holds, HeavyArm.standing_torque, fun i => by simp, fun s => by
      have : (fun i => (0 : RSys (Fin 6) (Fin 6) → ℝ) (ncOf i)) = 0 := rfl
      rw [this, mulVec_zero]; simp⟩
  exact ⟨D, ts', hD, h⟩

end Verif.Props
