import Verif.Lemmas.ReducedJacc
import Verif.Props.JaccQP

/-!
# C62: the joint-acceleration QP of the reduced model
-/
set_option linter.unusedSectionVars false

namespace Verif.Props
open Matrix Verif Verif.Spec Verif.Model

section General
variable {κ ν : Type} [Fintype κ] [DecidableEq κ] [Fintype ν] [DecidableEq ν] {c : ℕ}
variable {A : Matrix (RSys κ ν) (RSys κ ν) ℝ} {J : Matrix (Fin 6) ν ℝ} {G : RSys κ ν → ℝ} {D : Reduced κ ν}
  {Jc : Matrix (Fin c) (RSys κ ν) ℝ} {SI : Mat6} {R : Mat3} {cs : List ContactLink} {solve : JSolver}

theorem rjRows_six (h6 : ∀ l ∈ cs, l.type = .c6d) (hp : ∀ l ∈ cs, 0 < l.planeX ∧ 0 < l.planeY)
    (hc : c = 6 * (active cs).length) :
    ∃ M, rjRows cs c = some ⟨10 * (active cs).length, M⟩ ∧
      ∀ F : Fin c → ℝ, (∀ r, (M *ᵥ F) r ≤ 0) ↔ ContactsHold cs (F ∘ Fin.cast hc.symm) := by
  obtain ⟨C, e, h⟩ := stackC_holds h6 hp hc
  refine ⟨-C, by simp [rjRows, e], fun F => ?_⟩
  rw [← h]
  exact forall_congr' fun r => by rw [neg_mulVec, Pi.neg_apply, neg_nonpos]

/-- C62.  The motions of the reduced system are exactly those of the robot: contact-chain joints and contact forces are the
same, and nothing is lost or added. -/
theorem C62_motions (hA : IsSPD A) (hR : R * Rᵀ = 1) (hJ : jInc SI R (baseNc A) = some J)
    (hcpl : ∀ (i : κ) (j : ν), A (.inr (.inl i)) (.inr (.inr j)) = 0) (h : reduce vcOf ncOf A⁻¹ J G = some D)
    (h0 : ∀ r j, Jc r (ncOf j) = 0) (σ : κ → ℝ) (a : Fin 6 ⊕ κ → ℝ) (F : Fin c → ℝ) :
    (∃ τR aR, Motion D.AR (jCR Jc) D.GR τR aR F ∧ (∀ i, τR (.inl i) = σ i) ∧ ∀ i, aR (vcOf i) = a i) ↔
      ∃ τ qdd, Motion A Jc G τ qdd F ∧ (∀ i, τ (.inl i) = σ i) ∧ ∀ i, qdd (vcOf i) = a i := by
  constructor
  · rintro ⟨τR, aR, hm, h1, h2⟩
    rw [← lowTorque_assemble hA hR hJ hcpl h τR 0] at hm
    obtain ⟨qdd, hq, e⟩ := motion_lift hA hR hJ hcpl h h0 hm
    exact ⟨_, qdd, hq, h1, fun i => by rw [← h2, ← e, (C40_reduction_jacobian h qdd).1]⟩
  · rintro ⟨τ, qdd, hm, h1, h2⟩
    exact ⟨_, _, motion_low hA hR hJ hcpl h h0 hm, h1, fun i => by rw [(C40_reduction_jacobian h qdd).1, h2]⟩

/-- C62 (partial: 6-D contacts, contact-chain joints stored first; the bounds hold for the contact-chain joints only).  Let
the levels `0 … k-1` be solved in order, every call returning 1, and let the answer of some level be sent to the joints, with
any torque added in the null space of the joints outside the contact chains.  Then the robot moves without moving its
contacts, and in every such motion: the contact force is the stored one and no contact tips or slips; the torques of the
contact-chain joints are within ±200 and their accelerations within ±10; the contact-chain accelerations are the stored
ones; and every contact-chain task of this level or a level above gets the acceleration it got when its own answer was
sent. -/
theorem C62_stack_partial (hA : IsSPD A) (hR : R * Rᵀ = 1) (hJ : jInc SI R (baseNc A) = some J)
    (hcpl : ∀ (i : κ) (j : ν), A (.inr (.inl i)) (.inr (.inr j)) = 0) (h : reduce vcOf ncOf A⁻¹ J G = some D)
    (h0 : ∀ r j, Jc r (ncOf j) = 0) (hi : IndependentRows Jc)
    (h6 : ∀ l ∈ cs, l.type = .c6d) (hp : ∀ l ∈ cs, 0 < l.planeX ∧ 0 < l.planeY) (hc : c = 6 * (active cs).length)
    (hs : solve.Sound) {ts ts' : List (RJTask κ ν c)} {k : ℕ} (hpass : rjaccPass D Jc cs solve ts k = some (true, ts')) :
    ∃ o : ℕ → JAnswer (κ ⊕ Fin 6) c, (∀ j < k, ∃ T', ts'[j]? = some T' ∧ T'.out = some (o j)) ∧
      ∀ j < k, ∀ τN, (∃ qdd F, Motion A Jc G (assembleTorque D (o j).torque τN) qdd F) ∧
        ∀ qdd F, Motion A Jc G (assembleTorque D (o j).torque τN) qdd F →
          F = (o j).force ∧ ContactsHold cs (F ∘ Fin.cast hc.symm) ∧
          (∀ i, |assembleTorque D (o j).torque τN (.inl i)| ≤ 200) ∧ (∀ i, |qdd (.inr (.inl i))| ≤ 10) ∧
          (∀ i, qdd (vcOf i) = (o j).acc (vcOf i)) ∧
          ∀ i ≤ j, ∀ T, ts[i]? = some T → (∀ r s, T.J r (ncOf s) = 0) →
            ∀ τN' qdd' F', Motion A Jc G (assembleTorque D (o i).torque τN') qdd' F' → T.J *ᵥ qdd = T.J *ᵥ qdd' := by
  obtain ⟨M, hM, hMF⟩ := rjRows_six h6 hp hc
  have hl := rjaccPass_low (D := D) (Jc := Jc) (cs := cs) (solve := solve) ts k
  rw [hpass, hM] at hl
  obtain ⟨o, h1, h2⟩ := jaccPassWith_stack hMF hs hl.symm
  have key : ∀ j < k, ∀ τN qdd F, Motion A Jc G (assembleTorque D (o j).torque τN) qdd F →
      F = (o j).force ∧ D.JR *ᵥ qdd = (o j).acc := fun j hj τN qdd F hm => by
    have hmo := (h2 j hj).1.motion
    rw [← lowTorque_assemble hA hR hJ hcpl h (o j).torque τN] at hmo
    obtain ⟨q', hq', e⟩ := motion_lift hA hR hJ hcpl h h0 hmo
    obtain ⟨u1, u2⟩ := motion_unique hA hm hq'
    refine ⟨?_, by rw [u1, e]⟩
    rw [← sub_eq_zero, ← mulVec_sub] at u2
    exact sub_eq_zero.mp (hi _ u2)
  refine ⟨o, fun j hj => ?_, fun j hj τN => ⟨?_, fun qdd F hm => ?_⟩⟩
  · obtain ⟨T', a, b⟩ := h1 j hj
    rw [List.getElem?_map] at a
    obtain ⟨T0, a', rfl⟩ := Option.map_eq_some_iff.mp a
    exact ⟨T0, a', b⟩
  · have hmo := (h2 j hj).1.motion
    rw [← lowTorque_assemble hA hR hJ hcpl h (o j).torque τN] at hmo
    obtain ⟨q', hq', -⟩ := motion_lift hA hR hJ hcpl h h0 hmo
    exact ⟨q', _, hq'⟩
  · obtain ⟨rfl, hq⟩ := key j hj τN qdd F hm
    have hadm := (h2 j hj).1
    have hv : ∀ i, qdd (vcOf i) = (o j).acc (vcOf i) := fun i => by rw [← hq, (C40_reduction_jacobian h qdd).1]
    refine ⟨rfl, hadm.contacts, fun i => hadm.torque (.inl i) 200 rfl, fun i => ?_, hv, fun i hij T hT hz τN' qdd' F' hm' => ?_⟩
    · have := hadm.acc (.inl i)
      rw [show (o j).acc (.inr (.inl i)) = qdd (.inr (.inl i)) from (hv (.inr i)).symm] at this
      exact this
    · obtain ⟨-, hq'⟩ := key i (by omega) τN' qdd' F' hm'
      rw [chain_task_acc h hz qdd, chain_task_acc h hz qdd', hq, hq']
      exact (h2 j hj).2 i hij (T.low D) (by rw [List.getElem?_map, hT]; rfl)

/-- C62 (partial, all tasks).  If the joints outside the contact chains also carry their own weight in that null space, then
every task of a level above, also one that is moved by those joints, gets the acceleration it got when its own answer was
sent that way. -/
theorem C62_all_tasks_partial (hA : IsSPD A) (hR : R * Rᵀ = 1) (hJ : jInc SI R (baseNc A) = some J)
    (hcpl : ∀ (i : κ) (j : ν), A (.inr (.inl i)) (.inr (.inr j)) = 0) (h : reduce vcOf ncOf A⁻¹ J G = some D)
    (h0 : ∀ r j, Jc r (ncOf j) = 0)
    (h6 : ∀ l ∈ cs, l.type = .c6d) (hp : ∀ l ∈ cs, 0 < l.planeX ∧ 0 < l.planeY) (hc : c = 6 * (active cs).length)
    (hs : solve.Sound) {ts ts' : List (RJTask κ ν c)} {k : ℕ} (hpass : rjaccPass D Jc cs solve ts k = some (true, ts')) :
    ∃ o : ℕ → JAnswer (κ ⊕ Fin 6) c, (∀ j < k, ∃ T', ts'[j]? = some T' ∧ T'.out = some (o j)) ∧
      ∀ i j, i ≤ j → j < k → ∀ T, ts[i]? = some T → ∀ qdd F qdd' F',
        Motion A Jc G (assembleTorque D (o j).torque fun s => G (ncOf s)) qdd F →
        Motion A Jc G (assembleTorque D (o i).torque fun s => G (ncOf s)) qdd' F' → T.J *ᵥ qdd = T.J *ᵥ qdd' := by
  obtain ⟨M, hM, hMF⟩ := rjRows_six h6 hp hc
  have hl := rjaccPass_low (D := D) (Jc := Jc) (cs := cs) (solve := solve) ts k
  rw [hpass, hM] at hl
  obtain ⟨o, h1, h2⟩ := jaccPassWith_stack hMF hs hl.symm
  have eN : D.GNC = fun j => G (ncOf j) := funext (reduce_eq_some h).2.2.2.2.2.2.2.2.1
  have key : ∀ j < k, ∀ qdd F, Motion A Jc G (assembleTorque D (o j).torque fun s => G (ncOf s)) qdd F →
      qdd = D.JRinvTᵀ *ᵥ (o j).acc := fun j hj qdd F hm => by
    have := motion_free hA hR hJ hcpl h h0 (h2 j hj).1.motion
    rw [eN] at this
    exact (motion_unique hA hm this).1
  refine ⟨o, fun j hj => ?_, fun i j hij hj T hT qdd F qdd' F' hm hm' => ?_⟩
  · obtain ⟨T', a, b⟩ := h1 j hj
    rw [List.getElem?_map] at a
    obtain ⟨T0, a', rfl⟩ := Option.map_eq_some_iff.mp a
    exact ⟨T0, a', b⟩
  · rw [key j hj qdd F hm, key i (by omega) qdd' F' hm', mulVec_mulVec, mulVec_mulVec]
    exact (h2 j hj).2 i hij (T.low D) (by rw [List.getElem?_map, hT]; rfl)

/-- C62.  Levels never block each other: once the levels `0 … k-1` (`k ≥ 1`) have been solved, a solver that answers whenever the
problem is feasible succeeds at level `k`. -/
theorem C62_next_level_feasible
    (h6 : ∀ l ∈ cs, l.type = .c6d) (hp : ∀ l ∈ cs, 0 < l.planeX ∧ 0 < l.planeY) (hc : c = 6 * (active cs).length)
    (hs : solve.Sound) {ts ts' : List (RJTask κ ν c)} {k : ℕ} (hk : 0 < k) (hlen : k < ts'.length)
    (hpass : rjaccPass D Jc cs solve ts k = some (true, ts'))
    (hans : ∀ (i : ℕ) (V Row : Type) [Fintype V] (d : BoxQP V Row), (∃ x, d.Feasible x) → solve i V Row d ≠ none) :
    ∃ ts'', rjaccPass D Jc cs solve ts (k + 1) = some (true, ts'') ∧ ts''.length = ts'.length := by
  obtain ⟨M, hM, hMF⟩ := rjRows_six h6 hp hc
  have hl := rjaccPass_low (D := D) (Jc := Jc) (cs := cs) (solve := solve) ts k
  have hl' := rjaccPass_low (D := D) (Jc := Jc) (cs := cs) (solve := solve) ts (k + 1)
  rw [hpass, hM] at hl
  rw [hM] at hl'
  obtain ⟨t2, e, hlen2⟩ := jaccPassWith_next hMF hs hk (by simpa using hlen) hl.symm fun i _ _ _ _ => hans i _ _ _
  rw [e] at hl'
  obtain ⟨⟨ok, t3⟩, e3, e4⟩ := Option.map_eq_some_iff.mp hl'
  simp only [Prod.mk.injEq] at e4
  obtain ⟨rfl, rfl⟩ := e4
  exact ⟨t3, e3, by simpa using hlen2⟩

/-- `½ q̈ᵀ A q̈ + 50 ‖J q̈ - f‖²` for the robot. -/
noncomputable def fullEffort (A : Matrix (RSys κ ν) (RSys κ ν) ℝ) (T : RJTask κ ν c) (a : RSys κ ν → ℝ) : ℝ :=
  (1 / 2) * (a ⬝ᵥ (A *ᵥ a)) + 50 * ((T.J *ᵥ a - T.f) ⬝ᵥ (T.J *ᵥ a - T.f))

/-- C62 (partial: contact-chain tasks).  An exact answer of a stack of contact-chain tasks, sent with the free joints' own weight,
is the best motion of the robot: among all motions of the robot that keep the accelerations of the levels above, whose contacts
hold, whose contact-chain torques are within ±200 and accelerations within ±10, and whose free joints accelerate within ±10
as seen through `J_I_nc_`, it minimises `½ q̈ᵀ A q̈ + 50 ‖J q̈ - f‖²`. -/
theorem C62_best_partial (hA : IsSPD A) (hR : R * Rᵀ = 1) (hJ : jInc SI R (baseNc A) = some J)
    (hcpl : ∀ (i : κ) (j : ν), A (.inr (.inl i)) (.inr (.inr j)) = 0) (h : reduce vcOf ncOf A⁻¹ J G = some D)
    (h0 : ∀ r j, Jc r (ncOf j) = 0)
    (h6 : ∀ l ∈ cs, l.type = .c6d) (hp : ∀ l ∈ cs, 0 < l.planeX ∧ 0 < l.planeY) (hc : c = 6 * (active cs).length)
    (hs : solve.Exact) {ts ts' : List (RJTask κ ν c)} {j : ℕ} (hcall : rjaccCall D Jc cs solve ts j = some (true, ts'))
    (hchain : ∀ i ≤ j, ∀ T, ts[i]? = some T → ∀ r s, T.J r (ncOf s) = 0) :
    ∃ (T T' : RJTask κ ν c) (o : JAnswer (κ ⊕ Fin 6) c) (qdd : RSys κ ν → ℝ), ts[j]? = some T ∧ ts'[j]? = some T' ∧
      T'.out = some o ∧ Motion A Jc G (assembleTorque D o.torque fun s => G (ncOf s)) qdd o.force ∧
      ∀ τ' qdd' F', Motion A Jc G τ' qdd' F' → ContactsHold cs (F' ∘ Fin.cast hc.symm) →
        (∀ i, |τ' (.inl i)| ≤ 200) → (∀ i, |qdd' (.inr (.inl i))| ≤ 10) →
        (∀ s, |(J *ᵥ fun i => qdd' (ncOf i)) s| ≤ 10) →
        (∀ (i : ℕ) (P : RJTask κ ν c) (q : Fin P.t → ℝ), i < j → ts[i]? = some P → P.fqp = some q →
          P.J *ᵥ qdd' = P.f + q) →
        fullEffort A T qdd ≤ fullEffort A T qdd' := by
  obtain ⟨M, hM, hMF⟩ := rjRows_six h6 hp hc
  have hl := rjaccCall_low (D := D) (Jc := Jc) (cs := cs) (solve := solve) ts j
  rw [hcall, hM] at hl
  obtain ⟨T1, T2, o, a1, a2, a3, a4, a5⟩ := jaccCallWith_best hMF hs hl.symm
  rw [List.getElem?_map] at a1 a2
  obtain ⟨T, hT, rfl⟩ := Option.map_eq_some_iff.mp a1
  obtain ⟨T', hT', rfl⟩ := Option.map_eq_some_iff.mp a2
  have hm := motion_free hA hR hJ hcpl h h0 a4.motion
  have eN : D.GNC = fun j => G (ncOf j) := funext (reduce_eq_some h).2.2.2.2.2.2.2.2.1
  rw [eN] at hm
  refine ⟨T, T', o, _, hT, hT', a3, hm, fun τ' qdd' F' hm' hF' ht ha hb hprev => ?_⟩
  have hlow := motion_low hA hR hJ hcpl h h0 hm'
  have hv := C40_reduction_jacobian h qdd'
  have hj : ∀ i, i ≤ j → ∀ P : RJTask κ ν c, ts[i]? = some P → ∀ v, P.J *ᵥ v = (P.J * D.JRinvTᵀ) *ᵥ (D.JR *ᵥ v) :=
    fun i hi P hP v => chain_task_acc h (hchain i hi P hP) v
  have := a5 ⟨D.JR *ᵥ qdd', lowTorque D τ', F'⟩
    { motion := hlow
      torque := fun i b hb => by
        rcases i with i | i
        · cases hb; exact ht i
        · cases hb
      acc := fun i => by
        rcases i with i | i
        · have := hv.1 (.inr i)
          simp only [vcOf] at this
          simp only [this]
          exact ha i
        · have := hv.2 i
          simp only [ncOf] at this
          simp only [this]
          exact hb i
      contacts := hF' }
    (fun i P q hi hP hq => by
      rw [List.getElem?_map] at hP
      obtain ⟨P0, hP0, rfl⟩ := Option.map_eq_some_iff.mp hP
      have := hprev i P0 q hi hP0 hq
      rw [hj i hi.le P0 hP0] at this
      exact this)
  unfold jaccEffort at this
  unfold fullEffort
  obtain ⟨f1, f2⟩ := effort_low hA hR hJ hcpl h qdd'
  rw [f2, hj j le_rfl T hT qdd', mulVec_mulVec]
  change (1 / 2) * (o.acc ⬝ᵥ (D.AR *ᵥ o.acc)) + 50 * (((T.J * D.JRinvTᵀ) *ᵥ o.acc - T.f) ⬝ᵥ ((T.J * D.JRinvTᵀ) *ᵥ o.acc - T.f)) ≤
    (1 / 2) * ((D.JR *ᵥ qdd') ⬝ᵥ (D.AR *ᵥ (D.JR *ᵥ qdd'))) +
      50 * (((T.J * D.JRinvTᵀ) *ᵥ (D.JR *ᵥ qdd') - T.f) ⬝ᵥ ((T.J * D.JRinvTᵀ) *ᵥ (D.JR *ᵥ qdd') - T.f)) at this
  linarith

end General

/-! ### The bounds do not cover the free joints -/

namespace HeavyArm

/-- the arm pulls with 1000 at its first joint -/
def G : RSys (Fin 6) (Fin 6) → ℝ := Sum.elim 0 (Sum.elim 0 fun s => if s = 0 then 1000 else 0)

noncomputable abbrev cs : List ContactLink := [exContact true]

/-- the first leg joint is to accelerate with `f` -/
def task (f : ℝ) : RJTask (Fin 6) (Fin 6) 6 :=
  { t := 1, J := Matrix.of fun _ => Sum.elim 0 (Sum.elim (fun i => if i = 0 then 1 else 0) 0), f := fun _ => f, fqp := none
    out := none }

theorem cs_active : active cs = [exContact true] := by simp [cs, exContact, active]
theorem dof : 6 = 6 * (active cs).length := by rw [cs_active]; rfl
theorem six : ∀ l ∈ cs, l.type = .c6d := by simp [exContact]
theorem plane : ∀ l ∈ cs, 0 < l.planeX ∧ 0 < l.planeY := by simp [exContact]

/-- in every motion with bounded leg and arm accelerations the first arm torque is large -/
theorem torque_large {τ : Fin 6 ⊕ Fin 6 → ℝ} {q : RSys (Fin 6) (Fin 6) → ℝ} {F : Fin 6 → ℝ}
    (h : Motion (exRed 6) (exFoot 6) G τ q F) (hb : ∀ i, |q (.inr i)| ≤ 10) : 900 < τ (.inr 0) := by
  have h1 := congrFun h.1 (.inr (.inr 0))
  have h2 := congrFun h.2 0
  have h3 : q (.inl 0) + q (.inr (.inl 0)) = 0 := by
    have : (exFoot 6 *ᵥ q) 0 = q (.inl 0) + q (.inr (.inl 0)) := by
      simp [mulVec, dotProduct, Fintype.sum_sum_type, exFoot, Fin.sum_univ_succ]
    rw [this] at h2
    exact h2
  have h4 : (exRed 6 *ᵥ q) (.inr (.inr 0)) = 2 * q (.inr (.inr 0)) + q (.inl 0) := by
    rw [exRed, add_mulVec, one_mulVec, ← mulVec_mulVec, Pi.add_apply]
    have e1 : exE 6 *ᵥ q = fun s => q (.inl s) + q (.inr (.inr s)) := by
      ext s
      simp [mulVec, dotProduct, Fintype.sum_sum_type, exE]
    have e2 : ∀ y, ((exE 6)ᵀ *ᵥ y) (.inr (.inr 0)) = y 0 := fun y => by
      simp [mulVec, dotProduct, exE]
    rw [e1, e2]
    ring
  have h5 : ((exFoot 6)ᵀ *ᵥ F) (.inr (.inr 0)) = 0 := by
    simp [mulVec, dotProduct, exFoot]
  simp only [Pi.add_apply] at h1
  rw [h4, h5] at h1
  have h6 : G (.inr (.inr 0)) = 1000 := by simp [G]
  have h7 : actuate τ (.inr (.inr 0)) = τ (.inr 0) := rfl
  rw [h6, h7] at h1
  have b1 := abs_le.mp (hb (.inl 0))
  have b2 := abs_le.mp (hb (.inr 0))
  linarith [b1.1, b1.2, b2.1, b2.2]

theorem jr {D : Reduced (Fin 6) (Fin 6)} (h : reduce vcOf ncOf (exRed 6)⁻¹ 1 G = some D) : D.JR = 1 := by
  rw [(reduce_eq_some h).2.1, jR_eq, blk_one]

theorem rows : IndependentRows (exFoot 6) := exFoot_independent

/-- a point satisfying the constraints of the reduced QP -/
theorem feasible {D : Reduced (Fin 6) (Fin 6)} (h : reduce vcOf ncOf (exRed 6)⁻¹ 1 G = some D) {m : ℕ}
    {M : Matrix (Fin m) (Fin 6) ℝ}
    (hM : ∀ F : Fin 6 → ℝ, (∀ r, (M *ᵥ F) r ≤ 0) ↔ ContactsHold cs (F ∘ Fin.cast dof.symm)) (f : ℝ) :
    ∃ x, (jaccQP rjBound (rjRobot D (exFoot 6) cs) M [] (task f).t ((task f).J * D.JRinvTᵀ) (task f).f).Feasible x := by
  have hm0 : Motion (exRed 6) (exFoot 6) G (fun j => G (.inr j)) 0 0 := by
    constructor
    · unfold Dynamics
      rw [mulVec_zero, mulVec_zero]
      ext i
      rcases i with i | i <;> simp [actuate, G]
    · simp [ContactsFixed]
  have hm := motion_low exRed_spd (by simp) exRed_jInc exRed_coupling h (fun _ _ => rfl) hm0
  refine ⟨jCols (D.JR *ᵥ 0) (lowTorque D fun j => G (.inr j)) 0 (-(task f).f), (jaccQP_feasible _ _ M [] _ _ _ _).mpr
    ⟨hm, fun i => absurd i.isLt (by simp), ?_, (hM _).mpr fun i => ?_, fun j b hb => ?_, fun j => ?_⟩⟩
  · have e0 : (fun i => jCols (D.JR *ᵥ 0) (lowTorque D fun j => G (.inr j)) (0 : Fin 6 → ℝ) (-(task f).f) (.inl i)) = 0 := by
      ext i
      simp [jCols]
    rw [e0, mulVec_zero]
    exact (add_neg_cancel (task f).f).symm
  · have e : (active cs)[i] = exContact true := by
      have : active cs = [exContact true] := cs_active
      have hm := List.getElem_mem (l := active cs) i.isLt
      have h2 : ∀ x ∈ active cs, x = exContact true := by rw [this]; simp
      exact h2 _ hm
    rw [e, noTip_iff (by simp [exContact]) (by simp [exContact])]
    simp [exContact, inFrame, wrenchOf, NoSlip, press, jCols, Matrix.transpose_one]
  · rcases j with j | j
    · cases hb
      simp [jCols, lowTorque, G]
    · cases hb
  · simp [jCols]

end HeavyArm

/-- C62 (negation: torque bound).  There is a robot standing on one foot, with a heavy arm, for which the full QP never
reports success, because no motion keeps all torques within ±200, whereas the QP of the reduced model reports success with
every solver that answers feasible problems; and whatever is added in the null space, the torque sent to an arm joint exceeds
200. -/
theorem C62_arm_torque_unbounded : ∃ D : Reduced (Fin 6) (Fin 6), reduce vcOf ncOf (exRed 6)⁻¹ 1 HeavyArm.G = some D ∧
    (∀ (solve : JSolver), solve.Sound → ∀ (ts ts' : List (JTask (Fin 6 ⊕ Fin 6) 6)) (j : ℕ),
      jaccCall { A := exRed 6, G := HeavyArm.G, Jc := exFoot 6, cs := HeavyArm.cs, limit := none } solve ts j
        ≠ some (true, ts')) ∧
    ∀ (solve : JSolver), solve.Sound →
      (∀ (i : ℕ) (V Row : Type) [Fintype V] (d : BoxQP V Row), (∃ x, d.Feasible x) → solve i V Row d ≠ none) → ∀ f,
      ∃ ts' T' o, rjaccPass D (exFoot 6) HeavyArm.cs solve [HeavyArm.task f] 1 = some (true, ts') ∧ ts'[0]? = some T' ∧
        T'.out = some o ∧ ∀ τN, ∃ j, 200 < assembleTorque D o.torque τN (.inr j) := by
  obtain ⟨D, hD⟩ := exRed_reduce (k := 6) HeavyArm.G
  refine ⟨D, hD, fun solve hs ts ts' j hcall => ?_, fun solve hs hans f => ?_⟩
  · obtain ⟨T, m, M, o, s, -, -, -, hmot, -, -, -, hτ, ha⟩ := jaccCall_success hs hcall
    have h1 := HeavyArm.torque_large hmot ha
    have h2 := (abs_le.mp (hτ (.inr 0) 200 rfl)).2
    linarith
  · obtain ⟨M, hM, hMF⟩ := rjRows_six HeavyArm.six HeavyArm.plane HeavyArm.dof
    obtain ⟨x, hx⟩ := Option.ne_none_iff_exists'.mp (hans 0 _ _ _ (HeavyArm.feasible hD hMF f))
    have hcall : rjaccCall D (exFoot 6) HeavyArm.cs solve [HeavyArm.task f] 0
        = some (true, [HeavyArm.task f].set 0 ((HeavyArm.task f).store x)) := by
      unfold rjaccCall
      simp only [List.getElem?_cons_zero, List.take_zero, List.map_nil, jPrevs]
      rw [hM]
      simp only []
      rw [hx]
    have hpass : rjaccPass D (exFoot 6) HeavyArm.cs solve [HeavyArm.task f] 1
        = some (true, [HeavyArm.task f].set 0 ((HeavyArm.task f).store x)) := by
      simp [rjaccPass, hcall]
    refine ⟨_, (HeavyArm.task f).store x, _, hpass, by simp, rfl, fun τN => ⟨0, ?_⟩⟩
    obtain ⟨hm, -, -, -, -, ha⟩ := (jaccQP_feasible _ _ M [] _ _ _ _).mp (hs _ _ _ _ _ hx)
    have hm' := hm
    have eτ := lowTorque_assemble exRed_spd (by simp) exRed_jInc exRed_coupling hD (fun j => x (.inr (.inl j))) τN
    rw [← eτ] at hm'
    obtain ⟨q, hq, e⟩ := motion_lift exRed_spd (by simp) exRed_jInc exRed_coupling hD (fun _ _ => rfl) hm'
    rw [HeavyArm.jr hD, one_mulVec] at e
    have := HeavyArm.torque_large hq (fun i => by rw [e]; exact ha i)
    linarith

/-! ### The hypotheses are met -/

/-- two levels of the reduced stack are solved on the robot of `C62_arm_torque_unbounded` -/
example : ∃ D ts', reduce vcOf ncOf (exRed 6)⁻¹ 1 HeavyArm.G = some D ∧
    rjaccPass D (exFoot 6) HeavyArm.cs anySolver [HeavyArm.task 5, HeavyArm.task 7] 2 = some (true, ts') := by
  obtain ⟨D, hD⟩ := exRed_reduce (k := 6) HeavyArm.G
  obtain ⟨M, hM, hMF⟩ := rjRows_six HeavyArm.six HeavyArm.plane HeavyArm.dof
  obtain ⟨x, hx⟩ := Option.ne_none_iff_exists'.mp (anySolver_answers 0 _ _ _ (HeavyArm.feasible hD hMF 5))
  have hcall : rjaccCall D (exFoot 6) HeavyArm.cs anySolver [HeavyArm.task 5, HeavyArm.task 7] 0
      = some (true, [HeavyArm.task 5, HeavyArm.task 7].set 0 ((HeavyArm.task 5).store x)) := by
    unfold rjaccCall
    simp only [List.getElem?_cons_zero, List.take_zero, List.map_nil, jPrevs]
    rw [hM]
    simp only []
    rw [hx]
  have hpass : rjaccPass D (exFoot 6) HeavyArm.cs anySolver [HeavyArm.task 5, HeavyArm.task 7] 1
      = some (true, [HeavyArm.task 5, HeavyArm.task 7].set 0 ((HeavyArm.task 5).store x)) := by
    simp [rjaccPass, hcall]
  obtain ⟨ts'', h2, -⟩ := C62_next_level_feasible HeavyArm.six HeavyArm.plane HeavyArm.dof anySolver_sound Nat.one_pos
    (by simp) hpass anySolver_answers
  exact ⟨D, ts'', hD, h2⟩

/-- the robot of `C62_arm_torque_unbounded` meets the hypotheses on robot and task -/
example : IsSPD (exRed 6) ∧ jInc 1 1 (baseNc (exRed 6)) = some (1 : Matrix (Fin 6) (Fin 6) ℝ) ∧
    (∀ (i : Fin 6) (j : Fin 6), exRed 6 (.inr (.inl i)) (.inr (.inr j)) = 0) ∧ IndependentRows (exFoot 6) ∧
    (∀ r j, exFoot 6 r (ncOf j) = 0) ∧ ∀ r s, (HeavyArm.task 5).J r (ncOf s) = 0 :=
  ⟨exRed_spd, exRed_jInc, exRed_coupling, exFoot_independent, fun _ _ => rfl, fun _ _ => rfl⟩

end Verif.Props
