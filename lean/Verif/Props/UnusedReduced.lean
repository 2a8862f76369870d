import Verif.Props.BlendReduced
import Verif.Props.ReducedModerate

/-!
# C95 (unused room) and C96 (scaling) for task control with the reduced model
-/

set_option linter.unusedSectionVars false

namespace Verif.Props
open Matrix Verif Verif.Spec Verif.Model

section
variable {k c : ℕ} {ν : Type*} [Fintype ν] [DecidableEq ν] {D : Reduced (Fin k) ν} {C : ReducedContact c (Fin k) ν} {R : Mat3}
  {P : Matrix (RSys (Fin k) ν) (RSys (Fin k) ν) ℝ} {K : Option (Matrix (Fin k ⊕ Fin 6) (Fin 6) ℝ)} {Q : RQPRobot k c}
  {solve solve' : Solver} {lim lim' : Option (Fin (k + 6) → ℝ)} {m m' : ℕ} {Cm : Matrix (Fin m) (Fin c) ℝ}
  {Cm' : Matrix (Fin m') (Fin c) ℝ} {limit' : Option ((m : ℕ) × (Fin m → ℝ))} {cs' : List ContactLink}

theorem rloop_unused (hl : Q.fit = some lim) (hc : stackC Q.cs c = some ⟨m, Cm⟩) (hl' : (Q.loosened limit' cs').fit = some lim')
    (hc' : stackC (Q.loosened limit' cs').cs c = some ⟨m', Cm'⟩) (hle : ∀ τ, OkR D C lim Cm τ → OkR D C lim' Cm' τ) (hs : solve.Exact)
    (hcomp : solve.Complete) (hs' : solve'.Exact) (ts : List (RTask (Fin k) ν)) (hts : ∀ T ∈ ts, T.noncont = false) (i : ℕ)
    (prev : Option (RTask (Fin k) ν × Matrix (Fin k ⊕ Fin 6) (Fin k ⊕ Fin 6) ℝ)) (τ0 : Fin k ⊕ Fin 6 → ℝ) (f : Fin 6 → ℝ)
    (hok : ∀ j, 1 ≤ j → j ≤ ts.length → ∀ τ τR, rqpFrom D C R P K (Q.loosened limit' cs') solve' i prev τ0 f none (ts.take j) = .ret 1 τ τR →
      ∃ z, OkR D C lim Cm (reducedGravity D C + τR + Q.NwJw *ᵥ z)) {τ : Fin k ⊕ ν → ℝ} {τR : Fin k ⊕ Fin 6 → ℝ}
    (h' : rqpFrom D C R P K (Q.loosened limit' cs') solve' i prev τ0 f none ts = .ret 1 τ τR) :
    rqpFrom D C R P K Q solve i prev τ0 f none ts = .ret 1 τ τR := by
  induction ts generalizing i prev τ0 with
  | nil => exact h'
  | cons T rest ih =>
    have hT := hts T (List.mem_cons_self ..)
    rcases hx' : solve' i T.t (c - 6) (rQP D C (Q.loosened limit' cs') lim' Cm' (prevNull prev * (T.Jkt * T.Λ)) T.f
        (reducedGravity D C + τ0)) with _ | x'
    · rw [rqpFrom_chain D C R P K _ solve' i prev τ0 f none hT, hl', hc'] at h'
      simp only [hx'] at h'
      simp at h'
    have back := fun l => rqp_step (R := R) (P := P) (K := K) hl' hc' i prev τ0 f none hT l hx'
    rw [back] at h'
    obtain ⟨z, hz⟩ := hok 1 le_rfl (by simp) _ _ (by rw [List.take_succ_cons, List.take_zero, back, rqpFrom, rqpFinish])
    have s2 := hs' _ _ _ _ _ hx'
    have f1 : (rQP D C Q lim Cm (prevNull prev * (T.Jkt * T.Λ)) T.f (reducedGravity D C + τ0)).Feasible
        (Sum.elim (fun a => x' (Sum.inl a)) z) := by
      rw [rQP_feasible]
      simp only [Sum.elim_inl, Sum.elim_inr]
      rw [← mulVec_mulVec, ← mulVec_mulVec, add_assoc (reducedGravity D C)]
      exact hz
    obtain ⟨x, hx⟩ := Option.isSome_iff_exists.mp (hcomp i _ _ _ (rQP_exists _ _ _ f1))
    have s1 := hs _ _ _ _ _ hx
    have s3 : (rQP D C Q lim Cm (prevNull prev * (T.Jkt * T.Λ)) T.f (reducedGravity D C + τ0)).IsSolution
        (Sum.elim (fun a => x' (Sum.inl a)) z) := by
      refine ⟨f1, fun y hy => ?_⟩
      have := s2.2 y (rlevel_loosen hle _ _ _ hy)
      rw [rQP_cost, rQP_cost] at this ⊢
      exact this
    have ex := rQP_left_unique D C Q lim Cm _ _ _ s1 s3
    simp only [Sum.elim_inl] at ex
    rw [rqp_step (R := R) (P := P) (K := K) hl hc i prev τ0 f none hT rest hx, ex]
    refine ih (fun T hT => hts T (List.mem_cons_of_mem _ hT)) _ _ _ (fun j hj hjl τ τR hτ => hok (j + 1) (by omega) (by simp; omega) τ τR ?_) h'
    rw [List.take_succ_cons, back]
    exact hτ

theorem rloop_still (hl : Q.fit = some lim) (hc : stackC Q.cs c = some ⟨m, Cm⟩) (hs : solve.Exact) (hcomp : solve.Complete)
    {z : Fin (c - 6) → ℝ} (l : List (RTask (Fin k) ν × RTaskRecord k)) (hts : ∀ p ∈ l, p.1.noncont = false) (h0 : ∀ p ∈ l, p.1.f = 0)
    (i : ℕ) (prev : Option (RTask (Fin k) ν × Matrix (Fin k ⊕ Fin 6) (Fin k ⊕ Fin 6) ℝ)) (τ0 : Fin k ⊕ Fin 6 → ℝ) (f : Fin 6 → ℝ)
    (hok : OkR D C lim Cm (reducedGravity D C + τ0 + Q.NwJw *ᵥ z)) :
    ∃ out, rqpFromRec D C R P K Q solve i prev τ0 f none l = (.ret 1 (assembleTorque D τ0 0) τ0, out) ∧ AllFollowedR out := by
  induction l generalizing i prev with
  | nil => exact ⟨[], by rw [rqpFromRec, rqpFinish], fun r hr => by simp at hr⟩
  | cons p l ih =>
    obtain ⟨T, r⟩ := p
    have hT : T.noncont = false := hts (T, r) (by simp)
    have hf : T.f = 0 := h0 (T, r) (by simp)
    have o : OkR D C lim Cm (reducedGravity D C + τ0 + prevNull prev *ᵥ (T.Jkt *ᵥ (T.Λ *ᵥ T.f)) + Q.NwJw *ᵥ z) := by
      rw [hf, mulVec_zero, mulVec_zero, mulVec_zero, add_zero]
      exact hok
    obtain ⟨r', hr', e⟩ := rloop_zero (R := R) (P := P) (K := K) hl hc hs hcomp i prev τ0 f none hT r l o
    obtain ⟨out, k1, k2⟩ := ih (fun p hp => hts p (List.mem_cons_of_mem _ hp)) (fun p hp => h0 p (List.mem_cons_of_mem _ hp)) (i + 1)
      (some (T, nullR C T (prevNull prev)))
    have z1 : prevNull prev *ᵥ (T.Jkt *ᵥ (T.Λ *ᵥ T.f)) = 0 := by rw [hf, mulVec_zero, mulVec_zero, mulVec_zero]
    rw [e, z1, add_zero, k1]
    refine ⟨_, rfl, fun x hx => ?_⟩
    rcases List.mem_cons.mp hx with rfl | hx
    · exact hr'
    · exact k2 x hx

end

section Robot
variable {k nc c : ℕ} {A : Matrix (RSys (Fin k) (Fin nc)) (RSys (Fin k) (Fin nc)) ℝ} {Jc : Matrix (Fin c) (RSys (Fin k) (Fin nc)) ℝ}
  {G : RSys (Fin k) (Fin nc) → ℝ} {SI : Mat6} {R : Mat3} {J : Matrix (Fin 6) (Fin nc) ℝ} {D : Reduced (Fin k) (Fin nc)}
  {S : ContactSpace c (Fin k ⊕ Fin nc)} {C : ReducedContact c (Fin k) (Fin nc)} {Q : RQPRobot k c}
  {limit' : Option ((m : ℕ) × (Fin m → ℝ))} {cs' : List ContactLink}

/-- **C95, reduced model (room that is not used does not matter).**  Task control with the reduced model succeeds for the robot with wider
torque limits, larger feet and more friction, and what it commands after each task of the list can be made safe, by a torque that moves
nothing, even for the tighter limits, feet and friction.  Then the tighter robot is commanded the same torque.  Partial: tasks on the
contact chains only. -/
theorem C95_reduced_unused_room_partial (hA : IsSPD A) (hR : R * Rᵀ = 1)
    (hJ : jInc SI R (baseNc A) = some J) (hcpl : ∀ (i : Fin k) (j : Fin nc), A (.inr (.inl i)) (.inr (.inr j)) = 0)
    (h : reduce vcOf ncOf A⁻¹ J G = some D) (h0 : ∀ r j, Jc r (ncOf j) = 0)
    (hk : k ≤ c) (hB : BaseDetermined Jc) (hS : contactSpace Jc A⁻¹ = some S) (hC : reducedContact D Jc A⁻¹ = some C)
    (h6 : ∀ l ∈ Q.cs, l.type = .c6d) (hp : ∀ l ∈ Q.cs, 0 < l.planeX ∧ 0 < l.planeY) (hc : c = 6 * (active Q.cs).length)
    (hc6 : 6 < c) {f : CodNull C.W} (hN : reducedNwJw C f = some Q.NwJw) {lim lim' : Option (Fin (k + 6) → ℝ)} (hf : Q.fit = some lim)
    (hf' : (Q.loosened limit' cs').fit = some lim') (hl : LimitLe lim lim') (hcs : List.Forall₂ ContactLe Q.cs cs')
    {solve solve' : Solver} (hs : solve.Exact) (hcomp : solve.Complete) (hs' : solve'.Exact) {ts : List (RTaskIn (Fin k) (Fin nc))}
    (hts : ∀ T ∈ ts, T.noncont = false)
    (hok : ∀ j, 1 ≤ j → j ≤ ts.length → ∀ τ τR, reducedTaskTorqueQP D C R A⁻¹ (Q.loosened limit' cs') solve' (ts.take j) = .ret 1 τ τR →
      ∃ δ, RSafe A Jc G D C Q hc τR δ)
    {τ : Fin k ⊕ Fin nc → ℝ} {τR : Fin k ⊕ Fin 6 → ℝ}
    (h' : reducedTaskTorqueQP D C R A⁻¹ (Q.loosened limit' cs') solve' ts = .ret 1 τ τR) :
    reducedTaskTorqueQP D C R A⁻¹ Q solve ts = .ret 1 τ τR := by
  obtain ⟨h6', hp', hc'⟩ := loosen_contacts h6 hp hc hcs
  obtain ⟨Cm, hst, hh⟩ := stackC_holds h6 hp hc
  obtain ⟨Cm', hst', hh'⟩ := stackC_holds h6' hp' hc'
  have hle : ∀ τ, OkR D C lim Cm τ → OkR D C lim' Cm' τ := fun τ ⟨o1, o2⟩ => by
    refine ⟨fun L' hL' j => ?_, ?_⟩
    · obtain ⟨L, e1, hle⟩ := hl L' hL'
      exact (o1 L e1 j).trans (hle _)
    · exact (hh' _).mpr (contactsHold_mono hcs hc hc' ((hh _).mp o2))
  simp only [reducedTaskTorqueQP] at h' hok ⊢
  rcases hm : ts.mapM (calcJKTR D C (A⁻¹ * C.Nc)) with _ | qs
  · rw [hm] at h'; simp at h'
  rw [hm] at h'
  simp only at h' ⊢
  refine rloop_unused hf hst hf' hst' hle hs hcomp hs' qs ?_ 0 none 0 0 (fun j hj hjl τ τR hτ => ?_) h'
  · intro q hq
    have : q.toRTaskIn ∈ qs.map (·.toRTaskIn) := List.mem_map_of_mem hq
    rw [map_of_mapM (fun a b e => toIn_of_calc e) hm] at this
    exact hts _ this
  · have := hok j hj (by rw [← length_of_mapM hm]; exact hjl) τ τR (by
      rw [mapM_take hm]
      exact hτ)
    obtain ⟨δ, hδ⟩ := this
    obtain ⟨e1, e2⟩ := okR_iff_safe hA hR hJ hcpl h h0 hk hB hS hC hc hc6 hN hf hh τR
    obtain ⟨z, rfl⟩ := e2 δ hδ
    exact ⟨z, (e1 z).mpr hδ⟩

/-- **C96, reduced model (doing the same more slowly).**  If task control with the reduced model follows a stack of commands and the robot
could safely stand still, it follows the same commands scaled down by any factor, and the torque is scaled by that factor.  Partial:
tasks on the contact chains only. -/
theorem C96_reduced_scale_partial (hA : IsSPD A) (hR : R * Rᵀ = 1)
    (hJ : jInc SI R (baseNc A) = some J) (hcpl : ∀ (i : Fin k) (j : Fin nc), A (.inr (.inl i)) (.inr (.inr j)) = 0)
    (h : reduce vcOf ncOf A⁻¹ J G = some D) (h0 : ∀ r j, Jc r (ncOf j) = 0)
    (hk : k ≤ c) (hB : BaseDetermined Jc) (hS : contactSpace Jc A⁻¹ = some S) (hC : reducedContact D Jc A⁻¹ = some C)
    (h6 : ∀ l ∈ Q.cs, l.type = .c6d) (hp : ∀ l ∈ Q.cs, 0 < l.planeX ∧ 0 < l.planeY) (hc : c = 6 * (active Q.cs).length)
    (hc6 : 6 < c) {f : CodNull C.W} (hN : reducedNwJw C f = some Q.NwJw) {lim : Option (Fin (k + 6) → ℝ)} (hf : Q.fit = some lim)
    {δ : Fin k ⊕ Fin nc → ℝ} (hsafe : RSafe A Jc G D C Q hc 0 δ) {solve solve' : Solver} (hs : solve.Sound) (hs' : solve'.Exact)
    (hcomp : solve'.Complete) {s : ℝ} (hs0 : 0 ≤ s) (hs1 : s ≤ 1) {ts : List (RTaskIn (Fin k) (Fin nc))}
    (hts : ∀ T ∈ ts, T.noncont = false) {rs rs' : List (RTaskRecord k)} (hr : rs.length = ts.length) (hr' : rs'.length = ts.length)
    {τ : Fin k ⊕ Fin nc → ℝ} {τR : Fin k ⊕ Fin 6 → ℝ} {out : List (RTaskRecord k)}
    (hq : reducedTaskTorqueQPRec D C R A⁻¹ Q solve ts rs = (.ret 1 τ τR, out)) (hfo : AllFollowedR out) :
    ∃ out', reducedTaskTorqueQPRec D C R A⁻¹ Q solve' (ts.map fun T => withCommandR T (s • T.f)) rs' =
      (.ret 1 (s • τ) (s • τR), out') ∧ AllFollowedR out' := by
  obtain ⟨Cm, hst, hh⟩ := stackC_holds h6 hp hc
  obtain ⟨e1, e2⟩ := okR_iff_safe hA hR hJ hcpl h h0 hk hB hS hC hc hc6 hN hf hh 0
  obtain ⟨z, rfl⟩ := e2 δ hsafe
  have hz := (e1 z).mpr hsafe
  let ps : List (Σ T : RTaskIn (Fin k) (Fin nc), Fin T.t → ℝ) := ts.map fun T => ⟨withCommandR T 0, T.f⟩
  have p1 : ps.map otherR = ts := by
    simp only [ps, List.map_map]
    exact (List.map_congr_left fun T _ => rfl).trans (List.map_id ts)
  have p2 : ps.map (blendedR s) = ts.map fun T => withCommandR T (s • T.f) := by
    simp only [ps, List.map_map]
    refine List.map_congr_left fun T _ => ?_
    change withCommandR T ((0 : Fin T.t → ℝ) + s • (T.f - 0)) = _
    rw [zero_add, sub_zero]
  have hlen : ps.length = ts.length := by simp [ps]
  have hps : ∀ p ∈ ps, p.1.noncont = false := by
    intro p hp
    obtain ⟨T, hT, rfl⟩ := List.mem_map.mp hp
    exact hts T hT
  -- the zero commands are followed
  obtain ⟨out0, g1, g2⟩ : ∃ out0, reducedTaskTorqueQPRec D C R A⁻¹ Q solve' (ps.map (·.1)) rs' = (.ret 1 0 0, out0) ∧ AllFollowedR out0 := by
    have hq' := hq
    simp only [reducedTaskTorqueQPRec] at hq' ⊢
    rcases hm : ts.mapM (calcJKTR D C (A⁻¹ * C.Nc)) with _ | qs
    · rw [hm] at hq'; simp at hq'
    have i1 : (ts.map fun T => (⟨T, 0⟩ : Σ T : RTaskIn (Fin k) (Fin nc), Fin T.t → ℝ)).map (·.1) = ts := by
      rw [List.map_map]
      exact (List.map_congr_left fun T _ => rfl).trans (List.map_id ts)
    have i2 : (ts.map fun T => (⟨T, 0⟩ : Σ T : RTaskIn (Fin k) (Fin nc), Fin T.t → ℝ)).map otherR = ps.map (·.1) := by
      simp only [ps, List.map_map]
      rfl
    obtain ⟨us, rfl, m1, -, -⟩ := mapM_blend s (ts.map fun T => (⟨T, 0⟩ : Σ T : RTaskIn (Fin k) (Fin nc), Fin T.t → ℝ)) (by rw [i1]; exact hm)
    rw [i2] at m1
    rw [m1]
    simp only
    have hin := map_of_mapM (fun a b e => toIn_of_calc e) m1
    have hmem : ∀ q ∈ us.map (fun u => readyR u.1 u.2), q.noncont = false ∧ q.f = 0 := by
      intro q hq
      have : q.toRTaskIn ∈ (us.map fun u => readyR u.1 u.2).map (·.toRTaskIn) := List.mem_map_of_mem hq
      rw [hin] at this
      obtain ⟨p, hp, e⟩ := List.mem_map.mp this
      obtain ⟨T, hT, rfl⟩ := List.mem_map.mp hp
      have key : ∀ X : RTaskIn (Fin k) (Fin nc), X = withCommandR T 0 → X.noncont = false ∧ X.f = 0 := by
        rintro _ rfl
        exact ⟨hts T hT, rfl⟩
      exact key q.toRTaskIn e.symm
    obtain ⟨out0, k1, k2⟩ := rloop_still (R := R) (P := A⁻¹ * C.Nc) (K := (jktR C.ARinvNCR C.Winv (jBaseR R)).map Prod.snd) hf hst hs' hcomp
      ((us.map fun u : (Σ T : RTask (Fin k) (Fin nc), Fin T.t → ℝ) => readyR u.1 u.2).zip rs') (fun p hp => (hmem _ (List.of_mem_zip hp).1).1)
      (fun p hp => (hmem _ (List.of_mem_zip hp).1).2) 0 none 0 0 hz
    have z0 : assembleTorque D (0 : Fin k ⊕ Fin 6 → ℝ) 0 = 0 := by
      ext j
      rcases j with j | j <;> simp [assembleTorque, ← Pi.zero_def]
    rw [z0] at k1
    exact ⟨out0, k1, k2⟩
  have hq2 : reducedTaskTorqueQPRec D C R A⁻¹ Q solve (ps.map otherR) rs = (.ret 1 τ τR, out) := by rw [p1]; exact hq
  have := C96_reduced_blend_partial (rs'' := rs') (fun i t n d x h => (hs' i t n d x h).1) hs hs' hcomp hs0 hs1 ps hps
    (by rw [hlen, hr']) (by rw [hlen, hr]) (by rw [hlen, hr']) g1 g2 hq2 hfo
  rw [p2, zero_add, sub_zero, zero_add, sub_zero] at this
  exact this

end Robot

/-- The robot of C40 on two feet with torque limit ten, asked to hold its arm still, meets the hypotheses of both theorems: with limit twenty
and better feet the torque that holds the arm is commanded, it is safe with limit ten, and so it is commanded with limit ten. -/
example : ∃ D C N τ τR, reduce vcOf ncOf (exRed 6)⁻¹ 1 TwoFeet.G = some D ∧ reducedContact D TwoFeet.Jc (exRed 6)⁻¹ = some C ∧
    reducedTaskTorqueQP D C 1 (exRed 6)⁻¹ ((TwoFeet.robot N).loosened (some ⟨12, fun _ => 20⟩) (Stand.cs.map betterFoot)) Stand.solver
      [withCommandR TwoFeetFail.task 0] = .ret 1 τ τR ∧
    reducedTaskTorqueQP D C 1 (exRed 6)⁻¹ (TwoFeet.robot N) Stand.solver [withCommandR TwoFeetFail.task 0] = .ret 1 τ τR ∧
    ∀ s : ℝ, 0 ≤ s → s ≤ 1 → ∃ out, reducedTaskTorqueQPRec D C 1 (exRed 6)⁻¹ (TwoFeet.robot N) Stand.solver
      [withCommandR (withCommandR TwoFeetFail.task 0) (s • 0)] [.fresh 6] = (.ret 1 (s • τ) (s • τR), out) ∧ AllFollowedR out := by
  obtain ⟨D, S, C, N, hD, hS, hC, hN, hsafe, q, hq⟩ := C69_hypotheses_met
  obtain ⟨f, hf⟩ := hN
  obtain ⟨δ, hδ⟩ := hsafe
  obtain ⟨g, hg, -⟩ := calc_blend 0 ⟨TwoFeetFail.task, 0⟩ hq
  have hg' : calcJKTR D C ((exRed 6)⁻¹ * C.Nc) (withCommandR TwoFeetFail.task 0) = some (readyR q g) := hg
  have hq0 : (readyR q g).noncont = false ∧ (readyR q g).f = 0 := by
    have key : ∀ X : RTaskIn (Fin 6) (Fin 6), X = withCommandR TwoFeetFail.task 0 → X.noncont = false ∧ X.f = 0 := by
      rintro _ rfl
      exact ⟨rfl, rfl⟩
    exact key (readyR q g).toRTaskIn (toIn_of_calc hg')
  have hmm : [withCommandR TwoFeetFail.task 0].mapM (calcJKTR D C ((exRed 6)⁻¹ * C.Nc)) = some [readyR q g] := by
    simp only [List.mapM_cons, hg', List.mapM_nil, Option.pure_def, Option.bind_eq_bind, Option.bind_some]
  have hl : LimitLe (some fun _ : Fin (6 + 6) => (10 : ℝ)) (some fun _ => 20) := fun L' hL' => ⟨_, rfl, fun j => by
    obtain rfl := Option.some.inj hL'
    norm_num⟩
  have hfit : (TwoFeet.robot N).fit = some (some fun _ => 10) := rfl
  have hfit' : ((TwoFeet.robot N).loosened (some ⟨12, fun _ => 20⟩) (Stand.cs.map betterFoot)).fit = some (some fun _ => 20) := rfl
  have hcs : List.Forall₂ ContactLe (TwoFeet.robot N).cs (Stand.cs.map betterFoot) := betterFeet_le _
  obtain ⟨h6', hp', hc'⟩ := loosen_contacts (cs := (TwoFeet.robot N).cs) Stand.six Stand.plane Stand.dof hcs
  obtain ⟨Cm, hst, hh⟩ := stackC_holds (cs := (TwoFeet.robot N).cs) Stand.six Stand.plane Stand.dof
  obtain ⟨Cm', hst', hh'⟩ := stackC_holds h6' hp' hc'
  obtain ⟨e1, e2⟩ := okR_iff_safe (Q := TwoFeet.robot N) exRed_spd (R := 1) (by simp) exRed_jInc exRed_coupling hD TwoFeet.zero (by norm_num)
    TwoFeet.base hS hC Stand.dof (by norm_num) hf hfit hh 0
  obtain ⟨z, rfl⟩ := e2 δ hδ
  have hz := (e1 z).mpr hδ
  have hz' : OkR D C (some fun _ => 20) Cm' (reducedGravity D C + 0 +
      ((TwoFeet.robot N).loosened (some ⟨12, fun _ => 20⟩) (Stand.cs.map betterFoot)).NwJw *ᵥ z) := by
    refine ⟨fun L' hL' j => ?_, (hh' _).mpr (contactsHold_mono hcs Stand.dof hc' ((hh _).mp hz.2))⟩
    obtain ⟨L, e, hle⟩ := hl L' hL'
    exact (hz.1 L e j).trans (hle _)
  have run : ∀ (Q : RQPRobot 6 12) lim m (Cm : Matrix (Fin m) (Fin 12) ℝ) (z : Fin (12 - 6) → ℝ), Q.fit = some lim →
      stackC Q.cs 12 = some ⟨m, Cm⟩ → OkR D C lim Cm (reducedGravity D C + 0 + Q.NwJw *ᵥ z) →
      ∃ out, reducedTaskTorqueQPRec D C 1 (exRed 6)⁻¹ Q Stand.solver [withCommandR TwoFeetFail.task 0] [.fresh 6] =
        (.ret 1 (assembleTorque D 0 0) 0, out) ∧ AllFollowedR out := by
    intro Q lim m Cm z h1 h2 h3
    simp only [reducedTaskTorqueQPRec, hmm]
    refine rloop_still h1 h2 Stand.solver_exact Stand.solver_complete _ ?_ ?_ 0 none 0 0 h3 <;> intro p hp <;>
      simp only [List.zip_cons_cons, List.zip_nil_left, List.mem_singleton] at hp <;> subst hp
    · exact hq0.1
    · exact hq0.2
  obtain ⟨out, r1, r2⟩ := run _ _ _ _ _ hfit hst hz
  obtain ⟨out', r1', -⟩ := run _ _ _ _ _ hfit' hst' hz'
  have w := C92_reduced_result (D := D) (C := C) (R := 1) (Ainv := (exRed 6)⁻¹) (solve := Stand.solver)
    (Q := (TwoFeet.robot N).loosened (some ⟨12, fun _ => 20⟩) (Stand.cs.map betterFoot))
    (ts := [withCommandR TwoFeetFail.task 0]) (rs := [RTaskRecord.fresh 6]) rfl
  rw [r1'] at w
  have hone : ∀ T ∈ [withCommandR TwoFeetFail.task 0], T.noncont = false := by
    intro T hT
    rw [List.mem_singleton] at hT
    subst hT
    rfl
  refine ⟨D, C, N, _, _, hD, hC, w.symm, ?_, fun s h0 h1 => ?_⟩
  · refine C95_reduced_unused_room_partial (Q := TwoFeet.robot N) exRed_spd (R := 1) (by simp) exRed_jInc exRed_coupling hD TwoFeet.zero
      (by norm_num) TwoFeet.base hS hC Stand.six Stand.plane Stand.dof (by norm_num) hf hfit hfit' hl hcs Stand.solver_exact
      Stand.solver_complete Stand.solver_exact hone (fun j hj hjl τ τR hτ => ?_) w.symm
    obtain rfl : j = 1 := by simp at hjl; omega
    rw [List.take_of_length_le (by simp), ← w] at hτ
    simp only [RCtrlResult.ret.injEq] at hτ
    obtain ⟨-, -, rfl⟩ := hτ
    exact ⟨_, hδ⟩
  · exact C96_reduced_scale_partial (Q := TwoFeet.robot N) exRed_spd (R := 1) (by simp) exRed_jInc exRed_coupling hD TwoFeet.zero
      (by norm_num) TwoFeet.base hS hC Stand.six Stand.plane Stand.dof (by norm_num) hf hfit hδ
      (fun i t n d x h => (Stand.solver_exact i t n d x h).1) Stand.solver_exact Stand.solver_complete h0 h1 hone rfl rfl r1 r2

end Verif.Props
