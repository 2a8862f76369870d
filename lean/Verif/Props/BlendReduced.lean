import Verif.Props.Blend
import Verif.Props.LoosenReduced

/-!
# C96 for task control with the reduced model
-/

set_option linter.unusedSectionVars false

namespace Verif.Props
open Matrix Verif Verif.Spec Verif.Model

section
variable {k c : ℕ} {ν : Type*} [Fintype ν] [DecidableEq ν]

/-- No command was changed: with every task the change zero is recorded. -/
def AllFollowedR (rs : List (RTaskRecord k)) : Prop := ∀ r ∈ rs, missR r = 0

/-- The same task with another commanded acceleration. -/
def withCommandR (T : RTaskIn (Fin k) ν) (a : Fin T.t → ℝ) : RTaskIn (Fin k) ν := { T with f := a }

/-- The tasks with the other commands. -/
def otherR (p : Σ T : RTaskIn (Fin k) ν, Fin T.t → ℝ) : RTaskIn (Fin k) ν := withCommandR p.1 p.2

/-- The tasks with the commands in between. -/
def blendedR (s : ℝ) (p : Σ T : RTaskIn (Fin k) ν, Fin T.t → ℝ) : RTaskIn (Fin k) ν := withCommandR p.1 (p.1.f + s • (p.2 - p.1.f))

/-- the same after `CalcJKT_R` -/
def readyR (T : RTask (Fin k) ν) (a : Fin T.t → ℝ) : RTask (Fin k) ν := { T with f := a }

variable {D : Reduced (Fin k) ν} {C : ReducedContact c (Fin k) ν} {R : Mat3} {P : Matrix (RSys (Fin k) ν) (RSys (Fin k) ν) ℝ}
  {K : Option (Matrix (Fin k ⊕ Fin 6) (Fin 6) ℝ)} {Q : RQPRobot k c} {solve solve' solve'' : Solver} {lim : Option (Fin (k + 6) → ℝ)}
  {m : ℕ} {Cm : Matrix (Fin m) (Fin c) ℝ}

theorem okR_blend {τ τ' : Fin k ⊕ Fin 6 → ℝ} (h : OkR D C lim Cm τ) (h' : OkR D C lim Cm τ') {s : ℝ} (h0 : 0 ≤ s) (h1 : s ≤ 1) :
    OkR D C lim Cm (τ + s • (τ' - τ)) := by
  refine ⟨fun L hL j => ?_, fun r => ?_⟩
  · have a := abs_le.mp (h.1 L hL j)
    have b := abs_le.mp (h'.1 L hL j)
    simp only [Pi.add_apply, Pi.smul_apply, Pi.sub_apply, smul_eq_mul]
    rw [abs_le]
    constructor <;> nlinarith
  · have ea : actuate (τ + s • (τ' - τ)) = actuate τ + s • (actuate τ' - actuate τ) := by
      funext i; rcases i with i | i <;> simp [actuate]
    have e : forceR D C (τ + s • (τ' - τ)) = forceR D C τ + s • (forceR D C τ' - forceR D C τ) := by
      unfold forceR
      rw [ea, mulVec_add, mulVec_smul, mulVec_sub]
      module
    rw [e, mulVec_add, mulVec_smul, mulVec_sub]
    simp only [Pi.add_apply, Pi.smul_apply, Pi.sub_apply, smul_eq_mul]
    have a := h.2 r
    have b := h'.2 r
    nlinarith

theorem rlevel_zero {t : ℕ} {B : Matrix (Fin k ⊕ Fin 6) (Fin t) ℝ} {f : Fin t → ℝ} {τ : Fin k ⊕ Fin 6 → ℝ} {z : Fin (c - 6) → ℝ}
    (h : OkR D C lim Cm (τ + B *ᵥ f + Q.NwJw *ᵥ z)) :
    (rQP D C Q lim Cm B f τ).Feasible (Sum.elim 0 z) ∧
      ∀ y, (rQP D C Q lim Cm B f τ).IsSolution y → (fun a => y (Sum.inl a)) = (0 : Fin t → ℝ) := by
  have hy : (rQP D C Q lim Cm B f τ).Feasible (Sum.elim 0 z) := by
    rw [rQP_feasible]
    have e : (f + fun j => (Sum.elim 0 z : Fin t ⊕ Fin (c - 6) → ℝ) (Sum.inl j)) = f := by ext j; simp
    rw [e]
    exact h
  refine ⟨hy, fun y sy => ?_⟩
  have hc0 := sy.2 _ hy
  rw [rQP_cost, rQP_cost] at hc0
  apply miss_zero
  refine le_antisymm ?_ (Finset.sum_nonneg fun j _ => sq_nonneg _)
  simp only [Sum.elim_inl, Pi.zero_apply, mul_zero, Finset.sum_const_zero] at hc0
  simp only [pow_two]
  linarith

/-- a level whose command is feasible goes on with that command and records no change -/
theorem rloop_zero (hl : Q.fit = some lim) (hc : stackC Q.cs c = some ⟨m, Cm⟩) (hs : solve.Exact) (hcomp : solve.Complete) (i : ℕ)
    (prev : Option (RTask (Fin k) ν × Matrix (Fin k ⊕ Fin 6) (Fin k ⊕ Fin 6) ℝ)) (τ0 : Fin k ⊕ Fin 6 → ℝ) (f : Fin 6 → ℝ)
    (nc : Option (NcSum k ν)) {T : RTask (Fin k) ν} (hT : T.noncont = false) (r : RTaskRecord k)
    (l : List (RTask (Fin k) ν × RTaskRecord k)) {z : Fin (c - 6) → ℝ}
    (hz : OkR D C lim Cm (reducedGravity D C + τ0 + prevNull prev *ᵥ (T.Jkt *ᵥ (T.Λ *ᵥ T.f)) + Q.NwJw *ᵥ z)) :
    ∃ r', missR r' = 0 ∧ rqpFromRec D C R P K Q solve i prev τ0 f nc ((T, r) :: l) =
      ((rqpFromRec D C R P K Q solve (i + 1) (some (T, nullR C T (prevNull prev)))
          (τ0 + prevNull prev *ᵥ (T.Jkt *ᵥ (T.Λ *ᵥ T.f))) f nc l).1,
        r' :: (rqpFromRec D C R P K Q solve (i + 1) (some (T, nullR C T (prevNull prev)))
          (τ0 + prevNull prev *ᵥ (T.Jkt *ᵥ (T.Λ *ᵥ T.f))) f nc l).2) := by
  have hz' : OkR D C lim Cm (reducedGravity D C + τ0 + (prevNull prev * (T.Jkt * T.Λ)) *ᵥ T.f + Q.NwJw *ᵥ z) := by
    rw [← mulVec_mulVec, ← mulVec_mulVec]
    exact hz
  obtain ⟨hy, hzero⟩ := rlevel_zero (Q := Q) hz'
  obtain ⟨y, hyy⟩ := Option.isSome_iff_exists.mp (hcomp i _ _ _ (rQP_exists _ _ _ hy))
  have ey := hzero y (hs _ _ _ _ _ hyy)
  rw [rec_chain _ _ _ _ _ hT, hl, hc]
  simp only [hyy]
  rw [ey, add_zero]
  refine ⟨_, ?_, rfl⟩
  change ∑ j, y (Sum.inl j) ^ 2 = 0
  refine Finset.sum_eq_zero fun j _ => ?_
  have : y (Sum.inl j) = 0 := congrFun ey j
  rw [this]
  norm_num

/-- a level with no change recorded -/
theorem rloop_followed (hl : Q.fit = some lim) (hc : stackC Q.cs c = some ⟨m, Cm⟩) (hs : solve.Sound) {i : ℕ}
    {prev : Option (RTask (Fin k) ν × Matrix (Fin k ⊕ Fin 6) (Fin k ⊕ Fin 6) ℝ)} {τ0 : Fin k ⊕ Fin 6 → ℝ} {f : Fin 6 → ℝ}
    {nc : Option (NcSum k ν)} {T : RTask (Fin k) ν} (hT : T.noncont = false) {r : RTaskRecord k}
    {l : List (RTask (Fin k) ν × RTaskRecord k)} {τ : Fin k ⊕ ν → ℝ} {τR : Fin k ⊕ Fin 6 → ℝ} {out : List (RTaskRecord k)}
    (h : rqpFromRec D C R P K Q solve i prev τ0 f nc ((T, r) :: l) = (.ret 1 τ τR, out)) (hf : AllFollowedR out) :
    (∃ z, OkR D C lim Cm (reducedGravity D C + τ0 + prevNull prev *ᵥ (T.Jkt *ᵥ (T.Λ *ᵥ T.f)) + Q.NwJw *ᵥ z)) ∧
      ∃ out', rqpFromRec D C R P K Q solve (i + 1) (some (T, nullR C T (prevNull prev)))
          (τ0 + prevNull prev *ᵥ (T.Jkt *ᵥ (T.Λ *ᵥ T.f))) f nc l = (.ret 1 τ τR, out') ∧ AllFollowedR out' := by
  rw [rec_chain _ _ _ _ _ hT, hl, hc] at h
  simp only at h
  rcases hx : solve i T.t (c - 6) (rQP D C Q lim Cm (prevNull prev * (T.Jkt * T.Λ)) T.f (reducedGravity D C + τ0)) with _ | x
  · rw [hx] at h
    simp at h
  rw [hx] at h
  simp only [Prod.mk.injEq] at h
  obtain ⟨h1, rfl⟩ := h
  have ex : (fun a => x (Sum.inl a)) = (0 : Fin T.t → ℝ) := miss_zero (hf _ (List.mem_cons_self ..))
  have o := (rQP_feasible D C Q lim Cm _ _ _ x).mp (hs _ _ _ _ _ hx)
  rw [ex, add_zero] at o h1
  refine ⟨⟨fun b => x (Sum.inr b), ?_⟩, _, Prod.ext h1 rfl, fun r hr => hf r ?_⟩
  · rw [mulVec_mulVec, mulVec_mulVec, Matrix.mul_assoc]
    exact o
  · rw [ex, add_zero]
    exact List.mem_cons_of_mem _ hr

theorem rloop_blend (hl : Q.fit = some lim) (hc : stackC Q.cs c = some ⟨m, Cm⟩) (hs : solve.Sound) (hs' : solve'.Sound)
    (hs'' : solve''.Exact) (hcomp : solve''.Complete) {s : ℝ} (h0 : 0 ≤ s) (h1 : s ≤ 1) (us : List (Σ T : RTask (Fin k) ν, Fin T.t → ℝ))
    (hus : ∀ u ∈ us, u.1.noncont = false) (l l' l'' : List (RTask (Fin k) ν × RTaskRecord k)) (hm : l.map Prod.fst = us.map (·.1))
    (hm' : l'.map Prod.fst = us.map fun u => readyR u.1 u.2)
    (hm'' : l''.map Prod.fst = us.map fun u => readyR u.1 (u.1.f + s • (u.2 - u.1.f))) (i : ℕ)
    (prev prev' prev'' : Option (RTask (Fin k) ν × Matrix (Fin k ⊕ Fin 6) (Fin k ⊕ Fin 6) ℝ)) (hp : prevNull prev' = prevNull prev)
    (hp' : prevNull prev'' = prevNull prev) (τ0 τ0' : Fin k ⊕ Fin 6 → ℝ) (f f' f'' : Fin 6 → ℝ) {τ τ' : Fin k ⊕ ν → ℝ}
    {τR τR' : Fin k ⊕ Fin 6 → ℝ} {out out' : List (RTaskRecord k)}
    (h : rqpFromRec D C R P K Q solve i prev τ0 f none l = (.ret 1 τ τR, out)) (hf : AllFollowedR out)
    (h' : rqpFromRec D C R P K Q solve' i prev' τ0' f' none l' = (.ret 1 τ' τR', out')) (hf' : AllFollowedR out') :
    ∃ out'', rqpFromRec D C R P K Q solve'' i prev'' (τ0 + s • (τ0' - τ0)) f'' none l'' =
      (.ret 1 (τ + s • (τ' - τ)) (τR + s • (τR' - τR)), out'') ∧ AllFollowedR out'' := by
  induction us generalizing l l' l'' i prev prev' prev'' τ0 τ0' out out' with
  | nil =>
    obtain rfl : l = [] := by simpa using hm
    obtain rfl : l' = [] := by simpa using hm'
    obtain rfl : l'' = [] := by simpa using hm''
    rw [rqpFromRec, rqpFinish] at h h'
    simp only [Prod.mk.injEq, RCtrlResult.ret.injEq, true_and] at h h'
    obtain ⟨⟨rfl, rfl⟩, -⟩ := h
    obtain ⟨⟨rfl, rfl⟩, -⟩ := h'
    refine ⟨[], ?_, fun r hr => by simp at hr⟩
    rw [rqpFromRec, rqpFinish]
    have e : assembleTorque D (τ0 + s • (τ0' - τ0)) 0 =
        assembleTorque D τ0 0 + s • (assembleTorque D τ0' 0 - assembleTorque D τ0 0) := by
      have e2 : (fun x => (τ0 + s • (τ0' - τ0)) (.inr x)) = (fun x : Fin 6 => τ0 (.inr x)) +
          s • ((fun x : Fin 6 => τ0' (.inr x)) - fun x : Fin 6 => τ0 (.inr x)) := rfl
      unfold assembleTorque
      rw [e2, mulVec_add, mulVec_smul, mulVec_sub, mulVec_zero]
      funext j
      rcases j with j | j <;> simp
    rw [e]
  | cons u us ih =>
    obtain ⟨T, g⟩ := u
    rcases l with _ | ⟨⟨Ta, r⟩, l⟩
    · simp at hm
    rcases l' with _ | ⟨⟨Tb, r'⟩, l'⟩
    · simp at hm'
    rcases l'' with _ | ⟨⟨Tc, r''⟩, l''⟩
    · simp at hm''
    simp only [List.map_cons, List.cons.injEq] at hm hm' hm''
    obtain ⟨rfl, hm⟩ := hm
    obtain ⟨rfl, hm'⟩ := hm'
    obtain ⟨rfl, hm''⟩ := hm''
    have hT : Ta.noncont = false := hus ⟨Ta, g⟩ (by simp)
    obtain ⟨⟨z, o⟩, out1, k1, g1⟩ := rloop_followed hl hc hs hT h hf
    obtain ⟨⟨z', o'⟩, out1', k1', g1'⟩ := rloop_followed (T := readyR Ta g) hl hc hs' hT h' hf'
    have o3 := okR_blend o o' h0 h1
    have o4 : OkR D C lim Cm (reducedGravity D C + (τ0 + s • (τ0' - τ0)) + prevNull prev'' *ᵥ
        ((readyR Ta (Ta.f + s • (g - Ta.f))).Jkt *ᵥ ((readyR Ta (Ta.f + s • (g - Ta.f))).Λ *ᵥ (readyR Ta (Ta.f + s • (g - Ta.f))).f)) +
        Q.NwJw *ᵥ (z + s • (z' - z))) := by
      change OkR D C lim Cm (reducedGravity D C + (τ0 + s • (τ0' - τ0)) + prevNull prev'' *ᵥ
        (Ta.Jkt *ᵥ (Ta.Λ *ᵥ (Ta.f + s • (g - Ta.f)))) + Q.NwJw *ᵥ (z + s • (z' - z)))
      convert o3 using 1
      rw [hp, hp']
      change _ = _ + s • (reducedGravity D C + τ0' + prevNull prev *ᵥ (Ta.Jkt *ᵥ (Ta.Λ *ᵥ g)) + Q.NwJw *ᵥ z' - _)
      simp only [mulVec_add, mulVec_smul, mulVec_sub]
      module
    obtain ⟨rz, hrz, er⟩ := rloop_zero (R := R) (P := P) (K := K) hl hc hs'' hcomp i prev'' (τ0 + s • (τ0' - τ0)) f'' none
      (T := readyR Ta (Ta.f + s • (g - Ta.f))) hT r'' l'' o4
    obtain ⟨out'', q1, q2⟩ := ih (fun u hu => hus u (List.mem_cons_of_mem _ hu)) l l' l'' hm hm' hm'' (i + 1) _ _
      (some (readyR Ta (Ta.f + s • (g - Ta.f)), nullR C (readyR Ta (Ta.f + s • (g - Ta.f))) (prevNull prev'')))
      (by
        change nullR C Ta (prevNull prev') = nullR C Ta (prevNull prev)
        rw [hp])
      (by
        change nullR C Ta (prevNull prev'') = nullR C Ta (prevNull prev)
        rw [hp']) _ _ k1 g1 k1' g1'
    have en : τ0 + s • (τ0' - τ0) + prevNull prev'' *ᵥ
        ((readyR Ta (Ta.f + s • (g - Ta.f))).Jkt *ᵥ ((readyR Ta (Ta.f + s • (g - Ta.f))).Λ *ᵥ (readyR Ta (Ta.f + s • (g - Ta.f))).f)) =
        τ0 + prevNull prev *ᵥ (Ta.Jkt *ᵥ (Ta.Λ *ᵥ Ta.f)) + s • (τ0' + prevNull prev' *ᵥ ((readyR Ta g).Jkt *ᵥ ((readyR Ta g).Λ *ᵥ (readyR Ta g).f)) -
          (τ0 + prevNull prev *ᵥ (Ta.Jkt *ᵥ (Ta.Λ *ᵥ Ta.f)))) := by
      rw [hp, hp']
      change τ0 + s • (τ0' - τ0) + prevNull prev *ᵥ (Ta.Jkt *ᵥ (Ta.Λ *ᵥ (Ta.f + s • (g - Ta.f)))) =
        τ0 + prevNull prev *ᵥ (Ta.Jkt *ᵥ (Ta.Λ *ᵥ Ta.f)) + s • (τ0' + prevNull prev *ᵥ (Ta.Jkt *ᵥ (Ta.Λ *ᵥ g)) -
          (τ0 + prevNull prev *ᵥ (Ta.Jkt *ᵥ (Ta.Λ *ᵥ Ta.f))))
      simp only [mulVec_add, mulVec_smul, mulVec_sub]
      module
    rw [er, en, q1]
    refine ⟨_, rfl, fun x hx => ?_⟩
    rcases List.mem_cons.mp hx with rfl | hx
    · exact hrz
    · exact q2 x hx

/-- `CalcJKT_R` does not look at the command -/
theorem calc_blend (s : ℝ) (p : Σ T : RTaskIn (Fin k) ν, Fin T.t → ℝ) {T : RTask (Fin k) ν} (h : calcJKTR D C P p.1 = some T) :
    ∃ g : Fin T.t → ℝ, calcJKTR D C P (otherR p) = some (readyR T g) ∧
      calcJKTR D C P (blendedR s p) = some (readyR T (T.f + s • (g - T.f))) := by
  obtain ⟨⟨t, J, f, cmm, red, non, ord⟩, g⟩ := p
  unfold calcJKTR at h ⊢
  simp only [otherR, blendedR, withCommandR] at h ⊢
  rcases cmm with _ | _ <;> rcases red with _ | _ <;> rcases non with _ | _ <;>
    simp only [Bool.false_eq_true, if_false, if_true, Bool.not_true, Bool.not_false, Bool.and_true, Bool.and_false, Bool.true_and, Bool.false_and,
      reduceCtorEq] at h ⊢ <;>
    (obtain ⟨x, hx, rfl⟩ := Option.map_eq_some_iff.mp h
     exact ⟨g, Option.map_eq_some_iff.mpr ⟨x, hx, rfl⟩, Option.map_eq_some_iff.mpr ⟨x, hx, rfl⟩⟩)

theorem mapM_blend (s : ℝ) (ts : List (Σ T : RTaskIn (Fin k) ν, Fin T.t → ℝ)) {qs : List (RTask (Fin k) ν)}
    (h : (ts.map (·.1)).mapM (calcJKTR D C P) = some qs) :
    ∃ us : List (Σ T : RTask (Fin k) ν, Fin T.t → ℝ), qs = us.map (·.1) ∧
      (ts.map otherR).mapM (calcJKTR D C P) = some (us.map fun u => readyR u.1 u.2) ∧
      (ts.map (blendedR s)).mapM (calcJKTR D C P) = some (us.map fun u => readyR u.1 (u.1.f + s • (u.2 - u.1.f))) ∧
      us.map (fun u => u.1.noncont) = ts.map fun p => p.1.noncont := by
  induction ts generalizing qs with
  | nil =>
    simp only [List.map_nil, List.mapM_nil, Option.pure_def, Option.some.injEq] at h
    subst h
    exact ⟨[], rfl, rfl, rfl, rfl⟩
  | cons p ts ih =>
    simp only [List.map_cons, List.mapM_cons, Option.pure_def, Option.bind_eq_bind, Option.bind_eq_some_iff, Option.some.injEq] at h
    obtain ⟨T, hT, qs', hqs, rfl⟩ := h
    obtain ⟨us, rfl, h2, h3, h4⟩ := ih hqs
    obtain ⟨g, k1, k2⟩ := calc_blend s p hT
    refine ⟨⟨T, g⟩ :: us, rfl, ?_, ?_, ?_⟩
    · rw [List.map_cons, List.mapM_cons, k1, h2]
      rfl
    · rw [List.map_cons, List.mapM_cons, k2, h3]
      rfl
    · simp only [List.map_cons, h4, noncont_of_calc hT]

/-- **C96, reduced model (commands in between).**  Two stacks of commands for the same tasks on the contact chains, both followed: task
control with the reduced model succeeds and records no change of any command.  Then it succeeds with every blend of the two stacks,
records no change, and the joint torque is the blend of the two.  Partial: tasks outside the contact chains (the code records nothing
about changes of their commands). -/
theorem C96_reduced_blend_partial {Ainv : Matrix (RSys (Fin k) ν) (RSys (Fin k) ν) ℝ} (hs : solve.Sound) (hs' : solve'.Sound)
    (hs'' : solve''.Exact) (hcomp : solve''.Complete) {s : ℝ} (h0 : 0 ≤ s) (h1 : s ≤ 1) (ts : List (Σ T : RTaskIn (Fin k) ν, Fin T.t → ℝ))
    (hts : ∀ p ∈ ts, p.1.noncont = false) {rs rs' rs'' : List (RTaskRecord k)} (hr : rs.length = ts.length) (hr' : rs'.length = ts.length)
    (hr'' : rs''.length = ts.length) {τ τ' : Fin k ⊕ ν → ℝ} {τR τR' : Fin k ⊕ Fin 6 → ℝ} {out out' : List (RTaskRecord k)}
    (h : reducedTaskTorqueQPRec D C R Ainv Q solve (ts.map (·.1)) rs = (.ret 1 τ τR, out)) (hf : AllFollowedR out)
    (h' : reducedTaskTorqueQPRec D C R Ainv Q solve' (ts.map otherR) rs' = (.ret 1 τ' τR', out')) (hf' : AllFollowedR out') :
    ∃ out'', reducedTaskTorqueQPRec D C R Ainv Q solve'' (ts.map (blendedR s)) rs'' =
      (.ret 1 (τ + s • (τ' - τ)) (τR + s • (τR' - τR)), out'') ∧ AllFollowedR out'' := by
  simp only [reducedTaskTorqueQPRec] at h h' ⊢
  rcases hm : (ts.map (·.1)).mapM (calcJKTR D C (Ainv * C.Nc)) with _ | qs
  · rw [hm] at h; simp at h
  obtain ⟨us, rfl, m1, m2, m3⟩ := mapM_blend s ts hm
  have hlen : us.length = ts.length := by simpa using congrArg List.length m3
  have hus : ∀ u ∈ us, u.1.noncont = false := by
    intro u hu
    have : u.1.noncont ∈ ts.map fun p => p.1.noncont := m3 ▸ List.mem_map_of_mem (f := fun u => u.1.noncont) hu
    obtain ⟨p, hp, e⟩ := List.mem_map.mp this
    rw [← e]
    exact hts p hp
  rw [hm] at h
  rw [m1] at h'
  rw [m2]
  simp only at h h' ⊢
  have hfst : ∀ {α : Type _} (l : List α) (r : List (RTaskRecord k)), r.length = l.length → (l.zip r).map Prod.fst = l := fun l r e =>
    List.map_fst_zip (by omega)
  have e1 := hfst (us.map (·.1)) rs (by simp [hlen, hr])
  have e2 := hfst (us.map fun u => readyR u.1 u.2) rs' (by simp [hlen, hr'])
  have e3 := hfst (us.map fun u => readyR u.1 (u.1.f + s • (u.2 - u.1.f))) rs'' (by simp [hlen, hr''])
  rcases us with _ | ⟨u, us⟩
  · simp only [List.map_nil, List.zip_nil_left, rqpFromRec, rqpFinish, Prod.mk.injEq, RCtrlResult.ret.injEq, true_and] at h h' ⊢
    obtain ⟨⟨rfl, rfl⟩, -⟩ := h
    obtain ⟨⟨rfl, rfl⟩, -⟩ := h'
    exact ⟨[], ⟨⟨by simp, by simp⟩, rfl⟩, fun r hr => by simp at hr⟩
  · have hdef : ∃ lim m Cm, Q.fit = some lim ∧ stackC Q.cs c = some ⟨m, Cm⟩ := by
      rcases rs with _ | ⟨r, rs⟩
      · simp at hr
        rw [← hr] at hlen
        simp at hlen
      rw [List.map_cons, List.zip_cons_cons, rec_chain _ _ _ _ _ (hus u (by simp))] at h
      rcases hfit : Q.fit with _ | lim
      · rw [hfit] at h; simp at h
      rcases hst : stackC Q.cs c with _ | ⟨m, Cm⟩
      · rw [hfit, hst] at h; simp at h
      exact ⟨lim, m, Cm, rfl, rfl⟩
    obtain ⟨lim, m, Cm, hfit, hst⟩ := hdef
    have := rloop_blend hfit hst hs hs' hs'' hcomp h0 h1 (u :: us) hus _ _ _ e1 e2 e3 0 none none none rfl rfl 0 0 0 0 0 h hf h' hf'
    rw [sub_zero, smul_zero, add_zero] at this
    exact this

end

end Verif.Props
