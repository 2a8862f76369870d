import Verif.Props.ReducedRecord
import Verif.Props.Moderate

/-!
# C93 with the reduced model
-/

set_option linter.unusedSectionVars false

namespace Verif.Props
open Matrix Verif Verif.Spec Verif.Model

section Level
variable {k c : ℕ} {ν : Type*} [Fintype ν] [DecidableEq ν]

theorem rlevel_nearest (D : Reduced (Fin k) ν) (C : ReducedContact c (Fin k) ν) (Q : RQPRobot k c) (lim : Option (Fin (k + 6) → ℝ))
    {m t : ℕ} (Cm : Matrix (Fin m) (Fin c) ℝ) (B : Matrix (Fin k ⊕ Fin 6) (Fin t) ℝ) (f : Fin t → ℝ) (τ : Fin k ⊕ Fin 6 → ℝ)
    {x : Fin t ⊕ Fin (c - 6) → ℝ} (hx : (rQP D C Q lim Cm B f τ).IsSolution x) {a b : Fin t → ℝ} {z : Fin (c - 6) → ℝ}
    (ha : a = f + fun j => x (Sum.inl j)) (hb : OkR D C lim Cm (τ + B *ᵥ b + Q.NwJw *ᵥ z)) : 0 ≤ (a - f) ⬝ᵥ (b - a) := by
  have hy : (rQP D C Q lim Cm B f τ).Feasible (Sum.elim (b - f) z) := by
    rw [rQP_feasible]
    have e : (f + fun j => (Sum.elim (b - f) z : Fin t ⊕ Fin (c - 6) → ℝ) (Sum.inl j)) = b := by ext j; simp
    rw [e]
    exact hb
  have := least_first_order (fun x => by rw [rQP_cost]; norm_num) hx hy
  refine this.trans (le_of_eq ?_)
  rw [dotProduct]
  refine Finset.sum_congr rfl fun j _ => ?_
  simp only [ha, Sum.elim_inl, Pi.sub_apply, Pi.add_apply]
  ring

theorem rlevel_moderates (D : Reduced (Fin k) ν) (C : ReducedContact c (Fin k) ν) (Q : RQPRobot k c) (lim : Option (Fin (k + 6) → ℝ))
    {m t : ℕ} (Cm : Matrix (Fin m) (Fin c) ℝ) (B : Matrix (Fin k ⊕ Fin 6) (Fin t) ℝ) (f : Fin t → ℝ) (τ : Fin k ⊕ Fin 6 → ℝ)
    {x : Fin t ⊕ Fin (c - 6) → ℝ} (hx : (rQP D C Q lim Cm B f τ).IsSolution x) {z : Fin (c - 6) → ℝ}
    (hz : OkR D C lim Cm (τ + Q.NwJw *ᵥ z)) : Moderates f (f + fun j => x (Sum.inl j)) := by
  have := rlevel_nearest D C Q lim Cm B f τ hx (b := 0) (z := z) rfl (by rw [mulVec_zero, add_zero]; exact hz)
  generalize (f + fun j => x (Sum.inl j)) = a at this
  rw [zero_sub, dotProduct_neg, sub_dotProduct, dotProduct_comm f a] at this
  unfold Moderates
  linarith

/-- Exact answers agree on the change of the command. -/
theorem rQP_left_unique (D : Reduced (Fin k) ν) (C : ReducedContact c (Fin k) ν) (Q : RQPRobot k c) (lim : Option (Fin (k + 6) → ℝ))
    {m t : ℕ} (Cm : Matrix (Fin m) (Fin c) ℝ) (B : Matrix (Fin k ⊕ Fin 6) (Fin t) ℝ) (f : Fin t → ℝ) (τ : Fin k ⊕ Fin 6 → ℝ)
    {x y : Fin t ⊕ Fin (c - 6) → ℝ} (hx : (rQP D C Q lim Cm B f τ).IsSolution x) (hy : (rQP D C Q lim Cm B f τ).IsSolution y) :
    (fun j => x (Sum.inl j)) = fun j => y (Sum.inl j) := by
  have h1 := rlevel_nearest D C Q lim Cm B f τ hx rfl ((rQP_feasible D C Q lim Cm B f τ y).mp hy.1)
  have h2 := rlevel_nearest D C Q lim Cm B f τ hy rfl ((rQP_feasible D C Q lim Cm B f τ x).mp hx.1)
  obtain ⟨a, ha⟩ : ∃ a, a = fun j => x (Sum.inl j) := ⟨_, rfl⟩
  obtain ⟨b, hb⟩ : ∃ b, b = fun j => y (Sum.inl j) := ⟨_, rfl⟩
  rw [← ha, ← hb] at h1 h2 ⊢
  have h3 : (a - b) ⬝ᵥ (a - b) ≤ 0 := by
    simp only [add_sub_cancel_left, add_sub_add_left_eq_sub, sub_dotProduct, dotProduct_sub] at h1 h2 ⊢
    linarith
  exact sub_eq_zero.mp (dotProduct_self_eq_zero.mp (le_antisymm h3 (dot_self_nonneg' _)))

/-- What is recorded with a task on the contact chains moderates its command. -/
def RModerated (T : RTaskIn (Fin k) ν) (r : RTaskRecord k) : Prop :=
  T.noncont = false → ∃ a, r.fqp = ⟨T.t, a⟩ ∧ Moderates T.f (T.f + a)

variable {D : Reduced (Fin k) ν} {C : ReducedContact c (Fin k) ν} {R : Mat3} {P : Matrix (RSys (Fin k) ν) (RSys (Fin k) ν) ℝ}
  {K : Option (Matrix (Fin k ⊕ Fin 6) (Fin 6) ℝ)} {Q : RQPRobot k c} {solve solve' : Solver} {lim : Option (Fin (k + 6) → ℝ)} {m : ℕ}
  {Cm : Matrix (Fin m) (Fin c) ℝ}

theorem rloop_moderates (hl : Q.fit = some lim) (hc : stackC Q.cs c = some ⟨m, Cm⟩) (hs : solve.Exact)
    (l : List (RTask (Fin k) ν × RTaskRecord k)) (i : ℕ)
    (prev : Option (RTask (Fin k) ν × Matrix (Fin k ⊕ Fin 6) (Fin k ⊕ Fin 6) ℝ)) (τ0 : Fin k ⊕ Fin 6 → ℝ)
    (f : Fin 6 → ℝ) (nc : Option (NcSum k ν)) {τ : Fin k ⊕ ν → ℝ} {τR : Fin k ⊕ Fin 6 → ℝ} {out : List (RTaskRecord k)}
    (h : rqpFromRec D C R P K Q solve i prev τ0 f nc l = (.ret 1 τ τR, out))
    (hz : ∃ z, OkR D C lim Cm (reducedGravity D C + τ0 + Q.NwJw *ᵥ z)) :
    List.Forall₂ (fun p r => RModerated p.1.toRTaskIn r) l out := by
  induction l generalizing i prev τ0 f nc out with
  | nil =>
    rw [rqpFromRec] at h
    obtain ⟨-, rfl⟩ := Prod.mk.inj h
    exact .nil
  | cons p l ih =>
    obtain ⟨T, r⟩ := p
    rcases hT : T.noncont with _ | _
    · rw [rec_chain _ _ _ _ _ hT, hl, hc] at h
      simp only at h
      rcases hx : solve i T.t (c - 6) (rQP D C Q lim Cm (prevNull prev * (T.Jkt * T.Λ)) T.f (reducedGravity D C + τ0)) with _ | x
      · rw [hx] at h
        simp at h
      rw [hx] at h
      simp only [Prod.mk.injEq] at h
      obtain ⟨h1, rfl⟩ := h
      have hsol := hs _ _ _ _ _ hx
      have hfe := (rQP_feasible D C Q lim Cm _ _ _ x).mp hsol.1
      refine .cons (fun _ => ⟨_, rfl, ?_⟩) (ih _ _ _ _ _ (Prod.ext h1 rfl) ⟨fun b => x (Sum.inr b), ?_⟩)
      · obtain ⟨z, hz⟩ := hz
        exact rlevel_moderates D C Q lim Cm _ _ _ hsol hz
      · rw [← add_assoc]
        simp only [← mulVec_mulVec] at hfe
        exact hfe
    · rcases prev with _ | ⟨U, N⟩
      · simp [rqpFromRec, hT] at h
      rcases K with _ | Kb
      · simp [rqpFromRec, hT] at h
      simp only [rqpFromRec, hT, if_true] at h
      rcases hx : ncTorque D R P Kb U N T with _ | x
      · rw [hx] at h
        simp at h
      rw [hx] at h
      simp only [Prod.mk.injEq] at h
      obtain ⟨h1, rfl⟩ := h
      refine .cons (fun e => ?_) (ih _ _ _ _ _ (Prod.ext h1 rfl) hz)
      rw [hT] at e
      cases e

/-- Success with a task on the contact chains needs limits of the right size and contact rows. -/
theorem rloop_needs (l : List (RTask (Fin k) ν × RTaskRecord k)) (hl : ∃ p ∈ l, p.1.noncont = false) (i : ℕ)
    (prev : Option (RTask (Fin k) ν × Matrix (Fin k ⊕ Fin 6) (Fin k ⊕ Fin 6) ℝ)) (τ0 : Fin k ⊕ Fin 6 → ℝ)
    (f : Fin 6 → ℝ) (nc : Option (NcSum k ν)) {τ : Fin k ⊕ ν → ℝ} {τR : Fin k ⊕ Fin 6 → ℝ} {out : List (RTaskRecord k)}
    (h : rqpFromRec D C R P K Q solve i prev τ0 f nc l = (.ret 1 τ τR, out)) :
    ∃ lim m Cm, Q.fit = some lim ∧ stackC Q.cs c = some ⟨m, Cm⟩ := by
  induction l generalizing i prev τ0 f nc out with
  | nil => simp at hl
  | cons p l ih =>
    obtain ⟨T, r⟩ := p
    rcases hT : T.noncont with _ | _
    · rw [rec_chain _ _ _ _ _ hT] at h
      rcases hf : Q.fit with _ | lim
      · rw [hf] at h; simp at h
      rcases hc : stackC Q.cs c with _ | ⟨m', Cm⟩
      · rw [hf, hc] at h; simp at h
      exact ⟨lim, m', Cm, rfl, rfl⟩
    · rcases prev with _ | ⟨U, N⟩
      · simp [rqpFromRec, hT] at h
      rcases K with _ | Kb
      · simp [rqpFromRec, hT] at h
      simp only [rqpFromRec, hT, if_true] at h
      rcases hx : ncTorque D R P Kb U N T with _ | x
      · rw [hx] at h
        simp at h
      rw [hx] at h
      simp only [Prod.mk.injEq] at h
      refine ih ?_ _ _ _ _ _ (Prod.ext h.1 rfl)
      obtain ⟨p, hp, e⟩ := hl
      rcases List.mem_cons.mp hp with rfl | hp
      · rw [hT] at e
        cases e
      · exact ⟨p, hp, e⟩

/-- Two runs with the same tasks down to a task on the contact chains, which has another command. -/
theorem rloop_nonexpansive (hl : Q.fit = some lim) (hc : stackC Q.cs c = some ⟨m, Cm⟩) (hs : solve.Exact) (hs' : solve'.Exact)
    {T : RTask (Fin k) ν} (hT : T.noncont = false) (g : Fin T.t → ℝ) (q q' : RTaskRecord k)
    (below below' above above' : List (RTask (Fin k) ν × RTaskRecord k)) (hab : above.map Prod.fst = above'.map Prod.fst) (i : ℕ)
    (prev : Option (RTask (Fin k) ν × Matrix (Fin k ⊕ Fin 6) (Fin k ⊕ Fin 6) ℝ)) (τ0 : Fin k ⊕ Fin 6 → ℝ)
    (f : Fin 6 → ℝ) (nc : Option (NcSum k ν)) {τ τ' : Fin k ⊕ ν → ℝ} {τR τR' : Fin k ⊕ Fin 6 → ℝ} {out out' : List (RTaskRecord k)}
    (h : rqpFromRec D C R P K Q solve i prev τ0 f nc (above ++ (T, q) :: below) = (.ret 1 τ τR, out))
    (h' : rqpFromRec D C R P K Q solve' i prev τ0 f nc (above' ++ (rcommand T g, q') :: below') = (.ret 1 τ' τR', out')) :
    ∃ r r' a a', out[above.length]? = some r ∧ out'[above.length]? = some r' ∧ r.fqp = ⟨T.t, a⟩ ∧ r'.fqp = ⟨T.t, a'⟩ ∧
      Moderates (T.f - g) ((T.f + a) - (g + a')) := by
  induction above generalizing above' i prev τ0 f nc out out' with
  | nil =>
    obtain rfl : above' = [] := by simpa using hab.symm
    rw [List.nil_append, rec_chain _ _ _ _ _ hT, hl, hc] at h
    rw [List.nil_append, rec_chain _ _ _ _ _ (T := rcommand T g) hT, hl, hc] at h'
    simp only at h h'
    rcases hx : solve i T.t (c - 6) (rQP D C Q lim Cm (prevNull prev * (T.Jkt * T.Λ)) T.f (reducedGravity D C + τ0)) with _ | x
    · rw [hx] at h
      simp at h
    rcases hx' : solve' i (rcommand T g).t (c - 6) (rQP D C Q lim Cm (prevNull prev * ((rcommand T g).Jkt * (rcommand T g).Λ))
        (rcommand T g).f (reducedGravity D C + τ0)) with _ | x'
    · rw [hx'] at h'
      simp at h'
    rw [hx] at h
    rw [hx'] at h'
    simp only [Prod.mk.injEq] at h h'
    obtain ⟨-, rfl⟩ := h
    obtain ⟨-, rfl⟩ := h'
    refine ⟨_, _, fun j => x (Sum.inl j), fun j : Fin T.t => x' (Sum.inl j), rfl, rfl, rfl, rfl, ?_⟩
    have hsol := hs _ _ _ _ _ hx
    have hsol' : (rQP D C Q lim Cm (prevNull prev * (T.Jkt * T.Λ)) g (reducedGravity D C + τ0)).IsSolution x' := hs' _ _ _ _ _ hx'
    obtain ⟨a, ha⟩ : ∃ a, a = T.f + fun j => x (Sum.inl j) := ⟨_, rfl⟩
    obtain ⟨b, hb⟩ : ∃ b : Fin T.t → ℝ, b = g + fun j : Fin T.t => x' (Sum.inl j) := ⟨_, rfl⟩
    have k1 := rlevel_nearest D C Q lim Cm _ _ _ hsol ha (b := b) (z := fun j => x' (Sum.inr j))
      (by rw [hb]; exact (rQP_feasible D C Q lim Cm _ _ _ x').mp hsol'.1)
    have k2 := rlevel_nearest D C Q lim Cm _ _ _ hsol' (a := b) hb (b := a) (z := fun j => x (Sum.inr j))
      (by rw [ha]; exact (rQP_feasible D C Q lim Cm _ _ _ x).mp hsol.1)
    unfold Moderates
    rw [← ha, ← hb]
    simp only [sub_dotProduct, dotProduct_sub] at k1 k2 ⊢
    have h1 := dotProduct_comm a b
    have h2 := dotProduct_comm a T.f
    have h3 := dotProduct_comm b T.f
    have h4 := dotProduct_comm a g
    have h5 := dotProduct_comm b g
    linarith
  | cons p above ih =>
    obtain ⟨U, u⟩ := p
    rcases above' with _ | ⟨⟨U', u'⟩, above'⟩
    · simp at hab
    simp only [List.map_cons, List.cons.injEq] at hab
    obtain ⟨rfl, hab⟩ := hab
    rcases hU : U.noncont with _ | _
    · rw [List.cons_append, rec_chain _ _ _ _ _ hU, hl, hc] at h h'
      simp only at h h'
      rcases hx : solve i U.t (c - 6) (rQP D C Q lim Cm (prevNull prev * (U.Jkt * U.Λ)) U.f (reducedGravity D C + τ0)) with _ | x
      · rw [hx] at h
        simp at h
      rcases hx' : solve' i U.t (c - 6) (rQP D C Q lim Cm (prevNull prev * (U.Jkt * U.Λ)) U.f (reducedGravity D C + τ0)) with _ | x'
      · rw [hx'] at h'
        simp at h'
      rw [hx] at h
      rw [hx'] at h'
      simp only [Prod.mk.injEq] at h h'
      obtain ⟨h1, rfl⟩ := h
      obtain ⟨h1', rfl⟩ := h'
      have ex := rQP_left_unique D C Q lim Cm _ _ _ (hs _ _ _ _ _ hx) (hs' _ _ _ _ _ hx')
      rw [← ex] at h1'
      obtain ⟨r, r', a, a', e1, e2, e⟩ := ih _ hab _ _ _ _ _ (Prod.ext h1 rfl) (Prod.ext h1' rfl)
      exact ⟨r, r', a, a', e1, by rw [ex] at e2; exact e2, e⟩
    · rcases prev with _ | ⟨V, N⟩
      · simp [rqpFromRec, hU] at h
      rcases K with _ | Kb
      · simp [rqpFromRec, hU] at h
      simp only [List.cons_append, rqpFromRec, hU, if_true] at h h'
      rcases hx : ncTorque D R P Kb V N U with _ | x
      · rw [hx] at h
        simp at h
      rw [hx] at h h'
      simp only [Prod.mk.injEq] at h h'
      obtain ⟨h1, rfl⟩ := h
      obtain ⟨h1', rfl⟩ := h'
      obtain ⟨r, r', a, a', e1, e2, e⟩ := ih _ hab _ _ _ _ _ (Prod.ext h1 rfl) (Prod.ext h1' rfl)
      exact ⟨r, r', a, a', e1, e2, e⟩

end Level

theorem forall₂_zip {α β γ : Type*} {P : α → γ → Prop} : ∀ {l : List α} {s : List β} {o : List γ}, l.length = s.length →
    List.Forall₂ (fun p r => P p.1 r) (l.zip s) o → List.Forall₂ P l o
  | [], [], _, _, h => by cases h; exact .nil
  | a :: l, b :: s, _, hl, h => by
    cases h with
    | cons h1 h2 => exact .cons h1 (forall₂_zip (by simpa using hl) h2)

section Call
variable {k nc c : ℕ} {A : Matrix (RSys (Fin k) (Fin nc)) (RSys (Fin k) (Fin nc)) ℝ} {Jc : Matrix (Fin c) (RSys (Fin k) (Fin nc)) ℝ}
  {G : RSys (Fin k) (Fin nc) → ℝ} {SI : Mat6} {R : Mat3} {J : Matrix (Fin 6) (Fin nc) ℝ} {D : Reduced (Fin k) (Fin nc)}
  {S : ContactSpace c (Fin k ⊕ Fin nc)} {C : ReducedContact c (Fin k) (Fin nc)} {Q : RQPRobot k c}

/-- **C93, reduced model.**  Several feet on the ground: if gravity compensation can be made safe by a torque that moves nothing, task
control with the reduced model commands, in place of the acceleration `f` of each task on the contact chains, an acceleration in the ball
between standing still and `f`.  What is missing: the tasks outside the contact chains, for which no change is recorded. -/
theorem C93_reduced_moderates_partial (hA : IsSPD A) (hR : R * Rᵀ = 1)
    (hJ : jInc SI R (baseNc A) = some J) (hcpl : ∀ (i : Fin k) (j : Fin nc), A (.inr (.inl i)) (.inr (.inr j)) = 0)
    (h : reduce vcOf ncOf A⁻¹ J G = some D) (h0 : ∀ r j, Jc r (ncOf j) = 0)
    (hk : k ≤ c) (hB : BaseDetermined Jc) (hS : contactSpace Jc A⁻¹ = some S) (hC : reducedContact D Jc A⁻¹ = some C)
    (h6 : ∀ l ∈ Q.cs, l.type = .c6d) (hp : ∀ l ∈ Q.cs, 0 < l.planeX ∧ 0 < l.planeY) (hc : c = 6 * (active Q.cs).length)
    (hc6 : 6 < c) {f : CodNull C.W} (hN : reducedNwJw C f = some Q.NwJw)
    {solve : Solver} (hs : solve.Exact) {δ : Fin k ⊕ Fin nc → ℝ} (hsafe : RSafe A Jc G D C Q hc 0 δ)
    {ts : List (RTaskIn (Fin k) (Fin nc))} {rs : List (RTaskRecord k)} (hl : ts.length = rs.length)
    (hfirst : ∀ T ∈ ts.head?, T.noncont = false) {τ : Fin k ⊕ Fin nc → ℝ}
    {τR : Fin k ⊕ Fin 6 → ℝ} {out : List (RTaskRecord k)} (hr : reducedTaskTorqueQPRec D C R A⁻¹ Q solve ts rs = (.ret 1 τ τR, out)) :
    List.Forall₂ RModerated ts out := by
  obtain ⟨Cm, e, h'⟩ := stackC_holds h6 hp hc
  simp only [reducedTaskTorqueQPRec] at hr
  rcases hm : ts.mapM (calcJKTR D C (A⁻¹ * C.Nc)) with _ | qs
  · rw [hm] at hr
    simp at hr
  rw [hm] at hr
  simp only at hr
  have hlen : qs.length = rs.length := (length_of_mapM hm).trans hl
  have hin : ts = qs.map (·.toRTaskIn) := (map_of_mapM (fun a b e => toIn_of_calc e) hm).symm
  rcases hfit : Q.fit with _ | lim
  · rcases qs with _ | ⟨T, qs⟩
    · subst hin
      rw [List.zip_nil_left, rqpFromRec] at hr
      obtain ⟨-, rfl⟩ := Prod.mk.inj hr
      exact .nil
    rcases rs with _ | ⟨r, rs⟩
    · simp at hlen
    have hT : T.noncont = false := hfirst T.toRTaskIn (by rw [hin]; rfl)
    rw [List.zip_cons_cons, rec_chain _ _ _ _ _ hT, hfit] at hr
    simp at hr
  · obtain ⟨h1, h2⟩ := okR_iff_safe hA hR hJ hcpl h h0 hk hB hS hC hc hc6 hN hfit h' 0
    obtain ⟨z, rfl⟩ := h2 δ hsafe
    have := forall₂_zip (P := fun (q : RTask (Fin k) (Fin nc)) r => RModerated q.toRTaskIn r) hlen
      (rloop_moderates hfit e hs _ _ _ _ _ _ hr ⟨z, (h1 z).mpr hsafe⟩)
    rw [hin]
    exact List.forall₂_map_left_iff.mpr this

/-- **C93, reduced model (small changes have small effects).**  Two calls for the same robot with the same tasks above a task on the
contact chains: if its commands differ, the accelerations commanded in their place differ in the same direction and by no more. -/
theorem C93_reduced_nonexpansive_partial {D : Reduced (Fin k) (Fin nc)} {C : ReducedContact c (Fin k) (Fin nc)}
    {Ainv : Matrix (RSys (Fin k) (Fin nc)) (RSys (Fin k) (Fin nc)) ℝ} {Q : RQPRobot k c} {solve solve' : Solver} (hs : solve.Exact)
    (hs' : solve'.Exact) {T : RTaskIn (Fin k) (Fin nc)} (hT : T.noncont = false) (g : Fin T.t → ℝ)
    (above below below' : List (RTaskIn (Fin k) (Fin nc))) (rs rs' : List (RTaskRecord k))
    (hl : (above ++ T :: below).length = rs.length) (hl' : (above ++ { T with f := g } :: below').length = rs'.length)
    {τ τ' : Fin k ⊕ Fin nc → ℝ} {τR τR' : Fin k ⊕ Fin 6 → ℝ} {out out' : List (RTaskRecord k)}
    (h : reducedTaskTorqueQPRec D C R Ainv Q solve (above ++ T :: below) rs = (.ret 1 τ τR, out))
    (h' : reducedTaskTorqueQPRec D C R Ainv Q solve' (above ++ { T with f := g } :: below') rs' = (.ret 1 τ' τR', out')) :
    ∃ r r' a a', out[above.length]? = some r ∧ out'[above.length]? = some r' ∧ r.fqp = ⟨T.t, a⟩ ∧ r'.fqp = ⟨T.t, a'⟩ ∧
      Moderates (T.f - g) ((T.f + a) - (g + a')) := by
  simp only [reducedTaskTorqueQPRec] at h h'
  rcases hm : (above ++ T :: below).mapM (calcJKTR D C (Ainv * C.Nc)) with _ | qs
  · rw [hm] at h
    simp at h
  rcases hm' : (above ++ { T with f := g } :: below').mapM (calcJKTR D C (Ainv * C.Nc)) with _ | qs'
  · rw [hm'] at h'
    simp at h'
  rw [hm] at h
  rw [hm'] at h'
  simp only at h h'
  rw [List.mapM_append] at hm hm'
  simp only [List.mapM_cons, Option.pure_def, Option.bind_eq_bind, Option.bind_eq_some_iff, Option.some.injEq] at hm hm'
  obtain ⟨q1, m1, _, ⟨q, m2, q2, m3, rfl⟩, rfl⟩ := hm
  obtain ⟨q1', m1', _, ⟨q', m2', q2', m3', rfl⟩, rfl⟩ := hm'
  rw [m1] at m1'
  obtain rfl := Option.some.inj m1'
  obtain rfl := toIn_of_calc m2
  have e' := calc_command m2 g
  change calcJKTR D C (Ainv * C.Nc) { q.toRTaskIn with f := g } = _ at e'
  rw [e'] at m2'
  obtain rfl := Option.some.inj m2'
  have la : q1.length = above.length := length_of_mapM m1
  have lb : q2.length = below.length := length_of_mapM m3
  have lb' : q2'.length = below'.length := length_of_mapM m3'
  obtain ⟨s1, s, s2, rfl, ls1⟩ : ∃ s1 s s2, rs = s1 ++ s :: s2 ∧ q1.length = s1.length := by
    have hlt : above.length < rs.length := by rw [← hl]; simp
    refine ⟨rs.take above.length, rs[above.length], rs.drop (above.length + 1), by simp, ?_⟩
    rw [List.length_take, la]; omega
  obtain ⟨s1', s', s2', rfl, ls1'⟩ : ∃ s1 s s2, rs' = s1 ++ s :: s2 ∧ q1.length = s1.length := by
    have hlt : above.length < rs'.length := by rw [← hl']; simp
    refine ⟨rs'.take above.length, rs'[above.length], rs'.drop (above.length + 1), by simp, ?_⟩
    rw [List.length_take, la]; omega
  rw [List.zip_append ls1, List.zip_cons_cons] at h
  rw [List.zip_append ls1', List.zip_cons_cons] at h'
  obtain ⟨lim, m, Cm, hfit, hc⟩ := rloop_needs _ ⟨(q, s), by simp, hT⟩ _ _ _ _ _ h
  have := rloop_nonexpansive hfit hc hs hs' (T := q) hT g s s' _ _ _ _ (by rw [zip_fst ls1, zip_fst ls1']) _ _ _ _ _ h h'
  have ll : (q1.zip s1).length = above.length := by rw [List.length_zip, ← ls1, la, min_self]
  rw [ll] at this
  exact this

end Call

/-- The hypotheses are met by the robot of C59 on two feet, which could stand still, with a task accelerating its arm. -/
theorem C93_reduced_hypotheses_met : ∃ D S C N τ τR out, reduce vcOf ncOf (exRed 6)⁻¹ 1 TwoFeet.G = some D ∧
    contactSpace TwoFeet.Jc (exRed 6)⁻¹ = some S ∧ reducedContact D TwoFeet.Jc (exRed 6)⁻¹ = some C ∧
    (∃ f : CodNull C.W, reducedNwJw C f = some N) ∧
    (∃ δ, RSafe (exRed 6) TwoFeet.Jc TwoFeet.G D C (TwoFeet.robot N) Stand.dof 0 δ) ∧
    TwoFeetFail.task.noncont = false ∧
    reducedTaskTorqueQPRec D C 1 (exRed 6)⁻¹ (TwoFeet.robot N) Stand.solver [TwoFeetFail.task] [RTaskRecord.fresh 6] =
      (.ret 1 τ τR, out) := by
  obtain ⟨D, S, C, N, hD, hS, hC, hN, hsafe, q, hq⟩ := C69_hypotheses_met
  obtain ⟨f, hf⟩ := hN
  obtain ⟨δ, hδ⟩ := hsafe
  have hnf := C69_never_fails_partial (Q := TwoFeet.robot N) exRed_spd (by simp) exRed_jInc exRed_coupling hD TwoFeet.zero (by norm_num)
    TwoFeet.base hS hC Stand.six Stand.plane Stand.dof (by norm_num) hf Stand.solver_sound Stand.solver_complete hδ [TwoFeetFail.task]
  have e := C92_reduced_result (D := D) (C := C) (R := 1) (Ainv := (exRed 6)⁻¹) (Q := TwoFeet.robot N) (solve := Stand.solver)
    (ts := [TwoFeetFail.task]) (rs := [RTaskRecord.fresh 6]) rfl
  rcases hr : reducedTaskTorqueQPRec D C 1 (exRed 6)⁻¹ (TwoFeet.robot N) Stand.solver [TwoFeetFail.task] [RTaskRecord.fresh 6]
    with ⟨res, out⟩
  obtain ⟨Cm, ec, -⟩ := stackC_holds (c := 12) (cs := (TwoFeet.robot N).cs) Stand.six Stand.plane Stand.dof
  have hT : q.noncont = false := by
    have := toIn_of_calc hq
    rw [show q.noncont = q.toRTaskIn.noncont from rfl, this]
    rfl
  rw [hr] at e
  have hr' := hr
  simp only [reducedTaskTorqueQPRec, List.mapM_cons, hq, List.mapM_nil, Option.pure_def, Option.bind_eq_bind, Option.bind_some,
    List.zip_cons_cons, List.zip_nil_left] at hr'
  rw [rec_chain _ _ _ _ _ hT, ec] at hr'
  rcases hfit : (TwoFeet.robot N).fit with _ | lim
  · simp [RQPRobot.fit, TwoFeet.robot] at hfit
  rw [hfit] at hr'
  simp only at hr'
  split at hr'
  · obtain ⟨rfl, -⟩ := Prod.mk.inj hr'
    exact absurd e.symm (hnf _ _)
  · rw [rqpFromRec] at hr'
    simp only [rqpFinish, Prod.mk.injEq] at hr'
    exact ⟨D, S, C, N, _, _, out, hD, hS, hC, ⟨f, hf⟩, ⟨δ, hδ⟩, rfl, by rw [hr, hr'.1]⟩

end Verif.Props
