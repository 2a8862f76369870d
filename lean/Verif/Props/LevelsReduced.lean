import Verif.Props.SupplyReduced

/-!
# C92, C101 with the reduced model: the change recorded with every task is the least
-/

set_option linter.unusedSectionVars false

namespace Verif.Props
open Matrix Verif Verif.Spec Verif.Model Verif.Lemmas

section
variable {k c : ℕ} {ν : Type*} [Fintype ν] [DecidableEq ν]
variable {D : Reduced (Fin k) ν} {C : ReducedContact c (Fin k) ν} {R : Mat3} {P : Matrix (RSys (Fin k) ν) (RSys (Fin k) ν) ℝ}
  {K : Option (Matrix (Fin k ⊕ Fin 6) (Fin 6) ℝ)} {Q : RQPRobot k c} {solve : Solver} {lim : Option (Fin (k + 6) → ℝ)} {m : ℕ}
  {Cm : Matrix (Fin m) (Fin c) ℝ}

theorem rloop_best (hfit : Q.fit = some lim) (hst : stackC Q.cs c = some ⟨m, Cm⟩) (hs : solve.Exact) {T : RTask (Fin k) ν} (hT : T.noncont = false)
    (q : RTaskRecord k) (above below : List (RTask (Fin k) ν × RTaskRecord k)) (hab : ∀ p ∈ above, p.1.noncont = false) (i : ℕ)
    (prev : Option (RTask (Fin k) ν × Matrix (Fin k ⊕ Fin 6) (Fin k ⊕ Fin 6) ℝ)) (τ0 : Fin k ⊕ Fin 6 → ℝ) (f : Fin 6 → ℝ) (nc : Option (NcSum k ν))
    {τ : Fin k ⊕ ν → ℝ} {τR : Fin k ⊕ Fin 6 → ℝ} {out : List (RTaskRecord k)}
    (h : rqpFromRec D C R P K Q solve i prev τ0 f nc (above ++ (T, q) :: below) = (.ret 1 τ τR, out)) :
    ∃ r a, out[above.length]? = some r ∧ r.fqp = ⟨T.t, a⟩ ∧ ∀ (g : Fin T.t → ℝ) z y,
      rTaskFrom D C R P K prev τ0 0 (List.zipWith rfollowed (above.map Prod.fst) out ++ [rcommand T g]) = some (y, 0) →
      OkR D C lim Cm (reducedGravity D C + y + Q.NwJw *ᵥ z) → a ⬝ᵥ a ≤ (g - T.f) ⬝ᵥ (g - T.f) := by
  induction above generalizing i prev τ0 out with
  | nil =>
    rw [List.nil_append, rec_chain _ _ _ _ _ hT, hfit, hst] at h
    simp only at h
    rcases hx : solve i T.t (c - 6) (rQP D C Q lim Cm (prevNull prev * (T.Jkt * T.Λ)) T.f (reducedGravity D C + τ0)) with _ | x
    · rw [hx] at h
      simp at h
    rw [hx] at h
    simp only [Prod.mk.injEq] at h
    obtain ⟨-, rfl⟩ := h
    refine ⟨_, fun a => x (Sum.inl a), rfl, rfl, fun g z y hy hok => ?_⟩
    rw [List.map_nil, List.zipWith_nil_left, List.nil_append, rTaskFrom_chain D C R P K prev τ0 0 (show (rcommand T g).noncont = false from hT)] at hy
    obtain rfl : τ0 + prevNull prev *ᵥ (T.Jkt *ᵥ (T.Λ *ᵥ g)) = y := (Prod.mk.inj (Option.some.inj hy)).1
    have hfeas : (rQP D C Q lim Cm (prevNull prev * (T.Jkt * T.Λ)) T.f (reducedGravity D C + τ0)).Feasible (Sum.elim (g - T.f) z) := by
      refine (rQP_feasible D C Q lim Cm _ _ _ _).mpr ?_
      have e : (T.f + fun b => Sum.elim (g - T.f) z (Sum.inl b)) = g := by ext b; simp
      rw [e, ← mulVec_mulVec, ← mulVec_mulVec, add_assoc (reducedGravity D C)]
      exact hok
    have hle := (hs _ _ _ _ _ hx).2 _ hfeas
    rw [rQP_cost, rQP_cost] at hle
    have : ∑ a, x (Sum.inl a) * x (Sum.inl a) ≤ ∑ a, (g - T.f) a * (g - T.f) a := by
      simp only [Sum.elim_inl] at hle
      linarith
    exact this
  | cons p above ih =>
    obtain ⟨U, u⟩ := p
    have hU : U.noncont = false := hab (U, u) (List.mem_cons_self ..)
    rw [List.cons_append, rec_chain _ _ _ _ _ hU, hfit, hst] at h
    simp only at h
    rcases hx : solve i U.t (c - 6) (rQP D C Q lim Cm (prevNull prev * (U.Jkt * U.Λ)) U.f (reducedGravity D C + τ0)) with _ | x
    · rw [hx] at h
      simp at h
    rw [hx] at h
    simp only [Prod.mk.injEq] at h
    obtain ⟨h1, rfl⟩ := h
    obtain ⟨r, a, e1, e2, hb⟩ := ih (fun p hp => hab p (List.mem_cons_of_mem _ hp)) _ _ _ (Prod.ext h1 rfl)
    refine ⟨r, a, by simpa using e1, e2, fun g z y hy hok => hb g z y ?_ hok⟩
    rw [List.map_cons, List.zipWith_cons_cons, List.cons_append, rfollowed_of hU rfl,
      rTaskFrom_chain D C R P K prev τ0 0 (show (rcommand U (U.f + fun a => x (Sum.inl a))).noncont = false from hU)] at hy
    exact (rTaskFrom_command U _ _ _ _ _).symm.trans hy

end

section
variable {k c nc : ℕ} {A : Matrix (RSys (Fin k) (Fin nc)) (RSys (Fin k) (Fin nc)) ℝ} {Jc : Matrix (Fin c) (RSys (Fin k) (Fin nc)) ℝ}
  {G : RSys (Fin k) (Fin nc) → ℝ} {J : Matrix (Fin 6) (Fin nc) ℝ} {D : Reduced (Fin k) (Fin nc)} {S : ContactSpace c (Fin k ⊕ Fin nc)}
  {C : ReducedContact c (Fin k) (Fin nc)} {R : Mat3} {SI : Mat6} {Q : RQPRobot k c}

/-- **C92 with the reduced model (every level, least change).**  No torque limits, more than one foot, an exact solver.  The change recorded with a task of a
successful call is the least, if it and the tasks above it are on the contact chains: with the tasks above commanded as recorded, no other command that would
be safe for the full robot is nearer to the task's own.
What is missing: tasks outside the contact chains. -/
theorem C92_reduced_levels_least_partial (hA : IsSPD A) (hR : R * Rᵀ = 1)
    (hJ : jInc SI R (baseNc A) = some J) (hcpl : ∀ (i : Fin k) (j : Fin nc), A (.inr (.inl i)) (.inr (.inr j)) = 0)
    (h : reduce vcOf ncOf A⁻¹ J G = some D) (h0 : ∀ r j, Jc r (ncOf j) = 0)
    (hk : k ≤ c) (hB : BaseDetermined Jc) (hS : contactSpace Jc A⁻¹ = some S) (hC : reducedContact D Jc A⁻¹ = some C)
    (h6 : ∀ l ∈ Q.cs, l.type = .c6d) (hp : ∀ l ∈ Q.cs, 0 < l.planeX ∧ 0 < l.planeY) (hc : c = 6 * (active Q.cs).length)
    (hc6 : 6 < c) {f : CodNull C.W} (hN : reducedNwJw C f = some Q.NwJw) (hlim : Q.limit = none)
    {solve : Solver} (hs : solve.Exact) {T : RTaskIn (Fin k) (Fin nc)} (hT : T.noncont = false) {above below : List (RTaskIn (Fin k) (Fin nc))}
    (hab : ∀ T ∈ above, T.noncont = false) {ra rb : List (RTaskRecord k)} {r0 : RTaskRecord k} (hla : above.length = ra.length)
    {τ : Fin k ⊕ Fin nc → ℝ} {τR : Fin k ⊕ Fin 6 → ℝ} {out : List (RTaskRecord k)}
    (hret : reducedTaskTorqueQPRec D C R A⁻¹ Q solve (above ++ T :: below) (ra ++ r0 :: rb) = (.ret 1 τ τR, out)) :
    ∃ r a, out[above.length]? = some r ∧ r.fqp = ⟨T.t, a⟩ ∧ ∀ (b : Fin T.t → ℝ) τj δ,
      reducedTaskTorque D C R A⁻¹ (List.zipWith followedIn above out ++ [{ T with f := b }]) = some τj →
      (∀ τ' qdd qdd' F F', Motion A Jc G τ' qdd F → Motion A Jc G (τ' + δ) qdd' F' → qdd' = qdd) →
      (∀ qdd F, Motion A Jc G (reducedGravityTorque D C + τj + δ) qdd F → ContactsHold Q.cs (F ∘ Fin.cast hc.symm)) →
      a ⬝ᵥ a ≤ (b - T.f) ⬝ᵥ (b - T.f) := by
  obtain ⟨Cm, hst, h'⟩ := stackC_holds h6 hp hc
  have hfit : Q.fit = some none := by rw [RQPRobot.fit, hlim]
  have hsafe := okR_iff_safe hA hR hJ hcpl h h0 hk hB hS hC hc hc6 hN hfit h'
  simp only [reducedTaskTorqueQPRec] at hret
  rcases hm : (above ++ T :: below).mapM (calcJKTR D C (A⁻¹ * C.Nc)) with _ | qs
  · rw [hm] at hret
    simp at hret
  rw [hm] at hret
  simp only at hret
  simp only [List.mapM_append, List.mapM_cons, Option.pure_def, Option.bind_eq_bind, Option.bind_eq_some_iff, Option.some.injEq] at hm
  obtain ⟨qa, ha, q', ⟨q, hq, qb, hb, rfl⟩, rfl⟩ := hm
  have hqa : qa.length = above.length := length_of_mapM ha
  obtain rfl : q.toRTaskIn = T := toIn_of_calc hq
  have hna : ∀ q ∈ qa, q.noncont = false := fun q hq => by
    obtain ⟨T', hT', e⟩ := mem_of_mapM ha q hq
    rw [noncont_of_calc e]; exact hab T' hT'
  rw [List.zip_append (by omega), List.zip_cons_cons] at hret
  obtain ⟨r, a, e1, e2, hbest⟩ := rloop_best hfit hst hs hT r0 (qa.zip ra) (qb.zip rb) (fun p hp => hna _ (List.of_mem_zip hp).1) _ _ _ _ _ hret
  rw [List.length_zip, show min qa.length ra.length = above.length by omega] at e1
  refine ⟨r, a, e1, e2, fun b τj δ e s1 s2 => ?_⟩
  rw [zip_fst (by omega)] at hbest
  have hmap : (List.zipWith followedIn above out ++ [{ q.toRTaskIn with f := b }]).mapM (calcJKTR D C (A⁻¹ * C.Nc)) =
      some (List.zipWith rfollowed qa out ++ [rcommand q b]) := by
    rw [List.mapM_append, calc_followed_all ha out]
    have := calc_command hq b
    simp only [List.mapM_cons, List.mapM_nil, Option.pure_def, Option.bind_eq_bind, Option.bind_some]
    rw [show calcJKTR D C (A⁻¹ * C.Nc) { q.toRTaskIn with f := b } = some (rcommand q b) from this]
    rfl
  have hfz : ∀ T' ∈ List.zipWith rfollowed qa out ++ [rcommand q b], T'.noncont = false := by
    intro T' hT'
    rcases List.mem_append.mp hT' with h1 | h1
    · rw [← List.map_uncurry_zip_eq_zipWith] at h1
      obtain ⟨⟨x, r'⟩, hx, rfl⟩ := List.mem_map.mp h1
      have := hna x (List.of_mem_zip hx).1
      simp only [Function.uncurry, rfollowed]
      split_ifs <;> exact this
    · rw [List.mem_singleton.mp h1]; exact hT
  obtain ⟨y, hy⟩ := rTaskFrom_zero (D := D) (C := C) (R := R) (P := A⁻¹ * C.Nc) (K := (jktR C.ARinvNCR C.Winv (jBaseR R)).map Prod.snd) _ hfz none 0
  simp only [reducedTaskTorque, hmap, hy, Option.some.injEq] at e
  subst e
  have hs' : RSafe A Jc G D C Q hc y δ := ⟨s1, s2, by simp [hlim]⟩
  obtain ⟨z, rfl⟩ := (hsafe y).2 δ hs'
  exact hbest b z y hy (((hsafe y).1 z).mpr hs')

end

section
variable {k n nc : ℕ} {J : Matrix (Fin 6) (Fin nc) ℝ} {D : Reduced (Fin n) (Fin nc)} {S : ContactSpace (6 * k) (Fin n ⊕ Fin nc)}
  {C : ReducedContact (6 * k) (Fin n) (Fin nc)} {SI : Mat6} {Q : RQPRobot n (6 * k)}
variable {L : List (MovingLink (Sys (Fin n ⊕ Fin nc)))} {x0 : Vec3} {R0 : Mat3} {g : Fin k → Foot (Fin n ⊕ Fin nc)} {p : Fin k → Vec3}
  {qd : Sys (Fin n ⊕ Fin nc) → ℝ} {s : WholeBody (Fin n ⊕ Fin nc)}

/-- **C101 with the reduced model (the nearest command).**  No torque limits, two or more feet, an exact solver.  A task of a successful call is changed as
little as the ground requires, if it and the tasks above it are on the contact chains: with the tasks above commanded as recorded, no command `b` whose
motion the feet could supply is nearer to the task's own. -/
theorem C101_reduced_nearest (hR : IsRot R0) (hL : L ≠ []) (hm : ∀ l ∈ L, 0 < l.m) (hI : ∀ l ∈ L, l.I.PosDef)
    (hb : ∀ l ∈ L, FloatingBase x0 R0 l)
    (hf : ∀ i, RidesOnBase x0 R0 (p i) (g i).jac) (hs : updateKinematics true (massMatrix L) x0 R0 (mass L) qd = some s)
    (hA : IsSPD (ctrlMass L)) (hJ : jInc SI R0 (baseNc (ctrlMass L)) = some J)
    (hcpl : ∀ (i : Fin n) (j : Fin nc), ctrlMass L (.inr (.inl i)) (.inr (.inr j)) = 0)
    (h : reduce vcOf ncOf (ctrlMass L)⁻¹ J (s.G ∘ sysIdx.symm) = some D) (h0 : ∀ r j, stackFn g r (ncOf j) = 0) (hn : n ≤ 6 * k)
    (hS : contactSpace (stackFn g) (ctrlMass L)⁻¹ = some S) (hC : reducedContact D (stackFn g) (ctrlMass L)⁻¹ = some C)
    (h6 : ∀ l ∈ Q.cs, l.type = .c6d) (hk : k = (active Q.cs).length) (hk1 : 1 < k) (hp : ∀ l ∈ Q.cs, 0 < l.planeX ∧ 0 < l.planeY)
    {f : CodNull C.W} (hN : reducedNwJw C f = some Q.NwJw) {solve : Solver} (hsolve : solve.Exact) (hlim : Q.limit = none)
    {T : RTaskIn (Fin n) (Fin nc)} (hT : T.noncont = false) {above below : List (RTaskIn (Fin n) (Fin nc))} (hab : ∀ T ∈ above, T.noncont = false)
    {ra rb : List (RTaskRecord n)} {r0 : RTaskRecord n} (hla : above.length = ra.length)
    {τ : Fin n ⊕ Fin nc → ℝ} {τR : Fin n ⊕ Fin 6 → ℝ} {out : List (RTaskRecord n)}
    (hret : reducedTaskTorqueQPRec D C R0 (ctrlMass L)⁻¹ Q solve (above ++ T :: below) (ra ++ r0 :: rb) = (.ret 1 τ τR, out)) :
    ∃ r a, out[above.length]? = some r ∧ r.fqp = ⟨T.t, a⟩ ∧ ∀ (b : Fin T.t → ℝ) τj,
      reducedTaskTorque D C R0 (ctrlMass L)⁻¹ (List.zipWith followedIn above out ++ [{ T with f := b }]) = some τj →
      (∀ qdd F, Motion (ctrlMass L) (stackFn g) (s.G ∘ sysIdx.symm) (reducedGravityTorque D C + τj) qdd F →
        FeetSupply Q.cs hk p s.comPos (mass L • (earth - s.jacLin *ᵥ (qdd ∘ sysIdx))) (-(angularMomentum s.comPos L (qdd ∘ sysIdx)))) →
      a ⬝ᵥ a ≤ (b - T.f) ⬝ᵥ (b - T.f) := by
  have hc : 6 * k = 6 * (active Q.cs).length := congrArg (6 * ·) hk
  obtain ⟨r, a, e1, e2, hbest⟩ := C92_reduced_levels_least_partial hA (mul_eq_one_comm.mp hR.1) hJ hcpl h h0 hn (C03_feet_determine_base hR (by omega) hf)
    hS hC h6 hp hc (by omega) hN hlim hsolve hT hab hla hret
  refine ⟨r, a, e1, e2, fun b τj e hsup => ?_⟩
  obtain ⟨qdd, hM⟩ := (C01_contact_force_exact hA hS (s.G ∘ sysIdx.symm) (reducedGravityTorque D C + τj)).1
  obtain ⟨τ', F, hτ, hF⟩ := (C101_motion_iff (cs := Q.cs) hR hL hm hI hb hf hs hk hc hM.2).mpr (hsup _ _ hM)
  have e' : reducedGravityTorque D C + τj + (τ' - (reducedGravityTorque D C + τj)) = τ' := add_sub_cancel _ _
  refine hbest b τj (τ' - (reducedGravityTorque D C + τj)) e (unmoved_of_same hA hM (e'.symm ▸ hτ)) fun qdd F h => ?_
  rw [e'] at h
  have u := (C01_contact_force_exact hA hS (s.G ∘ sysIdx.symm) τ').2.1
  rwa [(u _ _ h).trans (u _ _ hτ).symm]

end

end Verif.Props
