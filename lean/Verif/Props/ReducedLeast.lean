import Verif.Props.ReducedMix

/-!
# C76: what a cycle with the reduced model does to friction forces and contact moments
-/

set_option linter.unusedSectionVars false

namespace Verif.Props
open Matrix Verif Verif.Model Verif.Spec

/-- Squared friction forces and moments of all active contacts, each in its own frame; the forces along the normals do not count. -/
def frictionAndMoments (cs : List ContactLink) (F : Fin (6 * (active cs).length) → ℝ) : ℝ :=
  ∑ i : Fin (active cs).length, ∑ j ∈ ({0, 1, 3, 4, 5} : Finset (Fin 6)), inFrame (active cs)[i].rotm (wrenchOf F i) j ^ 2

theorem weightOf_cost {cs : List ContactLink} {c : ℕ} (h : c = 6 * (active cs).length) {Wt : Matrix (Fin c) (Fin c) ℝ}
    (hW : RSession.weightOf cs c = some Wt) (F : Fin c → ℝ) :
    (Wt *ᵥ F) ⬝ᵥ (Wt *ᵥ F) = frictionAndMoments cs (F ∘ Fin.cast h.symm) := by
  subst h
  simp only [RSession.weightOf, dif_pos] at hW
  obtain rfl := Option.some.inj hW
  exact (C11_weight (fun i => (active cs)[i].rotm) F).2

/-- A torque that leaves one motion as it is leaves all motions as they are. -/
theorem still_of_once {ι : Type*} [Fintype ι] [DecidableEq ι] {c : ℕ} {A : Matrix (Fin 6 ⊕ ι) (Fin 6 ⊕ ι) ℝ}
    {J : Matrix (Fin c) (Fin 6 ⊕ ι) ℝ} {S : ContactSpace c ι} {G : Fin 6 ⊕ ι → ℝ} (hA : IsSPD A) (hS : contactSpace J A⁻¹ = some S)
    {τ0 τi : ι → ℝ} {q q' : Fin 6 ⊕ ι → ℝ} {F F' : Fin c → ℝ} (h : Motion A J G τ0 q F) (h' : Motion A J G (τ0 + τi) q' F')
    (he : q' = q) : ∀ τ' qdd qdd' F F', Motion A J G τ' qdd F → Motion A J G (τ' + τi) qdd' F' → qdd' = qdd := by
  intro τ' a a' f f' hm hm'
  rw [motion_iff hA hS] at h h' hm hm'
  have e : ∀ τ : ι → ℝ, actuate (τ + τi) = actuate τ + actuate τi := fun τ => by
    ext x; rcases x with x | x <;> simp [actuate]
  rw [h.1, h'.1, e, add_sub_right_comm, mulVec_add, add_eq_left] at he
  rw [hm.1, hm'.1, e, add_sub_right_comm, mulVec_add, he, add_zero]

variable {X : Type*} {n : ℕ} {E : ReducedEnv X n} {x0 : X} {cc : List ContactLink} {ts : List ℕ} {limit : Option (Fin n → ℝ)}

/-- C76.  Under the hypotheses of `C76_cycle_safe_partial`, with an exact and complete solver: among all torques that move the robot in
the same way, keep every contact and respect the lower limit of the contact chains, the torque sent has the least friction forces and
contact moments, in the frames the contacts have in configuration `x`. -/
theorem C76_cycle_least_partial {hist : List (RCall X)} {r : RSession X n} {x : X} {v : List Bool} {fs : List (ℕ → ℝ)} {sp : RSplit n}
    (hr : (RSession.loaded x0 cc ts limit).run E (hist ++ reducedCycle x v fs true) = some r) (ht : r.s.taskRet = 1)
    (hc : r.s.contactRet = 1) (hv : v.length ≤ cc.length) (hf : fs.length = ts.length) (hR : Reducible E x (switchedOn v) sp)
    (hk : ∀ κ ∈ r.kinds, κ.noncont = false) (hp : ∀ l ∈ cc, 0 < l.planeX ∧ 0 < l.planeY) (hs : E.rsolve.Exact)
    (hcomp : E.rsolve.Complete) {τ' : Fin n → ℝ} {qdd : Fin 6 ⊕ Fin n → ℝ} {F F' : Fin (6 * (switchedOn v).length) → ℝ}
    (hM : Motion (E.mass x) (Session.stackJac E.toControlEnv x (switchedOn v)) (E.gravity x) r.command qdd F)
    (hM' : Motion (E.mass x) (Session.stackJac E.toControlEnv x (switchedOn v)) (E.gravity x) τ' qdd F')
    (hold : ContactsHold (contactsNow E.toControlEnv cc x v) (F' ∘ Fin.cast (active_contactsNow x hv)))
    (hlow : ∀ L, limit = some L → ∀ i : Fin sp.k, -L (jointEquiv sp.sum (.inl i)) ≤ τ' (jointEquiv sp.sum (.inl i))) :
    frictionAndMoments (contactsNow E.toControlEnv cc x v) (F ∘ Fin.cast (active_contactsNow x hv)) ≤
      frictionAndMoments (contactsNow E.toControlEnv cc x v) (F' ∘ Fin.cast (active_contactsNow x hv)) := by
  obtain ⟨S, hS⟩ := Option.isSome_iff_exists.mp ((C02_finite_iff_independent hR.spd).mpr hR.indepR)
  rw [rrun_append] at hr
  obtain ⟨r0, h0, hr⟩ := Option.bind_eq_some_iff.mp hr
  have hs0 := rrun_sameSetup h0
  have hl0 : r0.s.cc.length = cc.length := by
    simpa [RSession.loaded, Session.loaded] using (congrArg List.length hs0.cc).symm
  have ht0 : r0.s.ts.length = ts.length := by
    simpa [RSession.loaded, Session.loaded] using (congrArg List.length hs0.ts).symm
  obtain ⟨h6d, m, q, o, P⟩ := rcycle_some hr (hl0 ▸ hv) (ht0 ▸ hf)
  obtain ⟨J, D, C, N, g, rfl, hqq, hJ, hD, hC, hN⟩ := given_members hR hs0 hv P.dyn P.con
  cases hqq
  have hcc : (givenAt E.toControlEnv r0.s x v fs).cc = contactsNow E.toControlEnv cc x v :=
    (posed_setFlags _ v hs0.cc).symm.trans (contactsAt_eq x v)
  have hlim : (givenAt E.toControlEnv r0.s x v fs).limit = limit := hs0.limit.symm
  have htask := P.task
  rw [← P.kinds] at htask
  have hasm := taskAt_chain hk htask (P.taskRet.symm.trans ht)
  rcases P.red with ⟨h6, p, hp1, hτc, hret⟩ | ⟨-, -, h⟩
  swap
  · omega
  simp only [redOut, redAt, if_true, hcc, hlim] at hp1
  obtain ⟨Wt, hWt, hp1⟩ := Option.bind_eq_some_iff.mp hp1
  have hp2 : p = (1, p.2) := by
    rw [← hret.symm.trans hc]
  rw [hp2] at hp1
  have h6' : ∀ l ∈ contactsNow E.toControlEnv cc x v, l.type = .c6d := by
    have h6c : cc.all (fun l => l.type == .c6d) = true := (all_registered hs0.cc).trans h6d
    intro l hl
    obtain ⟨i, hi, rfl⟩ := List.mem_mapIdx.mp hl
    simpa using List.all_eq_true.mp h6c _ (List.getElem_mem hi)
  have hp' : ∀ l ∈ contactsNow E.toControlEnv cc x v, 0 < l.planeX ∧ 0 < l.planeY := by
    intro l hl
    obtain ⟨i, hi, rfl⟩ := List.mem_mapIdx.mp hl
    exact hp cc[i] (List.getElem_mem hi)
  obtain ⟨hgood, hleast⟩ := (C59_succeeds_iff_partial (Q := ⟨N, limit.map fun L => ⟨n, L⟩, contactsNow E.toControlEnv cc x v⟩)
    hR.spd hR.rot hJ hR.couplingR hD hR.chainsR hR.rows hR.baseR hS hC h6' hp' (active_contactsNow x hv).symm h6 (hN h6) hs hcomp
    o.2.2 0 _).2 p.2 hp1
  have hcmd : r.command ∘ jointEquiv sp.sum = reducedGravityTorque D C + assembleTorque D o.2.2 0 + p.2 := by
    rw [← hasm]
    ext i
    simp only [RSession.command, Session.command, P.τg, P.τt, hτc, Function.comp, Pi.add_apply, Equiv.symm_apply_apply]
  -- the other torque as a redistribution
  obtain ⟨τi, hτi⟩ : ∃ τi, τi = τ' ∘ jointEquiv sp.sum - (reducedGravityTorque D C + assembleTorque D o.2.2 0) := ⟨_, rfl⟩
  have hτ' : τ' ∘ jointEquiv sp.sum = reducedGravityTorque D C + assembleTorque D o.2.2 0 + τi := by rw [hτi]; abel
  have hm := motion_reindex (jointEquiv sp.sum) hM
  have hm' := motion_reindex (jointEquiv sp.sum) hM'
  rw [hcmd] at hm
  rw [hτ'] at hm'
  rw [← weightOf_cost (active_contactsNow x hv).symm hWt F, ← weightOf_cost (active_contactsNow x hv).symm hWt F']
  refine hleast τi ⟨?_, ?_, ?_⟩ _ _ _ _ hm hm'
  · obtain ⟨⟨q0, hq0⟩, -, -⟩ := C01_contact_force_exact hR.spd hS (E.gravity x ∘ sysEquiv sp.sum)
      (reducedGravityTorque D C + assembleTorque D o.2.2 0)
    exact still_of_once hR.spd hS hq0 hm' (hgood.1 _ _ _ _ _ hq0 hm)
  · intro a f hmf
    have := ((motion_iff hR.spd hS _ _ _ _).mp hmf).2.trans ((motion_iff hR.spd hS _ _ _ _).mp hm').2.symm
    rw [this]
    exact hold
  · intro m L hL
    obtain ⟨hm, -, h3⟩ := hgood.2.2 m L hL
    refine ⟨hm, fun i => ?_, h3⟩
    rcases hlimit : limit with _ | L0
    · rw [hlimit] at hL; cases hL
    · rw [hlimit] at hL
      have h4 := hlow L0 hlimit i
      cases hL
      rw [← hτ']
      exact h4

/-- Both feet, after any calls; the torque sent itself is one of the torques it is compared with. -/
example (cod : (W : Matrix (Fin 12) (Fin 12) ℝ) → CodNull W)
    (codR : (k : ℕ) → (W : Matrix (Fin k ⊕ Fin 6) (Fin k ⊕ Fin 6) ℝ) → CodNull W) {hist : List (RCall ℝ)} {r0 : RSession ℝ 12}
    (h0 : (RSession.loaded 0 Mix.feet [] Mix.ten).run (Mix.env cod codR) hist = some r0) :
    ∃ r, (RSession.loaded 0 Mix.feet [] Mix.ten).run (Mix.env cod codR) (hist ++ reducedCycle 1 [true, true] [] true) = some r ∧
      r.s.taskRet = 1 ∧ r.s.contactRet = 1 ∧ Reducible (Mix.env cod codR) 1 (switchedOn [true, true]) Mix.sp ∧
      (∀ κ ∈ r.kinds, κ.noncont = false) ∧ (Mix.env cod codR).rsolve.Exact ∧ (Mix.env cod codR).rsolve.Complete := by
  obtain ⟨r, hr, h1, h2, h3⟩ := Mix.bothFeet cod codR (rrun_sameSetup h0)
  refine ⟨r, ?_, h1, h2, Mix.reducible2 cod codR 1, ?_, Stand.rsolver_exact, Stand.rsolver_complete⟩
  · rw [rrun_append, h0, Option.bind_some, hr]
  · simp [h3]

end Verif.Props
