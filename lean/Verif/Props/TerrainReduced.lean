import Verif.Props.Terrain
import Verif.Props.StanceReduced

/-!
# C103: standing on any terrain, with the reduced model
-/

set_option linter.unusedSectionVars false

namespace Verif.Props
open Matrix Verif Verif.Spec Verif.Model Verif.Lemmas

section
variable {k n nc : ℕ} {J : Matrix (Fin 6) (Fin nc) ℝ} {D : Reduced (Fin n) (Fin nc)} {S : ContactSpace (6 * k) (Fin n ⊕ Fin nc)}
  {C : ReducedContact (6 * k) (Fin n) (Fin nc)} {SI : Mat6} {Q : RQPRobot n (6 * k)}
variable {L : List (MovingLink (Sys (Fin n ⊕ Fin nc)))} {x0 : Vec3} {R0 : Mat3} {g : Fin k → Foot (Fin n ⊕ Fin nc)} {p : Fin k → Vec3}
  {qd : Sys (Fin n ⊕ Fin nc) → ℝ} {s : WholeBody (Fin n ⊕ Fin nc)}

/-- **C103 (redistribution with the reduced model).**  A torque that holds the robot still on several feet; no torque limits, an exact solver that answers
every solvable problem: redistribution with the reduced model succeeds if and only if the centre of mass of the full robot is in the support region of its feet, whatever
the terrain. -/
theorem C103_reduced_redistribute_iff (hR : IsRot R0) (hL : L ≠ []) (hm : ∀ l ∈ L, 0 < l.m) (hI : ∀ l ∈ L, l.I.PosDef)
    (hb : ∀ l ∈ L, FloatingBase x0 R0 l)
    (hf : ∀ i, RidesOnBase x0 R0 (p i) (g i).jac) (hs : updateKinematics true (massMatrix L) x0 R0 (mass L) qd = some s)
    (hA : IsSPD (ctrlMass L)) (hJ : jInc SI R0 (baseNc (ctrlMass L)) = some J)
    (hcpl : ∀ (i : Fin n) (j : Fin nc), ctrlMass L (.inr (.inl i)) (.inr (.inr j)) = 0)
    (h : reduce vcOf ncOf (ctrlMass L)⁻¹ J (s.G ∘ sysIdx.symm) = some D) (h0 : ∀ r j, stackFn g r (ncOf j) = 0) (hn : n ≤ 6 * k)
    (hS : contactSpace (stackFn g) (ctrlMass L)⁻¹ = some S) (hC : reducedContact D (stackFn g) (ctrlMass L)⁻¹ = some C)
    (h6 : ∀ l ∈ Q.cs, l.type = .c6d) (hk : k = (active Q.cs).length) (hk1 : 1 < k) (hp : ∀ l ∈ Q.cs, 0 < l.planeX ∧ 0 < l.planeY)
    {f : CodNull C.W} (hN : reducedNwJw C f = some Q.NwJw) {Wt : Matrix (Fin (6 * k)) (Fin (6 * k)) ℝ}
    {solve : RSolver} (hsolve : solve.Exact) (hcomp : solve.Complete) (hlim : Q.limit = none) {τR : Fin n ⊕ Fin 6 → ℝ} {τN : Fin nc → ℝ}
    (old : Fin n ⊕ Fin nc → ℝ) {F : Fin (6 * k) → ℝ}
    (hM : Motion (ctrlMass L) (stackFn g) (s.G ∘ sysIdx.symm) (reducedGravityTorque D C + assembleTorque D τR τN) 0 F) :
    (∃ τc, reducedRedistribute D C Q Wt solve τR old = some (1, τc)) ↔ s.comPos ∈ standRegion Q.cs hk p := by
  have hc : 6 * k = 6 * (active Q.cs).length := congrArg (6 * ·) hk
  have hst := C103_stands_iff hR hL hm hI hb hf hs hk hc hp
  rw [(C59_succeeds_iff_partial hA (mul_eq_one_comm.mp hR.1) hJ hcpl h h0 hn (C03_feet_determine_base hR (by omega) hf) hS hC h6 hp hc (by omega) hN (Wt := Wt) hsolve hcomp τR τN
    old).1, ← hst]
  constructor
  · rintro ⟨τi, m1, m2, -⟩
    obtain ⟨qdd, hM'⟩ := (C01_contact_force_exact hA hS (s.G ∘ sysIdx.symm) (reducedGravityTorque D C + assembleTorque D τR τN + τi)).1
    have hq := m1 _ _ _ _ _ hM hM'
    subst hq
    exact ⟨_, _, hM', m2 _ _ hM'⟩
  · rintro ⟨τ, F', hτ, hF'⟩
    have e : reducedGravityTorque D C + assembleTorque D τR τN + (τ - (reducedGravityTorque D C + assembleTorque D τR τN)) = τ := add_sub_cancel _ _
    refine ⟨τ - (reducedGravityTorque D C + assembleTorque D τR τN), ?_, fun qdd F1 h1 => ?_, by simp [hlim]⟩
    · exact unmoved_of_same hA hM (e.symm ▸ hτ)
    · rw [e] at h1
      have u := (C01_contact_force_exact hA hS (s.G ∘ sysIdx.symm) τ).2.1
      rwa [(u _ _ h1).trans (u _ _ hτ).symm]

/-- **C103 (task control with the reduced model cannot fail in the support region).**  All tasks regular and on the contact chains, no torque limits, a
solver that answers every solvable problem: with the centre of mass in the support region of several feet task control succeeds. -/
theorem C103_reduced_never_fails (hR : IsRot R0) (hL : L ≠ []) (hm : ∀ l ∈ L, 0 < l.m) (hI : ∀ l ∈ L, l.I.PosDef)
    (hb : ∀ l ∈ L, FloatingBase x0 R0 l)
    (hf : ∀ i, RidesOnBase x0 R0 (p i) (g i).jac) (hs : updateKinematics true (massMatrix L) x0 R0 (mass L) qd = some s)
    (hA : IsSPD (ctrlMass L)) (hJ : jInc SI R0 (baseNc (ctrlMass L)) = some J)
    (hcpl : ∀ (i : Fin n) (j : Fin nc), ctrlMass L (.inr (.inl i)) (.inr (.inr j)) = 0)
    (h : reduce vcOf ncOf (ctrlMass L)⁻¹ J (s.G ∘ sysIdx.symm) = some D) (h0 : ∀ r j, stackFn g r (ncOf j) = 0) (hn : n ≤ 6 * k)
    (hS : contactSpace (stackFn g) (ctrlMass L)⁻¹ = some S) (hC : reducedContact D (stackFn g) (ctrlMass L)⁻¹ = some C)
    (h6 : ∀ l ∈ Q.cs, l.type = .c6d) (hk : k = (active Q.cs).length) (hk1 : 1 < k) (hp : ∀ l ∈ Q.cs, 0 < l.planeX ∧ 0 < l.planeY)
    {f : CodNull C.W} (hN : reducedNwJw C f = some Q.NwJw) {solve : Solver} (hsolve : solve.Sound) (hcomp : solve.Complete) (hlim : Q.limit = none)
    {ts : List (RTaskIn (Fin n) (Fin nc))} (hts : ∀ T ∈ ts, T.noncont = false ∧ ∃ q, calcJKTR D C ((ctrlMass L)⁻¹ * C.Nc) T = some q)
    (hcom : s.comPos ∈ standRegion Q.cs hk p) :
    ∃ τ τR, reducedTaskTorqueQP D C R0 (ctrlMass L)⁻¹ Q solve ts = .ret 1 τ τR := by
  have hc : 6 * k = 6 * (active Q.cs).length := congrArg (6 * ·) hk
  have hB := C03_feet_determine_base hR (by omega : 0 < k) hf
  have hRR := mul_eq_one_comm.mp hR.1
  obtain ⟨τ, F', hτ, hF'⟩ := (C103_stands_iff hR hL hm hI hb hf hs hk hc hp).mpr hcom
  -- gravity compensation holds the robot still
  obtain ⟨q0, hM⟩ := (C01_contact_force_exact hA hS (s.G ∘ sysIdx.symm) (reducedGravityTorque D C)).1
  have hq0 : q0 = 0 := by
    rw [C41_gravity_torque_partial hA h h0 hn hB hS hC] at hM
    exact (C03_gravity_compensation hA hS _ hM).2 hB
  subst hq0
  have hz0 : assembleTorque D (0 : Fin n ⊕ Fin 6 → ℝ) (0 : Fin nc → ℝ) = 0 := by
    have e0 : (fun _ : Fin 6 => (0 : ℝ)) = 0 := rfl
    ext j
    rcases j with j | j
    · simp [assembleTorque]
    · simp [assembleTorque, e0]
  have e : reducedGravityTorque D C + (τ - reducedGravityTorque D C) = τ := add_sub_cancel _ _
  have hsafe : RSafe (ctrlMass L) (stackFn g) (s.G ∘ sysIdx.symm) D C Q hc 0 (τ - reducedGravityTorque D C) := by
    refine ⟨unmoved_of_same hA hM (e.symm ▸ hτ), fun qdd F1 h1 => ?_, by simp [hlim]⟩
    rw [hz0, add_zero, e] at h1
    have u := (C01_contact_force_exact hA hS (s.G ∘ sysIdx.symm) τ).2.1
    rwa [(u _ _ h1).trans (u _ _ hτ).symm]
  -- the call is defined
  obtain ⟨Cm, hst, -⟩ := stackC_holds (c := 6 * k) h6 hp hc
  have hfit : Q.fit = some none := by unfold RQPRobot.fit; rw [hlim]
  have hdef : ∃ v τ τR, reducedTaskTorqueQP D C R0 (ctrlMass L)⁻¹ Q solve ts = .ret v τ τR := by
    obtain ⟨rs, hrs, hrn⟩ : ∃ rs, ts.mapM (calcJKTR D C ((ctrlMass L)⁻¹ * C.Nc)) = some rs ∧ ∀ T ∈ rs, T.noncont = false := by
      clear hcom
      induction ts with
      | nil => exact ⟨[], rfl, by simp⟩
      | cons T ts ih =>
        obtain ⟨rs, h1, h2⟩ := ih fun T' h' => hts T' (List.mem_cons_of_mem _ h')
        obtain ⟨hT, q, hq⟩ := hts T (by simp)
        refine ⟨q :: rs, by simp [List.mapM_cons, hq, h1], ?_⟩
        intro T' h'
        rcases List.mem_cons.mp h' with rfl | h'
        · rw [noncont_of_calc hq]; exact hT
        · exact h2 T' h'
    unfold reducedTaskTorqueQP
    simp only [hrs]
    exact rqp_chain_defined hfit hst rs hrn _ _ _ _
  obtain ⟨v, τ', τR, hv⟩ := hdef
  rcases C69_failure_zero hv with rfl | ⟨rfl, -⟩
  · exact ⟨_, _, hv⟩
  · exact absurd hv (C69_never_fails_partial hA hRR hJ hcpl h h0 hn hB hS hC h6 hp hc (by omega) hN hsolve hcomp hsafe ts _ _)

end

end Verif.Props
