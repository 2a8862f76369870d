import Verif.Props.Stance
import Verif.Props.ReducedFail
import Verif.Props.JaccAnswers

/-!
# C100: the support polygon and the other ways to control the robot
-/

set_option linter.unusedSectionVars false

namespace Verif.Props
open Matrix Verif Verif.Spec Verif.Model Verif.Lemmas

section
variable {ι : Type} [Fintype ι] [DecidableEq ι] {k : ℕ}
variable {L : List (MovingLink (Sys ι))} {x0 : Vec3} {R0 : Mat3} {g : Fin k → Foot ι} {p : Fin k → Vec3} {qd : Sys ι → ℝ} {s : WholeBody ι}

/-- Two torques that cause the same motion once differ by a torque that moves nothing. -/
theorem unmoved_of_same {c : ℕ} {A : Matrix (Fin 6 ⊕ ι) (Fin 6 ⊕ ι) ℝ} {J : Matrix (Fin c) (Fin 6 ⊕ ι) ℝ} {G : Fin 6 ⊕ ι → ℝ} (hA : IsSPD A) {τ δ : ι → ℝ} {qdd : Fin 6 ⊕ ι → ℝ} {F F' : Fin c → ℝ}
    (h : Motion A J G τ qdd F) (h' : Motion A J G (τ + δ) qdd F') : ∀ τ qdd qdd' F F', Motion A J G τ qdd F → Motion A J G (τ + δ) qdd' F' → qdd' = qdd := by
  intro τ₁ q q' K K' h1 h2
  have hadd : ∀ a b : ι → ℝ, actuate (a + b) = actuate a + actuate b := fun a b => by
    funext i; rcases i with i | i <;> simp [actuate]
  have e1 : A *ᵥ qdd + Jᵀ *ᵥ F + G = actuate τ := h.1
  have e2 : A *ᵥ qdd + Jᵀ *ᵥ F' + G = actuate τ + actuate δ := by rw [← hadd]; exact h'.1
  have e3 : A *ᵥ q + Jᵀ *ᵥ K + G = actuate τ₁ := h1.1
  have e4 : A *ᵥ q' + Jᵀ *ᵥ K' + G = actuate τ₁ + actuate δ := by rw [← hadd]; exact h2.1
  have hj : J *ᵥ (q' - q) = 0 := by
    have f1 : J *ᵥ q = 0 := h1.2
    have f2 : J *ᵥ q' = 0 := h2.2
    rw [mulVec_sub, f1, f2, sub_self]
  have e5 : A *ᵥ (q' - q) = Jᵀ *ᵥ (F' - F - K' + K) := by
    simp only [mulVec_sub, mulVec_add]
    linear_combination (exp := 1) e4 - e3 - e2 + e1
  have e6 : (q' - q) ⬝ᵥ (A *ᵥ (q' - q)) = 0 := by
    rw [e5, dotProduct_mulVec, vecMul_transpose, hj, zero_dotProduct]
  by_contra hne
  exact (hA.pos _ (sub_ne_zero.mpr hne)).ne' e6

/-- **C100 (joint-acceleration QP).**  Whatever the tasks: the motion of every level that reports success has its zero moment point in the support polygon.
In particular no level answers with a robot at rest unless the centre of mass is above the polygon. -/
theorem C100_jacc (hR : IsRot R0) (hL : L ≠ []) (hm : ∀ l ∈ L, 0 < l.m) (hI : ∀ l ∈ L, l.I.PosDef) (hb : ∀ l ∈ L, FloatingBase x0 R0 l)
    (hf : ∀ i, RidesOnBase x0 R0 (p i) (g i).jac) (hs : updateKinematics true (massMatrix L) x0 R0 (mass L) qd = some s)
    (hA : IsSPD (ctrlMass L)) {S : ContactSpace (6 * k) ι} (hS : contactSpace (stackFn g) (ctrlMass L)⁻¹ = some S)
    {cs : List ContactLink} {lim : Option (ι → ℝ)} (h6 : ∀ l ∈ cs, l.type = .c6d)
    (hk : k = (active cs).length) (hk0 : 0 < k) (hp : ∀ l ∈ cs, 0 < l.planeX ∧ 0 < l.planeY)
    (hμ : ∀ l ∈ active cs, 0 ≤ l.friction ∧ 0 ≤ l.frictionZ) (hflat : ∀ l ∈ active cs, Flat l.rotm) {z : ℝ}
    (hz : ∀ i, p i 2 = z) {solve : JSolver} (hsolve : solve.Sound) {ts ts' : List (JTask ι (6 * k))} {m : ℕ}
    (h : jaccPass ⟨ctrlMass L, s.G ∘ sysIdx.symm, stackFn g, cs, lim⟩ solve ts m = some (true, ts')) :
    ∃ o : ℕ → JAnswer ι (6 * k), (∀ j < m, ∃ T', ts'[j]? = some T' ∧ T'.out = some (o j)) ∧ ∀ j < m,
      Motion (ctrlMass L) (stackFn g) (s.G ∘ sysIdx.symm) (o j).torque (o j).acc (o j).force ∧
      let a := s.jacLin *ᵥ ((o j).acc ∘ sysIdx)
      let η := angularMomentum s.comPos L ((o j).acc ∘ sysIdx)
      (∃ q ∈ polygon cs hk p, q 2 = z ∧
        mass L * (9.81 + a 2) * (q 0 - s.comPos 0) = -(mass L * (s.comPos 2 - z) * a 0) - η 1 ∧
        mass L * (9.81 + a 2) * (q 1 - s.comPos 1) = -(mass L * (s.comPos 2 - z) * a 1) + η 0) ∧
      ((o j).acc = 0 → ![s.comPos 0, s.comPos 1, z] ∈ polygon cs hk p) := by
  have hc : 6 * k = 6 * (active cs).length := congrArg (6 * ·) hk
  obtain ⟨o, h1, h2⟩ := C35_stack_partial (R := ⟨ctrlMass L, s.G ∘ sysIdx.symm, stackFn g, cs, lim⟩) h6 hp hc hsolve h
  refine ⟨o, h1, fun j hj => ?_⟩
  obtain ⟨ho, -⟩ := h2 j hj
  have hM : Motion (ctrlMass L) (stackFn g) (s.G ∘ sysIdx.symm) (o j).torque (o j).acc (o j).force := ho.motion
  refine ⟨hM, C100_motion hR hL hm hI hb hf hs hA hS hk hc hk0 hp hflat hz hM ho.contacts, fun h0 => ?_⟩
  rw [h0] at hM
  exact (C100_stands_iff hR hL hm hI hb hf hs hA hS hk hc hk0 hp hμ hflat hz).mp ⟨_, _, hM, ho.contacts⟩

end

section
variable {k n nc : ℕ} {J : Matrix (Fin 6) (Fin nc) ℝ} {D : Reduced (Fin n) (Fin nc)} {S : ContactSpace (6 * k) (Fin n ⊕ Fin nc)}
  {C : ReducedContact (6 * k) (Fin n) (Fin nc)} {SI : Mat6} {Q : RQPRobot n (6 * k)}
variable {L : List (MovingLink (Sys (Fin n ⊕ Fin nc)))} {x0 : Vec3} {R0 : Mat3} {g : Fin k → Foot (Fin n ⊕ Fin nc)} {p : Fin k → Vec3}
  {qd : Sys (Fin n ⊕ Fin nc) → ℝ} {s : WholeBody (Fin n ⊕ Fin nc)}

/-- **C100 (task control with the reduced model).**  All tasks on the contact chains: whenever QP task control with the reduced model reports success, the
motion of the full robot under its torque has its zero moment point in the support polygon. -/
theorem C100_reduced_task_control (hR : IsRot R0) (hL : L ≠ []) (hm : ∀ l ∈ L, 0 < l.m) (hI : ∀ l ∈ L, l.I.PosDef) (hb : ∀ l ∈ L, FloatingBase x0 R0 l)
    (hf : ∀ i, RidesOnBase x0 R0 (p i) (g i).jac) (hs : updateKinematics true (massMatrix L) x0 R0 (mass L) qd = some s)
    (hA : IsSPD (ctrlMass L)) (hJ : jInc SI R0 (baseNc (ctrlMass L)) = some J)
    (hcpl : ∀ (i : Fin n) (j : Fin nc), ctrlMass L (.inr (.inl i)) (.inr (.inr j)) = 0)
    (h : reduce vcOf ncOf (ctrlMass L)⁻¹ J (s.G ∘ sysIdx.symm) = some D) (h0 : ∀ r j, stackFn g r (ncOf j) = 0) (hn : n ≤ 6 * k)
    (hS : contactSpace (stackFn g) (ctrlMass L)⁻¹ = some S) (hC : reducedContact D (stackFn g) (ctrlMass L)⁻¹ = some C)
    (h6 : ∀ l ∈ Q.cs, l.type = .c6d) (hk : k = (active Q.cs).length) (hk0 : 0 < k) (hp : ∀ l ∈ Q.cs, 0 < l.planeX ∧ 0 < l.planeY)
    (hflat : ∀ l ∈ active Q.cs, Flat l.rotm) {z : ℝ} (hz : ∀ i, p i 2 = z)
    {f : CodNull C.W} (hN : 6 < 6 * k → reducedNwJw C f = some Q.NwJw)
    {solve : Solver} (hsolve : solve.Sound) {ts : List (RTaskIn (Fin n) (Fin nc))} (hne : ts ≠ []) (hts : ∀ T ∈ ts, T.noncont = false)
    {τ : Fin n ⊕ Fin nc → ℝ} {τR : Fin n ⊕ Fin 6 → ℝ} (hr : reducedTaskTorqueQP D C R0 (ctrlMass L)⁻¹ Q solve ts = .ret 1 τ τR) :
    ∃ qdd F, Motion (ctrlMass L) (stackFn g) (s.G ∘ sysIdx.symm) (reducedGravityTorque D C + τ) qdd F ∧
      let a := s.jacLin *ᵥ (qdd ∘ sysIdx)
      let η := angularMomentum s.comPos L (qdd ∘ sysIdx)
      ∃ q ∈ polygon Q.cs hk p, q 2 = z ∧
        mass L * (9.81 + a 2) * (q 0 - s.comPos 0) = -(mass L * (s.comPos 2 - z) * a 0) - η 1 ∧
        mass L * (9.81 + a 2) * (q 1 - s.comPos 1) = -(mass L * (s.comPos 2 - z) * a 1) + η 0 := by
  have hc : 6 * k = 6 * (active Q.cs).length := congrArg (6 * ·) hk
  obtain ⟨τc, -, hst, -, hhold⟩ := C58_contacts_hold_partial hA (mul_eq_one_comm.mp hR.1) hJ hcpl h h0 hn (C03_feet_determine_base hR hk0 hf) hS hC h6 hp hc hN hsolve hne hts hr
  obtain ⟨qdd, hM⟩ := (C01_contact_force_exact hA hS (s.G ∘ sysIdx.symm) (reducedGravityTorque D C + τ)).1
  obtain ⟨qdd', hM'⟩ := (C01_contact_force_exact hA hS (s.G ∘ sysIdx.symm) (reducedGravityTorque D C + τ + τc)).1
  obtain rfl := hst _ _ _ _ _ hM hM'
  exact ⟨_, _, hM, C100_motion hR hL hm hI hb hf hs hA hS hk hc hk0 hp hflat hz hM' (hhold _ _ hM')⟩

/-- **C100 (redistribution with the reduced model).**  A torque that holds the robot still on several feet; no torque limits, an exact solver that answers
every solvable problem: redistribution with the reduced model succeeds if and only if the centre of mass of the full robot is above the support polygon. -/
theorem C100_reduced_redistribute_iff (hR : IsRot R0) (hL : L ≠ []) (hm : ∀ l ∈ L, 0 < l.m) (hI : ∀ l ∈ L, l.I.PosDef)
    (hb : ∀ l ∈ L, FloatingBase x0 R0 l)
    (hf : ∀ i, RidesOnBase x0 R0 (p i) (g i).jac) (hs : updateKinematics true (massMatrix L) x0 R0 (mass L) qd = some s)
    (hA : IsSPD (ctrlMass L)) (hJ : jInc SI R0 (baseNc (ctrlMass L)) = some J)
    (hcpl : ∀ (i : Fin n) (j : Fin nc), ctrlMass L (.inr (.inl i)) (.inr (.inr j)) = 0)
    (h : reduce vcOf ncOf (ctrlMass L)⁻¹ J (s.G ∘ sysIdx.symm) = some D) (h0 : ∀ r j, stackFn g r (ncOf j) = 0) (hn : n ≤ 6 * k)
    (hS : contactSpace (stackFn g) (ctrlMass L)⁻¹ = some S) (hC : reducedContact D (stackFn g) (ctrlMass L)⁻¹ = some C)
    (h6 : ∀ l ∈ Q.cs, l.type = .c6d) (hk : k = (active Q.cs).length) (hk1 : 1 < k) (hp : ∀ l ∈ Q.cs, 0 < l.planeX ∧ 0 < l.planeY)
    (hμ : ∀ l ∈ active Q.cs, 0 ≤ l.friction ∧ 0 ≤ l.frictionZ) (hflat : ∀ l ∈ active Q.cs, Flat l.rotm) {z : ℝ} (hz : ∀ i, p i 2 = z)
    {f : CodNull C.W} (hN : reducedNwJw C f = some Q.NwJw) {Wt : Matrix (Fin (6 * k)) (Fin (6 * k)) ℝ}
    {solve : RSolver} (hsolve : solve.Exact) (hcomp : solve.Complete) (hlim : Q.limit = none) {τR : Fin n ⊕ Fin 6 → ℝ} {τN : Fin nc → ℝ}
    (old : Fin n ⊕ Fin nc → ℝ) {F : Fin (6 * k) → ℝ}
    (hM : Motion (ctrlMass L) (stackFn g) (s.G ∘ sysIdx.symm) (reducedGravityTorque D C + assembleTorque D τR τN) 0 F) :
    (∃ τc, reducedRedistribute D C Q Wt solve τR old = some (1, τc)) ↔ ![s.comPos 0, s.comPos 1, z] ∈ polygon Q.cs hk p := by
  have hc : 6 * k = 6 * (active Q.cs).length := congrArg (6 * ·) hk
  have hst := C100_stands_iff hR hL hm hI hb hf hs hA hS hk hc (by omega) hp hμ hflat hz
  rw [(C59_succeeds_iff_partial hA (mul_eq_one_comm.mp hR.1) hJ hcpl h h0 hn (C03_feet_determine_base hR (by omega) hf) hS hC h6 hp hc (by omega) hN (Wt := Wt) hsolve hcomp τR τN
    old).1, ← hst]
  constructor
  · rintro ⟨τi, m1, m2, -⟩
    obtain ⟨qdd, hM'⟩ := (C01_contact_force_exact hA hS (s.G ∘ sysIdx.symm) (reducedGravityTorque D C + assembleTorque D τR τN + τi)).1
    have hq := m1 _ _ _ _ _ hM hM'
    subst hq
    exact ⟨_, _, hM', m2 _ _ hM'⟩
  · rintro ⟨τ, F', hτ, hF'⟩
    have e : reducedGravityTorque D C + assembleTorque D τR τN + (τ - (reducedGravityTorque D C + assembleTorque D τR τN)) = τ := add_sub_cancel _ _
    refine ⟨τ - (reducedGravityTorque D C + assembleTorque D τR τN), ?_, fun qdd F1 h1 => ?_, by simp [hlim]⟩
    · exact unmoved_of_same hA hM (e.symm ▸ hτ)
    · rw [e] at h1
      have u := (C01_contact_force_exact hA hS (s.G ∘ sysIdx.symm) τ).2.1
      rwa [(u _ _ h1).trans (u _ _ hτ).symm]

/-- Tasks on the chains only: the loop over the tasks is defined. -/
theorem rqp_chain_defined {P : Matrix (RSys (Fin n) (Fin nc)) (RSys (Fin n) (Fin nc)) ℝ} {K : Option (Matrix (Fin n ⊕ Fin 6) (Fin 6) ℝ)} {solve : Solver} {lim}
    (hfit : Q.fit = some lim) {Cm} (hst : stackC Q.cs (6 * k) = some Cm) (rs : List (RTask (Fin n) (Fin nc))) (h : ∀ T ∈ rs, T.noncont = false) :
    ∀ i prev τR f, ∃ v τ τR', rqpFrom D C R0 P K Q solve i prev τR f none rs = .ret v τ τR' := by
  induction rs with
  | nil => intro i prev τR f; exact ⟨1, _, _, rfl⟩
  | cons T rs ih =>
    intro i prev τR f
    obtain ⟨r, Cm⟩ := Cm
    unfold rqpFrom
    rw [if_neg (by rw [h T (by simp)]; simp)]
    simp only [hfit, hst]
    split
    · exact ⟨_, _, _, rfl⟩
    · exact ih (fun T' h' => h T' (List.mem_cons_of_mem _ h')) _ _ _ _

/-- **C100 (task control with the reduced model cannot fail over the support polygon).**  All tasks regular and on the contact chains, no torque limits, a
solver that answers every solvable problem: with the centre of mass above the support polygon of several feet task control succeeds. -/
theorem C100_reduced_never_fails (hR : IsRot R0) (hL : L ≠ []) (hm : ∀ l ∈ L, 0 < l.m) (hI : ∀ l ∈ L, l.I.PosDef)
    (hb : ∀ l ∈ L, FloatingBase x0 R0 l)
    (hf : ∀ i, RidesOnBase x0 R0 (p i) (g i).jac) (hs : updateKinematics true (massMatrix L) x0 R0 (mass L) qd = some s)
    (hA : IsSPD (ctrlMass L)) (hJ : jInc SI R0 (baseNc (ctrlMass L)) = some J)
    (hcpl : ∀ (i : Fin n) (j : Fin nc), ctrlMass L (.inr (.inl i)) (.inr (.inr j)) = 0)
    (h : reduce vcOf ncOf (ctrlMass L)⁻¹ J (s.G ∘ sysIdx.symm) = some D) (h0 : ∀ r j, stackFn g r (ncOf j) = 0) (hn : n ≤ 6 * k)
    (hS : contactSpace (stackFn g) (ctrlMass L)⁻¹ = some S) (hC : reducedContact D (stackFn g) (ctrlMass L)⁻¹ = some C)
    (h6 : ∀ l ∈ Q.cs, l.type = .c6d) (hk : k = (active Q.cs).length) (hk1 : 1 < k) (hp : ∀ l ∈ Q.cs, 0 < l.planeX ∧ 0 < l.planeY)
    (hμ : ∀ l ∈ active Q.cs, 0 ≤ l.friction ∧ 0 ≤ l.frictionZ) (hflat : ∀ l ∈ active Q.cs, Flat l.rotm) {z : ℝ} (hz : ∀ i, p i 2 = z)
    {f : CodNull C.W} (hN : reducedNwJw C f = some Q.NwJw) {solve : Solver} (hsolve : solve.Sound) (hcomp : solve.Complete) (hlim : Q.limit = none)
    {ts : List (RTaskIn (Fin n) (Fin nc))} (hts : ∀ T ∈ ts, T.noncont = false ∧ ∃ q, calcJKTR D C ((ctrlMass L)⁻¹ * C.Nc) T = some q)
    (hcom : ![s.comPos 0, s.comPos 1, z] ∈ polygon Q.cs hk p) :
    ∃ τ τR, reducedTaskTorqueQP D C R0 (ctrlMass L)⁻¹ Q solve ts = .ret 1 τ τR := by
  have hc : 6 * k = 6 * (active Q.cs).length := congrArg (6 * ·) hk
  have hB := C03_feet_determine_base hR (by omega : 0 < k) hf
  have hRR := mul_eq_one_comm.mp hR.1
  obtain ⟨τ, F', hτ, hF'⟩ := (C100_stands_iff hR hL hm hI hb hf hs hA hS hk hc (by omega) hp hμ hflat hz).mpr hcom
  -- gravity compensation holds the robot still
  obtain ⟨q0, hM⟩ := (C01_contact_force_exact hA hS (s.G ∘ sysIdx.symm) (reducedGravityTorque D C)).1
  have hq0 : q0 = 0 := by
    rw [C41_gravity_torque_partial hA h h0 hn hB hS hC] at hM
    exact (C03_gravity_compensation hA hS _ hM).2 hB
  subst hq0
  have hz0 : assembleTorque D (0 : Fin n ⊕ Fin 6 → ℝ) (0 : Fin nc → ℝ) = 0 := by
    have e0 : (fun _ : Fin 6 => (0 : ℝ)) = 0 := rfl
    ext j
    rcases j with j | j
    · simp [assembleTorque]
    · simp [assembleTorque, e0]
  have e : reducedGravityTorque D C + (τ - reducedGravityTorque D C) = τ := add_sub_cancel _ _
  have hsafe : RSafe (ctrlMass L) (stackFn g) (s.G ∘ sysIdx.symm) D C Q hc 0 (τ - reducedGravityTorque D C) := by
    refine ⟨unmoved_of_same hA hM (e.symm ▸ hτ), fun qdd F1 h1 => ?_, by simp [hlim]⟩
    rw [hz0, add_zero, e] at h1
    have u := (C01_contact_force_exact hA hS (s.G ∘ sysIdx.symm) τ).2.1
    rwa [(u _ _ h1).trans (u _ _ hτ).symm]
  -- the call is defined
  obtain ⟨Cm, hst, -⟩ := stackC_holds (c := 6 * k) h6 hp hc
  have hfit : Q.fit = some none := by unfold RQPRobot.fit; rw [hlim]
  have hdef : ∃ v τ τR, reducedTaskTorqueQP D C R0 (ctrlMass L)⁻¹ Q solve ts = .ret v τ τR := by
    obtain ⟨rs, hrs, hrn⟩ : ∃ rs, ts.mapM (calcJKTR D C ((ctrlMass L)⁻¹ * C.Nc)) = some rs ∧ ∀ T ∈ rs, T.noncont = false := by
      clear hcom
      induction ts with
      | nil => exact ⟨[], rfl, by simp⟩
      | cons T ts ih =>
        obtain ⟨rs, h1, h2⟩ := ih fun T' h' => hts T' (List.mem_cons_of_mem _ h')
        obtain ⟨hT, q, hq⟩ := hts T (by simp)
        refine ⟨q :: rs, by simp [List.mapM_cons, hq, h1], ?_⟩
        intro T' h'
        rcases List.mem_cons.mp h' with rfl | h'
        · rw [noncont_of_calc hq]; exact hT
        · exact h2 T' h'
    unfold reducedTaskTorqueQP
    simp only [hrs]
    exact rqp_chain_defined hfit hst rs hrn _ _ _ _
  obtain ⟨v, τ', τR, hv⟩ := hdef
  rcases C69_failure_zero hv with rfl | ⟨rfl, -⟩
  · exact ⟨_, _, hv⟩
  · exact absurd hv (C69_never_fails_partial hA hRR hJ hcpl h h0 hn hB hS hC h6 hp hc (by omega) hN hsolve hcomp hsafe ts _ _)

end

end Verif.Props
