import Verif.Props.Supply
import Verif.Props.KeptReduced
import Verif.Props.StanceReduced

/-!
# C101 with the reduced model: which commands QP task control follows
-/

set_option linter.unusedSectionVars false

namespace Verif.Props
open Matrix Verif Verif.Spec Verif.Model Verif.Lemmas

section
variable {k n nc : ℕ} {J : Matrix (Fin 6) (Fin nc) ℝ} {D : Reduced (Fin n) (Fin nc)} {S : ContactSpace (6 * k) (Fin n ⊕ Fin nc)}
  {C : ReducedContact (6 * k) (Fin n) (Fin nc)} {SI : Mat6} {Q : RQPRobot n (6 * k)}
variable {L : List (MovingLink (Sys (Fin n ⊕ Fin nc)))} {x0 : Vec3} {R0 : Mat3} {g : Fin k → Foot (Fin n ⊕ Fin nc)} {p : Fin k → Vec3}
  {qd : Sys (Fin n ⊕ Fin nc) → ℝ} {s : WholeBody (Fin n ⊕ Fin nc)}

/-- **C101 (which commands QP task control with the reduced model follows).**  All tasks on the contact chains, no torque limits, two or more feet, an exact
solver: QP task control with the reduced model succeeds and leaves every command as it is if and only if, for each task, the torque without QP for this task
and those above it is defined and the feet can supply the force and the moment that the full robot's motion under it takes. -/
theorem C101_reduced_followed_iff (hR : IsRot R0) (hL : L ≠ []) (hm : ∀ l ∈ L, 0 < l.m) (hI : ∀ l ∈ L, l.I.PosDef)
    (hb : ∀ l ∈ L, FloatingBase x0 R0 l)
    (hf : ∀ i, RidesOnBase x0 R0 (p i) (g i).jac) (hs : updateKinematics true (massMatrix L) x0 R0 (mass L) qd = some s)
    (hA : IsSPD (ctrlMass L)) (hJ : jInc SI R0 (baseNc (ctrlMass L)) = some J)
    (hcpl : ∀ (i : Fin n) (j : Fin nc), ctrlMass L (.inr (.inl i)) (.inr (.inr j)) = 0)
    (h : reduce vcOf ncOf (ctrlMass L)⁻¹ J (s.G ∘ sysIdx.symm) = some D) (h0 : ∀ r j, stackFn g r (ncOf j) = 0) (hn : n ≤ 6 * k)
    (hS : contactSpace (stackFn g) (ctrlMass L)⁻¹ = some S) (hC : reducedContact D (stackFn g) (ctrlMass L)⁻¹ = some C)
    (h6 : ∀ l ∈ Q.cs, l.type = .c6d) (hk : k = (active Q.cs).length) (hk1 : 1 < k) (hp : ∀ l ∈ Q.cs, 0 < l.planeX ∧ 0 < l.planeY)
    {f : CodNull C.W} (hN : reducedNwJw C f = some Q.NwJw) {solve : Solver} (hsolve : solve.Exact) (hcomp : solve.Complete) (hlim : Q.limit = none)
    {ts : List (RTaskIn (Fin n) (Fin nc))} (hts : ∀ T ∈ ts, T.noncont = false) {rs : List (RTaskRecord n)} (hlen : ts.length = rs.length) :
    (∃ τ τR out, reducedTaskTorqueQPRec D C R0 (ctrlMass L)⁻¹ Q solve ts rs = (.ret 1 τ τR, out) ∧ ∀ r ∈ out, r.fqp.2 = 0) ↔
      ∀ j < ts.length, ∃ τj, reducedTaskTorque D C R0 (ctrlMass L)⁻¹ (ts.take (j + 1)) = some τj ∧
        ∀ qdd F, Motion (ctrlMass L) (stackFn g) (s.G ∘ sysIdx.symm) (reducedGravityTorque D C + τj) qdd F →
          FeetSupply Q.cs hk p s.comPos (mass L • (earth - s.jacLin *ᵥ (qdd ∘ sysIdx))) (-(angularMomentum s.comPos L (qdd ∘ sysIdx))) := by
  have hc : 6 * k = 6 * (active Q.cs).length := congrArg (6 * ·) hk
  rw [C48_reduced_kept_iff_partial hA (mul_eq_one_comm.mp hR.1) hJ hcpl h h0 hn (C03_feet_determine_base hR (by omega) hf) hS hC h6 hp hc (by omega) hN hlim
    hsolve hcomp hts hlen]
  refine forall_congr' fun j => forall_congr' fun _ => ⟨fun ⟨τj, δ, e, m1, m2⟩ => ⟨τj, e, fun qdd F hM => ?_⟩, fun ⟨τj, e, h⟩ => ?_⟩
  · obtain ⟨q', hM'⟩ := (C01_contact_force_exact hA hS (s.G ∘ sysIdx.symm) (reducedGravityTorque D C + τj + δ)).1
    obtain rfl := m1 _ _ _ _ _ hM hM'
    exact (C101_motion_iff hR hL hm hI hb hf hs hk hc hM.2).mp ⟨_, _, hM', m2 _ _ hM'⟩
  · obtain ⟨qdd, hM⟩ := (C01_contact_force_exact hA hS (s.G ∘ sysIdx.symm) (reducedGravityTorque D C + τj)).1
    obtain ⟨τ', F, hτ, hF⟩ := (C101_motion_iff (cs := Q.cs) hR hL hm hI hb hf hs hk hc hM.2).mpr (h _ _ hM)
    have e' : reducedGravityTorque D C + τj + (τ' - (reducedGravityTorque D C + τj)) = τ' := add_sub_cancel _ _
    refine ⟨τj, τ' - (reducedGravityTorque D C + τj), e, unmoved_of_same hA hM (e'.symm ▸ hτ), fun qdd F h => ?_⟩
    rw [e'] at h
    have u := (C01_contact_force_exact hA hS (s.G ∘ sysIdx.symm) τ').2.1
    rwa [(u _ _ h).trans (u _ _ hτ).symm]

end

end Verif.Props
