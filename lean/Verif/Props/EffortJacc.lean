import Verif.Props.LoosenJacc
import Verif.Props.JaccAnswers
import Verif.Spec.Effort

/-!
# C86: the joint-acceleration QP spends no needless effort
-/

set_option linter.unusedSectionVars false

namespace Verif.Props
open Matrix Verif Verif.Spec Verif.Model

variable {ι : Type} [Fintype ι] [DecidableEq ι] {c : ℕ} {R : JRobot ι c}

/-- **C86 (joint-acceleration QP, energy).**  6-D contacts, an exact solver that answers every level.  Any other motion within the bounds of the QP that gives
the level and the levels above it the accelerations of the answers has at least the energy of acceleration of the answer, and more unless the accelerations
are the same. -/
theorem C86_jacc_energy_least (hA : IsSPD R.A) (h6 : ∀ l ∈ R.cs, l.type = .c6d) (hp : ∀ l ∈ R.cs, 0 < l.planeX ∧ 0 < l.planeY)
    (hc : c = 6 * (active R.cs).length) {solve : JSolver} (hs : solve.Exact) {ts ts' : List (JTask ι c)} {k : ℕ}
    (h : jaccPass R solve ts k = some (true, ts')) :
    ∃ o : ℕ → JAnswer ι c, (∀ j < k, ∃ T', ts'[j]? = some T' ∧ T'.out = some (o j)) ∧
      ∀ j < k, JAdmissible R hc (o j) ∧ ∀ o', JAdmissible R hc o' → (∀ i ≤ j, ∀ P, ts[i]? = some P → P.J *ᵥ o'.acc = P.J *ᵥ (o i).acc) →
        accelEnergy R.A (o j).acc ≤ accelEnergy R.A o'.acc ∧
          (accelEnergy R.A o'.acc ≤ accelEnergy R.A (o j).acc → o'.acc = (o j).acc) := by
  obtain ⟨M, hM, hMF⟩ := jContactRows_six h6 hp hc
  unfold jaccPass jaccCall at h
  rw [hM] at h
  obtain ⟨o, h1, h2⟩ := jaccPassWith_best hMF hs k h
  refine ⟨o, h1, fun j hj => ⟨jAdmissible_iff.mp (h2 j hj).1, fun o' ho' hk => ?_⟩⟩
  obtain ⟨a1, a2, a3⟩ := h2 j hj
  obtain ⟨T', hT', -⟩ := h1 j hj
  obtain ⟨T, -, -, hT, -⟩ := (jaccPassWith_inv hMF (JSolver.Exact.sound hs) ts k ts' h).1 j T' hT'
  have b1 := jAdmissible_iff.mpr ho'
  have heff : jaccEffort R T o'.acc - jaccEffort R T (o j).acc = (1 / 2) * (accelEnergy R.A o'.acc - accelEnergy R.A (o j).acc) := by
    unfold jaccEffort accelEnergy
    rw [hk j le_rfl T hT]
    ring
  have hle := a3 T hT o' b1 fun i hi P hP => hk i hi.le P hP
  refine ⟨by linarith, fun hge => jacc_unique hA T (by linarith) ?_⟩
  refine a3 T hT (JAnswer.along (o j) o' (1 / 2)) (jadm_along hMF a1 b1 (by norm_num) (by norm_num)) fun i hi P hP => ?_
  show P.J *ᵥ ((o j).acc + (1 / 2 : ℝ) • (o'.acc - (o j).acc)) = _
  rw [mulVec_add, mulVec_smul, mulVec_sub, hk i hi.le P hP, a2 i hi P hP]; simp

/-- The hypotheses are met: two conflicting levels on a robot standing on its foot. -/
example : ∃ ts', jaccPass exStand bestSolver [⟨1, exJJ, fun _ => 5, none, none⟩, ⟨1, exJJ, fun _ => 7, none, none⟩] 2 = some (true, ts') ∧
    ∃ o : ℕ → JAnswer (Fin 1) 6, ∀ j < 2, ∃ T', ts'[j]? = some T' ∧ T'.out = some (o j) := by
  obtain ⟨ts', h⟩ := C35_answers_hypotheses_met
  have hc : 6 = 6 * (active exStand.cs).length := by simp [exStand, exContact, active]
  obtain ⟨o, h1, -⟩ := C86_jacc_energy_least (R := exStand) isSPD_one (by simp [exStand, exContact]) (by simp [exStand, exContact]) hc bestSolver_exact h
  exact ⟨ts', h, o, h1⟩

end Verif.Props
