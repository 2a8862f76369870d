import Verif.Lemmas.TaskPD
import Verif.Props.Spline
import Mathlib.Analysis.Calculus.Deriv.MeanValue
import Mathlib.Analysis.Calculus.Deriv.Pow

/-!
# C44: PD feedback of a task link
-/

set_option linter.unusedSectionVars false

namespace Verif.Props
open Matrix Verif Verif.Model Verif.Spec Set

/-- C44, position.  In the 6-D and position modes the reference is one motion from the initial to the desired position and
velocity, and the output is `Ka·acc + Kp·(reference position − position) + Kd·(reference velocity − velocity)`. -/
theorem C44_position (k : TaskLinkPD) (hm : k.mode ≤ 5) {t0 tf : ℝ} (ht : t0 < tf) (p0 v0 pf vf : Vec3) :
    ∃ P V A : ℝ → Vec3,
      (∀ t p v, (k.setTrajectoryQuintic t0 tf p0 v0 pf vf).posPD t p v =
        some (fun i => k.posA i * A t i + k.posP i * (P t i - p i) + k.posD i * (V t i - v i))) ∧
      (∀ t ≤ t0, P t = p0 ∧ V t = v0 ∧ A t = 0) ∧ (∀ t, tf ≤ t → P t = pf ∧ V t = vf ∧ A t = 0) ∧
      (∀ t ∈ Ioo t0 tf, Moves P V A t) ∧ Continuous P ∧ Continuous V ∧
      (v0 = 0 → vf = 0 → ∀ t, Moves P V A t) := by
  choose y hy hlo hhi hin hc using fun j : Fin 3 => C16_quintic ht (p0 j) (v0 j) 0 (pf j) (vf j) 0
  refine ⟨fun t j => y j t 0, fun t j => y j t 1, fun t j => y j t 2, ?_, ?_, ?_, ?_, ?_, ?_, ?_⟩
  · intro t p v
    have e : ∀ j, (k.setTrajectoryQuintic t0 tf p0 v0 pf vf).axis t j = some (y j t) := fun j => hy j t
    unfold TaskLinkPD.posPD
    rw [if_pos (show (k.setTrajectoryQuintic t0 tf p0 v0 pf vf).mode ≤ 5 from hm), e, e, e]
    simp only [Option.some.injEq]
    ext i
    fin_cases i <;> simp [TaskLinkPD.setTrajectoryQuintic, vecHead, vecTail]
  · intro t h
    refine ⟨?_, ?_, ?_⟩ <;> ext j <;> simp [hlo j t h]
  · intro t h
    refine ⟨?_, ?_, ?_⟩ <;> ext j <;> simp [hhi j t h]
  · intro t h j
    exact hin j t h
  · exact continuous_pi fun j => (continuous_apply 0).comp (hc j)
  · exact continuous_pi fun j => (continuous_apply 1).comp (hc j)
  · rintro rfl rfl t j
    obtain ⟨z, hz, hzd⟩ := C16_rest_to_rest ht (p0 j) (pf j)
    have : y j = z := funext fun s => by
      have := (hy j s).symm.trans (hz s)
      exact Option.some.inj this
    beta_reduce
    rw [this]
    exact hzd t

/-- In the two rotation modes the position feedback is zero. -/
theorem C44_position_rotation_modes (k : TaskLinkPD) (hm : 5 < k.mode) (t : ℝ) (p v : Vec3) : k.posPD t p v = some 0 :=
  if_neg (by omega)

/-- C44, on the reference.  Without tracking error the output is `Ka` times the reference acceleration: the feed-forward
acceleration exactly when `Ka = 1` (the default is 0). -/
theorem C44_feedforward {k : TaskLinkPD} {t : ℝ} {P V A : Vec3}
    (h : ∀ p v, k.posPD t p v = some (fun i => k.posA i * A i + k.posP i * (P i - p i) + k.posD i * (V i - v i))) :
    k.posPD t P V = some (k.posA * A) ∧ (k.posA = 1 → k.posPD t P V = some A) := by
  rw [h]
  constructor
  · congr 1; ext i; simp
  · intro e; congr 1; ext i; simp [e]

/-- C44, closed loop.  If the controlled point accelerates with the commanded value, the tracking error obeys
`ë = −Kp e − Kd ė + (1 − Ka) reference acceleration`; with `Ka = 1` the linear second-order equation. -/
theorem C44_error_equation {P V A p v u : ℝ → Vec3} {kp kd ka : Vec3} {t : ℝ} (hr : Moves P V A t) (hp : Moves p v u t)
    (hu : ∀ i, u t i = ka i * A t i + kp i * (P t i - p t i) + kd i * (V t i - v t i)) :
    Moves (P - p) (V - v) (fun s i => -kp i * (P s i - p s i) - kd i * (V s i - v s i) + (1 - ka i) * A s i) t := by
  intro i
  obtain ⟨a, b⟩ := hr i
  obtain ⟨c, d⟩ := hp i
  refine ⟨a.sub c, (b.sub d).congr_deriv ?_⟩
  rw [hu i]; ring

/-- C44, "pushes toward the reference".  With `Ka = 1` and gains `Kp, Kd ≥ 0`, along every closed-loop motion the error
energy `Kp e² + ė²` of each axis never grows over the duration of the trajectory. -/
theorem C44_error_energy (k : TaskLinkPD) (hm : k.mode ≤ 5) {t0 tf : ℝ} (ht : t0 < tf) (p0 v0 pf vf : Vec3)
    (ha : k.posA = 1) (hd : ∀ i, 0 ≤ k.posD i) {p v u : ℝ → Vec3} (hmv : ∀ t, Moves p v u t)
    (hu : ∀ t, (k.setTrajectoryQuintic t0 tf p0 v0 pf vf).posPD t (p t) (v t) = some (u t)) :
    ∃ P V : ℝ → Vec3, P t0 = p0 ∧ P tf = pf ∧ V t0 = v0 ∧ V tf = vf ∧
      ∀ i, AntitoneOn (fun t => k.posP i * (P t i - p t i) ^ 2 + (V t i - v t i) ^ 2) (Icc t0 tf) := by
  obtain ⟨P, V, A, hout, hlo, hhi, hin, hcP, hcV, -⟩ := C44_position k hm ht p0 v0 pf vf
  refine ⟨P, V, (hlo t0 le_rfl).1, (hhi tf le_rfl).1, (hlo t0 le_rfl).2.1, (hhi tf le_rfl).2.1, fun i => ?_⟩
  have hcp : Continuous fun t => p t i := continuous_iff_continuousAt.mpr fun t => (hmv t i).1.continuousAt
  have hcv : Continuous fun t => v t i := continuous_iff_continuousAt.mpr fun t => (hmv t i).2.continuousAt
  have hcP' : Continuous fun t => P t i := (continuous_apply i).comp hcP
  have hcV' : Continuous fun t => V t i := (continuous_apply i).comp hcV
  have hderiv : ∀ t ∈ Ioo t0 tf, HasDerivAt (fun t => k.posP i * (P t i - p t i) ^ 2 + (V t i - v t i) ^ 2)
      (-(2 * k.posD i * (V t i - v t i) ^ 2)) t := by
    intro t h
    have hut : ∀ i, u t i = k.posA i * A t i + k.posP i * (P t i - p t i) + k.posD i * (V t i - v t i) := fun i => by
      have := (hu t).symm.trans (hout t (p t) (v t))
      exact congrFun (Option.some.inj this) i
    obtain ⟨e1, e2⟩ := C44_error_equation (hin t h) (hmv t) hut i
    have d1 := ((e1.pow 2).const_mul (k.posP i)).add (e2.pow 2)
    refine d1.congr_deriv ?_
    simp [ha]
    ring
  refine antitoneOn_of_deriv_nonpos (convex_Icc t0 tf) (by fun_prop) ?_ ?_
  · rw [interior_Icc]
    exact fun t h => (hderiv t h).differentiableAt.differentiableWithinAt
  · rw [interior_Icc]
    intro t h
    rw [(hderiv t h).deriv]
    have := mul_nonneg (hd i) (sq_nonneg (V t i - v t i))
    linarith

/-- C44, negation at the end of a trajectory with a desired end velocity: a point at rest at the desired position is pushed
away from it, by `Kd` times that velocity. -/
theorem C44_end_velocity_bias (k : TaskLinkPD) (hm : k.mode ≤ 5) {t0 tf : ℝ} (ht : t0 < tf) (p0 v0 pf vf : Vec3) {t : ℝ}
    (h : tf ≤ t) : (k.setTrajectoryQuintic t0 tf p0 v0 pf vf).posPD t pf 0 = some (k.posD * vf) := by
  obtain ⟨P, V, A, hout, -, hhi, -⟩ := C44_position k hm ht p0 v0 pf vf
  obtain ⟨e1, e2, e3⟩ := hhi t h
  rw [hout, e1, e2, e3]
  congr 1; ext i; simp

/-- C44, orientation.  The reference orientation turns about one axis from the initial to the desired orientation, with
angular velocity `w` and angular acceleration `a`; the output is `Kp·(orientation error) + Kd·(w − angular velocity)`.
The relative rotation must not be one of those so small (half-angle cosine above `1 − 2⁻⁵²`) that Eigen interpolates the
coefficients linearly. -/
theorem C44_orientation (k : TaskLinkPD) {t0 tf : ℝ} (ht : t0 < tf) {R0 Rf : Mat3} (h0 : IsRot R0) (hf : IsRot Rf)
    (hd : Rf = R0 ∨ (1 + (Rf * R0ᵀ).trace) / 4 < slerpOne ^ 2) (w0 wf : Vec3) :
    ∃ (R : ℝ → Mat3) (w a : ℝ → Vec3),
      (∀ t C ω, (k.setTrajectoryRotation t0 tf R0 w0 Rf wf).rotPD t C ω =
        some (fun i => k.rotP i * getPhi C (R t) i + k.rotD i * (w t i - ω i))) ∧
      (∀ t, IsRot (R t)) ∧ (∀ t ≤ t0, R t = R0 ∧ w t = 0 ∧ a t = 0) ∧ (∀ t, tf ≤ t → R t = Rf ∧ w t = 0 ∧ a t = 0) ∧
      (∀ t, AngularVelocity R (w t) t) ∧ (∀ t i, HasDerivAt (fun s => w s i) (a t i) t) ∧
      (Rf ≠ R0 → ∃ t, a t ≠ 0) := by
  obtain ⟨θ, ax, hax, hu, -, -, hend, hs⟩ := rotReference h0 hf hd
  obtain ⟨y, hy, hdy⟩ := C16_rest_to_rest ht 0 1
  obtain ⟨z, hz, hlo, hhi, -⟩ := C16_quintic ht 0 0 0 1 0 0
  have hzy : z = y := funext fun s => Option.some.inj ((hz s).symm.trans (hy s))
  rw [hzy] at hlo hhi
  refine ⟨fun t => angleAxisMat (y t 0 * θ) ax * R0, fun t => (θ * y t 1) • ax, fun t => (θ * y t 2) • ax,
    ?_, ?_, ?_, ?_, ?_, ?_, ?_⟩
  · intro t C ω
    unfold TaskLinkPD.rotPD
    have hy' : quinticSpline t (k.setTrajectoryRotation t0 tf R0 w0 Rf wf).tStart
      (k.setTrajectoryRotation t0 tf R0 w0 Rf wf).tEnd 0 0 0 1 0 0 = some (y t) := hy t
    rw [hy']
    simp only [TaskLinkPD.setTrajectoryRotation, hax, hs]
    rfl
  · exact fun t => IsRot.mul (angleAxisMat_rot _ hu) h0
  · intro t h
    simp [hlo t h, angleAxisMat_zero]
  · intro t h
    refine ⟨?_, ?_, ?_⟩
    · simp only [hhi t h]; simpa using hend
    · simp [hhi t h]
    · simp [hhi t h]
  · intro t
    have := angleAxisMat_deriv ax ((hdy t).1.mul_const θ) hu R0
    rwa [mul_comm (y t 1) θ] at this
  · intro t i
    simp only [Pi.smul_apply, smul_eq_mul]
    exact ((hdy t).2.const_mul θ).mul_const (ax i)
  · intro hne
    by_contra hall
    push Not at hall
    have hθ : θ ≠ 0 := by
      rintro rfl
      rw [angleAxisMat_zero, one_mul] at hend
      exact hne hend.symm
    have hax0 : ax ≠ 0 := by rintro rfl; simp at hu
    have h2 : ∀ t, y t 2 = 0 := fun t => by
      have := hall t
      rcases smul_eq_zero.mp this with h | h
      · exact (mul_eq_zero.mp h).resolve_left hθ
      · exact absurd h hax0
    have c1 := is_const_of_deriv_eq_zero (f := fun s => y s 1) (fun t => (hdy t).2.differentiableAt)
      (fun t => by rw [(hdy t).2.deriv, h2])
    have h1 : ∀ t, y t 1 = 0 := fun t => by rw [c1 t t0, hlo t0 le_rfl]; simp
    have c0 := is_const_of_deriv_eq_zero (f := fun s => y s 0) (fun t => (hdy t).1.differentiableAt)
      (fun t => by rw [(hdy t).1.deriv, h1])
    have := c0 t0 tf
    simp only [hlo t0 le_rfl, hhi tf le_rfl] at this
    simp at this

/-- C44, orientation, ends of the trajectory.  For every pair of rotations, however close, the reference is the initial
orientation up to the start and the desired one from the end on, both at rest. -/
theorem C44_orientation_ends (k : TaskLinkPD) {t0 tf : ℝ} (ht : t0 < tf) {R0 Rf : Mat3} (h0 : IsRot R0) (hf : IsRot Rf)
    (w0 wf : Vec3) (C : Mat3) (ω : Vec3) :
    (∀ t ≤ t0, (k.setTrajectoryRotation t0 tf R0 w0 Rf wf).rotPD t C ω =
      some (fun i => k.rotP i * getPhi C R0 i - k.rotD i * ω i)) ∧
    (∀ t, tf ≤ t → (k.setTrajectoryRotation t0 tf R0 w0 Rf wf).rotPD t C ω =
      some (fun i => k.rotP i * getPhi C Rf i - k.rotD i * ω i)) := by
  obtain ⟨y, hy, hlo, hhi, -⟩ := C16_quintic ht 0 0 0 1 0 0
  have hy' : ∀ t, quinticSpline t (k.setTrajectoryRotation t0 tf R0 w0 Rf wf).tStart
      (k.setTrajectoryRotation t0 tf R0 w0 Rf wf).tEnd 0 0 0 1 0 0 = some (y t) := fun t => hy t
  constructor
  · intro t h
    unfold TaskLinkPD.rotPD
    rw [hy', hlo t h]
    simp [TaskLinkPD.setTrajectoryRotation, slerp_start, (quatOfMat_spec h0).2]
    ext i; simp; ring
  · intro t h
    unfold TaskLinkPD.rotPD
    rw [hy', hhi t h]
    simp [TaskLinkPD.setTrajectoryRotation, slerp_end, (quatOfMat_spec hf).2]
    ext i; simp; ring

/-- C44, gains.  After `SetTaskGain` the position and orientation gains are the given ones. -/
theorem C44_gains (k : TaskLinkPD) (pp pd pa rp rd ra : Vec3) {t0 tf : ℝ} (ht : t0 < tf) :
    (∀ (p0 v0 pf vf : Vec3), k.mode ≤ 5 → ∃ P V A : ℝ → Vec3,
      (∀ t p v, ((k.setTaskGain pp pd pa rp rd ra).setTrajectoryQuintic t0 tf p0 v0 pf vf).posPD t p v =
        some (fun i => pa i * A t i + pp i * (P t i - p i) + pd i * (V t i - v i))) ∧
      P t0 = p0 ∧ V t0 = v0 ∧ P tf = pf ∧ V tf = vf) ∧
    (∀ (R0 Rf : Mat3) (w0 wf : Vec3), IsRot R0 → IsRot Rf → ∀ (C : Mat3) (ω : Vec3),
      ((k.setTaskGain pp pd pa rp rd ra).setTrajectoryRotation t0 tf R0 w0 Rf wf).rotPD tf C ω =
        some (fun i => rp i * getPhi C Rf i - rd i * ω i)) := by
  constructor
  · intro p0 v0 pf vf hm
    obtain ⟨P, V, A, h, hlo, hhi, -⟩ := C44_position (k.setTaskGain pp pd pa rp rd ra) hm ht p0 v0 pf vf
    exact ⟨P, V, A, h, (hlo t0 le_rfl).1, (hlo t0 le_rfl).2.1, (hhi tf le_rfl).1, (hhi tf le_rfl).2.1⟩
  · intro R0 Rf w0 wf h0 hf C ω
    exact (C44_orientation_ends (k.setTaskGain pp pd pa rp rd ra) ht h0 hf w0 wf C ω).2 tf le_rfl

/-- C44, negation for orientation.  Whatever the gains (including the acceleration gain), on the reference the orientation
feedback is zero, although the reference has a nonzero angular acceleration at some time. -/
theorem C44_orientation_no_feedforward (k : TaskLinkPD) {t0 tf : ℝ} (ht : t0 < tf) {R0 Rf : Mat3} (h0 : IsRot R0)
    (hf : IsRot Rf) (hne : Rf ≠ R0) (hd : (1 + (Rf * R0ᵀ).trace) / 4 < slerpOne ^ 2) (w0 wf : Vec3) :
    ∃ (R : ℝ → Mat3) (w a : ℝ → Vec3), (∀ t, AngularVelocity R (w t) t) ∧
      (∀ t i, HasDerivAt (fun s => w s i) (a t i) t) ∧ R t0 = R0 ∧ R tf = Rf ∧
      (∀ t, (k.setTrajectoryRotation t0 tf R0 w0 Rf wf).rotPD t (R t) (w t) = some 0) ∧ ∃ t, a t ≠ 0 := by
  obtain ⟨R, w, a, hout, hrot, hlo, hhi, hw, ha, hex⟩ := C44_orientation k ht h0 hf (Or.inr hd) w0 wf
  refine ⟨R, w, a, hw, ha, (hlo t0 le_rfl).1, (hhi tf le_rfl).1, fun t => ?_, hex hne⟩
  rw [hout]
  congr 1
  ext i
  have : getPhi (R t) (R t) = 0 := by simp [getPhi]
  simp [this]

/-- C44, finding: setting the orientation trajectory also changes the times of the position trajectory. -/
theorem C44_rotation_retimes_position (k : TaskLinkPD) (t0 tf s0 sf : ℝ) (p0 v0 pf vf w0 wf : Vec3) (R0 Rf : Mat3)
    (t : ℝ) (p v : Vec3) :
    ((k.setTrajectoryQuintic t0 tf p0 v0 pf vf).setTrajectoryRotation s0 sf R0 w0 Rf wf).posPD t p v =
      (k.setTrajectoryQuintic s0 sf p0 v0 pf vf).posPD t p v := rfl

/-- A closed-loop motion as in `C44_error_energy` exists (the one that starts on the reference). -/
example (k : TaskLinkPD) (hm : k.mode ≤ 5) (ha : k.posA = 1) {t0 tf : ℝ} (ht : t0 < tf) (p0 pf : Vec3) :
    ∃ p v u : ℝ → Vec3, (∀ t, Moves p v u t) ∧
      ∀ t, (k.setTrajectoryQuintic t0 tf p0 0 pf 0).posPD t (p t) (v t) = some (u t) := by
  obtain ⟨P, V, A, hout, -, -, -, -, -, hr⟩ := C44_position k hm ht p0 0 pf 0
  refine ⟨P, V, A, hr rfl rfl, fun t => ?_⟩
  rw [hout]
  congr 1
  ext i
  simp [ha]

/-- A quarter turn about `z` meets the hypotheses of the orientation theorems. -/
example : IsRot (rotateWithZ (Real.pi / 2)) ∧ rotateWithZ (Real.pi / 2) ≠ 1 ∧
    (1 + (rotateWithZ (Real.pi / 2) * (1 : Mat3)ᵀ).trace) / 4 < slerpOne ^ 2 := by
  refine ⟨?_, ?_, ?_⟩
  · constructor
    · ext i j; fin_cases i <;> fin_cases j <;> simp [rotateWithZ, Matrix.mul_apply, Fin.sum_univ_three]
    · rw [det_fin_three]; simp [rotateWithZ]
  · intro e
    have := congrFun (congrFun e 0) 0
    simp [rotateWithZ] at this
  · simp [Matrix.trace, Fin.sum_univ_three, rotateWithZ, slerpOne]
    norm_num

end Verif.Props
