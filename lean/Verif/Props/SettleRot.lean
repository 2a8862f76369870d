import Verif.Lemmas.SettleRot
import Verif.Lemmas.Pendulum
import Verif.Props.TaskPD
import Verif.Props.Rotation

/-!
# C44: does the controlled orientation arrive at its target
-/

set_option linter.unusedSectionVars false

namespace Verif.Props
open Matrix Set Verif Verif.Spec Verif.Model Filter Topology

/-- One minus the cosine of the angle between two orientations: zero if they agree, two if they are half a turn apart. -/
noncomputable def apart (C D : Mat3) : ℝ := (3 - (Dᵀ * C).trace) / 2

theorem apart_eq (C D : Mat3) : apart C D = (3 - (D 0 0 * C 0 0 + D 1 0 * C 1 0 + D 2 0 * C 2 0 + (D 0 1 * C 0 1 + D 1 1 * C 1 1 + D 2 1 * C 2 1) +
    (D 0 2 * C 0 2 + D 1 2 * C 1 2 + D 2 2 * C 2 2))) / 2 := by
  simp [apart, Matrix.trace, Matrix.mul_apply, Fin.sum_univ_three]

theorem apart_about {C D : Mat3} (hC : IsRot C) {a : Vec3} (ha : a ⬝ᵥ a = 1) {c s : ℝ} (h : RotatesAbout (D * Cᵀ) a c s) :
    apart C D = 1 - c := by
  have e : (Dᵀ * C).trace = (D * Cᵀ).trace := by
    rw [← Matrix.trace_transpose, Matrix.transpose_mul, Matrix.transpose_transpose, Matrix.trace_mul_comm]
  unfold apart
  rw [e]
  generalize D * Cᵀ = M at *
  have a0 := congrFun (h ![1, 0, 0]) 0
  have a1 := congrFun (h ![0, 1, 0]) 1
  have a2 := congrFun (h ![0, 0, 1]) 2
  simp [mulVec, dotProduct, Fin.sum_univ_three, cross_apply] at a0 a1 a2 ha
  simp [Matrix.trace, Fin.sum_univ_three, a0, a1, a2]
  linear_combination (-(1 - c) / 2) * ha

theorem phi_apart {C D : Mat3} (hC : IsRot C) (hD : IsRot D) :
    0 ≤ apart C D ∧ getPhi C D ⬝ᵥ getPhi C D = apart C D * (2 - apart C D) := by
  obtain ⟨k1, -, -, k4⟩ := angleAxisOfMat_spec (IsRot.mul hD (IsRot.transpose hC))
  have hab := angleAxisMat_about (angleAxisOfMat (D * Cᵀ)).1 (angleAxisOfMat (D * Cᵀ)).2
  rw [k4] at hab
  rw [apart_about hC k1 hab, C20_phi_axis hC hab, smul_dotProduct, dotProduct_smul, k1]
  constructor
  · linarith [Real.cos_le_one (angleAxisOfMat (D * Cᵀ)).1]
  · simp only [smul_eq_mul, mul_one]
    linear_combination Real.sin_sq_add_cos_sq (angleAxisOfMat (D * Cᵀ)).1

theorem dist_apart {C D : Mat3} (hC : IsRot C) (hD : IsRot D) (i j : Fin 3) : (C i j - D i j) ^ 2 ≤ 4 * apart C D := by
  have E := IsRot.eqs hC
  have F := IsRot.eqs hD
  have key : (C 0 0 - D 0 0) ^ 2 + (C 0 1 - D 0 1) ^ 2 + (C 0 2 - D 0 2) ^ 2 + (C 1 0 - D 1 0) ^ 2 + (C 1 1 - D 1 1) ^ 2 +
      (C 1 2 - D 1 2) ^ 2 + (C 2 0 - D 2 0) ^ 2 + (C 2 1 - D 2 1) ^ 2 + (C 2 2 - D 2 2) ^ 2 = 4 * apart C D := by
    rw [apart_eq]
    have o : ∀ {R : Mat3}, IsRot R → ∀ j, R 0 j ^ 2 + R 1 j ^ 2 + R 2 j ^ 2 = 1 := by
      intro R h j
      have := congrFun (congrFun h.orth j) j
      simp [Matrix.mul_apply, Fin.sum_univ_three] at this
      linarith
    linear_combination o hC 0 + o hC 1 + o hC 2 + o hD 0 + o hD 1 + o hD 2
  rw [← key]
  fin_cases i <;> fin_cases j <;> simp <;>
    nlinarith [sq_nonneg (C 0 0 - D 0 0), sq_nonneg (C 0 1 - D 0 1), sq_nonneg (C 0 2 - D 0 2), sq_nonneg (C 1 0 - D 1 0),
      sq_nonneg (C 1 1 - D 1 1), sq_nonneg (C 1 2 - D 1 2), sq_nonneg (C 2 0 - D 2 0), sq_nonneg (C 2 1 - D 2 1), sq_nonneg (C 2 2 - D 2 2)]

theorem entry_deriv {R : ℝ → Mat3} {w : Vec3} {t : ℝ} (h : AngularVelocity R w t) (i j : Fin 3) :
    HasDerivAt (fun s => R s i j) (crossProduct w (fun k => R t k j) i) t := by
  have := h (Pi.single j 1) i
  simp only [Matrix.mulVec_single_one] at this
  exact this

theorem cross0 (a b : Vec3) : crossProduct a b 0 = a 1 * b 2 - a 2 * b 1 := by simp [cross_apply]
theorem cross1 (a b : Vec3) : crossProduct a b 1 = a 2 * b 0 - a 0 * b 2 := by simp [cross_apply]
theorem cross2 (a b : Vec3) : crossProduct a b 2 = a 0 * b 1 - a 1 * b 0 := by simp [cross_apply]

/-- The derivative of the orientation error. -/
noncomputable def phiRate (C D : Mat3) (w : Vec3) : Vec3 :=
  (1 / 2 : ℝ) • (crossProduct (crossProduct w fun k => C k 0) (fun k => D k 0) +
    crossProduct (crossProduct w fun k => C k 1) (fun k => D k 1) + crossProduct (crossProduct w fun k => C k 2) (fun k => D k 2))

theorem apart_deriv {R : ℝ → Mat3} {w : Vec3} {t : ℝ} (hv : AngularVelocity R w t) (D : Mat3) :
    HasDerivAt (fun s => apart (R s) D) (-(getPhi (R t) D ⬝ᵥ w)) t := by
  have e := fun i j => (entry_deriv hv i j).const_mul (D i j)
  have h := ((((((e 0 0).add (e 1 0)).add (e 2 0)).add (((e 0 1).add (e 1 1)).add (e 2 1))).add
    (((e 0 2).add (e 1 2)).add (e 2 2))).const_sub 3).div_const 2
  refine (h.congr_of_eventuallyEq (Eventually.of_forall fun s => ?_)).congr_deriv ?_
  · simp only [apart_eq, Pi.add_apply]
  · simp only [getPhi, dot3, Pi.smul_apply, Pi.add_apply, cross0, cross1, cross2, smul_eq_mul]
    ring

theorem phi_deriv {R : ℝ → Mat3} {w : Vec3} {t : ℝ} (hv : AngularVelocity R w t) (D : Mat3) (i : Fin 3) :
    HasDerivAt (fun s => getPhi (R s) D i) (phiRate (R t) D w i) t := by
  have e := fun i j => entry_deriv hv i j
  have g : ∀ a b : Fin 3, HasDerivAt (fun s => (1 / 2 : ℝ) * ((R s a 0 * D b 0 - R s b 0 * D a 0) + (R s a 1 * D b 1 - R s b 1 * D a 1) +
      (R s a 2 * D b 2 - R s b 2 * D a 2))) _ t := fun a b =>
    (((((e a 0).mul_const (D b 0)).sub ((e b 0).mul_const (D a 0))).add
      (((e a 1).mul_const (D b 1)).sub ((e b 1).mul_const (D a 1)))).add
      (((e a 2).mul_const (D b 2)).sub ((e b 2).mul_const (D a 2)))).const_mul (1 / 2)
  have f : ∀ C : Mat3, getPhi C D 0 = 1 / 2 * ((C 1 0 * D 2 0 - C 2 0 * D 1 0) + (C 1 1 * D 2 1 - C 2 1 * D 1 1) + (C 1 2 * D 2 2 - C 2 2 * D 1 2)) ∧
      getPhi C D 1 = 1 / 2 * ((C 2 0 * D 0 0 - C 0 0 * D 2 0) + (C 2 1 * D 0 1 - C 0 1 * D 2 1) + (C 2 2 * D 0 2 - C 0 2 * D 2 2)) ∧
      getPhi C D 2 = 1 / 2 * ((C 0 0 * D 1 0 - C 1 0 * D 0 0) + (C 0 1 * D 1 1 - C 1 1 * D 0 1) + (C 0 2 * D 1 2 - C 1 2 * D 0 2)) := by
    intro C
    simp only [getPhi, Pi.smul_apply, Pi.add_apply, cross0, cross1, cross2, smul_eq_mul]
    refine ⟨?_, ?_, ?_⟩ <;> ring
  fin_cases i
  · refine ((g 1 2).congr_of_eventuallyEq (Eventually.of_forall fun s => (f (R s)).1)).congr_deriv ?_
    simp only [phiRate, Pi.smul_apply, Pi.add_apply, smul_eq_mul, Fin.zero_eta, cross0]
  · refine ((g 2 0).congr_of_eventuallyEq (Eventually.of_forall fun s => (f (R s)).2.1)).congr_deriv ?_
    simp only [phiRate, Pi.smul_apply, Pi.add_apply, smul_eq_mul, Fin.mk_one, cross1]
  · refine ((g 0 1).congr_of_eventuallyEq (Eventually.of_forall fun s => (f (R s)).2.2)).congr_deriv ?_
    simp only [phiRate, Pi.smul_apply, Pi.add_apply, smul_eq_mul, Fin.reduceFinMk, cross2]

theorem phiRate_le {C D : Mat3} (hC : IsRot C) (hD : IsRot D) (w : Vec3) : -(phiRate C D w ⬝ᵥ w) ≤ 2 * (w ⬝ᵥ w) := by
  have o : ∀ {R : Mat3}, IsRot R → ∀ j, R 0 j ^ 2 + R 1 j ^ 2 + R 2 j ^ 2 = 1 := by
    intro R h j
    have := congrFun (congrFun h.orth j) j
    simp [Matrix.mul_apply, Fin.sum_univ_three] at this
    linarith
  have n : ∀ {R : Mat3}, IsRot R → (w 0 * R 0 0 + w 1 * R 1 0 + w 2 * R 2 0) ^ 2 + (w 0 * R 0 1 + w 1 * R 1 1 + w 2 * R 2 1) ^ 2 +
      (w 0 * R 0 2 + w 1 * R 1 2 + w 2 * R 2 2) ^ 2 = w 0 ^ 2 + w 1 ^ 2 + w 2 ^ 2 := by
    intro R h
    have h' := fun i j => congrFun (congrFun (IsRot.orth' h) i) j
    have e00 := h' 0 0; have e01 := h' 0 1; have e02 := h' 0 2; have e11 := h' 1 1; have e12 := h' 1 2; have e22 := h' 2 2
    simp [Matrix.mul_apply, Fin.sum_univ_three] at e00 e01 e02 e11 e12 e22
    linear_combination w 0 ^ 2 * e00 + w 1 ^ 2 * e11 + w 2 ^ 2 * e22 + 2 * w 0 * w 1 * e01 + 2 * w 0 * w 2 * e02 + 2 * w 1 * w 2 * e12
  have n1 := n hC
  have n2 := n hD
  have c : ∀ j, C 0 j * D 0 j + C 1 j * D 1 j + C 2 j * D 2 j ≤ 1 := fun j => by
    nlinarith [o hC j, o hD j, sq_nonneg (C 0 j - D 0 j), sq_nonneg (C 1 j - D 1 j), sq_nonneg (C 2 j - D 2 j)]
  have hn : 0 ≤ w 0 ^ 2 + w 1 ^ 2 + w 2 ^ 2 := by positivity
  have key : ∀ j, -((w 0 * C 0 j + w 1 * C 1 j + w 2 * C 2 j) ^ 2 + (w 0 * D 0 j + w 1 * D 1 j + w 2 * D 2 j) ^ 2) / 2 -
      (w 0 ^ 2 + w 1 ^ 2 + w 2 ^ 2) ≤ crossProduct (crossProduct w fun k => C k j) (fun k => D k j) ⬝ᵥ w := by
    intro j
    have e : crossProduct (crossProduct w fun k => C k j) (fun k => D k j) ⬝ᵥ w =
        (w 0 * C 0 j + w 1 * C 1 j + w 2 * C 2 j) * (w 0 * D 0 j + w 1 * D 1 j + w 2 * D 2 j) -
        (w 0 ^ 2 + w 1 ^ 2 + w 2 ^ 2) * (C 0 j * D 0 j + C 1 j * D 1 j + C 2 j * D 2 j) := by
      simp only [dot3, cross0, cross1, cross2]; ring
    rw [e]
    generalize w 0 * C 0 j + w 1 * C 1 j + w 2 * C 2 j = x
    generalize w 0 * D 0 j + w 1 * D 1 j + w 2 * D 2 j = y
    have := mul_le_mul_of_nonneg_left (c j) hn
    nlinarith [sq_nonneg (x + y)]
  have k0 := key 0
  have k1 := key 1
  have k2 := key 2
  rw [phiRate, smul_dotProduct, add_dotProduct, add_dotProduct, smul_eq_mul, dot3 w w]
  linarith

/-- A motion in which the orientation accelerates as commanded after the end of its trajectory. -/
structure TurnsAsCommanded (k : TaskLinkPD) (tf : ℝ) (R : ℝ → Mat3) (w : ℝ → Vec3) : Prop where
  rot : ∀ t ≥ tf, IsRot (R t)
  vel : ∀ t ≥ tf, AngularVelocity R (w t) t
  acc : ∀ t ≥ tf, ∃ f, k.rotPD t (R t) (w t) = some f ∧ ∀ i, HasDerivAt (fun s => w s i) (f i) t

theorem turningOf (k : TaskLinkPD) {kp : ℝ} (hk : ∀ i, k.rotP i = kp) {t0 tf : ℝ} (ht : t0 < tf) {R0 Rf : Mat3} (h0 : IsRot R0)
    (hf : IsRot Rf) (w0 wf : Vec3) {R : ℝ → Mat3} {w : ℝ → Vec3}
    (hm : TurnsAsCommanded (k.setTrajectoryRotation t0 tf R0 w0 Rf wf) tf R w) :
    Turning kp k.rotD tf (fun t => apart (R t) Rf) (fun t => getPhi (R t) Rf) w (fun t => phiRate (R t) Rf (w t)) where
  angle t hts := apart_deriv (hm.vel t hts) Rf
  error t hts i := phi_deriv (hm.vel t hts) Rf i
  law t hts i := by
    obtain ⟨f, hfe, hd⟩ := hm.acc t hts
    rw [(C44_orientation_ends k ht h0 hf w0 wf (R t) (w t)).2 t hts] at hfe
    rw [← hk i]
    exact (hd i).congr_deriv (congrFun (Option.some.inj hfe) i).symm
  rate t hts := phiRate_le (hm.rot t hts) hf (w t)
  pos t hts := (phi_apart (hm.rot t hts) hf).1
  sine t hts := (phi_apart (hm.rot t hts) hf).2

/-- **C44 (arrival of an orientation).**  An orientation that accelerates as commanded, with one gain `Kp > 0` for all axes and any
`Kd > 0`, turns to the desired orientation and comes to rest there, if at the end of the trajectory it has less energy than at
rest half a turn away. -/
theorem C44_orientation_arrives (k : TaskLinkPD) {kp : ℝ} (hp : 0 < kp) (hk : ∀ i, k.rotP i = kp) (hD : ∀ i, 0 < k.rotD i)
    {t0 tf : ℝ} (ht : t0 < tf) {R0 Rf : Mat3} (h0 : IsRot R0) (hf : IsRot Rf) (w0 wf : Vec3) {R : ℝ → Mat3} {w : ℝ → Vec3}
    (hm : TurnsAsCommanded (k.setTrajectoryRotation t0 tf R0 w0 Rf wf) tf R w)
    (hE : 1 / 2 * (w tf ⬝ᵥ w tf) + kp * apart (R tf) Rf < 2 * kp) :
    (∃ c > 0, ∃ K > 0, ∀ t ≥ tf, w t ⬝ᵥ w t + apart (R t) Rf ≤ K * Real.exp (-c * (t - tf))) ∧
    Tendsto R atTop (𝓝 Rf) ∧ Tendsto w atTop (𝓝 0) := by
  have T := turningOf k hk ht h0 hf w0 wf hm
  set ρ := (1 / 2 * (w tf ⬝ᵥ w tf) + kp * apart (R tf) Rf) / kp with hρ
  have hρ2 : ρ < 2 := by rw [hρ, div_lt_iff₀ hp]; exact hE
  obtain ⟨c, hc, K, hK, h⟩ := Turning.settles_fast hp hD hρ2
  have hb := h tf _ _ _ _ T (by unfold Turning.energy; rw [hρ, div_mul_cancel₀ _ hp.ne'])
  set X := w tf ⬝ᵥ w tf + apart (R tf) Rf with hX
  have hX0 : 0 ≤ X := add_nonneg (dot_self_nonneg _) (T.pos tf le_rfl)
  have hfast : ∀ t ≥ tf, w t ⬝ᵥ w t + apart (R t) Rf ≤ (K * X + 1) * Real.exp (-c * (t - tf)) := fun t hts =>
    (hb t hts).trans (mul_le_mul_of_nonneg_right (by linarith) (Real.exp_pos _).le)
  have hexp : Tendsto (fun t : ℝ => (K * X + 1) * Real.exp (-c * (t - tf))) atTop (𝓝 0) := by
    have h1 : Tendsto (fun t : ℝ => Real.exp (-c * (t - tf))) atTop (𝓝 0) := by
      refine Real.tendsto_exp_atBot.comp ?_
      exact ((tendsto_atTop_add_const_right atTop (-tf) tendsto_id).const_mul_atTop_of_neg (neg_neg_of_pos hc))
    simpa using h1.const_mul (K * X + 1)
  have hsq : ∀ {f : ℝ → ℝ} {b : ℝ}, (∀ t ≥ tf, f t ^ 2 ≤ b * ((K * X + 1) * Real.exp (-c * (t - tf)))) → Tendsto f atTop (𝓝 0) := by
    intro f b hfb
    have h2 : Tendsto (fun t => f t ^ 2) atTop (𝓝 0) := by
      refine tendsto_of_tendsto_of_tendsto_of_le_of_le' tendsto_const_nhds (by simpa only [mul_zero] using hexp.const_mul b)
        (Eventually.of_forall fun t => sq_nonneg _) ?_
      filter_upwards [eventually_ge_atTop tf] with t hts
      exact hfb t hts
    have := (Real.continuous_sqrt.tendsto 0).comp h2
    rw [Real.sqrt_zero] at this
    rw [tendsto_zero_iff_abs_tendsto_zero]
    refine this.congr fun t => ?_
    simp [Real.sqrt_sq_eq_abs]
  refine ⟨⟨c, hc, K * X + 1, by positivity, hfast⟩, ?_, ?_⟩
  · refine tendsto_pi_nhds.mpr fun i => tendsto_pi_nhds.mpr fun j => ?_
    have h3 := hsq (f := fun t => R t i j - Rf i j) (b := 4) fun t hts => by
      refine (dist_apart (hm.rot t hts) hf i j).trans (mul_le_mul_of_nonneg_left ?_ (by norm_num))
      linarith [hfast t hts, dot_self_nonneg (w t)]
    simpa using h3.add_const (Rf i j)
  · refine tendsto_pi_nhds.mpr fun i => ?_
    refine hsq (b := 1) fun t hts => ?_
    have h4 : w t i ^ 2 ≤ w t ⬝ᵥ w t := by
      rw [dot3]
      fin_cases i <;> simp <;> nlinarith [sq_nonneg (w t 0), sq_nonneg (w t 1), sq_nonneg (w t 2)]
    linarith [hfast t hts, T.pos t hts]

/-- **C44 (arrival, any energy).**  However fast it turns at the end of the trajectory, the orientation comes to rest, and the angle
to the desired orientation tends to zero or to half a turn. -/
theorem C44_orientation_rests (k : TaskLinkPD) {kp : ℝ} (hp : 0 < kp) (hk : ∀ i, k.rotP i = kp) (hD : ∀ i, 0 < k.rotD i)
    {t0 tf : ℝ} (ht : t0 < tf) {R0 Rf : Mat3} (h0 : IsRot R0) (hf : IsRot Rf) (w0 wf : Vec3) {R : ℝ → Mat3} {w : ℝ → Vec3}
    (hm : TurnsAsCommanded (k.setTrajectoryRotation t0 tf R0 w0 Rf wf) tf R w) :
    Tendsto (fun t => w t ⬝ᵥ w t) atTop (𝓝 0) ∧
      (Tendsto (fun t => apart (R t) Rf) atTop (𝓝 0) ∨ Tendsto (fun t => apart (R t) Rf) atTop (𝓝 2)) :=
  (turningOf k hk ht h0 hf w0 wf hm).settles_anyway hp hD

/-- **C44, negation for orientation.**  The orientations in which a link stays at rest for ever are the desired one and those half a
turn from it, for all gains `Kp > 0`. -/
theorem C44_orientation_stuck (k : TaskLinkPD) (hP : ∀ i, 0 < k.rotP i) {t0 tf : ℝ} (ht : t0 < tf) {R0 Rf C : Mat3} (h0 : IsRot R0)
    (hf : IsRot Rf) (hC : IsRot C) (w0 wf : Vec3) :
    TurnsAsCommanded (k.setTrajectoryRotation t0 tf R0 w0 Rf wf) tf (fun _ => C) 0 ↔
      C = Rf ∨ ∃ a : Vec3, a ⬝ᵥ a = 1 ∧ RotatesAbout (Rf * Cᵀ) a (-1) 0 := by
  have key := C20_phi_zero_iff hC hf
  rw [eq_comm (a := Rf)] at key
  rw [← key]
  constructor
  · intro h
    obtain ⟨f, hfe, hd⟩ := h.acc tf le_rfl
    rw [(C44_orientation_ends k ht h0 hf w0 wf C _).2 tf le_rfl] at hfe
    ext i
    have h1 := (hd i).unique (hasDerivAt_const tf 0)
    have h2 := congrFun (Option.some.inj hfe) i
    simp only [Pi.zero_apply, mul_zero, sub_zero] at h2
    rw [h1] at h2
    exact (mul_eq_zero.mp h2).resolve_left (hP i).ne'
  · intro h
    refine ⟨fun _ _ => hC, fun t _ v i => ?_, fun t hts => ⟨0, ?_, fun i => hasDerivAt_const _ _⟩⟩
    · simpa using hasDerivAt_const t ((C *ᵥ v) i)
    · rw [(C44_orientation_ends k ht h0 hf w0 wf C _).2 t hts, h]
      congr 1
      ext i
      simp

/-- A half turn about `x` away from the target: at rest there, the link stays; and at rest at any other orientation, it has little
enough energy to arrive. -/
example (k : TaskLinkPD) (hP : ∀ i, 0 < k.rotP i) {t0 tf : ℝ} (ht : t0 < tf) :
    TurnsAsCommanded (k.setTrajectoryRotation t0 tf 1 0 (rotateWithX Real.pi) 0) tf (fun _ => 1) 0 ∧ (1 : Mat3) ≠ rotateWithX Real.pi := by
  have hx := (C18_axis_rotations Real.pi 0).1.1
  refine ⟨(C44_orientation_stuck k hP ht IsRot.one hx IsRot.one 0 0).mpr (Or.inr ⟨![1, 0, 0], by simp [dot3], ?_⟩), ?_⟩
  · have := (C18_axis_rotations Real.pi 0).1.2.1
    simpa using this
  · intro e
    have := congrFun (congrFun e 1) 1
    simp [rotateWithX] at this
    norm_num at this

/-- At rest less than half a turn from the target, the energy is low enough. -/
theorem energy_low {kp : ℝ} (hp : 0 < kp) {C D : Mat3} (hC : IsRot C) (hD : IsRot D)
    (h : ¬ ∃ a : Vec3, a ⬝ᵥ a = 1 ∧ RotatesAbout (D * Cᵀ) a (-1) 0) :
    1 / 2 * ((0 : Vec3) ⬝ᵥ 0) + kp * apart C D < 2 * kp := by
  obtain ⟨h1, h2⟩ := phi_apart hC hD
  have h3 : apart C D ≤ 2 := by
    by_contra hc
    push Not at hc
    have := dot_self_nonneg (getPhi C D)
    rw [h2] at this
    nlinarith
  have h4 : apart C D ≠ 2 := by
    intro e
    rw [e] at h2
    have h5 : getPhi C D = 0 := by
      have : getPhi C D ⬝ᵥ getPhi C D = 0 := by rw [h2]; ring
      exact dotProduct_self_eq_zero.mp this
    rcases (C20_phi_zero_iff hC hD).mp h5 with rfl | h6
    · have : apart D D = 0 := by
        unfold apart
        rw [hD.orth, Matrix.trace_one]
        simp
      linarith
    · exact h h6
  have := lt_of_le_of_ne h3 h4
  simp only [dotProduct_zero, mul_zero, zero_add]
  nlinarith

/-- Motions as commanded exist, from rest at any angle about the vertical. -/
theorem turns_exists (k : TaskLinkPD) (hP : 0 < k.rotP 2) (hD : 0 < k.rotD 2) {t0 tf : ℝ} (ht : t0 < tf) {R0 Rf : Mat3} (h0 : IsRot R0)
    (hf : IsRot Rf) (w0 wf : Vec3) (θ0 : ℝ) :
    ∃ (R : ℝ → Mat3) (w : ℝ → Vec3), R tf = rotateWithZ θ0 * Rf ∧ w tf = 0 ∧
      TurnsAsCommanded (k.setTrajectoryRotation t0 tf R0 w0 Rf wf) tf R w := by
  obtain ⟨θ, v, hθ0, hv0, hm⟩ := pendulum hP hD tf θ0
  have eZ : ∀ x, rotateWithZ x = angleAxisMat x ![0, 0, 1] := fun x => by
    ext i j; fin_cases i <;> fin_cases j <;> simp [rotateWithZ, angleAxisMat]
  have hu : (![0, 0, 1] : Vec3) ⬝ᵥ ![0, 0, 1] = 1 := by simp [dot3]
  have hr : ∀ t, IsRot (angleAxisMat (θ t) ![0, 0, 1] * Rf) := fun t => IsRot.mul (angleAxisMat_rot _ hu) hf
  refine ⟨fun t => angleAxisMat (θ t) ![0, 0, 1] * Rf, fun t => v t • ![0, 0, 1], by simp [hθ0, eZ], by simp [hv0], ?_⟩
  refine ⟨fun t _ => hr t, fun t hts => angleAxisMat_deriv _ (hm t hts).1 hu Rf, fun t hts =>
    ⟨_, (C44_orientation_ends k ht h0 hf w0 wf _ _).2 t hts, fun i => ?_⟩⟩
  have hphi : getPhi (angleAxisMat (θ t) ![0, 0, 1] * Rf) Rf = Real.sin (-θ t) • ![0, 0, 1] := by
    refine C20_phi_axis (c := Real.cos (-θ t)) (hr t) ?_
    have e : Rf * (angleAxisMat (θ t) ![0, 0, 1] * Rf)ᵀ = angleAxisMat (-θ t) ![0, 0, 1] := by
      rw [Matrix.transpose_mul, ← Matrix.mul_assoc, IsRot.orth' hf, Matrix.one_mul, ← eZ, ← eZ]
      exact (C18_axis_rotations (θ t) 0).2.2.2.2.2
    rw [e]
    exact angleAxisMat_about _ _
  rw [hphi]
  have hv := (hm t hts).2
  fin_cases i
  · simpa using hasDerivAt_const t (0 : ℝ)
  · simpa using hasDerivAt_const t (0 : ℝ)
  · have e : (fun s => (v s • (![0, 0, 1] : Vec3)) 2) = v := by funext s; simp
    change HasDerivAt (fun s => (v s • (![0, 0, 1] : Vec3)) 2) _ t
    rw [e]
    refine hv.congr_deriv ?_
    simp

/-- A quarter turn from the target: there is a motion to which `C44_orientation_arrives` applies. -/
example (k : TaskLinkPD) (hP : ∀ i, k.rotP i = 4) (hD : ∀ i, 0 < k.rotD i) :
    ∃ (R : ℝ → Mat3) (w : ℝ → Vec3), TurnsAsCommanded (k.setTrajectoryRotation 0 1 1 0 1 0) 1 R w ∧
      1 / 2 * (w 1 ⬝ᵥ w 1) + 4 * apart (R 1) 1 < 2 * 4 ∧ R 1 ≠ 1 := by
  obtain ⟨R, w, hR, hw, hm⟩ := turns_exists k (by rw [hP]; norm_num) (hD 2) (t0 := 0) (tf := 1) one_pos IsRot.one IsRot.one 0 0 (Real.pi / 2)
  refine ⟨R, w, hm, ?_, ?_⟩
  · rw [hR, hw]
    simp [apart, rotateWithZ, Matrix.trace, Fin.sum_univ_three]
    norm_num
  · rw [hR]
    intro e
    have := congrFun (congrFun e 0) 0
    simp [rotateWithZ] at this

end Verif.Props
