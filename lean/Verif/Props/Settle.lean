import Verif.Lemmas.Settle
import Verif.Props.TaskPD
import Verif.Props.MovingMet

/-!
# C44, C83: does the controlled point arrive at its target
-/

set_option linter.unusedSectionVars false

namespace Verif.Props
open Matrix Set Verif Verif.Spec Verif.Model Filter Topology

/-- After the end of a trajectory that ends at rest: rate and factor depend on the gains alone. -/
theorem settles (k : TaskLinkPD) (hm : k.mode ≤ 5) (hP : ∀ i, 0 < k.posP i) (hD : ∀ i, 0 < k.posD i) :
    ∃ c > 0, ∃ K > 0, ∀ (t0 tf : ℝ) (p0 v0 pf : Vec3) (D : ℝ) (p v u : ℝ → Vec3), t0 < tf → (∀ t ≥ tf, Moves p v u t) →
      (∀ t ≥ tf, ∃ f, (k.setTrajectoryQuintic t0 tf p0 v0 pf 0).posPD t (p t) (v t) = some f ∧ ∀ i, |u t i - f i| ≤ D) →
      ∀ t ≥ tf, ∀ i, (p t i - pf i) ^ 2 + v t i ^ 2 ≤
        K * (((p tf i - pf i) ^ 2 + v tf i ^ 2) * Real.exp (-c * (t - tf)) + D ^ 2) := by
  choose c hc K hK h using fun i => pd_settles (hP i) (hD i)
  set c0 := min (c 0) (min (c 1) (c 2)) with hc0
  set K0 := max (K 0) (max (K 1) (K 2)) with hK0
  have hcle : ∀ i, c0 ≤ c i := fun i => by
    fin_cases i
    · exact min_le_left _ _
    · exact (min_le_right _ _).trans (min_le_left _ _)
    · exact (min_le_right _ _).trans (min_le_right _ _)
  have hKle : ∀ i, K i ≤ K0 := fun i => by
    fin_cases i
    · exact le_max_left _ _
    · exact (le_max_left _ _).trans (le_max_right _ _)
    · exact (le_max_right _ _).trans (le_max_right _ _)
  refine ⟨c0, lt_min (hc 0) (lt_min (hc 1) (hc 2)), K0, (hK 0).trans_le (hKle 0), ?_⟩
  intro t0 tf p0 v0 pf D p v u ht hmv hu t hts i
  obtain ⟨P, V, A, hout, -, hhi, -⟩ := C44_position k hm ht p0 v0 pf 0
  have hlaw : ∀ s ≥ tf, |u s i - (k.posP i * (pf i - p s i) + k.posD i * (0 - v s i))| ≤ D := by
    intro s hs
    obtain ⟨f, hf, hb⟩ := hu s hs
    rw [hout] at hf
    have hfi := congrFun (Option.some.inj hf) i
    obtain ⟨e1, e2, e3⟩ := hhi s hs
    rw [e1, e2, e3] at hfi
    have := hb i
    rw [← hfi] at this
    simpa using this
  have key := h i (fun s => p s i - pf i) (fun s => v s i) (fun s => u s i - (k.posP i * (pf i - p s i) + k.posD i * (0 - v s i))) D tf
    (fun s hs => ((hmv s hs i).1).sub_const _)
    (fun s hs => by
      refine (hmv s hs i).2.congr_deriv ?_
      ring) hlaw t hts
  refine key.trans ?_
  have hexp : Real.exp (-c i * (t - tf)) ≤ Real.exp (-c0 * (t - tf)) := by
    apply Real.exp_le_exp.mpr
    have : 0 ≤ t - tf := sub_nonneg.mpr hts
    nlinarith [hcle i]
  have hX : 0 ≤ (p tf i - pf i) ^ 2 + v tf i ^ 2 := by positivity
  refine mul_le_mul (hKle i) ?_ ?_ ((hK 0).trans_le (hKle 0)).le
  · exact add_le_add (mul_le_mul_of_nonneg_left hexp hX) le_rfl
  · have := Real.exp_pos (-c i * (t - tf)); positivity

/-- **C44 (arrival).**  A point that accelerates as commanded, with gains `Kp, Kd > 0` and a trajectory that ends at rest, converges
to the end of the trajectory and comes to rest there, whatever `Ka` is and wherever it is when the trajectory ends. -/
theorem C44_arrives (k : TaskLinkPD) (hm : k.mode ≤ 5) (hP : ∀ i, 0 < k.posP i) (hD : ∀ i, 0 < k.posD i) {t0 tf : ℝ} (ht : t0 < tf)
    (p0 v0 pf : Vec3) {p v u : ℝ → Vec3} (hmv : ∀ t ≥ tf, Moves p v u t)
    (hu : ∀ t ≥ tf, (k.setTrajectoryQuintic t0 tf p0 v0 pf 0).posPD t (p t) (v t) = some (u t)) :
    Tendsto p atTop (𝓝 pf) ∧ Tendsto v atTop (𝓝 0) := by
  obtain ⟨c, hc, K, hK, h⟩ := settles k hm hP hD
  have hb := h t0 tf p0 v0 pf 0 p v u ht hmv fun t hts => ⟨u t, hu t hts, fun i => by simp⟩
  have hexp : Tendsto (fun t : ℝ => Real.exp (-c * (t - tf))) atTop (𝓝 0) := by
    refine Real.tendsto_exp_atBot.comp ?_
    exact ((tendsto_atTop_add_const_right atTop (-tf) tendsto_id).const_mul_atTop_of_neg (neg_neg_of_pos hc))
  have hz : ∀ i, Tendsto (fun t => (p t i - pf i) ^ 2 + v t i ^ 2) atTop (𝓝 0) := by
    intro i
    have hlim : Tendsto (fun t => K * (((p tf i - pf i) ^ 2 + v tf i ^ 2) * Real.exp (-c * (t - tf)) + (0 : ℝ) ^ 2)) atTop (𝓝 0) := by
      have := ((hexp.const_mul ((p tf i - pf i) ^ 2 + v tf i ^ 2)).add_const ((0 : ℝ) ^ 2)).const_mul K
      simpa using this
    refine tendsto_of_tendsto_of_tendsto_of_le_of_le' tendsto_const_nhds hlim (Eventually.of_forall fun t => by positivity) ?_
    filter_upwards [eventually_ge_atTop tf] with t hts
    exact hb t hts i
  have hsq : ∀ {f : ℝ → ℝ}, Tendsto (fun t => f t ^ 2) atTop (𝓝 0) → Tendsto f atTop (𝓝 0) := by
    intro f hf
    have := (Real.continuous_sqrt.tendsto 0).comp hf
    rw [Real.sqrt_zero] at this
    rw [tendsto_zero_iff_abs_tendsto_zero]
    refine this.congr fun t => ?_
    simp [Real.sqrt_sq_eq_abs]
  constructor
  · rw [tendsto_pi_nhds]
    intro i
    have h1 : Tendsto (fun t => (p t i - pf i) ^ 2) atTop (𝓝 0) :=
      squeeze_zero (fun t => sq_nonneg _) (fun t => le_add_of_nonneg_right (sq_nonneg _)) (hz i)
    have := (hsq h1).add_const (pf i)
    simpa using this
  · rw [tendsto_pi_nhds]
    intro i
    exact hsq (squeeze_zero (fun t => sq_nonneg _) (fun t => le_add_of_nonneg_left (sq_nonneg _)) (hz i))

/-- At one moment, a robot whose single task is the position of a point at `p` with velocity `v`, commanded by `k` and carried out by
the closed-form controller, lets the point accelerate by `u`.  The velocity terms of the robot come to at most `D`. -/
structure Controlled (k : TaskLinkPD) (t : ℝ) (p v u : Vec3) (D : ℝ) (ι : Type*) [Fintype ι] [DecidableEq ι] (c : ℕ) where
  L : List (DrivenLink (Fin 6 ⊕ ι))
  g : Vec3
  J : Matrix (Fin c) (Fin 6 ⊕ ι) ℝ
  γ : (Fin 6 ⊕ ι → ℝ) → Fin c → ℝ
  qd : Fin 6 ⊕ ι → ℝ
  Jt : Matrix (Fin 3) (Fin 6 ⊕ ι) ℝ
  γt : Vec3
  f : Vec3
  S : ContactSpace c ι
  R : TaskReady ι
  qdd : Fin 6 ⊕ ι → ℝ
  F : Fin c → ℝ
  inertia : IsSPD (massMatrix (links L))
  contacts : BaseDetermined J
  space : contactSpace J (massMatrix (links L))⁻¹ = some S
  ready : calculateJKT S (massMatrix (links L))⁻¹ ⟨3, Jt, f⟩ = some R
  law : k.posPD t p v = some f
  moves : MovingMotion L g J γ qd
    (gravityTorque S (massMatrix (links L))⁻¹ (-Spec.gravityForce g (links L)) + taskTorque S [R]) qdd F
  point : u = Jt *ᵥ qdd + γt
  bound : ∀ δ φ, Shortfall L J γ qd δ φ → ∀ i, |γt i - (Jt *ᵥ δ) i| ≤ D

/-- **C83 (tracking).**  A point controlled by a moving robot comes within a multiple of the velocity terms of the end of its
trajectory, exponentially fast; factor and rate depend on the gains alone.  With velocity terms that vanish it arrives. -/
theorem C83_tracking (k : TaskLinkPD) (hm : k.mode ≤ 5) (hP : ∀ i, 0 < k.posP i) (hD : ∀ i, 0 < k.posD i)
    (ι : Type*) [Fintype ι] [DecidableEq ι] (c : ℕ) :
    ∃ r > 0, ∃ K > 0, ∀ (t0 tf : ℝ) (p0 v0 pf : Vec3) (D : ℝ) (p v u : ℝ → Vec3), t0 < tf → (∀ t ≥ tf, Moves p v u t) →
      (∀ t ≥ tf, Nonempty (Controlled (k.setTrajectoryQuintic t0 tf p0 v0 pf 0) t (p t) (v t) (u t) D ι c)) →
      ∀ t ≥ tf, ∀ i, (p t i - pf i) ^ 2 + v t i ^ 2 ≤
        K * (((p tf i - pf i) ^ 2 + v tf i ^ 2) * Real.exp (-r * (t - tf)) + D ^ 2) := by
  obtain ⟨r, hr, K, hK, h⟩ := settles k hm hP hD
  refine ⟨r, hr, K, hK, fun t0 tf p0 v0 pf D p v u ht hmv hc => h t0 tf p0 v0 pf D p v u ht hmv fun t hts => ?_⟩
  obtain ⟨C⟩ := hc t hts
  refine ⟨C.f, C.law, fun i => ?_⟩
  obtain ⟨⟨⟨δ, φ⟩, hs, -⟩, -⟩ := C83_motion (g := C.g) (γ := C.γ) C.inertia C.space C.qd
  have := C83_task C.inertia C.space C.contacts C.ready hs C.moves C.γt
  have e : u t i = C.f i + (C.γt i - (C.Jt *ᵥ δ) i) := (congrFun C.point i).trans (congrFun this i)
  rw [e, add_sub_cancel_left]
  exact C.bound δ φ hs i

open Whirl in
/-- The tip of the turning crane is controlled in this sense, with velocity terms `ω²`: every command, at every velocity. -/
theorem C83_tracking_met (k : TaskLinkPD) (t : ℝ) (p v : Vec3) {f : Vec3} (hf : k.posPD t p v = some f) (ω : ℝ) :
    Nonempty (Controlled k t p v (f + ![-ω ^ 2, 0, 0]) (ω ^ 2) (Fin 3) 6) := by
  obtain ⟨hA, hB, S, R, hS, hR, ⟨qdd, F, h⟩, hall⟩ := C83_task_missed ω f
  refine ⟨⟨[body (Fin 3), crane], grav, foot (Fin 3), 0, turning ω, tipJ, tipDrift ω 0, f, S, R, qdd, F, hA, hB, hS, hR, hf, h,
    (hall qdd F h).symm, fun δ φ hs i => ?_⟩⟩
  obtain ⟨⟨q, -, hu⟩, -⟩ := C83_motion (g := grav) (γ := 0) hA hS (turning ω)
  have e : (δ, φ) = (Sum.elim (fun _ => 0) ![0, -ω ^ 2, 0], 0) := (hu (δ, φ) hs).trans (hu (_, _) (crane_shortfall ω)).symm
  rw [(Prod.mk.inj e).1]
  have hn : (0 : ℝ) ≤ ω ^ 2 := sq_nonneg ω
  fin_cases i
  · have : tipDrift ω 0 0 - (tipJ *ᵥ Sum.elim (fun _ => 0) ![0, -ω ^ 2, 0]) 0 = -ω ^ 2 := by
      simp [tipJ, tipDrift, mulVec, dotProduct, Fin.sum_univ_succ]; ring
    exact (congrArg _ this).le.trans (by rw [abs_neg, abs_of_nonneg hn])
  · have : tipDrift ω 0 1 - (tipJ *ᵥ Sum.elim (fun _ => 0) ![0, -ω ^ 2, 0]) 1 = 0 := by
      simp [tipJ, tipDrift, mulVec, dotProduct, Fin.sum_univ_succ]
    exact (congrArg _ this).le.trans (by rw [abs_zero]; exact hn)
  · have : tipDrift ω 0 2 - (tipJ *ᵥ Sum.elim (fun _ => 0) ![0, -ω ^ 2, 0]) 2 = 0 := by
      simp [tipJ, tipDrift, mulVec, dotProduct, Fin.sum_univ_succ]
    exact (congrArg _ this).le.trans (by rw [abs_zero]; exact hn)

/-- A point that rests at its target for ever satisfies the hypotheses of `C44_arrives` and of `C83_tracking`. -/
example (k : TaskLinkPD) (hm : k.mode ≤ 5) {t0 tf : ℝ} (ht : t0 < tf) (p0 v0 pf : Vec3) :
    (∀ t ≥ tf, Moves (fun _ => pf) 0 0 t) ∧
    (∀ t ≥ tf, (k.setTrajectoryQuintic t0 tf p0 v0 pf 0).posPD t pf 0 = some 0) ∧
    ∀ t ≥ tf, Nonempty (Controlled (k.setTrajectoryQuintic t0 tf p0 v0 pf 0) t pf 0 0 0 (Fin 3) 6) := by
  have h : ∀ t ≥ tf, (k.setTrajectoryQuintic t0 tf p0 v0 pf 0).posPD t pf 0 = some 0 := fun t hts => by
    rw [C44_end_velocity_bias k hm ht p0 v0 pf 0 hts, mul_zero]
  refine ⟨fun t _ i => ⟨hasDerivAt_const _ _, hasDerivAt_const _ _⟩, h, fun t hts => ?_⟩
  have := C83_tracking_met _ t pf 0 (h t hts) 0
  have e : (0 : Vec3) + ![-(0 : ℝ) ^ 2, 0, 0] = 0 := by ext i; fin_cases i <;> simp
  rw [e] at this
  simpa using this

/-- A point that approaches its target exponentially, with gains 2 and 3. -/
example (k : TaskLinkPD) (hm : k.mode ≤ 5) (hP : ∀ i, k.posP i = 2) (hD : ∀ i, k.posD i = 3) {t0 tf : ℝ} (ht : t0 < tf) (p0 v0 pf : Vec3) :
    ∃ p v u : ℝ → Vec3, p tf = pf + ![1, -2, 3] ∧ (∀ t ≥ tf, Moves p v u t) ∧
      ∀ t ≥ tf, (k.setTrajectoryQuintic t0 tf p0 v0 pf 0).posPD t (p t) (v t) = some (u t) := by
  set d : Vec3 := ![1, -2, 3]
  have he : ∀ t : ℝ, HasDerivAt (fun s => Real.exp (-(s - tf))) (-Real.exp (-(t - tf))) t := fun t => by
    have := (((hasDerivAt_id t).sub_const tf).neg).exp
    simpa using this
  refine ⟨fun t => pf + Real.exp (-(t - tf)) • d, fun t => -Real.exp (-(t - tf)) • d, fun t => Real.exp (-(t - tf)) • d, by simp,
    fun t _ i => ⟨?_, ?_⟩, fun t hts => ?_⟩
  · simpa using ((he t).mul_const (d i)).const_add (pf i)
  · simpa using ((he t).neg).mul_const (d i)
  · obtain ⟨P, V, A, hout, -, hhi, -⟩ := C44_position k hm ht p0 v0 pf 0
    obtain ⟨e1, e2, e3⟩ := hhi t hts
    rw [hout, e1, e2, e3]
    congr 1
    ext i
    simp [hP, hD]
    ring

end Verif.Props
