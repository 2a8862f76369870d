import Verif.Spec.Sampled
import Verif.Lemmas.Sampled
import Verif.Props.TaskPD
import Mathlib.Algebra.Order.Floor.Semiring
import Mathlib.Topology.Algebra.Order.Floor

/-!
# C87: a control loop that runs at a fixed rate
-/

set_option linter.unusedSectionVars false

namespace Verif.Props
open Matrix Set Verif Verif.Spec Verif.Model Filter Topology

/-- The command after the end of a trajectory that ends at rest. -/
theorem posPD_after (k : TaskLinkPD) (hm : k.mode ≤ 5) {t0 tf : ℝ} (ht : t0 < tf) (p0 v0 pf : Vec3) {t : ℝ} (h : tf ≤ t) (p v : Vec3) :
    (k.setTrajectoryQuintic t0 tf p0 v0 pf 0).posPD t p v = some fun i => -(k.posP i * (p i - pf i)) - k.posD i * v i := by
  obtain ⟨P, V, A, hout, -, hhi, -⟩ := C44_position k hm ht p0 v0 pf 0
  obtain ⟨e1, e2, e3⟩ := hhi t h
  rw [hout, e1, e2, e3]
  congr 1
  ext i
  simp only [Pi.zero_apply]
  ring

/-- Every time after the first call lies between two calls. -/
theorem between_calls {t₁ h : ℝ} (hh : 0 < h) {t : ℝ} (ht : t₁ ≤ t) :
    ∃ s ∈ Icc 0 h, t = t₁ + (⌊(t - t₁) / h⌋₊ : ℕ) * h + s := by
  have h0 : 0 ≤ (t - t₁) / h := div_nonneg (sub_nonneg.mpr ht) hh.le
  have h1 := Nat.floor_le h0
  have h2 := Nat.lt_floor_add_one ((t - t₁) / h)
  rw [le_div_iff₀ hh] at h1
  rw [div_lt_iff₀ hh] at h2
  exact ⟨t - t₁ - ⌊(t - t₁) / h⌋₊ * h, ⟨by linarith, by linarith⟩, by ring⟩

/-- What the point does at the calls decides what it does in between. -/
theorem tendsto_between {t₁ h : ℝ} (hh : 0 < h) {p v : ℝ → Vec3} {u : ℕ → Vec3} (hr : HeldBetweenCalls t₁ h p v u) (pf : Vec3)
    (hp : ∀ i, Tendsto (fun k : ℕ => p (t₁ + k * h) i - pf i) atTop (𝓝 0)) (hv : ∀ i, Tendsto (fun k : ℕ => v (t₁ + k * h) i) atTop (𝓝 0))
    (hu : ∀ i, Tendsto (fun k => u k i) atTop (𝓝 0)) : Tendsto p atTop (𝓝 pf) ∧ Tendsto v atTop (𝓝 0) := by
  have hfl : Tendsto (fun t : ℝ => ⌊(t - t₁) / h⌋₊) atTop atTop :=
    tendsto_nat_floor_atTop.comp ((tendsto_atTop_add_const_right atTop (-t₁) tendsto_id).atTop_div_const hh)
  refine ⟨tendsto_pi_nhds.mpr fun i => ?_, tendsto_pi_nhds.mpr fun i => ?_⟩
  · have hb : Tendsto (fun k : ℕ => |p (t₁ + k * h) i - pf i| + h * |v (t₁ + k * h) i| + h ^ 2 / 2 * |u k i|) atTop (𝓝 0) := by
      have := (((hp i).abs).add ((hv i).abs.const_mul h)).add ((hu i).abs.const_mul (h ^ 2 / 2))
      simpa using this
    have : Tendsto (fun t => p t i - pf i) atTop (𝓝 0) := by
      refine squeeze_zero_norm' ?_ (hb.comp hfl)
      filter_upwards [eventually_ge_atTop t₁] with t ht
      obtain ⟨s, hs, e⟩ := between_calls hh ht
      have := (hr ⌊(t - t₁) / h⌋₊ s hs i).1
      rw [← e] at this
      simp only [Function.comp]
      generalize ⌊(t - t₁) / h⌋₊ = k at *
      rw [this, Real.norm_eq_abs]
      have e2 : p (t₁ + k * h) i + s * v (t₁ + k * h) i + s ^ 2 / 2 * u k i - pf i
          = (p (t₁ + k * h) i - pf i) + s * v (t₁ + k * h) i + s ^ 2 / 2 * u k i := by ring
      rw [e2]
      refine (abs_add_le _ _).trans (add_le_add ((abs_add_le _ _).trans (add_le_add le_rfl ?_)) ?_)
      · rw [abs_mul, abs_of_nonneg hs.1]
        exact mul_le_mul_of_nonneg_right hs.2 (abs_nonneg _)
      · rw [abs_mul, abs_of_nonneg (by positivity : 0 ≤ s ^ 2 / 2)]
        refine mul_le_mul_of_nonneg_right ?_ (abs_nonneg _)
        nlinarith [hs.1, hs.2]
    have := this.add_const (pf i)
    simpa using this
  · have hb : Tendsto (fun k : ℕ => |v (t₁ + k * h) i| + h * |u k i|) atTop (𝓝 0) := by
      have := ((hv i).abs).add ((hu i).abs.const_mul h)
      simpa using this
    refine squeeze_zero_norm' ?_ (hb.comp hfl)
    filter_upwards [eventually_ge_atTop t₁] with t ht
    obtain ⟨s, hs, e⟩ := between_calls hh ht
    have := (hr ⌊(t - t₁) / h⌋₊ s hs i).2
    rw [← e] at this
    simp only [Function.comp]
    rw [this, Real.norm_eq_abs]
    refine (abs_add_le _ _).trans (add_le_add le_rfl ?_)
    rw [abs_mul, abs_of_nonneg hs.1]
    exact mul_le_mul_of_nonneg_right hs.2 (abs_nonneg _)

/-- A point moving between calls, from its positions and velocities at the calls. -/
noncomputable def fillIn (t₁ h : ℝ) (p v u : ℕ → Vec3) (t : ℝ) : Vec3 × Vec3 :=
  let k := ⌊(t - t₁) / h⌋₊
  let s := t - t₁ - k * h
  (p k + s • v k + (s ^ 2 / 2) • u k, v k + s • u k)

theorem fillIn_at {t₁ h : ℝ} (hh : 0 < h) (p v u : ℕ → Vec3) (k : ℕ) {s : ℝ} (hs : s ∈ Ico 0 h) :
    fillIn t₁ h p v u (t₁ + k * h + s) = (p k + s • v k + (s ^ 2 / 2) • u k, v k + s • u k) := by
  have e : ⌊(t₁ + k * h + s - t₁) / h⌋₊ = k := by
    rw [Nat.floor_eq_iff (div_nonneg (by have := hs.1; have : 0 ≤ (k : ℝ) * h := by positivity
                                         linarith) hh.le), le_div_iff₀ hh, div_lt_iff₀ hh]
    constructor <;> nlinarith [hs.1, hs.2]
  unfold fillIn
  simp only [e]
  rw [show t₁ + k * h + s - t₁ - k * h = s by ring]

theorem fillIn_held {t₁ h : ℝ} (hh : 0 < h) {p v u : ℕ → Vec3}
    (hr : ∀ k i, p (k + 1) i = p k i + h * v k i + h ^ 2 / 2 * u k i ∧ v (k + 1) i = v k i + h * u k i) :
    HeldBetweenCalls t₁ h (fun t => (fillIn t₁ h p v u t).1) (fun t => (fillIn t₁ h p v u t).2) u := by
  have h0 : ∀ k : ℕ, fillIn t₁ h p v u (t₁ + k * h) = (p k, v k) := fun k => by
    have := fillIn_at hh p v u (t₁ := t₁) k (s := 0) ⟨le_rfl, hh⟩
    simpa using this
  intro k s hs i
  simp only [h0]
  rcases hs.2.lt_or_eq with hlt | rfl
  · rw [fillIn_at hh p v u k ⟨hs.1, hlt⟩]
    simp
  · have := h0 (k + 1)
    rw [show t₁ + ((k + 1 : ℕ) : ℝ) * s = t₁ + k * s + s by push_cast; ring] at this
    rw [this]
    exact hr k i

/-- **C87.**  After the end of a trajectory that ends at rest, a point that accelerates as commanded by a position task, the command being
computed every `h` seconds and held in between, converges to the end of the trajectory and comes to rest there from every start, if and
only if the gains satisfy `0 < Kp`, `h Kp < 2 Kd` and `h Kd < 2` on every axis.  `Ka` does not matter. -/
theorem C87_sampled (k : TaskLinkPD) (hm : k.mode ≤ 5) {t0 tf t₁ h : ℝ} (ht : t0 < tf) (h1 : tf ≤ t₁) (hh : 0 < h) (p0 v0 pf : Vec3) :
    (∀ (p v : ℝ → Vec3) (u : ℕ → Vec3), HeldBetweenCalls t₁ h p v u →
        (∀ n : ℕ, (k.setTrajectoryQuintic t0 tf p0 v0 pf 0).posPD (t₁ + n * h) (p (t₁ + n * h)) (v (t₁ + n * h)) = some (u n)) →
        Tendsto p atTop (𝓝 pf) ∧ Tendsto v atTop (𝓝 0)) ↔
      ∀ i, 0 < k.posP i ∧ h * k.posP i < 2 * k.posD i ∧ h * k.posD i < 2 := by
  have hcall : ∀ n : ℕ, tf ≤ t₁ + n * h := fun n => h1.trans (le_add_of_nonneg_right (by positivity))
  constructor
  · intro hall i
    refine axis_bounds hh fun e0 x0 => ?_
    set e : ℕ → ℝ := fun n => (axisRun h (k.posP i) (k.posD i) e0 x0 n).1
    set x : ℕ → ℝ := fun n => (axisRun h (k.posP i) (k.posD i) e0 x0 n).2
    set p : ℕ → Vec3 := fun n j => if j = i then pf i + e n else pf j with hp
    set v : ℕ → Vec3 := fun n j => if j = i then x n else 0 with hv
    set u : ℕ → Vec3 := fun n j => if j = i then -(k.posP i * e n) - k.posD i * x n else 0 with hu
    have hrun : ∀ n j, p (n + 1) j = p n j + h * v n j + h ^ 2 / 2 * u n j ∧ v (n + 1) j = v n j + h * u n j := by
      intro n j
      by_cases hj : j = i
      · simp only [hp, hv, hu, if_pos hj]
        obtain ⟨a, b⟩ := axisRun_run h (k.posP i) (k.posD i) e0 x0 n
        refine ⟨?_, b⟩
        have a' : e (n + 1) = e n + h * x n + h ^ 2 / 2 * (-(k.posP i * e n) - k.posD i * x n) := a
        rw [a']
        ring
      · simp [hp, hv, hu, if_neg hj]
    have hheld := fillIn_held hh hrun (t₁ := t₁)
    have hat : ∀ n : ℕ, fillIn t₁ h p v u (t₁ + n * h) = (p n, v n) := fun n => by
      have := fillIn_at hh p v u (t₁ := t₁) n (s := 0) ⟨le_rfl, hh⟩
      simpa using this
    obtain ⟨a, b⟩ := hall _ _ _ hheld fun n => by
      simp only [hat]
      rw [posPD_after k hm ht p0 v0 pf (hcall n)]
      congr 1
      ext j
      by_cases hj : j = i
      · subst hj; simp [hp, hv, hu]
      · simp [hp, hv, hu, hj]
    have hseq : Tendsto (fun n : ℕ => t₁ + n * h) atTop atTop :=
      tendsto_atTop_add_const_left _ _ (tendsto_natCast_atTop_atTop.atTop_mul_const hh)
    have a1 := (tendsto_pi_nhds.mp (a.comp hseq) i).sub_const (pf i)
    have b1 := tendsto_pi_nhds.mp (b.comp hseq) i
    constructor
    · rw [sub_self] at a1
      refine a1.congr fun n => ?_
      change (fillIn t₁ h p v u (t₁ + n * h)).1 i - pf i = e n
      rw [hat]
      simp [hp]
    · refine b1.congr fun n => ?_
      change (fillIn t₁ h p v u (t₁ + n * h)).2 i = x n
      rw [hat]
      simp [hv]
  · intro hg p v u hr hu
    have hun : ∀ (n : ℕ) i, u n i = -(k.posP i * (p (t₁ + n * h) i - pf i)) - k.posD i * v (t₁ + n * h) i := fun n i => by
      have := hu n
      rw [posPD_after k hm ht p0 v0 pf (hcall n)] at this
      exact (congrFun (Option.some.inj this) i).symm
    have hax : ∀ i, AxisRun h (k.posP i) (k.posD i) (fun n : ℕ => p (t₁ + n * h) i - pf i) (fun n : ℕ => v (t₁ + n * h) i) := fun i n => by
      obtain ⟨a, b⟩ := hr n h ⟨hh.le, le_rfl⟩ i
      simp only
      rw [show t₁ + ((n + 1 : ℕ) : ℝ) * h = t₁ + n * h + h by push_cast; ring, a, b, hun]
      constructor <;> ring
    have hs : ∀ i, _ := fun i => axis_settles (hax i) hh (hg i).1 (hg i).2.1 (hg i).2.2
    refine tendsto_between hh hr pf (fun i => (hs i).1) (fun i => (hs i).2) fun i => ?_
    have := (((hs i).1.const_mul (k.posP i)).neg).sub ((hs i).2.const_mul (k.posD i))
    simp only [mul_zero, neg_zero, sub_zero] at this
    exact this.congr fun n => (hun n i).symm

/-- Gains `Kp = 400`, `Kd = 40` at a thousand calls per second. -/
example (k : TaskLinkPD) (hm : k.mode ≤ 5) {t0 tf : ℝ} (ht : t0 < tf) (p0 v0 pf : Vec3) (p v : ℝ → Vec3) (u : ℕ → Vec3)
    (hr : HeldBetweenCalls tf (1 / 1000) p v u)
    (hu : ∀ n : ℕ, ((k.setTaskGain (fun _ => 400) (fun _ => 40) 0 0 0 0).setTrajectoryQuintic t0 tf p0 v0 pf 0).posPD
      (tf + n * (1 / 1000)) (p (tf + n * (1 / 1000))) (v (tf + n * (1 / 1000))) = some (u n)) :
    Tendsto p atTop (𝓝 pf) ∧ Tendsto v atTop (𝓝 0) :=
  (C87_sampled (k.setTaskGain (fun _ => 400) (fun _ => 40) 0 0 0 0) hm ht le_rfl (by norm_num) p0 v0 pf).mpr
    (fun i => by simp [TaskLinkPD.setTaskGain]; norm_num) p v u hr hu

/-- Such runs exist from every start. -/
theorem C87_met (k : TaskLinkPD) (hm : k.mode ≤ 5) {t0 tf t₁ h : ℝ} (ht : t0 < tf) (h1 : tf ≤ t₁) (hh : 0 < h) (p0 v0 pf p1 v1 : Vec3) :
    ∃ (p v : ℝ → Vec3) (u : ℕ → Vec3), HeldBetweenCalls t₁ h p v u ∧ p t₁ = p1 ∧ v t₁ = v1 ∧
      ∀ n : ℕ, (k.setTrajectoryQuintic t0 tf p0 v0 pf 0).posPD (t₁ + n * h) (p (t₁ + n * h)) (v (t₁ + n * h)) = some (u n) := by
  set e : Fin 3 → ℕ → ℝ := fun i n => (axisRun h (k.posP i) (k.posD i) (p1 i - pf i) (v1 i) n).1 with he
  set x : Fin 3 → ℕ → ℝ := fun i n => (axisRun h (k.posP i) (k.posD i) (p1 i - pf i) (v1 i) n).2 with hx
  set p : ℕ → Vec3 := fun n i => pf i + e i n with hp
  set v : ℕ → Vec3 := fun n i => x i n with hv
  set u : ℕ → Vec3 := fun n i => -(k.posP i * e i n) - k.posD i * x i n with hu
  have hrun : ∀ n i, p (n + 1) i = p n i + h * v n i + h ^ 2 / 2 * u n i ∧ v (n + 1) i = v n i + h * u n i := by
    intro n i
    obtain ⟨a, b⟩ := axisRun_run h (k.posP i) (k.posD i) (p1 i - pf i) (v1 i) n
    have a' : e i (n + 1) = e i n + h * x i n + h ^ 2 / 2 * (-(k.posP i * e i n) - k.posD i * x i n) := a
    refine ⟨?_, b⟩
    simp only [hp, hv, hu, a']
    ring
  have hat : ∀ n : ℕ, fillIn t₁ h p v u (t₁ + n * h) = (p n, v n) := fun n => by
    have := fillIn_at hh p v u (t₁ := t₁) n (s := 0) ⟨le_rfl, hh⟩
    simpa using this
  have hat0 := hat 0
  rw [Nat.cast_zero, zero_mul, add_zero] at hat0
  refine ⟨_, _, u, fillIn_held hh hrun, ?_, ?_, fun n => ?_⟩
  · simp only [hat0]; ext i; simp [hp, he, axisRun]
  · simp only [hat0]; ext i; simp [hv, hx, axisRun]
  · simp only [hat]
    rw [posPD_after k hm ht p0 v0 pf (h1.trans (le_add_of_nonneg_right (by positivity)))]
    congr 1
    ext i
    simp [hp, hv, hu]

/-- **C87 (wrong).**  Positive gains are not enough: with `Kp = 400` and `Kd = 40`, which settle a loop that never pauses
(`C44_arrives`), a loop with twenty calls per second does not settle from every start. -/
theorem C87_wrong (k : TaskLinkPD) (hm : k.mode ≤ 5) {t0 tf : ℝ} (ht : t0 < tf) (p0 v0 pf : Vec3) :
    ∃ (p v : ℝ → Vec3) (u : ℕ → Vec3), HeldBetweenCalls tf (1 / 20) p v u ∧
      (∀ n : ℕ, ((k.setTaskGain (fun _ => 400) (fun _ => 40) 0 0 0 0).setTrajectoryQuintic t0 tf p0 v0 pf 0).posPD
        (tf + n * (1 / 20)) (p (tf + n * (1 / 20))) (v (tf + n * (1 / 20))) = some (u n)) ∧
      ¬ (Tendsto p atTop (𝓝 pf) ∧ Tendsto v atTop (𝓝 0)) := by
  by_contra hn
  push Not at hn
  have := (C87_sampled (k.setTaskGain (fun _ => 400) (fun _ => 40) 0 0 0 0) hm ht le_rfl (by norm_num : (0 : ℝ) < 1 / 20) p0 v0 pf).mp
    (fun p v u hr hu => by
      by_contra hc
      exact hc ⟨(hn p v u hr hu).1, (hn p v u hr hu).2⟩) 0
  simp [TaskLinkPD.setTaskGain] at this
  norm_num at this

end Verif.Props
