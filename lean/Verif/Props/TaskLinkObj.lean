import Verif.Lemmas.TaskLinkObj
import Verif.Props.TaskPD

/-!
# C53: the settings of a task link

`Latest f ops a`: among the setter calls `ops`, the last one that sets what `f` reads has set it to `a`.
-/

set_option linter.unusedSectionVars false

namespace Verif.Props
open Matrix Verif Verif.Model Verif.Spec Set

/-- The gains in force: those of the last `SetTaskGain`, zero before the first. -/
def GainsInForce (ops : List TaskLinkOp) (K : Gains) : Prop :=
  Latest gainCall ops K ∨ NeverSet gainCall ops ∧ K = {}

theorem gainsInForce_run {mode : ℕ} {ops : List TaskLinkOp} {K : Gains} (h : GainsInForce ops K) :
    (TaskLinkObj.run mode ops).gains = K := by
  rcases h with h | ⟨h, rfl⟩
  · exact (run_gains mode ops).1 K h
  · exact (run_gains mode ops).2 h

/-- C53, position.  After every history of setter calls the position feedback is the PD law with the gains in force on the
reference motion of the last `SetTrajectoryQuintic`, run through in the time window of the last call of *either* trajectory
setter. -/
theorem C53_position {mode : ℕ} (hm : mode ≤ 5) {ops : List TaskLinkOp} {t0 tf : ℝ} (ht : t0 < tf) {c : (ℝ × ℝ) × PosGoal}
    {K : Gains} (hw : Latest anyWindow ops (t0, tf)) (hc : Latest posCall ops c) (hK : GainsInForce ops K) :
    ∃ P V A : ℝ → Vec3,
      (∀ t p v, (TaskLinkObj.run mode ops).fstarPos t p v =
        some (fun i => K.posA i * A t i + K.posP i * (P t i - p i) + K.posD i * (V t i - v i))) ∧
      (∀ t ≤ t0, P t = c.2.posInit ∧ V t = c.2.velInit ∧ A t = 0) ∧
      (∀ t, tf ≤ t → P t = c.2.posDes ∧ V t = c.2.velDes ∧ A t = 0) ∧
      (∀ t ∈ Ioo t0 tf, Moves P V A t) ∧ Continuous P ∧ Continuous V := by
  have e1 := run_window mode ops hw
  have e2 := (run_pos mode ops).1 c hc
  have e3 := gainsInForce_run (mode := mode) hK
  have e4 := run_mode mode ops
  let k : TaskLinkPD := (TaskLinkObj.run mode ops).toPD (t0, tf) c.2 ⟨0, 0, 0, 0⟩
  obtain ⟨P, V, A, h1, h2, h3, h4, h5, h6, -⟩ := C44_position k (by show _ ≤ 5; rw [show k.mode = _ from e4]; exact hm) ht
    c.2.posInit c.2.velInit c.2.posDes c.2.velDes
  refine ⟨P, V, A, fun t p v => ?_, h2, h3, h4, h5, h6⟩
  have := h1 t p v
  unfold TaskLinkObj.fstarPos
  rw [e1, e2]
  subst e3
  exact this

/-- C53, position (partial: no orientation trajectory may be set after the position trajectory, unless with the same times).
The reference runs in the time window given with the position trajectory. -/
theorem C53_position_partial {mode : ℕ} (hm : mode ≤ 5) {pre post : List TaskLinkOp} {t0 tf : ℝ} (ht : t0 < tf) (g : PosGoal)
    (hpost : NeverSet anyWindow post) {K : Gains} (hK : GainsInForce (pre ++ .quintic t0 tf g :: post) K) :
    ∃ P V A : ℝ → Vec3,
      (∀ t p v, (TaskLinkObj.run mode (pre ++ .quintic t0 tf g :: post)).fstarPos t p v =
        some (fun i => K.posA i * A t i + K.posP i * (P t i - p i) + K.posD i * (V t i - v i))) ∧
      (∀ t ≤ t0, P t = g.posInit ∧ V t = g.velInit ∧ A t = 0) ∧
      (∀ t, tf ≤ t → P t = g.posDes ∧ V t = g.velDes ∧ A t = 0) ∧
      (∀ t ∈ Ioo t0 tf, Moves P V A t) ∧ Continuous P ∧ Continuous V :=
  C53_position hm ht ⟨pre, _, post, rfl, rfl, hpost⟩ (c := ((t0, tf), g))
    ⟨pre, _, post, rfl, rfl, fun o ho => by
      have := hpost o ho
      cases o <;> simp_all [anyWindow, posCall]⟩ hK

/-- C53, orientation: the same for the orientation feedback. -/
theorem C53_orientation {mode : ℕ} {ops : List TaskLinkOp} {t0 tf : ℝ} (ht : t0 < tf) {c : (ℝ × ℝ) × RotGoal}
    {K : Gains} (hw : Latest anyWindow ops (t0, tf)) (hc : Latest rotCall ops c) (hK : GainsInForce ops K)
    (h0 : IsRot c.2.rotInit) (hf : IsRot c.2.rotDes)
    (hd : c.2.rotDes = c.2.rotInit ∨ (1 + (c.2.rotDes * c.2.rotInitᵀ).trace) / 4 < slerpOne ^ 2) :
    ∃ (R : ℝ → Mat3) (w : ℝ → Vec3),
      (∀ t C ω, (TaskLinkObj.run mode ops).fstarRot t C ω =
        some (fun i => K.rotP i * getPhi C (R t) i + K.rotD i * (w t i - ω i))) ∧
      (∀ t, IsRot (R t)) ∧ (∀ t ≤ t0, R t = c.2.rotInit ∧ w t = 0) ∧ (∀ t, tf ≤ t → R t = c.2.rotDes ∧ w t = 0) ∧
      (∀ t, AngularVelocity R (w t) t) := by
  have e1 := run_window mode ops hw
  have e2 := (run_rot mode ops).1 c hc
  have e3 := gainsInForce_run (mode := mode) hK
  let k : TaskLinkPD := (TaskLinkObj.run mode ops).toPD (t0, tf) ⟨0, 0, 0, 0⟩ c.2
  obtain ⟨R, w, a, h1, h2, h3, h4, h5, -⟩ := C44_orientation k ht h0 hf hd c.2.wInit c.2.wDes
  refine ⟨R, w, fun t C ω => ?_, h2, fun t h => ⟨(h3 t h).1, (h3 t h).2.1⟩, fun t h => ⟨(h4 t h).1, (h4 t h).2.1⟩, h5⟩
  have := h1 t C ω
  unfold TaskLinkObj.fstarRot
  rw [e1, e2]
  subst e3
  exact this

/-- C53, before the first trajectory the feedback reads unwritten members. -/
theorem C53_unset {mode : ℕ} (hm : mode ≤ 5) {ops : List TaskLinkOp} (h : NeverSet posCall ops) (t : ℝ) (p v : Vec3) :
    (TaskLinkObj.run mode ops).fstarPos t p v = none := by
  unfold TaskLinkObj.fstarPos
  rw [(run_pos mode ops).2 h]
  cases (TaskLinkObj.run mode ops).window <;> simp [run_mode, hm]

/-- C53, disagreement.  Setting an orientation trajectory moves the time window of the position trajectory that is already
set: one second later it should have reached its end, and the feedback still sees the start. -/
theorem C53_window_overwritten :
    ∃ (ops : List TaskLinkOp) (g : PosGoal), Latest posCall ops ((0, 1), g) ∧ GainsInForce ops { posP := 1 } ∧
      g.posDes = ![1, 0, 0] ∧ (TaskLinkObj.run 0 ops).fstarPos 1 g.posDes g.velDes = some ![-1, 0, 0] := by
  let g : PosGoal := ⟨0, 0, ![1, 0, 0], 0⟩
  let ops : List TaskLinkOp := [.gain { posP := 1 }, .quintic 0 1 g, .rotation 1 2 ⟨1, 0, 1, 0⟩]
  have hc : Latest posCall ops ((0, 1), g) := ⟨[.gain { posP := 1 }], _, [.rotation 1 2 ⟨1, 0, 1, 0⟩], rfl, rfl, by simp [posCall]⟩
  have hK : GainsInForce ops { posP := 1 } := Or.inl ⟨[], _, [.quintic 0 1 g, .rotation 1 2 ⟨1, 0, 1, 0⟩], rfl, rfl, by simp [gainCall]⟩
  have hw : Latest anyWindow ops (1, 2) := ⟨[.gain { posP := 1 }, .quintic 0 1 g], _, [], rfl, rfl, by simp⟩
  refine ⟨ops, g, hc, hK, rfl, ?_⟩
  obtain ⟨P, V, A, h1, h2, -⟩ := C53_position (mode := 0) (by norm_num) (by norm_num) hw hc hK
  obtain ⟨e1, e2, e3⟩ := h2 1 le_rfl
  rw [h1, e1, e2, e3]
  congr 1
  ext i; fin_cases i <;> simp [g]

/-- C53, disagreement.  The error limits of `SetPDerrorRegulation` never have an effect: removing all such calls from a
history changes no feedback. -/
theorem C53_limits_ignored (mode : ℕ) (ops : List TaskLinkOp) :
    (∀ t p v, (TaskLinkObj.run mode ops).fstarPos t p v =
      (TaskLinkObj.run mode (ops.filter fun o => (limitCall o).isNone)).fstarPos t p v) ∧
    ∀ t R w, (TaskLinkObj.run mode ops).fstarRot t R w =
      (TaskLinkObj.run mode (ops.filter fun o => (limitCall o).isNone)).fstarRot t R w := by
  obtain ⟨L, e⟩ := run_limits_free mode ops
  rw [e]
  exact ⟨fun _ _ _ => rfl, fun _ _ _ => rfl⟩

/-- C53, disagreement, an instance: limit 1 on every error, unit gain; a position error of 100 still gives 100. -/
theorem C53_limit_exceeded :
    ∃ ops : List TaskLinkOp, Latest limitCall ops (1, 1) ∧ GainsInForce ops { posP := 1 } ∧
      (TaskLinkObj.run 0 ops).fstarPos 2 0 0 = some ![100, 0, 0] := by
  let g : PosGoal := ⟨0, 0, ![100, 0, 0], 0⟩
  let ops : List TaskLinkOp := [.gain { posP := 1 }, .quintic 0 1 g, .regulate 1 1]
  have hc : Latest posCall ops ((0, 1), g) := ⟨[.gain { posP := 1 }], _, [.regulate 1 1], rfl, rfl, by simp [posCall]⟩
  have hK : GainsInForce ops { posP := 1 } := Or.inl ⟨[], _, [.quintic 0 1 g, .regulate 1 1], rfl, rfl, by simp [gainCall]⟩
  have hw : Latest anyWindow ops (0, 1) := ⟨[.gain { posP := 1 }], _, [.regulate 1 1], rfl, rfl, by simp [anyWindow]⟩
  refine ⟨ops, ⟨[.gain { posP := 1 }, .quintic 0 1 g], _, [], rfl, rfl, by simp⟩, hK, ?_⟩
  obtain ⟨P, V, A, h1, -, h3, -⟩ := C53_position (mode := 0) (by norm_num) (by norm_num) hw hc hK
  obtain ⟨e1, e2, e3⟩ := h3 2 (by norm_num)
  rw [h1, e1, e2, e3]
  congr 1
  ext i; fin_cases i <;> simp [g]

/-- Hypotheses met: two position trajectories, gains set twice, an orientation trajectory in between. -/
example : ∃ (pre post : List TaskLinkOp) (g : PosGoal) (K : Gains), pre.length = 3 ∧ NeverSet anyWindow post ∧
    GainsInForce (pre ++ .quintic 2 3 g :: post) K ∧ K.posP = 7 ∧ g.posDes ≠ 0 := by
  let g : PosGoal := ⟨0, 0, ![1, 2, 3], 0⟩
  refine ⟨[.gain { posP := 1 }, .quintic 0 1 g, .rotation 1 2 ⟨1, 0, 1, 0⟩], [.gain { posP := 7 }], g, { posP := 7 }, rfl,
    by simp [NeverSet, anyWindow], Or.inl ⟨[.gain { posP := 1 }, .quintic 0 1 g, .rotation 1 2 ⟨1, 0, 1, 0⟩, .quintic 2 3 g],
      _, [], rfl, rfl, by simp⟩, rfl, ?_⟩
  intro e
  have := congrFun e 0
  simp [g] at this

end Verif.Props
