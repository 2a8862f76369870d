import Verif.Lemmas.Filter

/-!
# C21: low-pass filter
-/
set_option linter.unusedSectionVars false

namespace Verif.Props
open Filter Topology Verif Verif.Model

/-- `y` is the filtered version of `x`, from arbitrary initial values `y 0`, `y 1`. -/
def Filtered (fc d hz : ℝ) (x y : ℕ → ℝ) : Prop :=
  ∀ k, y (k + 2) = secondOrderLowPassFilter (x (k + 2)) (x (k + 1)) (x k) (y (k + 1)) (y k) fc d hz

theorem omega_pos {fc hz : ℝ} (hf : 0 < fc) (hh : 0 < hz) : 0 < 2 * Real.pi * fc / hz := by
  have := Real.pi_pos; positivity

/-- C21.  A constant is reproduced exactly. -/
theorem C21_constant {fc d hz : ℝ} (hf : 0 < fc) (hd : 0 < d) (hh : 0 < hz) (c : ℝ) :
    secondOrderLowPassFilter c c c c c fc d hz = c := by
  unfold secondOrderLowPassFilter
  simp only
  have hw := omega_pos hf hh
  generalize 2 * Real.pi * fc / hz = w at *
  have : 4 + 4 * d * w + w * w ≠ 0 := by positivity
  field_simp
  ring

/-- C21.  The filter is linear in inputs and past outputs together. -/
theorem C21_linear (α β x x1 x2 y1 y2 x' x1' x2' y1' y2' fc d hz : ℝ) :
    secondOrderLowPassFilter (α * x + β * x') (α * x1 + β * x1') (α * x2 + β * x2') (α * y1 + β * y1')
      (α * y2 + β * y2') fc d hz =
    α * secondOrderLowPassFilter x x1 x2 y1 y2 fc d hz + β * secondOrderLowPassFilter x' x1' x2' y1' y2' fc d hz := by
  unfold secondOrderLowPassFilter; simp only; ring

/-- C21.  For every positive cut-off, damping and sampling rate the filter settles: whatever the history, once the
input stays at `c` the output tends to `c`. -/
theorem C21_settles {fc d hz : ℝ} (hf : 0 < fc) (hd : 0 < d) (hh : 0 < hz) {x y : ℕ → ℝ}
    (h : Filtered fc d hz x y) {c : ℝ} {N : ℕ} (hx : ∀ k, N ≤ k → x k = c) : Tendsto y atTop (𝓝 c) := by
  have hw := omega_pos hf hh
  have key : Tendsto (fun k => y (k + N) - c) atTop (𝓝 0) := by
    refine oscillator_tendsto (m := 4) (γ := 4 * d * (2 * Real.pi * fc / hz))
      (κ := (2 * Real.pi * fc / hz) ^ 2) (by norm_num) (by positivity) (by positivity) fun k => ?_
    have e := h (k + N)
    rw [hx (k + N + 2) (by omega), hx (k + N + 1) (by omega), hx (k + N) (by omega)] at e
    rw [show k + 2 + N = k + N + 2 by omega, show k + 1 + N = k + N + 1 by omega, e]
    unfold secondOrderLowPassFilter
    simp only
    generalize 2 * Real.pi * fc / hz = w at *
    have : 4 + 4 * d * w + w * w ≠ 0 := by positivity
    field_simp
    ring
  have := (tendsto_add_atTop_iff_nat N).mp (key.add_const c |>.congr fun k => by ring : Tendsto (fun k => y (k + N)) atTop (𝓝 (0 + c)))
  rwa [zero_add] at this

/-- hypotheses met: a 10 Hz filter at 1 kHz with a step input -/
example : ∃ y : ℕ → ℝ, Filtered 10 1 1000 (fun k => if k < 5 then 0 else 1) y := by
  let f : ℕ → ℝ × ℝ := fun k => Nat.rec (0, 0) (fun k p =>
    (p.2, secondOrderLowPassFilter (if k + 2 < 5 then 0 else 1) (if k + 1 < 5 then 0 else 1) (if k < 5 then 0 else 1)
      p.2 p.1 10 1 1000)) k
  exact ⟨fun k => (f k).1, fun k => rfl⟩

/-! ## The link velocity filter -/

/-- filtered velocity after `k` calls -/
noncomputable def linkOut (l : LinkFilter) (x : ℕ → ℝ) (k : ℕ) : ℝ := (runFilter l x k).v

theorem run_params (l : LinkFilter) (x : ℕ → ℝ) (k : ℕ) :
    (runFilter l x k).fc = l.fc ∧ (runFilter l x k).d = l.d ∧ (runFilter l x k).hz = l.hz := by
  induction k with
  | zero => exact ⟨rfl, rfl, rfl⟩
  | succ k ih => exact ih

/-- the two registers `calc2lpf` reads -/
theorem run_regs (v fc d hz : ℝ) (x : ℕ → ℝ) (k : ℕ) :
    let l := initialize2lpf v fc d hz
    (runFilter l x k).vlpf 0 = linkOut l x k ∧
      (runFilter l x (k + 1)).vlpf 1 = linkOut l x k ∧ (runFilter l x (k + 1)).vp 0 = x k := by
  intro l
  refine ⟨?_, ?_, rfl⟩
  · cases k <;> rfl
  · show (runFilter l x k).vlpf 0 = _
    cases k <;> rfl

/-- the recursion the link filter obeys -/
theorem linkOut_rec (v fc d hz : ℝ) (x : ℕ → ℝ) (k : ℕ) :
    linkOut (initialize2lpf v fc d hz) x (k + 2) =
      secondOrderLowPassFilter (x (k + 1)) (x k) (linkOut (initialize2lpf v fc d hz) x k)
        (linkOut (initialize2lpf v fc d hz) x (k + 1)) (linkOut (initialize2lpf v fc d hz) x k) fc d hz := by
  set l := initialize2lpf v fc d hz with hl
  obtain ⟨h1, h2, h3⟩ := run_regs v fc d hz x k
  obtain ⟨h4, -, -⟩ := run_regs v fc d hz x (k + 1)
  obtain ⟨p1, p2, p3⟩ := run_params l x (k + 1)
  show secondOrderLowPassFilter (x (k + 1)) ((runFilter l x (k + 1)).vp 0) ((runFilter l x (k + 1)).vlpf 1)
    ((runFilter l x (k + 1)).vlpf 0) ((runFilter l x (k + 1)).vlpf 1) (runFilter l x (k + 1)).fc
    (runFilter l x (k + 1)).d (runFilter l x (k + 1)).hz = _
  rw [p1, p2, p3, h2, h3, h4]
  rfl

/-- C21, link filter: initialised at velocity `v` and fed with `v`, it stays at `v`. -/
theorem C21_link_constant {fc d hz : ℝ} (hf : 0 < fc) (hd : 0 < d) (hh : 0 < hz) (v : ℝ) (k : ℕ) :
    linkOut (initialize2lpf v fc d hz) (fun _ => v) k = v := by
  have h1 : linkOut (initialize2lpf v fc d hz) (fun _ => v) 1 = v := C21_constant hf hd hh v
  have : ∀ k, linkOut (initialize2lpf v fc d hz) (fun _ => v) k = v ∧
      linkOut (initialize2lpf v fc d hz) (fun _ => v) (k + 1) = v := by
    intro k
    induction k with
    | zero => exact ⟨rfl, h1⟩
    | succ k ih =>
      refine ⟨ih.2, ?_⟩
      rw [linkOut_rec, ih.1, ih.2]
      exact C21_constant hf hd hh v
  exact (this k).1

/-- C21 fails for the link filter: it is not the low-pass filter of the velocity signal.  (Line 298 of link.cpp passes
an old output where the oldest input belongs.)  Witness: a unit pulse. -/
theorem C21_link_not_filtered {fc d hz : ℝ} (hf : 0 < fc) (hd : 0 < d) (hh : 0 < hz) :
    ¬ ∀ (v : ℝ) (x : ℕ → ℝ) (k : ℕ), linkOut (initialize2lpf v fc d hz) x (k + 3) =
      secondOrderLowPassFilter (x (k + 2)) (x (k + 1)) (x k) (linkOut (initialize2lpf v fc d hz) x (k + 2))
        (linkOut (initialize2lpf v fc d hz) x (k + 1)) fc d hz := by
  intro h
  have e := h 0 (fun k => if k = 0 then 1 else 0) 0
  rw [linkOut_rec] at e
  have e1 : linkOut (initialize2lpf 0 fc d hz) (fun k => if k = 0 then 1 else 0) (0 + 1) =
      secondOrderLowPassFilter 1 0 0 0 0 fc d hz := rfl
  rw [e1] at e
  have hw := omega_pos hf hh
  unfold secondOrderLowPassFilter at e
  simp only at e
  generalize 2 * Real.pi * fc / hz = w at *
  generalize linkOut (initialize2lpf 0 fc d hz) (fun k => if k = 0 then 1 else 0) (0 + 1 + 1) = u at e
  have hD : 0 < 4 + 4 * d * w + w * w := by positivity
  have hb : w * w / (4 + 4 * d * w + w * w) < 1 := by
    rw [div_lt_one hD]; nlinarith [mul_pos hd hw]
  have hb0 : 0 < w * w / (4 + 4 * d * w + w * w) := by positivity
  generalize w * w / (4 + 4 * d * w + w * w) = b at *
  simp at e
  nlinarith

/-- C21, link filter, partial: below `2π·cutoff/rate < 4` (so for every cut-off below half the sampling rate) it
settles at the value of an eventually constant input. -/
theorem C21_link_settles_partial {fc d hz : ℝ} (hf : 0 < fc) (hd : 0 < d) (hh : 0 < hz)
    (hlow : 2 * Real.pi * fc / hz < 4) (v : ℝ) {x : ℕ → ℝ} {c : ℝ} {N : ℕ} (hx : ∀ k, N ≤ k → x k = c) :
    Tendsto (linkOut (initialize2lpf v fc d hz) x) atTop (𝓝 c) := by
  have hw := omega_pos hf hh
  set y := linkOut (initialize2lpf v fc d hz) x with hy
  have key : Tendsto (fun k => y (k + N) - c) atTop (𝓝 0) := by
    have hm : 0 < 4 - (2 * Real.pi * fc / hz) ^ 2 / 4 := by nlinarith
    refine oscillator_tendsto (m := 4 - (2 * Real.pi * fc / hz) ^ 2 / 4)
      (γ := 4 * d * (2 * Real.pi * fc / hz) + (2 * Real.pi * fc / hz) ^ 2 / 2)
      (κ := 3 / 4 * (2 * Real.pi * fc / hz) ^ 2) hm (by positivity) (by positivity) fun k => ?_
    have e := linkOut_rec v fc d hz x (k + N)
    rw [← hy, hx (k + N + 1) (by omega), hx (k + N) (by omega)] at e
    rw [show k + 2 + N = k + N + 2 by omega, show k + 1 + N = k + N + 1 by omega, e]
    unfold secondOrderLowPassFilter
    simp only
    generalize 2 * Real.pi * fc / hz = w at *
    have : 4 + 4 * d * w + w * w ≠ 0 := by positivity
    field_simp
    ring
  have := (tendsto_add_atTop_iff_nat N).mp (key.add_const c |>.congr fun k => by ring : Tendsto (fun k => y (k + N)) atTop (𝓝 (0 + c)))
  rwa [zero_add] at this

/-- every cut-off below the Nyquist frequency is covered -/
theorem below_nyquist {fc hz : ℝ} (hf : 0 < fc) (hh : 0 < hz) (h : fc < hz / 2) : 2 * Real.pi * fc / hz < 4 := by
  have hpi := Real.pi_le_four
  have := Real.pi_pos
  rw [div_lt_iff₀ hh]
  nlinarith

/-- C21 fails for the link filter also as to stability: with `2π·cutoff/rate = 4` it keeps oscillating after the input
has gone to zero. -/
theorem C21_link_unstable {d hz : ℝ} (hd : 0 < d) (hh : 0 < hz) :
    ∃ fc, 0 < fc ∧ ¬ Tendsto (linkOut (initialize2lpf 1 fc d hz) (fun _ => 0)) atTop (𝓝 0) := by
  have hpi := Real.pi_pos
  refine ⟨2 * hz / Real.pi, by positivity, ?_⟩
  set fc := 2 * hz / Real.pi with hfc
  have hw4 : 2 * Real.pi * fc / hz = 4 := by rw [hfc]; field_simp; norm_num
  set y := linkOut (initialize2lpf 1 fc d hz) (fun _ => 0) with hy
  intro ht
  set r : ℝ := (4 - 16 * d) / (20 + 16 * d) with hr
  have hD : (0 : ℝ) < 20 + 16 * d := by positivity
  have hrec : ∀ k, y (k + 2) + r * y (k + 1) = -(y (k + 1) + r * y k) := by
    intro k
    have e := linkOut_rec 1 fc d hz (fun _ => 0) k
    rw [← hy] at e
    rw [e]
    unfold secondOrderLowPassFilter
    simp only
    rw [hw4, hr, show (4 : ℝ) + 4 * d * 4 + 4 * 4 = 20 + 16 * d by ring]
    field_simp
    ring
  have h1 : y 1 + r * y 0 = 8 / (20 + 16 * d) := by
    have e0 : y 0 = 1 := rfl
    have e1 : y 1 = secondOrderLowPassFilter 0 1 1 1 1 fc d hz := rfl
    rw [e0, e1]
    unfold secondOrderLowPassFilter
    simp only
    rw [hw4, hr, show (4 : ℝ) + 4 * d * 4 + 4 * 4 = 20 + 16 * d by ring]
    field_simp
    ring
  have habs : ∀ k, |y (k + 1) + r * y k| = 8 / (20 + 16 * d) := by
    intro k
    induction k with
    | zero => rw [h1, abs_of_pos (by positivity)]
    | succ k ih => rw [hrec, abs_neg, ih]
  have hlim : Tendsto (fun k => |y (k + 1) + r * y k|) atTop (𝓝 0) := by
    have := ((ht.comp (tendsto_add_atTop_nat 1)).add (ht.const_mul r)).abs
    simpa using this
  have := tendsto_nhds_unique (hlim.congr habs) tendsto_const_nhds
  have hp : 0 < 8 / (20 + 16 * d) := by positivity
  linarith

end Verif.Props
