import Mathlib.Analysis.SpecialFunctions.Trigonometric.Basic
import Mathlib.Data.Real.Basic

/-!
# Low-pass filter (src/math.cpp 330-347, src/link.cpp 271-301)

Doubles are reals.  `cutoff`, `hz` positive makes the denominator positive.
-/

namespace Verif.Model

/-- src/math.cpp 330-347 `secondOrderLowPassFilter`. -/
noncomputable def secondOrderLowPassFilter (x x1 x2 y1 y2 fc d hz : ℝ) : ℝ :=
  let omega := 2 * Real.pi * fc / hz
  let D := 4 + 4 * d * omega + omega * omega
  (8 - 2 * omega * omega) / D * y1 - (4 - 4 * d * omega + omega * omega) / D * y2
    + omega * omega / D * (x + 2 * x1 + x2)

/-- Filter members of `Link`: `cutoff_freq_`, `damping_`, `sampling_frequency_`, `vp_`, `vlpf_`, `v`
(include/dwbc_link.h).  One velocity component: the loop of `calc2lpf` treats the three alike. -/
structure LinkFilter where
  fc : ℝ
  d : ℝ
  hz : ℝ
  vp : Fin 3 → ℝ
  vlpf : Fin 3 → ℝ
  v : ℝ

/-- src/link.cpp 271-285 `initialize2lpf` at velocity `v`. -/
def initialize2lpf (v fc d hz : ℝ) : LinkFilter :=
  { fc := fc, d := d, hz := hz, vp := fun _ => v, vlpf := fun _ => v, v := v }

/-- src/link.cpp 287-301 `calc2lpf`, after the link velocity was set to `v` (`UpdatePos`).  The third argument of the
filter is `vlpf_[2]`, as in the source (line 298). -/
noncomputable def calc2lpf (l : LinkFilter) (v : ℝ) : LinkFilter :=
  let p0 := v
  let p1 := l.vp 0
  let p2 := l.vp 1
  let y1 := l.vlpf 0
  let y2 := l.vlpf 1
  let y := secondOrderLowPassFilter p0 p1 y2 y1 y2 l.fc l.d l.hz
  { l with vp := ![p0, p1, p2], vlpf := ![y, y1, y2], v := y }

/-- The link filter fed with the signal `x`: state after `k` calls. -/
noncomputable def runFilter (l : LinkFilter) (x : ℕ → ℝ) : ℕ → LinkFilter
  | 0 => l
  | k + 1 => calc2lpf (runFilter l x k) (x k)

end Verif.Model
