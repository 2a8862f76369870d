import Verif.Spec.TaskPD

/-!
# Specification: points and orientations that link tasks track
-/

namespace Verif.Spec
open Matrix

/-- A moving link: position of its origin and its orientation over time. -/
structure LinkMotion where
  x : ℝ → Fin 3 → ℝ
  R : ℝ → Matrix (Fin 3) (Fin 3) ℝ

/-- The point fixed in the link at `p` (link coordinates) is at `pos` at time `t` and moves with velocity `vel`. -/
def LinkMotion.PointAt (m : LinkMotion) (p : Fin 3 → ℝ) (t : ℝ) (pos vel : Fin 3 → ℝ) : Prop :=
  pos = m.x t + m.R t *ᵥ p ∧ ∀ i, HasDerivAt (fun s => (m.x s + m.R s *ᵥ p) i) (vel i) t

/-- The frame a link task refers to: mode numbers as in `LINK_MODE` (include/dwbc_task.h); link origin, centre of mass of the
link, or the point given by the user. -/
def taskFrame (mode : ℕ) (com point : Fin 3 → ℝ) : Fin 3 → ℝ :=
  if mode = 0 ∨ mode = 3 then 0 else if mode = 1 ∨ mode = 4 then com else point

/-- Modes that track a position: 6-D (0-2) and position (3-5). -/
def TracksPosition (mode : ℕ) : Prop := mode ≤ 5

/-- Modes that track an orientation: 6-D (0-2) and rotation (6, 7). -/
def TracksRotation (mode : ℕ) : Prop := mode ≤ 2 ∨ mode = 6 ∨ mode = 7

/-- Number of rows of a mode. -/
def taskRows (mode : ℕ) : ℕ := if mode ≤ 2 then 6 else 3

/-- First of the three rotation rows of a mode. -/
def rotationRow (mode : ℕ) : ℕ := if mode ≤ 2 then 3 else 0

end Verif.Spec
