import Mathlib.Data.Real.Basic
import Mathlib.Logic.Equiv.Basic

/-!
# Specification: state vectors of a floating-base robot with `n` joints

Both orders have `n + 7` entries: three positions, a quaternion, `n` joint angles.
-/

namespace Verif.Spec

/-- What a state vector holds. -/
structure Posture (n : ℕ) where
  pos : Fin 3 → ℝ
  quatW : ℝ
  quatV : Fin 3 → ℝ
  joint : Fin n → ℝ

/-- MuJoCo order: `x y z | w x y z | joints`. -/
def mujoco {n : ℕ} (v : Fin (n + 7) → ℝ) : Posture n where
  pos i := v ⟨i, by omega⟩
  quatW := v ⟨3, by omega⟩
  quatV i := v ⟨4 + i, by omega⟩
  joint i := v ⟨7 + i, by omega⟩

/-- Library (RBDL) order: `x y z | x y z of the quaternion | joints | w`. -/
def rbdl {n : ℕ} (v : Fin (n + 7) → ℝ) : Posture n where
  pos i := v ⟨i, by omega⟩
  quatW := v ⟨6 + n, by omega⟩
  quatV i := v ⟨3 + i, by omega⟩
  joint i := v ⟨6 + i, by omega⟩

/-- A one-dimensional NumPy array of doubles: memory, position of its first entry, distance between entries (in doubles),
length. -/
structure NumpyArray where
  mem : ℤ → ℝ
  start : ℤ
  stride : ℤ
  size : ℕ

/-- Entry `i` as Python sees it. -/
def NumpyArray.get (a : NumpyArray) (i : ℕ) : ℝ := a.mem (a.start + i * a.stride)

end Verif.Spec
