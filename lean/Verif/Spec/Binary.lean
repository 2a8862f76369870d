import Verif.Model.Redistribute

/-!
# Specification: 64-bit IEEE numbers and stored matrices
-/

namespace Verif.Spec
open Verif.Model

/-- Value of an IEEE double given by its bit pattern. -/
noncomputable def ieee (n : Fin (2 ^ 64)) : Fl :=
  let neg := decide (2 ^ 63 ≤ n.val)
  let e : ℕ := n.val / 2 ^ 52 % 2 ^ 11
  let f : ℕ := n.val % 2 ^ 52
  let sg : ℝ := if neg then -1 else 1
  if e = 2047 then (if f = 0 then .inf neg else .nan)
  else if e = 0 then .fin (sg * (f * 2 ^ (-1074 : ℤ)))
  else .fin (sg * ((2 ^ 52 + f) * 2 ^ ((e : ℤ) - 1075)))

/-- A dynamically sized matrix of doubles, stored column by column. -/
structure Stored where
  rows : ℕ
  cols : ℕ
  data : List (Fin (2 ^ 64))
  len : data.length = rows * cols

/-- Every entry is finite, with these values. -/
def Stored.Values (m : Stored) (v : List ℝ) : Prop := m.data.map ieee = v.map Fl.fin

end Verif.Spec
