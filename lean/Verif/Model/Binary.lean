import Verif.Spec.Binary
import Mathlib.Analysis.Real.Sqrt
import Mathlib.Algebra.BigOperators.Group.List.Basic

/-!
# Binary matrix files (include/dwbc_util.h 12-67)

Files are byte lists; `Index` is a 64-bit integer, scalars are doubles, both little-endian.  The template is modelled for
dynamically sized matrices.  The norm is taken in exact arithmetic on the (IEEE) entry values.
-/

namespace Verif.Model
open Verif.Spec

/-- The eight bytes of a 64-bit object. -/
def bytes8 (n : ℕ) : List ℕ := (List.range 8).map fun i => n / 256 ^ i % 256

/-- A 64-bit object, initially zero, of which the given leading bytes have been overwritten. -/
def ofBytes : List ℕ → ℕ
  | [] => 0
  | b :: bs => b + 256 * ofBytes bs

/-- include/dwbc_util.h 12-26 `write_binary`: contents of the file. -/
def writeBinary (m : Stored) : List ℕ :=
  bytes8 m.rows ++ bytes8 m.cols ++ m.data.flatMap fun d => bytes8 d.val

/-- Split off `k` doubles; `none` if the bytes run out (the remaining entries of the freshly resized matrix are
uninitialised). -/
def readDoubles : ℕ → List ℕ → Option (List (Fin (2 ^ 64)))
  | 0, _ => some []
  | k + 1, bs =>
    if bs.length < 8 then none
    else if h : ofBytes (bs.take 8) < 2 ^ 64 then (readDoubles k (bs.drop 8)).map (⟨_, h⟩ :: ·) else none

theorem readDoubles_length : ∀ {k bs l}, readDoubles k bs = some l → l.length = k
  | 0, _, _, h => by cases h; rfl
  | k + 1, bs, l, h => by
    unfold readDoubles at h
    split at h
    · cases h
    · split at h
      · simp only [Option.map_eq_some_iff] at h
        obtain ⟨l', h1, rfl⟩ := h
        simp [readDoubles_length h1]
      · cases h

/-- include/dwbc_util.h 34-41: read a file back (an unreadable file is an empty one: both sizes stay 0).  `none`: the sizes
are negative as signed integers, or entries are left uninitialised. -/
def readBinary (file : List ℕ) : Option Stored :=
  let r := ofBytes (file.take 8)
  let c := ofBytes ((file.drop 8).take 8)
  if r < 2 ^ 63 ∧ c < 2 ^ 63 then
    match h : readDoubles (r * c) (file.drop 16) with
    | none => none
    | some d => some ⟨r, c, d, readDoubles_length h⟩
  else none

/-- IEEE subtraction of entries, without rounding. -/
noncomputable def Fl.sub : Fl → Fl → Fl
  | .fin a, .fin b => .fin (a - b)
  | .nan, _ => .nan
  | _, .nan => .nan
  | .inf a, .inf b => if a = b then .nan else .inf a
  | .inf a, .fin _ => .inf a
  | .fin _, .inf b => .inf !b

/-- Sum of squares: NaN if an entry is NaN, infinite if one is infinite. -/
noncomputable def sumSq : List Fl → Fl
  | [] => .fin 0
  | x :: xs =>
    match x, sumSq xs with
    | .nan, _ => .nan
    | _, .nan => .nan
    | .fin a, .fin s => .fin (a ^ 2 + s)
    | _, _ => .inf false

/-- Verdict strings of `check_binary`; `undefined` is undefined behaviour. -/
inductive Verdict where
  | undefined
  | hasNaN
  | ok
  | similar
  | error
deriving DecidableEq

open Classical in
/-- include/dwbc_util.h 27-66 `check_binary`.  Line 43: subtracting matrices of different shapes fails an Eigen assertion,
and reads outside the smaller one when assertions are off. -/
noncomputable def checkBinary (file : List ℕ) (m : Stored) : Verdict :=
  match readBinary file with
  | none => .undefined
  | some g =>
    if g.rows = m.rows ∧ g.cols = m.cols then
      if (m.data.map ieee).any (fun x => decide (x = .nan)) then .hasNaN
      else
        match sumSq (List.zipWith Fl.sub (g.data.map ieee) (m.data.map ieee)) with
        | .fin s => if √s = 0 then .ok else if √s < 1 / 10 ^ 6 then .similar else .error
        | _ => .error
    else .undefined

end Verif.Model
