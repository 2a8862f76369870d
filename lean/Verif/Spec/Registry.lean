import Mathlib.Data.List.Basic
import Mathlib.Data.Real.Basic
import Mathlib.Data.Matrix.Basic

/-!
# What a contact registry should do (independent of the model)
-/

namespace Verif.Spec

/-- The names agree up to the case of ASCII letters. -/
def SameName (a b : String) : Prop := List.Forall₂ (fun x y : Char => x.toLower = y.toLower) a.toList b.toList

/-- `k` is the first link of that name. -/
def FirstNamed (names : List String) (name : String) (k : ℕ) : Prop :=
  (∃ h : k < names.length, SameName names[k] name) ∧
    ∀ j, ∀ h : j < names.length, j < k → ¬ SameName names[j] name

/-- The 6-D contact Jacobian as users see it: linear velocity on top, from a spatial Jacobian with the angular part on
top. -/
def linearFirst {n : ℕ} (g : Matrix (Fin 6) (Fin n) ℝ) : List (Fin n → ℝ) :=
  [g 3, g 4, g 5, g 0, g 1, g 2]

/-- The items whose flag is set; items past the end of the flags are off. -/
def chosen {α : Type*} : List α → List Bool → List α
  | a :: as, true :: v => a :: chosen as v
  | _ :: as, false :: v => chosen as v
  | _, _ => []

/-- The last element of a history that satisfies `p`, or the start value. -/
def lastOr {α : Type*} (p : α → Bool) (start : α) (h : List α) : α := (h.filter p).getLastD start

end Verif.Spec
