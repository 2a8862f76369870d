import Mathlib.Data.List.Basic
import Mathlib.Logic.Relation

/-!
# Specification: chains of a kinematic tree

A tree is given by the parent of every link; link 0 is the base.
-/

namespace Verif.Spec

/-- `OnChain par i x`: the non-base link `x` is link `i` or one of its ancestors. -/
inductive OnChain (par : ℕ → ℕ) : ℕ → ℕ → Prop
  | self {i : ℕ} : i ≠ 0 → OnChain par i i
  | up {i x : ℕ} : i ≠ 0 → OnChain par (par i) x → OnChain par i x

/-- No two of the contact links have a common non-base link on their chains (a contact link listed twice counts as
two). -/
def ChainsApart (par : ℕ → ℕ) (contacts : List ℕ) : Prop :=
  contacts.Pairwise fun a b => ∀ x, OnChain par a x → ¬ OnChain par b x

/-- Link `x` carries a contact chain. -/
def IsContactLink (par : ℕ → ℕ) (contacts : List ℕ) (x : ℕ) : Prop := ∃ c ∈ contacts, OnChain par c x

/-- Every link outside the contact chains hangs on the base or on another such link. -/
def OthersHangFree (par : ℕ → ℕ) (contacts : List ℕ) (n : ℕ) : Prop :=
  ∀ i, 0 < i → i < n → ¬ IsContactLink par contacts i → ¬ IsContactLink par contacts (par i)

/-- The lists `parts` partition the degrees of freedom `0 .. n-1`: each occurs once, in one of them. -/
def Partitions (n : ℕ) (parts : List (List ℕ)) : Prop := parts.flatten.Perm (List.range n)

end Verif.Spec
