import Verif.Model.QLayout
import Verif.Lemmas.LinkMod

/-!
# Specification: a configuration vector without gaps and overlaps
-/

namespace Verif.Spec
open Verif.Model

/-- What an entry of the configuration vector can be: coordinate `k` of joint `i`, or the fourth coordinate of joint `i`. -/
inductive QSlot
  | coord (i k : ℕ)
  | fourth (i : ℕ)

def QSlot.joint : QSlot → ℕ
  | .coord i _ => i
  | .fourth i => i

/-- The slot after joint `d` is gone. -/
def QSlot.lower (d : ℕ) : QSlot → QSlot
  | .coord i k => .coord (Model.lower d i) k
  | .fourth i => .fourth (Model.lower d i)

/-- The model reads slot `s` at place `n` of the configuration vector. -/
def ReadsAt (m : QModel) : QSlot → ℕ → Prop
  | .coord i k, n => ∃ j, m.joints[i]? = some j ∧ k < j.dof ∧ n = j.q + k
  | .fourth i, n => ∃ j, m.joints[i]? = some j ∧ j.isSph = true ∧ n = j.w

/-- The vectors have the right sizes, every place belongs to exactly one joint, the joints come in their order, and the fourth
coordinates come behind everything that has a velocity. -/
structure LayoutOk (m : QModel) : Prop where
  dof : m.dofCount = (m.joints.map (·.dof)).sum
  qdot : m.qdotSize = m.dofCount
  inside : ∀ s n, ReadsAt m s n → n < m.qSize
  once : ∀ n < m.qSize, ∃! s, ReadsAt m s n
  ordered : ∀ (a b : ℕ) (j k : QJoint), m.joints[a]? = some j → m.joints[b]? = some k → a < b → j.q + j.dof ≤ k.q
  coord_lt : ∀ i k n, ReadsAt m (.coord i k) n → n < m.qdotSize
  fourth_ge : ∀ i n, ReadsAt m (.fourth i) n → m.qdotSize ≤ n

/-- The history deletes only joints with one degree of freedom. -/
def DeletesSingles : QModel → List QOp → Prop
  | _, [] => True
  | m, .add kind dof :: ops => DeletesSingles (m.addBody kind dof) ops
  | m, .delete d :: ops => (∃ j, m.joints[d]? = some j ∧ j.isSph = false ∧ j.dof = 1) ∧
      ∀ m', m.deleteBody d = some m' → DeletesSingles m' ops

/-- The configuration vector without the `n` entries at `q`. -/
def cutConfig (q n : ℕ) (c : ℕ → ℝ) : ℕ → ℝ := fun i => if i < q then c i else c (i + n)

end Verif.Spec
