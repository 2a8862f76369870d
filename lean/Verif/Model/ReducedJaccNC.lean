import Verif.Model.ReducedJacc
import Verif.Model.Rotation

/-!
# The joint-acceleration QP for the joints outside the contact chains
(src/dwbc.cpp 4124-4302 `CalcSingleTaskTorqueWithJACC_QP_R_NC`)
-/
set_option linter.unusedSectionVars false

namespace Verif.Model
open Matrix Verif Verif.Spec

variable {ν : Type} [Fintype ν] [DecidableEq ν] {k c : ℕ}

/-- `acc_qp_`, `torque_qp_`, `gacc_qp_` as this function stores them (src/dwbc.cpp 4294-4296). -/
structure NCAnswer (ν : Type) where
  acc : ν → ℝ
  torque : ν → ℝ
  gacc : Fin 6 → ℝ

/-- The members of `TaskSpace` read and written; `pos` is `link_[task_link_[0].link_id_].xpos`. -/
structure NCTask (k : ℕ) (ν : Type) where
  t : ℕ
  J : Matrix (Fin t) (RSys (Fin k) ν) ℝ
  f : Fin t → ℝ
  pos : Vec3
  fqp : Option (Fin t → ℝ)
  out : Option (NCAnswer ν)

/-- The matrices read: `A_NC.bottomRightCorner(nc_dof, nc_dof)` and `G_.segment(vc_dof, nc_dof)` (src/dwbc.cpp 4173-4175),
`J_I_nc_` (4178) and `link_[0].xpos` (4152).  The block of `A_NC` is filled by the loop of lines 2841-2878 from the non-contact
bodies only; all descendants of such a body are non-contact bodies, so it is the block of the full mass matrix. -/
structure NCRobot (ν : Type) where
  A : Matrix ν ν ℝ
  G : ν → ℝ
  J : Matrix (Fin 6) ν ℝ
  base : Vec3

def ncRobot (A : Matrix (RSys (Fin k) ν) (RSys (Fin k) ν) ℝ) (G : RSys (Fin k) ν → ℝ) (D : Reduced (Fin k) ν) (base : Vec3) :
    NCRobot ν :=
  { A := A.submatrix ncOf ncOf, G := fun j => G (ncOf j), J := D.J, base := base }

/-- The storage order of a vector of the reduced system. -/
def rsysEquiv (k : ℕ) : RSys (Fin k) (Fin 6) ≃ Fin (6 + (k + 6)) :=
  (Equiv.sumCongr (Equiv.refl _) finSumFinEquiv).trans finSumFinEquiv

/-- A vector of the reduced system as the caller passes it (`ts_[i].acc_qp_`). -/
def flatAcc (a : RSys (Fin k) (Fin 6) → ℝ) : (m : ℕ) × (Fin m → ℝ) := ⟨6 + (k + 6), a ∘ (rsysEquiv k).symm⟩

/-- src/dwbc.cpp 4151-4152: `Ja`. -/
def ncShift (r : Vec3) : Matrix (Fin 6) (Fin 6) ℝ := (fromBlocks 1 (skew r) 0 1 : Mat6).submatrix six.symm six.symm

/-- The variables: acceleration, torque, deviation from the reduced acceleration, slack (src/dwbc.cpp 4134-4139). -/
abbrev NCVar (ν : Type) (t : ℕ) := ν ⊕ (ν ⊕ (Fin 6 ⊕ Fin t))

/-- The QP (src/dwbc.cpp 4163-4187, 4241-4244).  The bounds built in 4246-4255 are not handed to the solver
(`DeleteSubjectToX`, 4282-4283). -/
def jaccNCQP (R : NCRobot ν) (t : ℕ) (J : Matrix (Fin t) ν ℝ) (g : Fin 6 → ℝ) (f : Fin t → ℝ) :
    BoxQP (NCVar ν t) (ν ⊕ (Fin 6 ⊕ Fin t)) where
  H := Matrix.of fun a b =>
    match a, b with
    | .inr (.inr (.inl i)), .inr (.inr (.inl j)) => if i = j then 1 else 0
    | .inr (.inr (.inr i)), .inr (.inr (.inr j)) => if i = j then 5 else 0
    | _, _ => 0
  g := 0
  A
    | .inl i => Sum.elim (R.A i) (Sum.elim (-(1 : Matrix ν ν ℝ) i) 0)
    | .inr (.inl s) => Sum.elim (R.J s) (Sum.elim 0 (Sum.elim (-(1 : Matrix (Fin 6) (Fin 6) ℝ) s) 0))
    | .inr (.inr s) => Sum.elim (J s) (Sum.elim 0 (Sum.elim 0 (-(1 : Matrix (Fin t) (Fin t) ℝ) s)))
  lbA := fun r => some (Sum.elim (fun i => -R.G i) (Sum.elim g f) r)
  ubA := fun r => some (Sum.elim (fun i => -R.G i) (Sum.elim g f) r)
  lb := fun _ => none
  ub := fun _ => none

/-- src/dwbc.cpp 4294-4297: the answer is stored in the task. -/
def NCTask.store (T : NCTask k ν) (x : NCVar ν T.t → ℝ) : NCTask k ν :=
  { T with
    fqp := some fun s => x (.inr (.inr (.inr s)))
    out := some ⟨fun i => x (.inl i), fun i => x (.inr (.inl i)), fun s => x (.inr (.inr (.inl s)))⟩ }

/-- `CalcSingleTaskTorqueWithJACC_QP_R_NC(ts_[j], prev_acc, init)`: return value and the task afterwards.  `none` is undefined
behaviour: `f_star_` and a `Vector6d` are subtracted and the result is stored in a `Vector6d` (4154), so a task with another
number of rows than six asserts.  A `prev_acc` of another size than `reduced_system_dof_` is refused first (4142-4146). -/
def jaccNC (R : NCRobot ν) (solve : JSolver) (j : ℕ) (T : NCTask k ν) (prev : (m : ℕ) × (Fin m → ℝ)) : Option (Bool × NCTask k ν) :=
  if h : prev.1 = 6 + (k + 6) then
    let a : RSys (Fin k) (Fin 6) → ℝ := fun i => prev.2 (Fin.cast h.symm (rsysEquiv k i))
    if h6 : T.t = 6 then
      let f := ncShift (T.pos - R.base) *ᵥ ((fun s => T.f (Fin.cast h6.symm s)) - fun b => a (.inl b))
      match solve j _ _ (jaccNCQP R T.t (T.J.submatrix id ncOf) (fun s => a (ncOf s)) fun s => f (Fin.cast h6 s)) with
      | none => some (false, T)
      | some x => some (true, T.store x)
    else none
  else some (false, T)

end Verif.Model
