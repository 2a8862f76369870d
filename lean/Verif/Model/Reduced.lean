import Verif.Model.Contact
import Verif.Model.Body
import Verif.Spec.Dynamics
import Mathlib.Logic.Equiv.Fin.Basic

/-!
# The reduced model (src/dwbc.cpp 2830-3150)

Joints are split into `κ` (contact chains, `co_dof`) and `ν` (`nc_dof`).  The full system has index type
`Fin 6 ⊕ (κ ⊕ ν)`, the reduced one `Fin 6 ⊕ (κ ⊕ Fin 6)`.  Positions are in storage order: `vcOf` are the first `vc_dof`
places and `ncOf` the last `nc_dof` (or 6) ones.  Which joint is stored where is given by the index lists `vc_joint_idx_` and
`nc_joint_idx_` (`Model/ReducedIdx`), here functions into the system index type.
-/

set_option linter.unusedSectionVars false

namespace Verif.Model
open Matrix Verif

variable {κ ν σ σ' : Type*} [Fintype κ] [DecidableEq κ] [Fintype ν] [DecidableEq ν] [Fintype σ] [DecidableEq σ]
  [Fintype σ'] [DecidableEq σ'] {c : ℕ}

/-- index type: base, contact-chain joints, rest -/
abbrev RSys (κ σ : Type*) := Fin 6 ⊕ (κ ⊕ σ)

/-- the first `vc_dof = 6 + co_dof` places -/
def vcOf : Fin 6 ⊕ κ → RSys κ σ
  | .inl a => .inl a
  | .inr j => .inr (.inl j)

/-- the last places -/
def ncOf (s : σ) : RSys κ σ := .inr (.inr s)

/-- A matrix by its four blocks. -/
def blk (P : Matrix (Fin 6 ⊕ κ) (Fin 6 ⊕ κ) ℝ) (Q : Matrix (Fin 6 ⊕ κ) σ' ℝ) (R : Matrix σ (Fin 6 ⊕ κ) ℝ)
    (S : Matrix σ σ' ℝ) : Matrix (RSys κ σ) (RSys κ σ') ℝ :=
  (fromBlocks P Q R S).submatrix (Equiv.sumAssoc _ _ _).symm (Equiv.sumAssoc _ _ _).symm

/-- rows 0-2 and 3-5 of a six-row block -/
def six : Fin 3 ⊕ Fin 3 ≃ Fin 6 := finSumFinEquiv (m := 3) (n := 3)

/-- src/dwbc.cpp 2880-2915: `J_I_nc_`.  `SI` is `SI_nc_b_`, `R` is `link_[0].rotm`, `B` the base rows of `A_NC_O` at the
non-contact joints (rows 0-2 and 3-5), after `A_NC` has been filled.  `none`: `mass_nc_` zero or `SI_nc_l_` singular. -/
noncomputable def jInc (SI : Mat6) (R : Mat3) (B : Matrix (Fin 3 ⊕ Fin 3) ν ℝ) : Option (Matrix (Fin 6) ν ℝ) :=
  match inertiaMatrixSegment SI with
  | none => none
  | some b =>
    let top : Matrix (Fin 3 ⊕ Fin 3) ν ℝ := fromBlocks Rᵀ 0 0 (1 : Mat3) * B
    let cmRot : Mat6 := fromBlocks 1 0 (skew b.com)ᵀ 1
    match eigenInverse (inertiaMatrix b.inertia b.mass) with
    | none => none
    | some X => some ((X * (cmRot * top)).submatrix six.symm id)

/-- The base rows of `A_NC_O` at the non-contact joints (src/dwbc.cpp 2824-2878, 2891-2898).  The loop is RBDL's composite
rigid body algorithm restricted to the non-contact bodies; all descendants of such a body are non-contact bodies, so these entries
are those of the full mass matrix `A_`. -/
def baseNc (A : Matrix (RSys κ ν) (RSys κ ν) ℝ) : Matrix (Fin 3 ⊕ Fin 3) ν ℝ := fun r j => A (.inl (six r)) (ncOf j)

/-- src/dwbc.cpp 2917-2928: `J_R`.  A joint that occurs in neither list leaves a zero column. -/
def jR (vcIdx : Fin 6 ⊕ κ → RSys κ ν) (ncIdx : ν → RSys κ ν) (J : Matrix (Fin 6) ν ℝ) :
    Matrix (RSys κ (Fin 6)) (RSys κ ν) ℝ :=
  fun r a => Sum.elim
    (fun i => if vcIdx i = a then 1 else 0)
    (fun s => ∑ i, if ncIdx i = a then J s i else 0) ((Equiv.sumAssoc _ _ _).symm r)

/-- src/dwbc.cpp 2936-2956: `A_R_inv`, block by block.  The right top block takes the *last* `nc_dof` columns. -/
def aRInv (vcIdx : Fin 6 ⊕ κ → RSys κ ν) (ncIdx : ν → RSys κ ν) (Ainv : Matrix (RSys κ ν) (RSys κ ν) ℝ)
    (J : Matrix (Fin 6) ν ℝ) : Matrix (RSys κ (Fin 6)) (RSys κ (Fin 6)) ℝ :=
  let bottom : Matrix (Fin 6) (RSys κ ν) ℝ := (jR vcIdx ncIdx J).submatrix ncOf id
  let tr : Matrix (Fin 6 ⊕ κ) (Fin 6) ℝ := Ainv.submatrix vcIdx ncOf * Jᵀ
  blk (Ainv.submatrix vcIdx vcIdx) tr trᵀ (bottom * Ainv * bottomᵀ)

/-- The members `ReducedDynamicsCalculate` fills. -/
structure Reduced (κ ν : Type*) where
  JR : Matrix (RSys κ (Fin 6)) (RSys κ ν) ℝ
  ARinv : Matrix (RSys κ (Fin 6)) (RSys κ (Fin 6)) ℝ
  AR : Matrix (RSys κ (Fin 6)) (RSys κ (Fin 6)) ℝ
  /-- `J_I_nc_`, `J_I_nc_inv_T` -/
  J : Matrix (Fin 6) ν ℝ
  JinvT : Matrix (Fin 6) ν ℝ
  /-- `N_I_nc_` -/
  N : Matrix ν ν ℝ
  JRinvT : Matrix (RSys κ (Fin 6)) (RSys κ ν) ℝ
  GR : RSys κ (Fin 6) → ℝ
  GNC : ν → ℝ

open Classical in
/-- src/dwbc.cpp 2917-3000: the members computed from `J_I_nc_`.  `none`: the Cholesky factorisation (line 2958) fails because
`A_R_inv` is not positive definite; the result is then not checked and meaningless. -/
noncomputable def reduce (vcIdx : Fin 6 ⊕ κ → RSys κ ν) (ncIdx : ν → RSys κ ν)
    (Ainv : Matrix (RSys κ ν) (RSys κ ν) ℝ) (J : Matrix (Fin 6) ν ℝ) (G : RSys κ ν → ℝ) : Option (Reduced κ ν) :=
  let X := aRInv vcIdx ncIdx Ainv J
  if Spec.IsSPD X then
    let AR := X⁻¹
    let JinvT : Matrix (Fin 6) ν ℝ :=
      AR.submatrix ncOf vcOf * Ainv.submatrix vcOf ncOf + AR.submatrix ncOf ncOf * J * Ainv.submatrix ncOf ncOf
    some
      { JR := jR vcIdx ncIdx J
        ARinv := X
        AR := AR
        J := J
        JinvT := JinvT
        N := 1 - Jᵀ * JinvT
        JRinvT := blk 1 0 0 JinvT
        GR := Sum.elim (fun i => G (vcOf i)) (JinvT *ᵥ fun j => G (ncOf j)) ∘ (Equiv.sumAssoc _ _ _).symm
        GNC := fun j => G (ncOf j) }
  else none

/-- src/dwbc.cpp 3098-3099: `J_CR`. -/
def jCR (Jc : Matrix (Fin c) (RSys κ ν) ℝ) : Matrix (Fin c) (RSys κ (Fin 6)) ℝ :=
  fun r a => Sum.elim (fun i => Jc r (vcOf i)) (fun _ => 0) ((Equiv.sumAssoc _ _ _).symm a)

/-- storage place of an index of the reduced system with `k` contact-chain joints -/
def place {k : ℕ} : RSys (Fin k) (Fin 6) → ℕ
  | .inl a => a
  | .inr (.inl j) => 6 + j
  | .inr (.inr s) => 6 + k + s

/-- src/dwbc.cpp 3104: `J_CR.leftCols(d)`.  The product of cut matrices `J.leftCols(d) * X.topLeftCorner(d, d) * J.leftCols(d)ᵀ` is
written as the product of full matrices with the columns of `J` from place `d` on set to zero. -/
def leftCols {k : ℕ} (d : ℕ) (M : Matrix (Fin c) (RSys (Fin k) (Fin 6)) ℝ) : Matrix (Fin c) (RSys (Fin k) (Fin 6)) ℝ :=
  fun r a => if place a < d then M r a else 0

/-- Output of `ReducedCalcContactConstraint` before the branch on `rows > 6`, with `W_R_inv`. -/
structure ReducedContact (c : ℕ) (κ ν : Type*) where
  JCR : Matrix (Fin c) (RSys κ (Fin 6)) ℝ
  /-- `Lambda_CR` -/
  lambda : Matrix (Fin c) (Fin c) ℝ
  JcInvT : Matrix (Fin c) (RSys κ ν) ℝ
  JCRinvT : Matrix (Fin c) (RSys κ (Fin 6)) ℝ
  Nc : Matrix (RSys κ ν) (RSys κ ν) ℝ
  NCR : Matrix (RSys κ (Fin 6)) (RSys κ (Fin 6)) ℝ
  ARinvNCR : Matrix (RSys κ (Fin 6)) (RSys κ (Fin 6)) ℝ
  W : Matrix (κ ⊕ Fin 6) (κ ⊕ Fin 6) ℝ
  Winv : Matrix (κ ⊕ Fin 6) (κ ⊕ Fin 6) ℝ

/-- src/dwbc.cpp 3104-3121, 3137: `ReducedCalcContactConstraint` from `Lambda_CR` on, up to `W_R_inv`. -/
noncomputable def reducedContactOf (D : Reduced κ ν) (Jc : Matrix (Fin c) (RSys κ ν) ℝ)
    (Ainv : Matrix (RSys κ ν) (RSys κ ν) ℝ) (Λ : Matrix (Fin c) (Fin c) ℝ) : ReducedContact c κ ν :=
    let JCR := jCR Jc
    let JcInvT := Λ * Jc * Ainv
    let JCRinvT : Matrix (Fin c) (RSys κ (Fin 6)) ℝ := fun r a =>
      Sum.elim (fun i => JcInvT r (vcOf i)) (fun s => (JcInvT.submatrix id ncOf * D.Jᵀ) r s)
        ((Equiv.sumAssoc _ _ _).symm a)
    let NCR := 1 - JCRᵀ * JCRinvT
    let P := D.ARinv * NCR
    let W := P.submatrix Sum.inr Sum.inr
    { JCR := JCR, lambda := Λ, JcInvT := JcInvT, JCRinvT := JCRinvT, Nc := 1 - Jcᵀ * JcInvT, NCR := NCR, ARinvNCR := P
      W := W, Winv := pinv W }

/-- src/dwbc.cpp 3077-3121, 3137: `ReducedCalcContactConstraint` with `co_dof = k`; `none` when `.inverse()` is not finite or
more columns are taken than there are.  The factor `6` in `cdof + 6` is the code's: it takes `contact_dof_` for `co_dof`. -/
noncomputable def reducedContact {k : ℕ} (D : Reduced (Fin k) ν) (Jc : Matrix (Fin c) (RSys (Fin k) ν) ℝ)
    (Ainv : Matrix (RSys (Fin k) ν) (RSys (Fin k) ν) ℝ) : Option (ReducedContact c (Fin k) ν) :=
  let J := leftCols (c + 6) (jCR Jc)
  if c + 6 ≤ k + 12 then (eigenInverse (J * D.ARinv * Jᵀ)).map (reducedContactOf D Jc Ainv) else none

/-- src/dwbc.cpp 3146: `torque_grav_R_`. -/
noncomputable def reducedGravity (D : Reduced κ ν) (C : ReducedContact c κ ν) : κ ⊕ Fin 6 → ℝ :=
  C.Winv *ᵥ ((D.ARinv.submatrix Sum.inr id) *ᵥ (C.NCR *ᵥ D.GR))

/-- src/dwbc.cpp 3147-3148: `torque_grav_`.  The six last values of `torque_grav_R_` are written to the places of the first six
non-contact joints (out of range if there are fewer) and then overwritten with `G_`. -/
noncomputable def reducedGravityTorque (D : Reduced κ ν) (C : ReducedContact c κ ν) : κ ⊕ ν → ℝ :=
  Sum.elim (fun i => reducedGravity D C (.inl i)) D.GNC

/-- src/dwbc.cpp 3149: `P_CR`. -/
def reducedGravityForce (D : Reduced κ ν) (C : ReducedContact c κ ν) : Fin c → ℝ := C.JCRinvT *ᵥ D.GR

end Verif.Model
