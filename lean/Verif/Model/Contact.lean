import Verif.Model.Pinv
import Mathlib.Data.Matrix.Block
import Mathlib.LinearAlgebra.Matrix.Rank

/-!
# Contact-constrained dynamics (src/wbd.cpp 108-143, 186-192, 207-271)

Eigen matrices with `6+n` rows/columns are indexed by `Fin 6 ⊕ ι`.  Contact rows are `Fin c`.
-/

namespace Verif.Model
open Matrix Verif

variable {ι : Type*} [Fintype ι] [DecidableEq ι] {c : ℕ}

/-- src/wbd.cpp 32-53: the part of `PinvCODWB(A, ret, V2, -1)` that yields `V2`.  `householderQ()ᵀ` is
orthogonal and its rows from `rank` on span the left null space of `A`; any such block is allowed. -/
structure CodNull (W : Matrix ι ι ℝ) where
  /-- number of rows of `V2`, i.e. `rows - rank` -/
  k : ℕ
  V2 : Matrix (Fin k) ι ℝ
  orth : V2 * V2ᵀ = 1
  ann : V2 * W = 0
  rank : k + W.rank = Fintype.card ι

/-- Output matrices of `CalculateContactConstraint`, except `V2`, `NwJw`. -/
structure ContactSpace (c : ℕ) (ι : Type*) where
  lambda : Matrix (Fin c) (Fin c) ℝ
  JcInvT : Matrix (Fin c) (Fin 6 ⊕ ι) ℝ
  Nc : Matrix (Fin 6 ⊕ ι) (Fin 6 ⊕ ι) ℝ
  AinvNc : Matrix (Fin 6 ⊕ ι) (Fin 6 ⊕ ι) ℝ
  W : Matrix ι ι ℝ
  Winv : Matrix ι ι ℝ

/-- src/wbd.cpp 115-120 and `Winv` at 125/139: everything computed before the branch on `rows > 6`,
given the inverse `Λ` of `J A⁻¹ Jᵀ`. -/
noncomputable def contactSpaceOf (J : Matrix (Fin c) (Fin 6 ⊕ ι) ℝ)
    (Ainv : Matrix (Fin 6 ⊕ ι) (Fin 6 ⊕ ι) ℝ) (Λ : Matrix (Fin c) (Fin c) ℝ) : ContactSpace c ι :=
  let JcInvT := Λ * J * Ainv
  let Nc := 1 - Jᵀ * JcInvT
  let AinvNc := Ainv * Nc
  let W := AinvNc.submatrix Sum.inr Sum.inr
  { lambda := Λ, JcInvT := JcInvT, Nc := Nc, AinvNc := AinvNc, W := W, Winv := pinv W }

/-- src/wbd.cpp 115-120: `none` when `(J A⁻¹ Jᵀ).inverse()` is not finite. -/
noncomputable def contactSpace (J : Matrix (Fin c) (Fin 6 ⊕ ι) ℝ)
    (Ainv : Matrix (Fin 6 ⊕ ι) (Fin 6 ⊕ ι) ℝ) : Option (ContactSpace c ι) :=
  (eigenInverse (J * Ainv * Jᵀ)).map (contactSpaceOf J Ainv)

/-- `J_C_INV_T.topRightCorner(rows - 6, cols - 6)` (src/wbd.cpp 129). -/
def topRight (M : Matrix (Fin c) (Fin 6 ⊕ ι) ℝ) : Matrix (Fin (c - 6)) ι ℝ :=
  M.submatrix (Fin.castLE (Nat.sub_le c 6)) Sum.inr

/-- Result of `CalculateContactConstraint`. -/
inductive ContactResult (c : ℕ) (ι : Type*) where
  /-- some `.inverse()` of a singular matrix: outputs contain inf/NaN -/
  | nonFinite
  /-- `.inverse()` of a non-square matrix: Eigen assertion, undefined with `NDEBUG` -/
  | nonSquareInverse
  /-- normal return, with the return value; `nullOut` is `none` if `V2`, `NwJw` are left untouched -/
  | ret (value : ℕ) (out : ContactSpace c ι)
      (nullOut : Option ((k : ℕ) × Matrix (Fin k) ι ℝ × Matrix ι (Fin (c - 6)) ℝ))

/-- src/wbd.cpp 108-143 `CalculateContactConstraint`.  Both branches on `rows - 6 == V2.rows()` first
invert `J_C_INV_T.topRightCorner(rows-6, cols-6) * V2ᵀ`; when the numbers differ this matrix is not square,
so the `return 0` branch (lines 132-137) is never reached in a defined way. -/
noncomputable def calculateContactConstraint (J : Matrix (Fin c) (Fin 6 ⊕ ι) ℝ)
    (Ainv : Matrix (Fin 6 ⊕ ι) (Fin 6 ⊕ ι) ℝ)
    (cod : (W : Matrix ι ι ℝ) → CodNull W) : ContactResult c ι :=
  match contactSpace J Ainv with
  | none => .nonFinite
  | some S =>
    if c > 6 then
      let f := cod S.W
      if h : c - 6 = f.k then
        match eigenInverse ((topRight S.JcInvT * f.V2ᵀ).submatrix id (Fin.cast h)) with
        | none => .nonFinite
        | some X => .ret 1 S (some ⟨f.k, f.V2, (f.V2ᵀ.submatrix id (Fin.cast h)) * X⟩)
      else .nonSquareInverse
    else .ret 1 S none

/-- src/wbd.cpp 190: gravity torque `W⁺ (A⁻¹.bottomRows * (N_C G))`. -/
noncomputable def gravityTorque (S : ContactSpace c ι) (Ainv : Matrix (Fin 6 ⊕ ι) (Fin 6 ⊕ ι) ℝ)
    (G : Fin 6 ⊕ ι → ℝ) : ι → ℝ :=
  S.Winv *ᵥ ((Ainv.submatrix Sum.inr id) *ᵥ (S.Nc *ᵥ G))

/-- src/wbd.cpp 191: `P_C = J_C_INV_T * G`. -/
def gravityForce (S : ContactSpace c ι) (G : Fin 6 ⊕ ι → ℝ) : Fin c → ℝ := S.JcInvT *ᵥ G

/-- src/wbd.cpp 268-271 `CalculateContactForce` (also src/dwbc.cpp 891 `getContactForce`). -/
def contactForce (S : ContactSpace c ι) (P : Fin c → ℝ) (τ : ι → ℝ) : Fin c → ℝ :=
  (S.JcInvT.submatrix id Sum.inr) *ᵥ τ - P

end Verif.Model
