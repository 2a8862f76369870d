import Verif.Model.Task

/-!
# The rank threshold of the pseudo-inverse (src/math.cpp 23-53, src/wbd.cpp 5-53)

`PinvCOD*` sets the threshold of `Eigen::CompleteOrthogonalDecomposition` to `COD_THRESHOLD` (include/dwbc_math.h 13,
include/dwbc_wbd.h 10) before it decomposes.  Eigen factorises `A P = Q R` column by column, each time taking the column with the largest
part orthogonal to the columns taken before; `|R_kk|` is the norm of that part.  The rank is the number of `k` with `|R_kk|` above the
threshold times the largest of them, and `pseudoInverse()` is the pseudo-inverse of `Q_r Q_rᵀ A`, where `Q_r` are the first columns of
`Q`, as many as the rank: an orthonormal basis of the span of the columns taken.  `Q_r Q_rᵀ` is the orthogonal projector on that span.

Simplified: real arithmetic.  Eigen's own cut at the rounding error is far below the threshold, so it does not change the rank.
-/

set_option linter.unusedSectionVars false

namespace Verif.Model
open Matrix Verif

variable {m n ι : Type*} [Fintype m] [DecidableEq m] [Fintype n] [DecidableEq n] [Fintype ι] [DecidableEq ι] {c : ℕ}

/-- squared norm -/
def sqNorm (v : m → ℝ) : ℝ := v ⬝ᵥ v

/-- the part of column `j` orthogonal to the range of the projector `P` -/
def resid (A : Matrix m n ℝ) (P : Matrix m m ℝ) (j : n) : m → ℝ := A.col j - P *ᵥ A.col j

open Classical in
/-- `maxCoeff(&index)`: the first largest -/
noncomputable def firstMax (f : n → ℝ) (a : n) : List n → n
  | [] => a
  | b :: l => firstMax f (if f a < f b then b else a) l

/-- The columns left over once `j` was taken from `k :: rest`: Eigen swaps columns `j` and `k`. -/
def swapOut (k j : n) (rest : List n) : List n := rest.map fun i => if i = j then k else i

/-- Eigen `ColPivHouseholderQR::computeInPlace`: for every step the square of `R_kk` and the projector on the columns taken so far. -/
noncomputable def codSteps (A : Matrix m n ℝ) : ℕ → Matrix m m ℝ → List n → List (ℝ × Matrix m m ℝ)
  | 0, _, _ => []
  | _ + 1, _, [] => []
  | s + 1, P, k :: rest =>
    let j := firstMax (fun i => sqNorm (resid A P i)) k rest
    let u := resid A P j
    let P' := P + (sqNorm u)⁻¹ • vecMulVec u u
    (sqNorm u, P') :: codSteps A s P' (swapOut k j rest)

/-- All steps: as many as the smaller side.  `order` are the columns as they are stored. -/
noncomputable def codRun (order : List n) (A : Matrix m n ℝ) : List (ℝ × Matrix m m ℝ) :=
  codSteps A (min (Fintype.card m) order.length) 0 order

/-- square of `m_maxpivot` -/
noncomputable def maxPivot (order : List n) (A : Matrix m n ℝ) : ℝ := ((codRun order A).map Prod.fst).foldr max 0

/-- include/dwbc_math.h 13: `COD_THRESHOLD` -/
noncomputable def codThreshold : ℝ := 1 / 10 ^ 6

open Classical in
/-- `cod.rank()`; both sides of Eigen's comparison squared. -/
noncomputable def codRank (order : List n) (A : Matrix m n ℝ) : ℕ :=
  ((codRun order A).filter fun s => decide (codThreshold ^ 2 * maxPivot order A < s.1)).length

/-- `Q_r Q_rᵀ` -/
noncomputable def codProj (order : List n) (A : Matrix m n ℝ) : Matrix m m ℝ :=
  (((codRun order A).take (codRank order A)).map Prod.snd).getLastD 0

/-- src/wbd.cpp 5-53, src/math.cpp 23-53 `PinvCOD*` with its threshold. -/
noncomputable def codPinv (order : List n) (A : Matrix m n ℝ) : Matrix n m ℝ := pinv (codProj order A * A)

/-- src/wbd.cpp 32-53: `V2`, the rows of `Qᵀ` from `cod.rank()` on. -/
structure CodRows (order : List n) (A : Matrix m n ℝ) where
  /-- number of rows of `V2`, i.e. `rows - rank` -/
  k : ℕ
  V2 : Matrix (Fin k) m ℝ
  orth : V2 * V2ᵀ = 1
  ann : V2 * codProj order A = 0
  rank : k + codRank order A = Fintype.card m

/-- src/wbd.cpp 115-120, 125/139: `contactSpace` with the threshold. -/
noncomputable def contactSpaceT (order : List ι) (J : Matrix (Fin c) (Fin 6 ⊕ ι) ℝ) (Ainv : Matrix (Fin 6 ⊕ ι) (Fin 6 ⊕ ι) ℝ) :
    Option (ContactSpace c ι) :=
  (contactSpace J Ainv).map fun S => { S with Winv := codPinv order S.W }

/-- src/wbd.cpp 108-143 `CalculateContactConstraint` with the threshold. -/
noncomputable def calculateContactConstraintT (order : List ι) (J : Matrix (Fin c) (Fin 6 ⊕ ι) ℝ)
    (Ainv : Matrix (Fin 6 ⊕ ι) (Fin 6 ⊕ ι) ℝ) (cod : (W : Matrix ι ι ℝ) → CodRows order W) : ContactResult c ι :=
  match contactSpaceT order J Ainv with
  | none => .nonFinite
  | some S =>
    if c > 6 then
      let f := cod S.W
      if h : c - 6 = f.k then
        match eigenInverse ((topRight S.JcInvT * f.V2ᵀ).submatrix id (Fin.cast h)) with
        | none => .nonFinite
        | some X => .ret 1 S (some ⟨f.k, f.V2, (f.V2ᵀ.submatrix id (Fin.cast h)) * X⟩)
      else .nonSquareInverse
    else .ret 1 S none

/-- src/wbd.cpp 207-213 `CalculateJKT` with the threshold. -/
noncomputable def calculateJKTT (S : ContactSpace c ι) (Ainv : Matrix (Fin 6 ⊕ ι) (Fin 6 ⊕ ι) ℝ) (T : TaskIn ι) :
    Option (TaskReady ι) :=
  (eigenInverse (T.J * Ainv * S.Nc * T.Jᵀ)).map fun Λ =>
    let Q : Matrix (Fin T.t) ι ℝ := (Λ * T.J * Ainv * S.Nc).submatrix id Sum.inr
    { T with Λ := Λ, Jkt := S.Winv * Qᵀ * codPinv (List.finRange T.t) (Q * S.Winv * Qᵀ) }

end Verif.Model
