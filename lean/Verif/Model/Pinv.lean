import Mathlib.Analysis.Matrix.Spectrum
import Mathlib.LinearAlgebra.Matrix.PosDef
import Mathlib.LinearAlgebra.Matrix.NonsingularInverse
import Mathlib.Algebra.Order.Star.Real

/-!
# Dense linear algebra used by the library

`Eigen::CompleteOrthogonalDecomposition::pseudoInverse` (src/math.cpp 23-53, src/wbd.cpp 5-53) is
modelled as the exact Moore-Penrose inverse.  Existence and uniqueness are proved below, so `pinv`
is a definition and not an assumption.  Simplification: real arithmetic, rank threshold ignored (`Model/CodRank`
models the threshold; `C77_exact_iff` says when it makes no difference).

`MatrixXd::inverse()` is modelled by `eigenInverse`, which is `none` when the matrix is singular (the
C++ code then fills the result with inf/NaN).
-/

set_option linter.unusedSectionVars false

namespace Verif
open Matrix

variable {m n k : Type*} [Fintype m] [Fintype n] [Fintype k]
  [DecidableEq m] [DecidableEq n] [DecidableEq k]

/-- The four Penrose equations. -/
structure IsMoorePenrose (A : Matrix m n ℝ) (X : Matrix n m ℝ) : Prop where
  aba : A * X * A = A
  bab : X * A * X = X
  symL : (A * X)ᵀ = A * X
  symR : (X * A)ᵀ = X * A

omit [DecidableEq m] [DecidableEq n] in
/-- Moore-Penrose inverses are unique. -/
theorem IsMoorePenrose.unique {A : Matrix m n ℝ} {X Y : Matrix n m ℝ}
    (hX : IsMoorePenrose A X) (hY : IsMoorePenrose A Y) : X = Y := by
  have h1 : A * X = A * Y := by
    calc A * X = (A * X)ᵀ := hX.symL.symm
      _ = (A * Y * (A * X))ᵀ := by rw [← Matrix.mul_assoc, hY.aba]
      _ = (A * X)ᵀ * (A * Y)ᵀ := by rw [transpose_mul]
      _ = A * X * (A * Y) := by rw [hX.symL, hY.symL]
      _ = A * Y := by rw [← Matrix.mul_assoc, hX.aba]
  have h2 : X * A = Y * A := by
    calc X * A = (X * A)ᵀ := hX.symR.symm
      _ = (X * A * (Y * A))ᵀ := by rw [Matrix.mul_assoc, ← Matrix.mul_assoc A, hY.aba]
      _ = (Y * A)ᵀ * (X * A)ᵀ := by rw [transpose_mul]
      _ = Y * A * (X * A) := by rw [hX.symR, hY.symR]
      _ = Y * A := by rw [Matrix.mul_assoc, ← Matrix.mul_assoc A, hX.aba]
  calc X = X * A * X := hX.bab.symm
    _ = Y * A * X := by rw [h2]
    _ = Y * (A * X) := by rw [Matrix.mul_assoc]
    _ = Y * A * Y := by rw [h1, ← Matrix.mul_assoc]
    _ = Y := hY.bab

/-- Every real symmetric matrix has a (symmetric) Moore-Penrose inverse, by diagonalisation. -/
theorem exists_moorePenrose_symm (A : Matrix n n ℝ) (hA : Aᵀ = A) :
    ∃ X : Matrix n n ℝ, IsMoorePenrose A X ∧ Xᵀ = X := by
  have hH : A.IsHermitian := by
    unfold Matrix.IsHermitian; rw [conjTranspose_eq_transpose_of_trivial]; exact hA
  set U : Matrix n n ℝ := (hH.eigenvectorUnitary : Matrix n n ℝ) with hU
  set d : n → ℝ := hH.eigenvalues with hd
  have hUU : Uᵀ * U = 1 := by
    have := (Matrix.mem_unitaryGroup_iff'.mp hH.eigenvectorUnitary.2)
    rwa [star_eq_conjTranspose, conjTranspose_eq_transpose_of_trivial] at this
  have hspec : A = U * diagonal d * Uᵀ := by
    have := hH.spectral_theorem
    rw [Unitary.conjStarAlgAut_apply] at this
    rw [star_eq_conjTranspose, conjTranspose_eq_transpose_of_trivial] at this
    exact this
  refine ⟨U * diagonal (fun i => (d i)⁻¹) * Uᵀ, ?_, ?_⟩
  · have key : ∀ D E : n → ℝ, U * diagonal D * Uᵀ * (U * diagonal E * Uᵀ)
        = U * diagonal (fun i => D i * E i) * Uᵀ := by
      intro D E
      calc U * diagonal D * Uᵀ * (U * diagonal E * Uᵀ)
          = U * diagonal D * (Uᵀ * U) * diagonal E * Uᵀ := by simp only [Matrix.mul_assoc]
        _ = U * (diagonal D * diagonal E) * Uᵀ := by rw [hUU]; simp [Matrix.mul_assoc]
        _ = _ := by rw [diagonal_mul_diagonal]
    have tr : ∀ D : n → ℝ, (U * diagonal D * Uᵀ)ᵀ = U * diagonal D * Uᵀ := by
      intro D; simp [transpose_mul, Matrix.mul_assoc]
    have e1 : ∀ x : ℝ, x * x⁻¹ * x = x := by
      intro x; by_cases h : x = 0 <;> simp [h]
    have e2 : ∀ x : ℝ, x⁻¹ * x * x⁻¹ = x⁻¹ := by
      intro x; by_cases h : x = 0 <;> simp [h]
    constructor
    · conv_lhs => rw [hspec]
      rw [key, key]; simp only [e1]; exact hspec.symm
    · conv_lhs => rw [hspec]
      rw [key, key]; simp only [e2]
    · conv_lhs => rw [hspec]
      conv_rhs => rw [hspec]
      rw [key, tr]
    · conv_lhs => rw [hspec]
      conv_rhs => rw [hspec]
      rw [key, tr]
  · simp [transpose_mul, Matrix.mul_assoc]

omit [DecidableEq m] [DecidableEq n] in
/-- `A Aᵀ = 0` forces `A = 0` over the reals. -/
theorem eq_zero_of_mul_transpose_self {A : Matrix m n ℝ} (h : A * Aᵀ = 0) : A = 0 := by
  have := (Matrix.self_mul_conjTranspose_eq_zero (A := A)).mp
    (by rw [conjTranspose_eq_transpose_of_trivial]; exact h)
  exact this

/-- Every real matrix has a Moore-Penrose inverse. -/
theorem exists_moorePenrose (A : Matrix m n ℝ) : ∃ X, IsMoorePenrose A X := by
  obtain ⟨Y, hY, hYs⟩ := exists_moorePenrose_symm (Aᵀ * A) (by simp [transpose_mul])
  have hzero : A * Y * (Aᵀ * A) = A := by
    -- Z = A - A Y Aᵀ A satisfies Aᵀ Z = 0, hence Zᵀ Z = 0
    have hZ : Aᵀ * (A * Y * (Aᵀ * A) - A) = 0 := by
      rw [Matrix.mul_sub]
      have := hY.aba
      simp only [Matrix.mul_assoc] at this ⊢
      rw [this, sub_self]
    have : (A * Y * (Aᵀ * A) - A)ᵀ = 0 := by
      apply eq_zero_of_mul_transpose_self
      rw [transpose_transpose]
      have e : (A * Y * (Aᵀ * A) - A)ᵀ = ((Y * (Aᵀ * A))ᵀ - 1) * Aᵀ := by
        rw [transpose_sub, Matrix.mul_assoc A, transpose_mul A, Matrix.sub_mul, Matrix.one_mul]
      rw [e, Matrix.mul_assoc, hZ, Matrix.mul_zero]
    have h := congrArg transpose this
    rw [transpose_transpose, transpose_zero] at h
    exact sub_eq_zero.mp h
  refine ⟨Y * Aᵀ, ?_, ?_, ?_, ?_⟩
  · simp only [Matrix.mul_assoc] at hzero ⊢
    exact hzero
  · have := hY.bab
    calc Y * Aᵀ * A * (Y * Aᵀ) = (Y * (Aᵀ * A) * Y) * Aᵀ := by simp only [Matrix.mul_assoc]
      _ = Y * Aᵀ := by rw [this]
  · rw [transpose_mul, transpose_mul, transpose_transpose, hYs, Matrix.mul_assoc]
  · have := hY.symR
    simp only [Matrix.mul_assoc] at this ⊢
    exact this

/-- src/wbd.cpp 5-53 and src/math.cpp 23-53: `PinvCOD*`, the exact pseudo-inverse. -/
noncomputable def pinv (A : Matrix m n ℝ) : Matrix n m ℝ := Classical.choose (exists_moorePenrose A)

theorem pinv_spec (A : Matrix m n ℝ) : IsMoorePenrose A (pinv A) :=
  Classical.choose_spec (exists_moorePenrose A)

theorem pinv_eq {A : Matrix m n ℝ} {X : Matrix n m ℝ} (h : IsMoorePenrose A X) : pinv A = X :=
  (pinv_spec A).unique h

theorem pinv_symm {A : Matrix n n ℝ} (hA : Aᵀ = A) : (pinv A)ᵀ = pinv A := by
  obtain ⟨X, h, hs⟩ := exists_moorePenrose_symm A hA
  rw [pinv_eq h]; exact hs

/-- The pseudo-inverse of an invertible matrix is its inverse. -/
theorem pinv_of_isUnit {A : Matrix n n ℝ} (hA : IsUnit A.det) : pinv A = A⁻¹ := by
  apply pinv_eq
  have h1 : A * A⁻¹ = 1 := mul_nonsing_inv _ hA
  have h2 : A⁻¹ * A = 1 := nonsing_inv_mul _ hA
  constructor <;> simp [h1, h2]

open Classical in
/-- `MatrixXd::inverse()`: `none` stands for a non-finite result (singular matrix). -/
noncomputable def eigenInverse (A : Matrix n n ℝ) : Option (Matrix n n ℝ) :=
  if IsUnit A.det then some A⁻¹ else none

theorem eigenInverse_eq_some {A X : Matrix n n ℝ} :
    eigenInverse A = some X ↔ IsUnit A.det ∧ X = A⁻¹ := by
  unfold eigenInverse; split <;> simp_all [eq_comm]

theorem eigenInverse_eq_none {A : Matrix n n ℝ} :
    eigenInverse A = none ↔ ¬ IsUnit A.det := by
  unfold eigenInverse; split <;> simp_all

end Verif
