import Verif.Model.HQP

/-!
# Solving a hierarchy again without initialisation (src/dwbc_hqp.cpp 291-403, 583-625)

`solveSequential(init)` builds each level's problem in the members `qp_H_, qp_g_, qp_A_, qp_ubA_` of the level.  With `init = true` they are
first set to zero in the sizes that fit; with `init = false` they keep the sizes and the entries of the last call and only blocks of them
are written.  The solver object also keeps the number of variables and rows of the last call with `init = true`.

The members are functions on pairs of numbers here, together with their sizes.  A block write that leaves the matrix is `none` (an Eigen
assertion; undefined behaviour without assertions).  `qp_lb_`, `qp_ub_` are not handed to the solver, `qp_lbA_` is overwritten with
minus infinity.  The solver's answer is taken to depend on the problem handed over only, not on its warm start.
-/

set_option linter.unusedSectionVars false

namespace Verif.Model
open Matrix Verif Verif.Spec

variable {V : Type} [Fintype V] [DecidableEq V]

/-- `HQP_Hierarch` with its sizes: `ineq_const_size_ = p`, `eq_const_size_ = q` -/
structure SizedLevel (V : Type) where
  p : ℕ
  q : ℕ
  A : Matrix (Fin p) V ℝ
  a : Fin p → ℝ
  B : Matrix (Fin q) V ℝ
  b : Fin q → ℝ
  H : Option (Matrix V V ℝ)

def SizedLevel.toLevel (l : SizedLevel V) : Level V :=
  { I := Fin l.p, E := Fin l.q, A := l.A, a := l.a, B := l.B, b := l.b, H := l.H }

/-- `y_ans_`, `v_ans_`, `w_ans_` of a level -/
structure SizedAnswer (V : Type) where
  l : SizedLevel V
  y : V → ℝ
  v : Fin l.p → ℝ
  w : Fin l.q → ℝ

def SizedAnswer.toAnswer (r : SizedAnswer V) : LevelAnswer V := { l := r.l.toLevel, y := r.y, v := r.v, w := r.w }

/-- `qp_H_`, `qp_g_`, `qp_A_`, `qp_ubA_` of a level: `nv` variables and `nc` rows -/
structure QpBuf where
  nv : ℕ
  nc : ℕ
  H : ℕ → ℕ → ℝ
  g : ℕ → ℝ
  A : ℕ → ℕ → ℝ
  ub : ℕ → ℝ

/-- dwbc_hqp.cpp 303-310: everything zero -/
def QpBuf.zero (nv nc : ℕ) : QpBuf := { nv := nv, nc := nc, H := 0, g := 0, A := 0, ub := 0 }

/-- `M.block(r, c, h, w) = B` -/
def setBlock (M : ℕ → ℕ → ℝ) (r c : ℕ) {h w : ℕ} (B : Matrix (Fin h) (Fin w) ℝ) : ℕ → ℕ → ℝ := fun i j =>
  if hb : (r ≤ i ∧ i < r + h) ∧ c ≤ j ∧ j < c + w then B ⟨i - r, by omega⟩ ⟨j - c, by omega⟩ else M i j

/-- `x.segment(r, h) = b` -/
def setSeg (x : ℕ → ℝ) (r : ℕ) {h : ℕ} (b : Fin h → ℝ) : ℕ → ℝ := fun i =>
  if hb : r ≤ i ∧ i < r + h then b ⟨i - r, by omega⟩ else x i

/-- number of inequalities of the levels answered so far -/
def rowsBefore (done : List (SizedAnswer V)) : ℕ := (done.map (·.l.p)).sum

/-- dwbc_hqp.cpp 361-379: rows of the earlier levels into `qp_A_`, from row `at` on -/
def earlierRows (Z : Basis V) : (ℕ → ℕ → ℝ) → ℕ → List (SizedAnswer V) → ℕ → ℕ → ℝ
  | M, _, [] => M
  | M, i, d :: ds => earlierRows Z (setBlock M i 0 (d.l.A * Z.2)) (i + d.l.p) ds

/-- dwbc_hqp.cpp 361-379: bounds of the earlier levels into `qp_ubA_` -/
def earlierBounds (y : V → ℝ) : (ℕ → ℝ) → ℕ → List (SizedAnswer V) → ℕ → ℝ
  | x, _, [] => x
  | x, i, d :: ds => earlierBounds y (setSeg x i (-(d.l.A *ᵥ y) + d.v - d.l.a)) (i + d.l.p) ds

/-- dwbc_hqp.cpp 315-379: the block writes of `solveSequentialSingle`, in order.  `none`: a block leaves its matrix. -/
noncomputable def fillBuf (s : QpBuf) (Z : Basis V) (y : V → ℝ) (done : List (SizedAnswer V)) (l : SizedLevel V) : Option QpBuf :=
  let T := l.B * Z.2
  if Z.1 ≤ s.nv ∧ l.p ≤ s.nv ∧ l.p + rowsBefore done ≤ s.nc then
    some { s with
      H := setBlock (setBlock s.H (s.nv - l.p) (s.nv - l.p) (1 : Matrix (Fin l.p) (Fin l.p) ℝ)) 0 0
        (Tᵀ * T + l.H.elim 0 fun H => Z.2ᵀ * H * Z.2)
      g := setSeg (setSeg s.g (s.nv - l.p) (0 : Fin l.p → ℝ)) 0
        (Tᵀ *ᵥ (l.B *ᵥ y + l.b) + l.H.elim 0 fun H => (Z.2ᵀ * H) *ᵥ y)
      A := earlierRows Z (setBlock (setBlock s.A 0 0 (l.A * Z.2)) 0 (s.nv - l.p) (-1 : Matrix (Fin l.p) (Fin l.p) ℝ)) l.p done
      ub := earlierBounds y (setSeg s.ub 0 (-(l.A *ᵥ y) - l.a)) l.p done }
  else none

/-- dwbc_hqp.cpp 583-622 `solveOSQP`: the problem handed to the solver -/
def QpBuf.qp (s : QpBuf) : LeQP (Fin s.nv) :=
  { H := Matrix.of fun i j => s.H i j, g := fun i => s.g i, R := Fin s.nc, row := fun r i => s.A r i, ub := fun r => s.ub r }

/-- entry `i` of the solver's answer (`i` is in range wherever this is used) -/
def entry {nv : ℕ} (x : Fin nv → ℝ) (i : ℕ) : ℝ := if h : i < nv then x ⟨i, h⟩ else 0

/-- dwbc_hqp.cpp 387-393: the answers from `ans.head(null_space_size_)` and `ans.tail(ineq_const_size_)` -/
def bufAnswer {nv : ℕ} (Z : Basis V) (y : V → ℝ) (l : SizedLevel V) (x : Fin nv → ℝ) : SizedAnswer V :=
  let y' := y + Z.2 *ᵥ fun i => entry x i
  { l := l, y := y', v := fun r => entry x (nv - l.p + r), w := l.B *ᵥ y' + l.b }

/-- dwbc_hqp.cpp 291-395 `solveSequentialSingle(i, init)` on a level with the members `s` -/
noncomputable def warmSingle (osqp : Osqp) (init : Bool) (Z : Basis V) (y : V → ℝ) (done : List (SizedAnswer V)) (l : SizedLevel V)
    (s : QpBuf) : Option (QpBuf × SizedAnswer V) :=
  match fillBuf (if init then .zero (Z.1 + l.p) (l.p + rowsBefore done) else s) Z y done l with
  | none => none
  | some s' => some (s', bufAnswer Z y l (osqp _ s'.qp))

/-- dwbc_hqp.cpp 397-403 `solveSequential(init)`: levels `1, 2, …` with their members; returns the members and all answers -/
noncomputable def warmRest (osqp : Osqp) (N : NullSpaceFn) (init : Bool) : Basis V → (V → ℝ) → List (SizedAnswer V) →
    List (SizedLevel V × QpBuf) → Option (List QpBuf × List (SizedAnswer V))
  | _, _, done, [] => some ([], done)
  | Z, y, done, (l, s) :: ls =>
    match warmSingle osqp init Z y done l s with
    | none => none
    | some (s', r) =>
      match warmRest osqp N init (nextZ N Z l.toLevel) r.y (done ++ [r]) ls with
      | none => none
      | some (ss, rs) => some (s' :: ss, rs)

/-- what a caller puts into the object before a call: the answer of level 0 and the matrices of the later levels -/
structure WarmData (V : Type) where
  first : SizedAnswer V
  levels : List (SizedLevel V)

/-- `prepare()` and `solveSequential(init)` -/
noncomputable def warmCall (osqp : Osqp) (N : NullSpaceFn) (init : Bool) (bufs : List QpBuf) (d : WarmData V) :
    Option (List QpBuf × List (SizedAnswer V)) :=
  warmRest osqp N init (firstZ N d.first.l.toLevel) d.first.y [d.first] (d.levels.zip bufs)

/-- the members before the first call (`init = true` does not read them) -/
def noBufs (d : WarmData V) : List QpBuf := d.levels.map fun _ => .zero 0 0

/-- the members after one call with `init = true` and then calls with `init = false` -/
noncomputable def warmAfter (osqp : Osqp) (N : NullSpaceFn) (d : WarmData V) (ds : List (WarmData V)) : Option (List QpBuf) :=
  ds.foldlM (fun bufs d' => (warmCall osqp N false bufs d').map (·.1)) =<< (warmCall osqp N true (noBufs d) d).map (·.1)

end Verif.Model
