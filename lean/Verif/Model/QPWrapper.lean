import Verif.Spec.QPWrapper

/-!
# `CQuadraticProgram` (src/qp_wrapper.cpp, include/dwbc_qp_wrapper.h)

qpOASES is a parameter: an object with cold start, hot start and read-out.  `none` is undefined behaviour (uninitialised
members or arrays read, Eigen size assertion).
-/

namespace Verif.Model
open Verif.Spec

/-- qpOASES' `SQProblem`: `init`/`hotstart` return the new object, success, and the updated iteration count. -/
structure Oases where
  Obj : Type
  default : Obj
  fresh : ℕ → ℕ → Obj
  init : Obj → Bool → QPData → ℤ → Obj × Bool × ℤ
  hotstart : Obj → Bool → QPData → ℤ → Obj × Bool × ℤ
  primal : Obj → Option (List ℝ)

/-- `SUCCESSFUL_RETURN` of a start means that the primal solution read next solves the problem handed over. -/
structure Oases.Sound (Q : Oases) : Prop where
  init : ∀ (o : Q.Obj) (m : Bool) (d : QPData) (k : ℤ), (Q.init o m d k).2.1 = true →
    ∀ x, Q.primal (Q.init o m d k).1 = some x → d.IsSolution x
  hotstart : ∀ (o : Q.Obj) (m : Bool) (d : QPData) (k : ℤ), (Q.hotstart o m d k).2.1 = true →
    ∀ x, Q.primal (Q.hotstart o m d k).1 = some x → d.IsSolution x

/-- The members (include/dwbc_qp_wrapper.h 49-66).  Flags: `none` is uninitialised. -/
structure QPObj (Q : Oases) where
  prob : Q.Obj
  initialized : Bool
  nv : ℕ
  nc : ℕ
  H : DynMat
  g : List ℝ
  ax : Option Bool
  axUb : Option Bool
  A : DynMat
  lbA : List ℝ
  ubA : List ℝ
  bx : Option Bool
  lb : List ℝ
  ub : List ℝ

namespace QPObj
variable {Q : Oases}

/-- src/qp_wrapper.cpp 6-19: constructor and `Initialize`; the flags are not set. -/
def new (Q : Oases) : QPObj Q :=
  { prob := Q.default, initialized := false, nv := 1, nc := 1, H := .zero 0 0, g := [], ax := none, axUb := none
    A := .zero 0 0, lbA := [], ubA := [], bx := none, lb := [], ub := [] }

/-- src/qp_wrapper.cpp 33-56 -/
def initializeProblemSize (_s : QPObj Q) (nv nc : ℕ) : QPObj Q :=
  { prob := Q.fresh nv nc, initialized := false, nv := nv, nc := nc, H := .zero nv nv, g := List.replicate nv 0
    ax := some false, axUb := some false, bx := some false
    A := .zero nc nv, lbA := List.replicate nc 0, ubA := List.replicate nc 0
    lb := List.replicate nv 0, ub := List.replicate nv 0 }

/-- src/qp_wrapper.cpp 58-62 -/
def updateMinProblem (s : QPObj Q) (H : DynMat) (g : List ℝ) : QPObj Q := { s with H := H, g := g }

/-- src/qp_wrapper.cpp 64-70 -/
def updateSubjectToAxUb (s : QPObj Q) (A : DynMat) (ub : List ℝ) : QPObj Q :=
  { s with A := A, ubA := ub, ax := some true, axUb := some true }

/-- src/qp_wrapper.cpp 72-78 -/
def updateSubjectToAx (s : QPObj Q) (A : DynMat) (lb ub : List ℝ) : QPObj Q :=
  { s with A := A, lbA := lb, ubA := ub, ax := some true }

/-- src/qp_wrapper.cpp 80-85 -/
def updateSubjectToX (s : QPObj Q) (lb ub : List ℝ) : QPObj Q := { s with lb := lb, ub := ub, bx := some true }

/-- src/qp_wrapper.cpp 87-90 -/
def deleteSubjectToAx (s : QPObj Q) : QPObj Q := { s with ax := some false }

/-- src/qp_wrapper.cpp 92-95 -/
def deleteSubjectToX (s : QPObj Q) : QPObj Q := { s with bx := some false }

/-- src/qp_wrapper.cpp 193-215: the row data copied into the arrays.  With `_bool_constraint_AxUb` the array `lbA_realt`
is handed over without having been written. -/
def gatherRows (s : QPObj Q) : Option (Option (DynMat × List ℝ × List ℝ)) :=
  match s.ax with
  | none => none
  | some false => some none
  | some true =>
    match s.axUb with
    | none => none
    | some true => none
    | some false =>
      if s.A.rows = s.nc ∧ s.A.cols = s.nv ∧ s.lbA.length = s.nc ∧ s.ubA.length = s.nc then
        some (some (s.A, s.lbA, s.ubA)) else none

/-- src/qp_wrapper.cpp 216-227: the bounds copied into the arrays. -/
def gatherBox (s : QPObj Q) : Option (Option (List ℝ × List ℝ)) :=
  match s.bx with
  | none => none
  | some false => some none
  | some true => if s.lb.length = s.nv ∧ s.ub.length = s.nv then some (some (s.lb, s.ub)) else none

/-- src/qp_wrapper.cpp 187-227: everything handed to the solver. -/
def gather (s : QPObj Q) : Option QPData :=
  if s.H.rows = s.nv ∧ s.H.cols = s.nv ∧ s.g.length = s.nv then
    match s.gatherRows, s.gatherBox with
    | some r, some b => some ⟨s.H, s.g, r, b⟩
    | _, _ => none
  else none

/-- src/qp_wrapper.cpp 249-297: cold or hot start. -/
def start (s : QPObj Q) (mpc : Bool) (d : QPData) (k : ℤ) : Q.Obj × Bool × ℤ :=
  if s.initialized then Q.hotstart s.prob mpc d k else Q.init s.prob mpc d k

/-- src/qp_wrapper.cpp 299-341: after a failure, a new solver object, reliable options, ten times the iterations. -/
def retry (s : QPObj Q) (d : QPData) (r : Q.Obj × Bool × ℤ) : Q.Obj × Bool :=
  if r.2.1 then (r.1, true)
  else
    let r' := Q.init (Q.fresh s.nv s.nc) false d (r.2.2 * 10)
    (r'.1, r'.2.1)

/-- src/qp_wrapper.cpp 184-381 `SolveQPoases`: new object, whether 1 is returned, and the primal solution (`none`: it was
not available and `solv` holds uninitialised memory). -/
def solve (s : QPObj Q) (iter : ℤ) (mpc : Bool) : Option (QPObj Q × Bool × Option (List ℝ)) :=
  match s.gather with
  | none => none
  | some d =>
    let r := s.retry d (s.start mpc d iter)
    let x := Q.primal r.1
    some ({ s with prob := r.1, initialized := true }, r.2 && x.isSome, x)

end QPObj

/-- The calls a user can make. -/
inductive QPCall where
  | size (nv nc : ℕ)
  | min (H : DynMat) (g : List ℝ)
  | axUb (A : DynMat) (ub : List ℝ)
  | ax (A : DynMat) (lb ub : List ℝ)
  | x (lb ub : List ℝ)
  | deleteAx
  | deleteX
  | solve (iter : ℤ) (mpc : Bool)

namespace QPObj
variable {Q : Oases}

/-- One call. -/
def call (s : QPObj Q) : QPCall → Option (QPObj Q)
  | .size nv nc => some (s.initializeProblemSize nv nc)
  | .min H g => some (s.updateMinProblem H g)
  | .axUb A u => some (s.updateSubjectToAxUb A u)
  | .ax A l u => some (s.updateSubjectToAx A l u)
  | .x l u => some (s.updateSubjectToX l u)
  | .deleteAx => some s.deleteSubjectToAx
  | .deleteX => some s.deleteSubjectToX
  | .solve k m => match s.solve k m with
    | none => none
    | some r => some r.1

/-- A history of calls. -/
def calls (s : QPObj Q) : List QPCall → Option (QPObj Q)
  | [] => some s
  | c :: cs => match s.call c with
    | none => none
    | some s' => s'.calls cs

end QPObj

/-- What a call states about the problem (the upper-bound-only rows have no statement: they are treated separately). -/
def QPCall.statement : QPCall → List Statement
  | .size nv nc => [.size nv nc]
  | .min H g => [.objective H g]
  | .axUb _ _ => []
  | .ax A l u => [.rows A l u]
  | .x l u => [.box l u]
  | .deleteAx => [.noRows]
  | .deleteX => [.noBox]
  | .solve _ _ => []

end Verif.Model
