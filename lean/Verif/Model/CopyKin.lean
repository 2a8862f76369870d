import Verif.Spec.CopyKin

/-!
# Copying the kinematic state to another robot object (src/dwbc.cpp 1711-1762)
-/

namespace Verif.Model
open Verif.Spec

/-- `v.resize(n)`, new entries default constructed. -/
def resizeTo {α : Type*} (n : ℕ) (d : α) (v : List α) : List α := v.take n ++ List.replicate (n - v.length) d

/-- `std::copy(src.begin(), src.end(), dst.begin())`: undefined if `dst` is shorter. -/
def stdCopy {α : Type*} (src dst : List α) : Option (List α) :=
  if src.length ≤ dst.length then some (src ++ dst.drop src.length) else none

variable {V M L J C T Q : Type*}

/-- src/dwbc.cpp 1736-1745: the source's contacts after the loop (the flag of a default constructed contact is not
initialised, src/contact_constraint.cpp 5-7). -/
def sourceContacts (c0 : C) (src target : List (KinContact C)) : List (KinContact C) :=
  if target.length ≠ src.length then
    List.zipWith (fun s t => { s with on := t.on }) src (resizeTo src.length ⟨c0, none⟩ target)
  else src

/-- src/dwbc.cpp 1711-1762 `CopyKinematicsData`: the two objects afterwards, source first.  `l0`, `c0`, `t0`, `k0` are
default constructed records. -/
def copyKinematics (l0 : L) (c0 : C) (t0 : T) (k0 : Q) (src target : KinState V M L J C T Q) :
    Option (KinState V M L J C T Q × KinState V M L J C T Q) :=
  let link := stdCopy src.link (if target.link.length ≠ src.link.length then resizeTo src.link.length l0 target.link
    else target.link)
  let cc' := sourceContacts c0 src.cc target.cc
  let cc := stdCopy cc' (if target.cc.length ≠ src.cc.length then resizeTo src.cc.length ⟨c0, none⟩ target.cc else target.cc)
  let diff := target.ts.length ≠ src.ts.length
  let ts := stdCopy src.ts (if diff then resizeTo src.ts.length t0 target.ts else target.ts)
  let qp := stdCopy src.qp (if diff then resizeTo src.qp.length k0 target.qp else target.qp)
  match link, cc, ts, qp with
  | some link, some cc, some ts, some qp =>
    some ({ src with cc := cc' },
      { target with
        controlTime := src.controlTime, q := src.q, qdot := src.qdot, qddot := src.qddot
        torqueLimitSet := src.torqueLimitSet, torqueLimit := src.torqueLimit, model := src.model
        A := src.A, Ainv := src.Ainv, link := link, cc := cc, ts := ts, qp := qp, G := src.G, CMM := src.CMM, B := src.B })
  | _, _, _, _ => none

end Verif.Model
