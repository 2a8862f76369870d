import Mathlib.Analysis.SpecialFunctions.Pow.Real
import Verif.Model.ConstraintRows

/-!
# Closed-form redistribution of two contact wrenches (src/wbd.cpp 273-404) and ZMP (src/dwbc.cpp 898-939)

Arithmetic is exact, but divisions follow IEEE 754: a value is a real, an infinity, or NaN, and comparisons with NaN
are false.
-/

namespace Verif.Model

/-- A floating-point value with exact reals. -/
inductive Fl where
  | nan
  | inf (negative : Bool)
  | fin (r : ℝ)

namespace Fl

/-- IEEE `<`. -/
def Lt : Fl → Fl → Prop
  | fin a, fin b => a < b
  | inf true, fin _ => True
  | fin _, inf false => True
  | inf true, inf false => True
  | _, _ => False

open Classical in
/-- IEEE `x / y` of reals; `s` is the sign bit of `y` when `y` is zero (not visible in the real value). -/
noncomputable def div (s : Bool) (x y : ℝ) : Fl :=
  if y ≠ 0 then fin (x / y) else if x = 0 then nan else inf (decide (x < 0) != s)

end Fl

open Classical in
/-- src/wbd.cpp 288-320 (and 325-346, 351-372): tighten the bounds `(lb, ub)` of `eta` by the quadratic
`(A eta + B)² = C²`; `s` is the sign bit of `A*A` if that is zero. -/
noncomputable def tighten (s : Bool) (A B C : ℝ) (p : Fl × Fl) : Fl × Fl :=
  let a := A * A
  let b := 2 * A * B
  let c := B * B - C * C
  let s1 := Fl.div s ((-b + Real.sqrt (b * b - 4 * a * c)) / 2) a
  let s2 := Fl.div s ((-b - Real.sqrt (b * b - 4 * a * c)) / 2) a
  if Fl.Lt s2 s1 then
    (if Fl.Lt p.1 s2 then s2 else p.1, if Fl.Lt s1 p.2 then s1 else p.2)
  else
    (if Fl.Lt p.1 s1 then s1 else p.1, if Fl.Lt s2 p.2 then s2 else p.2)

/-- Parameters of `ContactRedistributetwomod`. -/
structure RedistParams where
  etaCust : ℝ
  footLength : ℝ
  footWidth : ℝ
  mu : ℝ
  ratioX : ℝ
  ratioY : ℝ

/-- src/wbd.cpp 275-283: `ResultantForce = W * F12`, `W = [1 0 1 0; skew(P1) 1 skew(P2) 1]`. -/
def resultant (P1 P2 : Fin 3 → ℝ) (F : Fin 12 → ℝ) : Fin 6 → ℝ :=
  ![F 0 + F 6, F 1 + F 7, F 2 + F 8,
    -P1 2 * F 1 + P1 1 * F 2 + F 3 + (-P2 2 * F 7 + P2 1 * F 8) + F 9,
    P1 2 * F 0 - P1 0 * F 2 + F 4 + (P2 2 * F 6 - P2 0 * F 8) + F 10,
    -P1 1 * F 0 + P1 0 * F 1 + F 5 + (-P2 1 * F 6 + P2 0 * F 7) + F 11]

/-- The coefficients `A`, `B` of src/wbd.cpp 289-290, 325-326, 351-352: foot 1 gets the moment
`eta * (A eta + B)` about `x`, `y`, `z`. -/
def coefA (P1 P2 : Fin 3 → ℝ) (R : Fin 6 → ℝ) : Fin 3 → ℝ :=
  ![(P1 2 - P2 2) * R 1 - (P1 1 - P2 1) * R 2,
    -(P1 2 - P2 2) * R 0 + (P1 0 - P2 0) * R 2,
    -(P1 0 - P2 0) * R 1 + (P1 1 - P2 1) * R 0]

def coefB (P2 : Fin 3 → ℝ) (R : Fin 6 → ℝ) : Fin 3 → ℝ :=
  ![R 3 + P2 2 * R 1 - P2 1 * R 2, R 4 - P2 2 * R 0 + P2 0 * R 2, R 5 + P2 1 * R 0 - P2 0 * R 1]

/-- `C` of src/wbd.cpp 291, 327, 353. -/
noncomputable def coefC (p : RedistParams) (R : Fin 6 → ℝ) : Fin 3 → ℝ :=
  ![p.ratioY * p.footWidth / 2 * |R 2|, p.ratioX * p.footLength / 2 * |R 2|, p.mu * |R 2|]

open Classical in
/-- src/wbd.cpp 379-387: clamp `eta_s` to the bounds `b`; if the outcome is outside `[1 - eta_cust, eta_cust]` use
one half. -/
noncomputable def clampRatio (etaCust : ℝ) (b : Fl × Fl) (etaS : Fl) : Fl :=
  let eta := if Fl.Lt b.2 etaS then b.2 else if Fl.Lt etaS b.1 then b.1 else etaS
  if Fl.Lt (Fl.fin etaCust) eta ∨ Fl.Lt eta (Fl.fin (1 - etaCust)) then Fl.fin (1 / 2) else eta

/-- src/wbd.cpp 285-387: the split ratio `eta`.  `s` gives the sign bits of zero denominators. -/
noncomputable def splitRatio (s : Fin 4 → Bool) (p : RedistParams) (P1 P2 : Fin 3 → ℝ) (R : Fin 6 → ℝ) : Fl :=
  let A := coefA P1 P2 R
  let B := coefB P2 R
  let C := coefC p R
  let b0 : Fl × Fl := (Fl.fin (1 - p.etaCust), Fl.fin p.etaCust)
  let b := tighten (s 2) (A 2) (B 2) (C 2) (tighten (s 1) (A 1) (B 1) (C 1) (tighten (s 0) (A 0) (B 0) (C 0) b0))
  let etaS := Fl.div (s 3) (-R 3 - P2 2 * R 1 + P2 1 * R 2) ((P1 2 - P2 2) * R 1 - (P1 1 - P2 1) * R 2)
  clampRatio p.etaCust b etaS

/-- src/wbd.cpp 389-400: the redistributed wrenches for a given `eta`. -/
def splitForce (P1 P2 : Fin 3 → ℝ) (R : Fin 6 → ℝ) (eta : ℝ) : Fin 12 → ℝ :=
  let A := coefA P1 P2 R
  let B := coefB P2 R
  ![eta * R 0, eta * R 1, eta * R 2,
    A 0 * eta * eta + B 0 * eta, A 1 * eta * eta + B 1 * eta, A 2 * eta * eta + B 2 * eta,
    (1 - eta) * R 0, (1 - eta) * R 1, (1 - eta) * R 2,
    (1 - eta) * (A 0 * eta + B 0), (1 - eta) * (A 1 * eta + B 1), (1 - eta) * (A 2 * eta + B 2)]

/-- src/wbd.cpp 273-404 `ContactRedistributetwomod`: `eta` and the redistributed force; `none` if `eta` is not
finite (all outputs are then NaN or infinite). -/
noncomputable def contactRedistribute (s : Fin 4 → Bool) (p : RedistParams) (P1 P2 : Fin 3 → ℝ) (F : Fin 12 → ℝ) :
    Option (ℝ × (Fin 12 → ℝ)) :=
  match splitRatio s p P1 P2 (resultant P1 P2 F) with
  | .fin eta => some (eta, splitForce P1 P2 (resultant P1 P2 F) eta)
  | _ => none

/-! ### ZMP -/

/-- A registered contact as `getZMP` sees it. -/
structure ZmpContact where
  contact : Bool
  pos : Fin 3 → ℝ

/-- `contact_force(k)`, `none` out of range. -/
def vecAt {m : ℕ} (v : Fin m → ℝ) (k : ℕ) : Option ℝ := if h : k < m then some (v ⟨k, h⟩) else none

/-- src/dwbc.cpp 906-915, from contact number `i` on. -/
def totalFz {m : ℕ} (f : Fin m → ℝ) : ℕ → List ZmpContact → Option ℝ
  | _, [] => some 0
  | i, c :: cs =>
    if c.contact then do
      let z ← vecAt f (2 + i * 6)
      let r ← totalFz f (i + 1) cs
      pure (z + r)
    else totalFz f (i + 1) cs

open Classical in
/-- src/dwbc.cpp 921-932: `cc_[i].zmp_pos`. -/
noncomputable def contactZmp (pos : Fin 3 → ℝ) (mx my fz : ℝ) : Fin 3 → ℝ :=
  if fz > -(1 / 1000) then pos else ![pos 0 + -my / fz, pos 1 + mx / fz, pos 2]

/-- src/dwbc.cpp 917-936, from contact number `i` on; `tot` is `total_fz`, assumed nonzero. -/
noncomputable def zmpSum {m : ℕ} (f : Fin m → ℝ) (tot : ℝ) : ℕ → List ZmpContact → Option (Fin 3 → ℝ)
  | _, [] => some 0
  | i, c :: cs =>
    if c.contact then do
      let fz ← vecAt f (i * 6 + 2)
      let mx ← vecAt f (i * 6 + 3)
      let my ← vecAt f (i * 6 + 4)
      let r ← zmpSum f tot (i + 1) cs
      pure ((fz / tot) • contactZmp c.pos mx my fz + r)
    else zmpSum f tot (i + 1) cs

/-- Result of `getZMP`. -/
inductive ZmpResult where
  /-- read outside the contact force vector -/
  | outOfRange
  /-- division by zero -/
  | notFinite
  | zmp (p : Fin 3 → ℝ)

open Classical in
/-- src/dwbc.cpp 898-939 `getZMP`. -/
noncomputable def getZMP {m : ℕ} (cs : List ZmpContact) (f : Fin m → ℝ) : ZmpResult :=
  match totalFz f 0 cs with
  | none => .outOfRange
  | some tot =>
    match zmpSum f tot 0 cs with
    | none => .outOfRange
    | some p => if tot = 0 ∧ ∃ c ∈ cs, c.contact then .notFinite else .zmp p

end Verif.Model
