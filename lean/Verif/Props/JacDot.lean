import Verif.Model.JacDot
import Mathlib.Analysis.Calculus.Deriv.Add
import Mathlib.Analysis.Calculus.Deriv.Mul
import Mathlib.Analysis.Calculus.Deriv.Pi
import Mathlib.Analysis.Matrix.Normed
import Mathlib.Analysis.SpecialFunctions.Trigonometric.Deriv
import Mathlib.Tactic.FinCases

/-!
# C73: the derivative of a link's Jacobian
-/

set_option linter.unusedSectionVars false

namespace Verif.Props
open Matrix Verif Verif.Model

variable {κ : Type*} {axes : ℝ → κ → SpatialAxis} {chain : κ → Bool} {p : ℝ → Vec3} {v : Vec3} {t : ℝ} {k : κ}

/-- Every entry of the matrix has the derivative given. -/
def HasEntryDeriv (M : ℝ → Matrix (Fin 3 ⊕ Fin 3) κ ℝ) (D : Matrix (Fin 3 ⊕ Fin 3) κ ℝ) (t : ℝ) : Prop :=
  ∀ r k, HasDerivAt (fun s => M s r k) (D r k) t

/-- The column of a joint that hangs on the world moves only because the point moves. -/
theorem worldJoint_deriv (hc : chain k = true) (hw : ∀ s, axes s k = axes t k) (hp : ∀ i, HasDerivAt (fun s => p s i) (v i) t)
    (r : Fin 3 ⊕ Fin 3) : HasDerivAt (fun s => pointJacobian (axes s) chain (p s) r k)
      (Sum.elim (0 : Vec3) (-crossProduct v (axes t k).ang) r) t := by
  have e : (fun s => pointJacobian (axes s) chain (p s) r k) =
      fun s => Sum.elim (axes t k).ang ((axes t k).velAt (p s)) r := by
    funext s
    simp only [pointJacobian, of_apply, hc, if_true, hw s]
  rw [e]
  rcases r with i | i
  · simp only [Sum.elim_inl]
    exact hasDerivAt_const t _
  · simp only [Sum.elim_inr, SpatialAxis.velAt, Pi.sub_apply, Pi.neg_apply, crossProduct]
    have h0 := hp 0
    have h1 := hp 1
    have h2 := hp 2
    fin_cases i
    · simpa using ((h1.mul_const ((axes t k).ang 2)).sub (h2.mul_const ((axes t k).ang 1))).const_sub ((axes t k).lin 0)
    · simpa using ((h2.mul_const ((axes t k).ang 0)).sub (h0.mul_const ((axes t k).ang 2))).const_sub ((axes t k).lin 1)
    · simpa using ((h0.mul_const ((axes t k).ang 1)).sub (h1.mul_const ((axes t k).ang 0))).const_sub ((axes t k).lin 2)

/-- C73, negation.  Along every motion, at every time, and in either order of the rows, `GetJacDot` is not the derivative of the
link's Jacobian: it fails in the column of the joint between the robot and the world, whose axis does not move. -/
theorem C73_not_derivative (hc : chain k = true) (hw : ∀ s, axes s k = axes t k) (h0 : axes t k ≠ ⟨0, 0⟩)
    (hp : ∀ i, HasDerivAt (fun s => p s i) (v i) t) :
    ¬ HasEntryDeriv (fun s => pointJacobian (axes s) chain (p s)) (getJacDot (axes t) chain v) t ∧
      ¬ HasEntryDeriv (fun s => swapHalves (pointJacobian (axes s) chain (p s))) (getJacDot (axes t) chain v) t := by
  have key := worldJoint_deriv hc hw hp
  have hcol : ∀ r, getJacDot (axes t) chain v r k = Sum.elim (axes t k).ang ((axes t k).velAt v) r := by
    intro r; simp [getJacDot, hc]
  constructor
  · intro h
    have e : ∀ r, Sum.elim (axes t k).ang ((axes t k).velAt v) r = Sum.elim (0 : Vec3) (-crossProduct v (axes t k).ang) r := by
      intro r
      have := (h r k).unique (key r)
      rw [hcol] at this
      exact this
    apply h0
    have ea : (axes t k).ang = 0 := funext fun i => e (.inl i)
    ext i
    · rw [ea]
    · have := e (.inr i)
      simp only [Sum.elim_inr, SpatialAxis.velAt, ea, map_zero, sub_zero, neg_zero, Pi.zero_apply] at this
      simpa using this
  · intro h
    have e : ∀ r, Sum.elim (axes t k).ang ((axes t k).velAt v) r =
        Sum.elim (0 : Vec3) (-crossProduct v (axes t k).ang) r.swap := by
      intro r
      have := (h r k).unique (key r.swap)
      rw [hcol] at this
      exact this
    apply h0
    have ea : (axes t k).ang = -crossProduct v (axes t k).ang := funext fun i => e (.inl i)
    have hz : (axes t k).ang ⬝ᵥ (axes t k).ang = 0 := by
      have h1 : (axes t k).ang ⬝ᵥ (axes t k).ang = (axes t k).ang ⬝ᵥ -crossProduct v (axes t k).ang := congrArg _ ea
      rw [h1, dotProduct_neg, dot_cross_self, neg_zero]
    have ea0 : (axes t k).ang = 0 := dotProduct_self_eq_zero.mp hz
    ext i
    · rw [ea0]
    · have := e (.inr i)
      simp only [Sum.elim_inr, Sum.swap_inr, Sum.elim_inl, SpatialAxis.velAt, ea0, map_zero, sub_zero, Pi.zero_apply] at this
      simpa using this

/-- C73, what it computes instead, along every motion: in the column of a joint on the world (with the rows in RBDL's order), the
derivative plus the joint's own axis; it returns the derivative's value only after that axis is subtracted. -/
theorem C73_error_partial (hc : chain k = true) (hw : ∀ s, axes s k = axes t k) (hp : ∀ i, HasDerivAt (fun s => p s i) (v i) t)
    (r : Fin 3 ⊕ Fin 3) : HasDerivAt (fun s => pointJacobian (axes s) chain (p s) r k)
      (getJacDot (axes t) chain v r k - Sum.elim (axes t k).ang (axes t k).lin r) t := by
  have e : getJacDot (axes t) chain v r k - Sum.elim (axes t k).ang (axes t k).lin r =
      Sum.elim (0 : Vec3) (-crossProduct v (axes t k).ang) r := by
    rcases r with i | i
    · simp [getJacDot, hc]
    · simp only [getJacDot, of_apply, hc, if_true, Sum.elim_inr, SpatialAxis.velAt, Pi.sub_apply, Pi.neg_apply]
      ring
  rw [e]
  exact worldJoint_deriv hc hw hp r

/-- C73: a robot at rest, whose Jacobian does not change, gets a matrix that is not zero: the velocity bias `J̇ q̇` is therefore not
even right for a link that stands still while another joint turns. -/
theorem C73_rest_nonzero (ax : κ → SpatialAxis) (hc : chain k = true) (h0 : ax k ≠ ⟨0, 0⟩) :
    getJacDot ax chain 0 ≠ 0 := by
  intro h
  have e : ∀ r, Sum.elim (ax k).ang (ax k).lin r = 0 := by
    intro r
    have := congrFun (congrFun h r) k
    rcases r with i | i <;> simpa [getJacDot, hc, SpatialAxis.velAt] using this
  apply h0
  ext i
  · exact e (.inl i)
  · exact e (.inr i)

/-- C73: joints that are not between the link and the world have a zero column, as in the Jacobian, and as its derivative has. -/
theorem C73_off_chain (hc : chain k = false) (r : Fin 3 ⊕ Fin 3) :
    getJacDot (axes t) chain v r k = 0 ∧ HasDerivAt (fun s => pointJacobian (axes s) chain (p s) r k) (getJacDot (axes t) chain v r k) t := by
  have e : getJacDot (axes t) chain v r k = 0 := by simp [getJacDot, hc]
  refine ⟨e, ?_⟩
  rw [e]
  have : (fun s => pointJacobian (axes s) chain (p s) r k) = fun _ => 0 := by
    funext s; simp [pointJacobian, hc]
  rw [this]
  exact hasDerivAt_const t _

/-- A pendulum: one joint about the `y` axis through the world's origin. -/
def pendAxis : SpatialAxis := ⟨![0, 1, 0], 0⟩

/-- Its tip, moving. -/
noncomputable def pendTip (s : ℝ) : Vec3 := ![Real.sin s, 0, Real.cos s]

theorem pendTip_deriv (t : ℝ) (i : Fin 3) :
    HasDerivAt (fun s => pendTip s i) ((![Real.cos t, 0, -Real.sin t] : Vec3) i) t := by
  fin_cases i
  · simpa [pendTip] using Real.hasDerivAt_sin t
  · simpa [pendTip] using hasDerivAt_const t (0 : ℝ)
  · simpa [pendTip] using Real.hasDerivAt_cos t

theorem pendAxis_ne : pendAxis ≠ ⟨0, 0⟩ := by
  intro h
  have := congrFun (congrArg SpatialAxis.ang h) 1
  simp [pendAxis] at this

/-- The hypotheses are met: the pendulum, at every time. -/
example (t : ℝ) :
    ¬ HasEntryDeriv (fun s => pointJacobian (fun _ : Unit => pendAxis) (fun _ => true) (pendTip s))
      (getJacDot (fun _ : Unit => pendAxis) (fun _ => true) ![Real.cos t, 0, -Real.sin t]) t :=
  (C73_not_derivative (axes := fun _ _ => pendAxis) (chain := fun _ => true) (k := ()) rfl (fun _ => rfl) pendAxis_ne
    (pendTip_deriv t)).1

example (t : ℝ) (r : Fin 3 ⊕ Fin 3) :
    HasDerivAt (fun s => pointJacobian (fun _ : Unit => pendAxis) (fun _ => true) (pendTip s) r ())
      (getJacDot (fun _ : Unit => pendAxis) (fun _ => true) ![Real.cos t, 0, -Real.sin t] r () -
        Sum.elim pendAxis.ang pendAxis.lin r) t :=
  C73_error_partial (axes := fun _ _ => pendAxis) (chain := fun _ => true) (k := ()) rfl (fun _ => rfl) (pendTip_deriv t) r

example : getJacDot (fun _ : Unit => pendAxis) (fun _ => true) 0 ≠ 0 := C73_rest_nonzero (k := ()) _ rfl pendAxis_ne

end Verif.Props
