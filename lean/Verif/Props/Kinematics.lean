import Verif.Lemmas.Kinematics

/-!
# C24, C25: whole-body centre of mass and momentum
-/
set_option linter.unusedSectionVars false

namespace Verif.Props
open Matrix Verif Verif.Spec Verif.Model

variable {ι : Type*} [Fintype ι] [DecidableEq ι]

/-! ## C25 -/

/-- C25.  For every floating-base robot with any number of links of positive mass and positive definite inertia, after
`UpdateKinematics` the record kept for the whole body holds: the centre of mass; the mass-weighted mean Jacobian; the
velocity of the centre of mass, which is that Jacobian times the generalised velocity; the inertia tensor about the
centre of mass; linear momentum and angular momentum about the centre of mass; and the gravity vector is minus the
generalised force of all the weights.  (Missing for the full property: the members `com_vel` and `J_com_`, see
`C25_com_vel_never_set`.) -/
theorem C25_com_partial {L : List (MovingLink (Sys ι))} {x0 : Vec3} {R0 : Mat3} (hR : IsRot R0) (hL : L ≠ [])
    (hm : ∀ l ∈ L, 0 < l.m) (hI : ∀ l ∈ L, l.I.PosDef) (hb : ∀ l ∈ L, FloatingBase x0 R0 l) (qd : Sys ι → ℝ) :
    ∃ s, updateKinematics true (massMatrix L) x0 R0 (mass L) qd = some s ∧
      IsCOM L s.comPos ∧
      mass L • s.jacLin = (L.map fun l => l.m • l.Jv).sum ∧
      s.v = s.jacLin *ᵥ qd ∧ s.w = s.jacAng *ᵥ qd ∧
      mass L • s.v = linearMomentum L qd ∧
      s.G = -gravityForce ![0, 0, -9.81] L ∧
      s.inertia = compositeInertia s.comPos L ∧
      s.cmmLin *ᵥ qd = linearMomentum L qd ∧
      s.cmmAng *ᵥ qd = angularMomentum s.comPos L qd ∧
      s.inertia *ᵥ s.w = angularMomentum s.comPos L qd := by
  have hM : mass L ≠ 0 := (mass_pos hm hL).ne'
  set r : Vec3 := (1 / mass L) • (L.map fun l => l.m • (l.x - x0)).sum with hr
  have hr' : mass L • r = (L.map fun l => l.m • (l.x - x0)).sum := by
    rw [hr, smul_smul, mul_one_div_cancel hM, one_smul]
  have h30 : (1 / mass L) • (R0 * (massMatrix L).submatrix iR iT) = skew r := by
    rw [block30 hR hb, ← skew_smul]
  have hvec : (![skew r 2 1, skew r 0 2, skew r 1 0] : Vec3) = r := by
    ext i; fin_cases i <;> simp [skew]
  have hcom : IsCOM L (r + x0) := by
    unfold IsCOM
    rw [smul_add, hr', moment_shift]; abel
  have hin : R0 * (massMatrix L).submatrix iR iR * R0ᵀ - mass L • (skew r * (skew r)ᵀ) = compositeInertia (r + x0) L := by
    rw [block33 hR hb, skew_sq, compositeInertia_shift, ← hr', mixInertia_smul, mixInertia_self]; module
  have hlin : ((massMatrix L).submatrix iT id) *ᵥ qd = linearMomentum L qd := by
    rw [rowsT hb, linMap_sum (fun A : Matrix (Fin 3) (Sys ι) ℝ => A *ᵥ qd) (by simp) (fun _ _ => add_mulVec _ _ _)]
    exact sum_congr' fun l _ => smul_mulVec _ _ _
  have hang : ((skew r)ᵀ * (massMatrix L).submatrix iT id + R0 * (massMatrix L).submatrix iR id) *ᵥ qd
      = angularMomentum (r + x0) L qd := by
    rw [rowsAng hR hb, linMap_sum (fun A : Matrix (Fin 3) (Sys ι) ℝ => A *ᵥ qd) (by simp)
      (fun _ _ => add_mulVec _ _ _)]
    refine sum_congr' fun l _ => ?_
    rw [add_mulVec, smul_mulVec, ← mulVec_mulVec, ← mulVec_mulVec, skew_mulVec, add_comm]
  have hpd := compositeInertia_posDef hm hI hL (r + x0)
  have hu : IsUnit (compositeInertia (r + x0) L).det := (Matrix.isUnit_iff_isUnit_det _).mp hpd.isUnit
  unfold updateKinematics
  simp only [if_true]
  have h30' : (1 / mass L) • (R0 * (massMatrix L).submatrix (fun i => Sum.inl (Sum.inr i)) fun j => Sum.inl (Sum.inl j))
    = skew r := h30
  have hin' : R0 * ((massMatrix L).submatrix (fun i => Sum.inl (Sum.inr i)) fun j => Sum.inl (Sum.inr j)) * R0ᵀ
    - mass L • (skew r * (skew r)ᵀ) = compositeInertia (r + x0) L := hin
  rw [h30', hvec, hin', eigenInverse_diag hM hpd]
  simp only [toBlocks_fromBlocks₁₁, toBlocks_fromBlocks₁₂, toBlocks_fromBlocks₂₁, toBlocks_fromBlocks₂₂,
    Matrix.zero_mul, add_zero, zero_add, Matrix.smul_mul, Matrix.one_mul]
  refine ⟨_, rfl, hcom, ?_, rfl, rfl, ?_, ?_, rfl, hlin, hang, ?_⟩
  · simp only
    rw [smul_smul, mul_inv_cancel₀ hM, one_smul]
    exact rowsT hb
  · simp only
    rw [smul_mulVec, smul_smul, mul_inv_cancel₀ hM, one_smul]
    exact hlin
  · simp only
    rw [transpose_smul, smul_mulVec, mulVec_smul, smul_smul, inv_mul_cancel₀ hM, one_smul]
    congr 1
    have e : ((massMatrix L).submatrix (fun i => Sum.inl (Sum.inl i)) id) = (L.map fun l => l.m • l.Jv).sum := rowsT hb
    rw [e, linMap_sum (fun A : Matrix (Fin 3) (Sys ι) ℝ => Aᵀ *ᵥ (![0, 0, -9.81] : Vec3)) (by simp)
      (fun _ _ => by simp [add_mulVec])]
    exact sum_congr' fun l _ => by rw [transpose_smul, smul_mulVec, mulVec_smul]
  · simp only
    rw [mulVec_mulVec, ← Matrix.mul_assoc, mul_nonsing_inv _ hu, Matrix.one_mul]
    exact hang

/-- One free rigid body of unit mass and inertia at the origin. -/
def freeBody : MovingLink (Sys (Fin 0)) :=
  { m := 1, I := 1, x := 0
    Jv := Matrix.of fun i j => match j with | .inl (.inl k) => if i = k then 1 else 0 | _ => 0
    Jw := Matrix.of fun i j => match j with | .inl (.inr k) => if i = k then 1 else 0 | _ => 0 }

theorem freeBody_floating : FloatingBase 0 1 freeBody := by
  constructor <;> intro v ω
  · ext i; fin_cases i <;>
      simp [freeBody, baseVelocity, mulVec, dotProduct, Fintype.sum_sum_type, Fin.sum_univ_three]
  · rw [one_mulVec]
    ext i; fin_cases i <;>
      simp [freeBody, baseVelocity, mulVec, dotProduct, Fintype.sum_sum_type, Fin.sum_univ_three]

/-- hypotheses met -/
example : IsRot (1 : Mat3) ∧ [freeBody] ≠ [] ∧ (∀ l ∈ [freeBody], 0 < l.m) ∧ (∀ l ∈ [freeBody], l.I.PosDef) ∧
    ∀ l ∈ [freeBody], FloatingBase 0 1 l := by
  refine ⟨IsRot.one, by simp, ?_, ?_, ?_⟩
  · simp [freeBody]
  · simp only [List.mem_singleton, forall_eq]; exact PosDef.one
  · simp only [List.mem_singleton, forall_eq]; exact freeBody_floating

theorem comVel_zero {u : Bool} {A : Matrix (Sys ι) (Sys ι) ℝ} {x0 R0 M qd s}
    (h : updateKinematics u A x0 R0 M qd = some s) : s.comVel = 0 := by
  unfold updateKinematics at h
  simp only at h
  split at h
  · exact absurd h (by simp)
  · obtain rfl := Option.some.inj h; rfl

/-- C25, disagreement.  The member `com_vel` is zero after every update, also when the centre of mass moves: for a free
body moving at unit speed the true velocity of the centre of mass is `(1, 0, 0)`. -/
theorem C25_com_vel_never_set :
    (∀ (u : Bool) (A : Matrix (Sys ι) (Sys ι) ℝ) x0 R0 M qd s, updateKinematics u A x0 R0 M qd = some s → s.comVel = 0) ∧
    ∃ s, updateKinematics true (massMatrix [freeBody]) 0 1 (mass [freeBody]) (baseVelocity ![1, 0, 0] 0) = some s ∧
      s.v = ![1, 0, 0] ∧ s.comVel ≠ s.v := by
  refine ⟨fun u A x0 R0 M qd s => comVel_zero, ?_⟩
  obtain ⟨s, hs, -, -, -, -, hv, -⟩ := C25_com_partial (L := [freeBody]) (x0 := 0) (R0 := 1) IsRot.one (by simp)
    (by simp [freeBody]) (by simp only [List.mem_singleton, forall_eq]; exact PosDef.one)
    (by simp only [List.mem_singleton, forall_eq]; exact freeBody_floating) (baseVelocity ![1, 0, 0] 0)
  have hm : mass [freeBody] = 1 := by simp [mass, freeBody]
  have e : s.v = ![1, 0, 0] := by
    rw [hm, one_smul] at hv
    rw [hv]
    have := freeBody_floating.lin ![1, 0, 0] 0
    simp only [linearMomentum, List.map_cons, List.map_nil, List.sum_cons, List.sum_nil, add_zero]
    rw [this]
    simp [freeBody]
  refine ⟨s, hs, e, ?_⟩
  rw [comVel_zero hs, e]
  intro h
  have := congrFun h 0
  simp at this

/-- C25, disagreement.  `UpdateKinematics` with `update_kinematics = false` never yields a usable centre of mass: the mass
matrix is zeroed and the inertia to be inverted is singular. -/
theorem C25_no_update_undefined (A : Matrix (Sys ι) (Sys ι) ℝ) (x0 : Vec3) (R0 : Mat3) (M : ℝ) (qd : Sys ι → ℝ) :
    updateKinematics false A x0 R0 M qd = none := by
  unfold updateKinematics
  have hz : ∀ (f : Fin 3 → Sys ι) (g : Fin 3 → Sys ι), ((0 : Matrix (Sys ι) (Sys ι) ℝ).submatrix f g : Mat3) = 0 :=
    fun _ _ => rfl
  have hv : (![(0 : Mat3) 2 1, (0 : Mat3) 0 2, (0 : Mat3) 1 0] : Vec3) = 0 := by
    ext i; fin_cases i <;> rfl
  simp only [Bool.false_eq_true, if_false, hz, Matrix.mul_zero, smul_zero, hv, skew_zero, Matrix.zero_mul, sub_zero]
  have : eigenInverse (fromBlocks (M • 1) 0 0 0 : Mat6) = none := by
    rw [eigenInverse_eq_none, det_fromBlocks_zero₂₁, det_zero, mul_zero]
    exact not_isUnit_zero
  rw [this]

/-! ## C24 -/

variable {σ : Type*} [Fintype σ]

/-- The link's motion in world coordinates: centre of mass at `x + R c`, velocity of the centre of mass `v + ω × R c`. -/
def motionOf (l : LinkKin σ) : MovingLink σ :=
  { m := l.body.mass
    I := l.rotm * l.body.inertia * l.rotmᵀ
    x := l.xpos + l.rotm *ᵥ l.body.com
    Jv := l.jacLin - skew (l.rotm *ᵥ l.body.com) * l.jacAng
    Jw := l.jacAng }

/-- The velocity of the centre of mass that `motionOf` uses is `v + ω × R c`. -/
theorem motionOf_velocity (l : LinkKin σ) (qd : σ → ℝ) :
    (motionOf l).Jv *ᵥ qd = l.jacLin *ᵥ qd + crossProduct (l.jacAng *ᵥ qd) (l.rotm *ᵥ l.body.com) := by
  simp only [motionOf]
  rw [sub_mulVec, ← mulVec_mulVec, skew_mulVec, sub_eq_add_neg, cross_anticomm]

theorem hTop_eq {l : LinkKin σ} (hR : IsRot l.rotm) :
    hTop l = (l.rotm * l.body.inertia * l.rotmᵀ
        + l.body.mass • (skew (l.rotm *ᵥ l.body.com) * (skew (l.rotm *ᵥ l.body.com))ᵀ)
        + l.body.mass • (skew l.xpos * (skew (l.rotm *ᵥ l.body.com))ᵀ)) * l.jacAng
      + l.body.mass • ((skew (l.rotm *ᵥ l.body.com) + skew l.xpos) * l.jacLin) := by
  have e : l.rotm * (skew l.body.com * (skew l.body.com)ᵀ) * l.rotmᵀ
      = skew (l.rotm *ᵥ l.body.com) * (skew (l.rotm *ᵥ l.body.com))ᵀ := by
    rw [skew_sq, skew_sq, pointInertia_rot hR.orth]
  have e2 : skew l.xpos * l.rotm * (skew l.body.com)ᵀ * l.rotmᵀ = skew l.xpos * (skew (l.rotm *ᵥ l.body.com))ᵀ := by
    rw [skew_rot hR, transpose_mul, transpose_mul, transpose_transpose]
    simp only [Matrix.mul_assoc]
  simp only [hTop, Matrix.mul_add, Matrix.add_mul, Matrix.mul_smul, Matrix.smul_mul, e, e2, skew_rot hR, smul_add]

/-- C24.  For every list of links (any number, masses, inertias, poses, Jacobians) and every point `com`, the angular
momentum matrix times the generalised velocity is the sum over all links of spin plus orbital angular momentum about
`com`, and the last three rows give the linear momentum. -/
theorem C24_angular_momentum {links : List (LinkKin σ)} (hR : ∀ l ∈ links, IsRot l.rotm) (com : Vec3) (qd : σ → ℝ) :
    (angularMomentumMatrix links com).1 *ᵥ qd = angularMomentum com (links.map motionOf) qd ∧
    (angularMomentumMatrix links com).2 *ᵥ qd = linearMomentum (links.map motionOf) qd := by
  have hbot : (angularMomentumMatrix links com).2 *ᵥ qd = linearMomentum (links.map motionOf) qd := by
    simp only [angularMomentumMatrix, linearMomentum, List.map_map]
    rw [linMap_sum (fun A : Matrix (Fin 3) σ ℝ => A *ᵥ qd) (by simp) (fun _ _ => add_mulVec _ _ _)]
    refine sum_congr' fun l hl => ?_
    simp only [hBot, Function.comp, motionOf]
    rw [skew_rot (hR l hl), skew_transpose]
    simp only [Matrix.mul_neg, Matrix.neg_mul, add_mulVec, sub_mulVec, smul_mulVec, neg_mulVec, smul_neg, smul_sub, Matrix.smul_mul]
    abel
  refine ⟨?_, hbot⟩
  have e : (angularMomentumMatrix links com).1 *ᵥ qd = (links.map hTop).sum *ᵥ qd
      - skew com *ᵥ ((angularMomentumMatrix links com).2 *ᵥ qd) := by
    simp only [angularMomentumMatrix]
    rw [sub_mulVec, mulVec_mulVec]
  rw [e, hbot]
  simp only [angularMomentum, linearMomentum, List.map_map]
  rw [linMap_sum (fun A : Matrix (Fin 3) σ ℝ => A *ᵥ qd) (by simp) (fun _ _ => add_mulVec _ _ _),
    linMap_sum (fun v : Vec3 => skew com *ᵥ v) (by simp) (fun _ _ => mulVec_add _ _ _), sub_eq_iff_eq_add,
    ← List.sum_map_add]
  refine sum_congr' fun l hl => ?_
  simp only [Function.comp, motionOf_velocity]
  rw [hTop_eq (hR l hl)]
  simp only [motionOf]
  generalize l.rotm *ᵥ l.body.com = d
  simp only [add_mulVec, smul_mulVec, ← mulVec_mulVec, Matrix.mul_add, Matrix.add_mul, Matrix.mul_smul,
    Matrix.smul_mul, skew_transpose, neg_mulVec, skew_mulVec, mulVec_neg, mulVec_smul]
  generalize l.jacLin *ᵥ qd = v
  generalize l.jacAng *ᵥ qd = w
  simp only [map_add, map_sub, LinearMap.add_apply, LinearMap.sub_apply, map_neg, ← cross_anticomm d w]
  module

/-- C24.  `CalcAngularMomentumMatrix()` called after an update to configuration `q` yields the angular momentum at `q`
about the stored centre of mass, whatever was stored before. -/
theorem C24_after_update {Q : Type*} (r : RobotKin Q σ) (q : Q) (com : Vec3)
    (hlen : r.stored.length = (r.at_ q).length) (hR : ∀ l ∈ r.at_ q, IsRot l.rotm) (qd : σ → ℝ) :
    (r.updatePos q com).momentumFresh.1 *ᵥ qd = angularMomentum com ((r.at_ q).map motionOf) qd := by
  have e : ∀ (S T : List (LinkKin σ)), S.length = T.length →
      List.zipWith (fun old new : LinkKin σ => { old with jacLin := new.jacLin, jacAng := new.jacAng })
        (List.zipWith (fun old new : LinkKin σ => { new with jacLin := old.jacLin, jacAng := old.jacAng }) S T) T = T := by
    intro S
    induction S with
    | nil => intro T h; cases T <;> simp_all
    | cons a S ih =>
      intro T h
      cases T with
      | nil => simp at h
      | cons b T => simp only [List.zipWith_cons_cons, ih T (by simpa using h)]
  simp only [RobotKin.momentumFresh, RobotKin.updatePos]
  rw [e _ _ hlen]
  exact (C24_angular_momentum hR com qd).1

/-- A pendulum: a unit mass at distance 1 from a hinge along the third axis, at angle `0` (`q = false`) or a quarter turn
(`q = true`). -/
def pendulumAt (q : Bool) : List (LinkKin (Fin 1)) :=
  [{ body := ⟨1, 0, 0⟩, rotm := 1, xpos := if q then ![0, 1, 0] else ![1, 0, 0]
     jacLin := Matrix.of fun i _ => if q then ![-1, 0, 0] i else ![0, 1, 0] i, jacAng := Matrix.of fun i _ => ![0, 0, 1] i }]

/-- C24, disagreement.  `CalcAngularMomentumMatrix(cmm)` uses the Jacobians stored by an earlier call, which
`UpdateKinematics` does not refresh: after moving the pendulum by a quarter turn it reports angular momentum `0` about
the origin where the true value is `(0, 0, 1)`, which the other overload returns. -/
theorem C24_stale_jacobian :
    ∃ (r : RobotKin Bool (Fin 1)) (qd : Fin 1 → ℝ),
      r.stored = r.at_ r.q ∧
      (r.updatePos true 0).momentumFresh.1 *ᵥ qd = angularMomentum 0 ((r.at_ true).map motionOf) qd ∧
      (r.updatePos true 0).momentumStored.1 *ᵥ qd ≠ angularMomentum 0 ((r.at_ true).map motionOf) qd := by
  refine ⟨⟨pendulumAt, false, pendulumAt false, 0⟩, fun _ => 1, rfl, ?_, ?_⟩
  · refine C24_after_update _ _ _ rfl ?_ _
    simp only [pendulumAt, List.mem_singleton, forall_eq]; exact IsRot.one
  · rw [← (C24_angular_momentum (by simp only [pendulumAt, List.mem_singleton, forall_eq]; exact IsRot.one) 0 _).1]
    intro h
    have := congrFun h 2
    simp only [RobotKin.momentumStored, RobotKin.updatePos, pendulumAt, angularMomentumMatrix, hTop, hBot, skew_zero,
      transpose_zero, Matrix.mul_zero, Matrix.zero_mul, smul_zero, add_zero, zero_add, List.zipWith_cons_cons,
      List.zipWith_nil_left, List.map_cons, List.map_nil, List.sum_cons, List.sum_nil, sub_zero, one_smul] at this
    simp [skew, mulVec, dotProduct, Matrix.mul_apply, Fin.sum_univ_three, vecHead] at this

/-- hypotheses met: the pendulum -/
example : (∀ l ∈ pendulumAt true, IsRot l.rotm) ∧ (pendulumAt false).length = (pendulumAt true).length := by
  simp only [pendulumAt, List.mem_singleton, forall_eq]; exact ⟨IsRot.one, rfl⟩

end Verif.Props
