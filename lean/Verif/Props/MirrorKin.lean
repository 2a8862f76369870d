import Verif.Spec.MirrorLink
import Verif.Props.TurnedKin
import Verif.Props.Mirror

/-!
# C91: what the library computes about the whole body, and the task commands, of the mirror image of a robot
-/

set_option linter.unusedSectionVars false

namespace Verif.Props
open Matrix Verif Verif.Spec Verif.Model

theorem mirror3_sq : mirror3 * mirror3 = 1 := by
  rw [mirror3, diagonal_mul_diagonal, ← diagonal_one]
  congr 1; ext i; fin_cases i <;> simp

theorem mirror3_T : mirror3ᵀ = mirror3 := diagonal_transpose _

theorem turn_eq : mirrorTurn = -mirror3 := by
  ext i j; fin_cases i <;> fin_cases j <;> simp [mirrorTurn, mirror3]

theorem turn_T : mirrorTurnᵀ = mirrorTurn := diagonal_transpose _

theorem turn_sq : mirrorTurn * mirrorTurn = 1 := by
  rw [turn_eq, Matrix.neg_mul, Matrix.mul_neg, neg_neg, mirror3_sq]

theorem turn_rot : IsRot mirrorTurn := by
  refine ⟨by rw [turn_T, turn_sq], ?_⟩
  rw [mirrorTurn, det_diagonal]
  simp [Fin.prod_univ_three]

theorem conj_eq (X : Mat3) : mirror3 * X * mirror3 = mirrorTurn * X * mirrorTurn := by
  rw [turn_eq, Matrix.neg_mul, Matrix.neg_mul, Matrix.mul_neg, neg_neg]

theorem cross_mirror (a b : Vec3) : crossProduct (mirror3 *ᵥ a) (mirror3 *ᵥ b) = mirrorTurn *ᵥ crossProduct a b := by
  rw [← cross_turn turn_rot, turn_eq, neg_mulVec, neg_mulVec, LinearMap.map_neg₂, map_neg, neg_neg]

theorem cross_mirror' (a b : Vec3) : crossProduct (mirrorTurn *ᵥ a) (mirror3 *ᵥ b) = mirror3 *ᵥ crossProduct a b := by
  rw [turn_eq, neg_mulVec, LinearMap.map_neg₂, cross_mirror, turn_eq, neg_mulVec, neg_neg]

section
variable {ι : Type*} [Fintype ι] [DecidableEq ι]

theorem mirrorSys_base (e : Equiv.Perm ι) (s : ι → ℝ) (v ω : Vec3) :
    mirrorSys e s *ᵥ baseVelocity v ω = baseVelocity (mirror3 *ᵥ v) (mirrorTurn *ᵥ ω) := by
  ext i
  rcases i with (i | i) | i <;> simp [mirrorSys, baseVelocity, fromBlocks_mulVec]

theorem mirror_floating (e : Equiv.Perm ι) (s : ι → ℝ) {x0 : Vec3} {R0 : Mat3} {l : MovingLink (Sys ι)}
    (hb : FloatingBase x0 R0 l) : FloatingBase (mirror3 *ᵥ x0) (mirror3 * R0 * mirror3) (mirrorLink e s l) := by
  constructor
  · intro v ω
    simp only [mirrorLink]
    rw [Matrix.mul_assoc, ← mulVec_mulVec, ← mulVec_mulVec, mirrorSys_base, hb.lin, mulVec_add, mulVec_mulVec, mirror3_sq, one_mulVec,
      ← mulVec_sub, ← cross_mirror', conj_eq, mulVec_mulVec, mulVec_mulVec]
  · intro v ω
    simp only [mirrorLink]
    rw [Matrix.mul_assoc, ← mulVec_mulVec, ← mulVec_mulVec, mirrorSys_base, hb.ang, conj_eq, mulVec_mulVec, mulVec_mulVec, Matrix.mul_assoc]

theorem mirror_mass (e : Equiv.Perm ι) (s : ι → ℝ) (L : List (MovingLink (Sys ι))) : mass (L.map (mirrorLink e s)) = mass L := by
  simp [mass, mirrorLink, Function.comp_def]

theorem mirror_massMatrix (e : Equiv.Perm ι) (s : ι → ℝ) (L : List (MovingLink (Sys ι))) :
    massMatrix (L.map (mirrorLink e s)) = (mirrorSys e s)ᵀ * massMatrix L * mirrorSys e s := by
  unfold massMatrix
  rw [linMap_sum (fun A : Matrix (Sys ι) (Sys ι) ℝ => (mirrorSys e s)ᵀ * A * mirrorSys e s) (by simp)
    (fun _ _ => by rw [Matrix.mul_add, Matrix.add_mul]), List.map_map]
  refine sum_congr' fun l _ => ?_
  simp only [Function.comp_apply, mirrorLink, transpose_mul, conj_eq, mirror3_T, turn_T]
  have e1 : (mirrorSys e s)ᵀ * (l.Jvᵀ * mirror3) * (mirror3 * l.Jv * mirrorSys e s)
      = (mirrorSys e s)ᵀ * (l.Jvᵀ * (mirror3 * mirror3) * l.Jv) * mirrorSys e s := by simp only [Matrix.mul_assoc]
  have e2 : (mirrorSys e s)ᵀ * (l.Jwᵀ * mirrorTurn) * (mirrorTurn * l.I * mirrorTurn) * (mirrorTurn * l.Jw * mirrorSys e s)
      = (mirrorSys e s)ᵀ * (l.Jwᵀ * (mirrorTurn * mirrorTurn) * l.I * (mirrorTurn * mirrorTurn) * l.Jw) * mirrorSys e s := by
    simp only [Matrix.mul_assoc]
  rw [e1, e2, mirror3_sq, turn_sq, Matrix.mul_one, Matrix.mul_one, Matrix.mul_one, Matrix.mul_add, Matrix.add_mul, Matrix.mul_smul,
    Matrix.smul_mul]

theorem mirror_gravity (e : Equiv.Perm ι) (s : ι → ℝ) {g : Vec3} (hg : mirror3 *ᵥ g = g) (L : List (MovingLink (Sys ι))) :
    Spec.gravityForce g (L.map (mirrorLink e s)) = (mirrorSys e s)ᵀ *ᵥ Spec.gravityForce g L := by
  unfold Spec.gravityForce
  rw [linMap_sum (fun v : Sys ι → ℝ => (mirrorSys e s)ᵀ *ᵥ v) (by simp) (fun _ _ => mulVec_add _ _ _), List.map_map]
  refine sum_congr' fun l _ => ?_
  simp only [Function.comp_apply, mirrorLink, transpose_mul, mirror3_T]
  rw [← mulVec_mulVec, ← mulVec_mulVec, mulVec_smul, hg]

theorem mirror_jac (e : Equiv.Perm ι) (s : ι → ℝ) (L : List (MovingLink (Sys ι))) :
    ((L.map (mirrorLink e s)).map fun l => l.m • l.Jv).sum = mirror3 * (L.map fun l => l.m • l.Jv).sum * mirrorSys e s := by
  rw [linMap_sum (fun A : Matrix (Fin 3) (Sys ι) ℝ => mirror3 * A * mirrorSys e s) (by simp)
    (fun _ _ => by rw [Matrix.mul_add, Matrix.add_mul]), List.map_map]
  refine sum_congr' fun l _ => ?_
  simp [mirrorLink, Matrix.mul_smul, Matrix.smul_mul]

theorem mirror_com (e : Equiv.Perm ι) (s : ι → ℝ) {L : List (MovingLink (Sys ι))} {c : Vec3} (h : IsCOM L c) :
    IsCOM (L.map (mirrorLink e s)) (mirror3 *ᵥ c) := by
  unfold IsCOM at h ⊢
  rw [mirror_mass, ← mulVec_smul, h, linMap_sum (fun v : Vec3 => mirror3 *ᵥ v) (by simp) (fun _ _ => mulVec_add _ _ _),
    List.map_map]
  refine sum_congr' fun l _ => ?_
  simp [mirrorLink, mulVec_smul]

theorem mirror_inertia (e : Equiv.Perm ι) (s : ι → ℝ) (c : Vec3) (L : List (MovingLink (Sys ι))) :
    compositeInertia (mirror3 *ᵥ c) (L.map (mirrorLink e s)) = mirror3 * compositeInertia c L * mirror3 := by
  unfold compositeInertia
  rw [linMap_sum (fun A : Mat3 => mirror3 * A * mirror3) (by simp) (fun _ _ => by rw [Matrix.mul_add, Matrix.add_mul]), List.map_map]
  refine sum_congr' fun l _ => ?_
  simp only [Function.comp_apply, mirrorLink]
  have hp : ∀ r : Vec3, pointInertia (mirror3 *ᵥ r) = mirror3 * pointInertia r * mirror3 := by
    intro r
    have h1 : pointInertia (mirror3 *ᵥ r) = pointInertia (mirrorTurn *ᵥ r) := by
      rw [turn_eq, neg_mulVec]
      simp [pointInertia, vecMulVec_neg, neg_vecMulVec]
    rw [h1, pointInertia_turn turn_rot, turn_T, conj_eq]
  rw [← mulVec_sub, hp, Matrix.mul_add, Matrix.add_mul, Matrix.mul_smul, Matrix.smul_mul]

theorem mirror_momentum (e : Equiv.Perm ι) (s : ι → ℝ) (c : Vec3) (L : List (MovingLink (Sys ι))) (qd : Sys ι → ℝ) :
    angularMomentum (mirror3 *ᵥ c) (L.map (mirrorLink e s)) qd = mirrorTurn *ᵥ angularMomentum c L (mirrorSys e s *ᵥ qd) := by
  unfold angularMomentum
  rw [linMap_sum (fun v : Vec3 => mirrorTurn *ᵥ v) (by simp) (fun _ _ => mulVec_add _ _ _), List.map_map]
  refine sum_congr' fun l _ => ?_
  simp only [Function.comp_apply, mirrorLink, conj_eq]
  rw [← mulVec_sub]
  simp only [← mulVec_mulVec]
  rw [cross_mirror, mulVec_mulVec (M := mirrorTurn) (N := mirrorTurn), turn_sq, one_mulVec, mulVec_add, mulVec_smul]

theorem mirror_posDef {I : Mat3} (hI : I.PosDef) : (mirror3 * I * mirror3).PosDef := by
  rw [conj_eq]
  have := carry_posDef turn_rot hI
  rwa [turn_T] at this

theorem mirror_down : mirror3 *ᵥ ![0, 0, -9.81] = ![0, 0, -9.81] := by
  ext i
  fin_cases i <;> simp [mirror3, mulVec_diagonal]

/-- C91 (kinematics).  `UpdateKinematics` on the mirror image of a floating-base robot finds the mirror image of its centre of mass, of
the Jacobian and the inertia of the centre of mass, of its velocity and of the angular velocity of the whole, and the mass matrix and
the weight of the robot in the coordinates of the mirror image. -/
theorem C91_kinematics (e : Equiv.Perm ι) (s : ι → ℝ) {L : List (MovingLink (Sys ι))} {x0 : Vec3} {R0 : Mat3} (hR : IsRot R0)
    (hL : L ≠ []) (hm : ∀ l ∈ L, 0 < l.m) (hI : ∀ l ∈ L, l.I.PosDef) (hb : ∀ l ∈ L, FloatingBase x0 R0 l) (qd : Sys ι → ℝ) :
    ∃ u u', updateKinematics true (massMatrix L) x0 R0 (mass L) (mirrorSys e s *ᵥ qd) = some u ∧
      updateKinematics true (massMatrix (L.map (mirrorLink e s))) (mirror3 *ᵥ x0) (mirror3 * R0 * mirror3)
        (mass (L.map (mirrorLink e s))) qd = some u' ∧
      massMatrix (L.map (mirrorLink e s)) = (mirrorSys e s)ᵀ * massMatrix L * mirrorSys e s ∧
      u'.G = (mirrorSys e s)ᵀ *ᵥ u.G ∧
      u'.comPos = mirror3 *ᵥ u.comPos ∧
      u'.jacLin = mirror3 * u.jacLin * mirrorSys e s ∧
      u'.inertia = mirror3 * u.inertia * mirror3 ∧
      u'.v = mirror3 *ᵥ u.v ∧ u'.w = mirrorTurn *ᵥ u.w := by
  have hM : mass L ≠ 0 := (mass_pos hm hL).ne'
  obtain ⟨u, hu, c1, j1, v1, w1, -, g1, i1, -, -, a1⟩ := C25_com_partial hR hL hm hI hb (mirrorSys e s *ᵥ qd)
  obtain ⟨u', hu', c2, j2, v2, w2, -, g2, i2, -, -, a2⟩ := C25_com_partial (L := L.map (mirrorLink e s))
    (R0 := mirror3 * R0 * mirror3) (x0 := mirror3 *ᵥ x0)
    (by rw [conj_eq]; exact IsRot.mul (IsRot.mul turn_rot hR) turn_rot)
    (by simpa using hL)
    (by
      intro l hl
      obtain ⟨l0, h0, rfl⟩ := List.mem_map.mp hl
      exact hm l0 h0)
    (by
      intro l hl
      obtain ⟨l0, h0, rfl⟩ := List.mem_map.mp hl
      exact mirror_posDef (hI l0 h0))
    (by
      intro l hl
      obtain ⟨l0, h0, rfl⟩ := List.mem_map.mp hl
      exact mirror_floating e s (hb l0 h0)) qd
  have hcom : u'.comPos = mirror3 *ᵥ u.comPos := com_unique (by rwa [mirror_mass]) c2 (mirror_com e s c1)
  have hjac : u'.jacLin = mirror3 * u.jacLin * mirrorSys e s := by
    rw [mirror_mass, mirror_jac, ← j1, Matrix.mul_smul, Matrix.smul_mul] at j2
    have e := congrArg ((mass L)⁻¹ • ·) j2
    simpa only [smul_smul, inv_mul_cancel₀ hM, one_smul] using e
  have hin : u'.inertia = mirror3 * u.inertia * mirror3 := by rw [i2, hcom, mirror_inertia, i1]
  refine ⟨u, u', hu, hu', mirror_massMatrix e s L, ?_, hcom, hjac, hin, ?_, ?_⟩
  · rw [g2, g1, mirror_gravity e s mirror_down, mulVec_neg]
  · rw [v2, v1, hjac, Matrix.mul_assoc, ← mulVec_mulVec, ← mulVec_mulVec]
  · have hpd : u.inertia.PosDef := by rw [i1]; exact compositeInertia_posDef hm hI hL _
    have hdu : IsUnit u.inertia.det := (Matrix.isUnit_iff_isUnit_det _).mp hpd.isUnit
    rw [hcom, mirror_momentum, ← a1, hin, conj_eq] at a2
    have e := congrArg (fun v => mirrorTurn *ᵥ (u.inertia⁻¹ *ᵥ (mirrorTurn *ᵥ v))) a2
    simp only [mulVec_mulVec] at e
    have h1 : mirrorTurn * (u.inertia⁻¹ * (mirrorTurn * (mirrorTurn * u.inertia * mirrorTurn))) = 1 := by
      have : mirrorTurn * (u.inertia⁻¹ * (mirrorTurn * (mirrorTurn * u.inertia * mirrorTurn)))
          = mirrorTurn * (u.inertia⁻¹ * ((mirrorTurn * mirrorTurn) * u.inertia)) * mirrorTurn := by simp only [Matrix.mul_assoc]
      rw [this, turn_sq, Matrix.one_mul, nonsing_inv_mul _ hdu, Matrix.mul_one, turn_sq]
    have h2 : mirrorTurn * (u.inertia⁻¹ * (mirrorTurn * (mirrorTurn * u.inertia))) = mirrorTurn := by
      have : mirrorTurn * (u.inertia⁻¹ * (mirrorTurn * (mirrorTurn * u.inertia)))
          = mirrorTurn * (u.inertia⁻¹ * ((mirrorTurn * mirrorTurn) * u.inertia)) := by simp only [Matrix.mul_assoc]
      rw [this, turn_sq, Matrix.one_mul, nonsing_inv_mul _ hdu, Matrix.mul_one]
    rw [h1, h2, one_mulVec] at e
    exact e

theorem mirrorSys_joined (e : Equiv.Perm ι) (s : ι → ℝ) :
    (mirrorSys e s).submatrix joined joined = jointChange (countMatrix e s) * baseChange (ι := ι) mirrorSix := by
  rw [baseChange_mirror]
  ext i j
  rw [mul_diagonal]
  rcases i with i | i <;> rcases j with j | j
  · fin_cases i <;> fin_cases j <;>
      simp [joined, mirrorSys, jointChange, mirror3, mirrorTurn, mirrorSign, finSumFinEquiv, Fin.addCases, Matrix.one_apply]
  · simp [joined, mirrorSys, jointChange]
  · simp [joined, mirrorSys, jointChange]
  · simp [joined, mirrorSys, jointChange, countMatrix]

/-- Mass matrix and weight in the coordinates of the mirror image are `mirrorMass` and `mirrorAll`. -/
theorem mirror_joined_mass (e : Equiv.Perm ι) (s : ι → ℝ) (A : Matrix (Sys ι) (Sys ι) ℝ) :
    ((mirrorSys e s)ᵀ * A * mirrorSys e s).submatrix joined joined = mirrorMass e s (A.submatrix joined joined) := by
  rw [mirrorMass_eq, countMass_eq, ← submatrix_mul_equiv _ _ _ joined, ← submatrix_mul_equiv _ _ _ joined, ← transpose_submatrix,
    mirrorSys_joined, transpose_mul]
  simp only [Matrix.mul_assoc]

theorem mirror_joined_vec (e : Equiv.Perm ι) (s : ι → ℝ) (G : Sys ι → ℝ) :
    ((mirrorSys e s)ᵀ *ᵥ G) ∘ joined = mirrorAll e s (G ∘ joined) := by
  have h : ((mirrorSys e s)ᵀ *ᵥ G) ∘ joined = ((mirrorSys e s).submatrix joined joined)ᵀ *ᵥ (G ∘ joined) := by
    rw [transpose_submatrix, submatrix_mulVec_equiv]
    congr 2
    ext i
    simp
  rw [h, mirrorSys_joined, transpose_mul, ← mulVec_mulVec, countAll_mulVec, mirrorAll_eq]

/-- C91 (symmetric robot).  A robot whose list of links is its own mirror image, up to order: the mass matrix and the weight the
library has for it are their own mirror image, which is what `LooksMirrored` asks for, and its centre of mass lies in the plane of
the mirror. -/
theorem C91_kinematics_symmetric (e : Equiv.Perm ι) (s : ι → ℝ) {L : List (MovingLink (Sys ι))} {x0 : Vec3} {R0 : Mat3}
    (hR : IsRot R0) (hL : L ≠ []) (hm : ∀ l ∈ L, 0 < l.m) (hI : ∀ l ∈ L, l.I.PosDef) (hb : ∀ l ∈ L, FloatingBase x0 R0 l)
    (hsym : (L.map (mirrorLink e s)).Perm L) (qd : Sys ι → ℝ) :
    ∃ u, updateKinematics true (massMatrix L) x0 R0 (mass L) qd = some u ∧
      mirrorMass e s ((massMatrix L).submatrix joined joined) = (massMatrix L).submatrix joined joined ∧
      mirrorAll e s (u.G ∘ joined) = u.G ∘ joined ∧ u.comPos 1 = 0 := by
  have hM : mass L ≠ 0 := (mass_pos hm hL).ne'
  obtain ⟨u, hu, c1, -, -, -, -, g1, -⟩ := C25_com_partial hR hL hm hI hb qd
  refine ⟨u, hu, ?_, ?_, ?_⟩
  · rw [← mirror_joined_mass, ← mirror_massMatrix]
    unfold massMatrix
    rw [(hsym.map _).sum_eq]
  · rw [← mirror_joined_vec, g1, mulVec_neg, ← mirror_gravity e s mirror_down]
    unfold Spec.gravityForce
    rw [(hsym.map _).sum_eq]
  · have c2 := mirror_com e s c1
    have c3 : IsCOM L (mirror3 *ᵥ u.comPos) := by
      unfold IsCOM mass at c2 ⊢
      rwa [(hsym.map _).sum_eq, (hsym.map fun l => l.m • l.x).sum_eq] at c2
    have := congrFun (com_unique hM c1 c3) 1
    simp [mirror3, mulVec_diagonal] at this
    linarith

end

/-! ### task commands -/

/-- The trajectory of a task in the mirror. -/
def mirrorTrajectory (k : TaskLinkPD) : TaskLinkPD :=
  { k with
    posInit := mirror3 *ᵥ k.posInit
    velInit := mirror3 *ᵥ k.velInit
    posDes := mirror3 *ᵥ k.posDes
    velDes := mirror3 *ᵥ k.velDes
    rotInit := mirror3 * k.rotInit * mirror3
    rotDes := mirror3 * k.rotDes * mirror3 }

theorem gain_mirror (g x : Vec3) : g * (mirror3 *ᵥ x) = mirror3 *ᵥ (g * x) := by
  ext i
  simp [mirror3, mulVec_diagonal]; ring

theorem gain_mirrorTurn (g x : Vec3) : g * (mirrorTurn *ᵥ x) = mirrorTurn *ᵥ (g * x) := by
  ext i
  simp [mirrorTurn, mulVec_diagonal]; ring

/-- C91 (position command of a task).  On the mirrored trajectory the mirror image is commanded the mirrored acceleration, whatever the
gains. -/
theorem C91_position_command (k : TaskLinkPD) (t : ℝ) (p v : Vec3) :
    (mirrorTrajectory k).posPD t (mirror3 *ᵥ p) (mirror3 *ᵥ v) = (k.posPD t p v).map (mirror3 *ᵥ ·) := by
  by_cases hk : k.mode ≤ 5
  swap
  · rw [C44_position_rotation_modes k (by omega), C44_position_rotation_modes _ (show 5 < (mirrorTrajectory k).mode by simpa [mirrorTrajectory] using hk)]
    simp
  rcases spline_linear t k.tStart k.tEnd with h | ⟨a, b, c, e, hac, h⟩
  · unfold TaskLinkPD.posPD TaskLinkPD.axis
    rw [if_pos hk, if_pos (show (mirrorTrajectory k).mode ≤ 5 from hk)]
    simp only [mirrorTrajectory, h]
    rfl
  rw [posPD_reference k hk t p v h, posPD_reference (mirrorTrajectory k) hk t _ _ h, Option.map_some, mulVec_add, mulVec_add,
    ← gain_mirror, ← gain_mirror, ← gain_mirror]
  simp only [mirrorTrajectory, mulVec_add, mulVec_sub, mulVec_smul]

theorem phi_mirror (C D : Mat3) : getPhi (mirror3 * C * mirror3) (mirror3 * D * mirror3) = mirrorTurn *ᵥ getPhi C D := by
  rw [← phi_turn turn_rot, getPhi_eq, getPhi_eq (mirrorTurn * C), conj_eq, conj_eq]
  have : mirrorTurn * D * mirrorTurn * (mirrorTurn * C * mirrorTurn)ᵀ = mirrorTurn * D * (mirrorTurn * C)ᵀ := by
    have e : (mirrorTurn * C * mirrorTurn)ᵀ = mirrorTurn * (mirrorTurn * C)ᵀ := by rw [transpose_mul, turn_T]
    rw [e, Matrix.mul_assoc, ← Matrix.mul_assoc mirrorTurn mirrorTurn, turn_sq, Matrix.one_mul]
  rw [this]

/-- C91 (orientation command of a task).  On the mirrored trajectory the mirror image is commanded the mirrored angular acceleration,
whatever the gains; unless the trajectory is exactly a half turn (or so small a turn that Eigen interpolates linearly, see C44). -/
theorem C91_orientation_command_partial (k : TaskLinkPD) (h0 : IsRot k.rotInit) (hf : IsRot k.rotDes)
    (hd : k.rotDes = k.rotInit ∨ (1 + (k.rotDes * k.rotInitᵀ).trace) / 4 < slerpOne ^ 2)
    (hh : (k.rotDes * k.rotInitᵀ).trace ≠ -1) (t : ℝ) (C : Mat3) (w : Vec3) :
    (mirrorTrajectory k).rotPD t (mirror3 * C * mirror3) (mirrorTurn *ᵥ w) = (k.rotPD t C w).map (mirrorTurn *ᵥ ·) := by
  have hQ := turn_rot
  have rot : ∀ {R : Mat3}, IsRot R → IsRot (mirror3 * R * mirror3) := fun {R} h => by
    rw [conj_eq]; exact IsRot.mul (IsRot.mul hQ h) hQ
  have hM : (mirror3 * k.rotDes * mirror3) * (mirror3 * k.rotInit * mirror3)ᵀ = mirrorTurn * (k.rotDes * k.rotInitᵀ) * mirrorTurnᵀ := by
    rw [transpose_mul, transpose_mul, mirror3_T, turn_T, ← conj_eq]
    have : mirror3 * k.rotDes * mirror3 * (mirror3 * (k.rotInitᵀ * mirror3)) = mirror3 * (k.rotDes * (mirror3 * mirror3) * k.rotInitᵀ) * mirror3 := by
      simp only [Matrix.mul_assoc]
    rw [this, mirror3_sq, Matrix.mul_one]
  have htr : ((mirror3 * k.rotDes * mirror3) * (mirror3 * k.rotInit * mirror3)ᵀ).trace = (k.rotDes * k.rotInitᵀ).trace := by
    rw [hM, trace_mul_comm, ← Matrix.mul_assoc, hQ.orth, Matrix.one_mul]
  obtain ⟨φ, a, hax, hu, p0, pπ, hend, hs⟩ := rotReference h0 hf hd
  obtain ⟨φ', a', hax', hu', p0', pπ', hend', hs'⟩ := rotReference (rot h0) (rot hf)
    (by
      rcases hd with hd | hd
      · left; rw [hd]
      · right; rw [htr]; exact hd)
  have hrel : angleAxisMat φ a = k.rotDes * k.rotInitᵀ := by
    rw [← hend, Matrix.mul_assoc, IsRot.orth' h0, Matrix.mul_one]
  have hrel' : angleAxisMat φ' a' = mirrorTurn * angleAxisMat φ a * mirrorTurnᵀ := by
    rw [hrel, ← hM, ← hend', Matrix.mul_assoc, IsRot.orth' (rot h0), Matrix.mul_one]
  obtain ⟨hφ, hor⟩ := angleAxis_unique hQ hu hu' p0 pπ p0' pπ' (by rw [hrel]; exact hh) hrel'
  have hmat : ∀ u : ℝ, angleAxisMat (u * φ') a' = mirrorTurn * angleAxisMat (u * φ) a * mirrorTurnᵀ := by
    intro u
    rw [hφ]
    rcases hor with e | e
    · rw [e, mul_zero, angleAxisMat_zero, angleAxisMat_zero, Matrix.mul_one, IsRot.orth' hQ]
    · rw [e, angleAxis_turn hQ]
  have hvec : ∀ u : ℝ, (φ' * u) • a' = mirrorTurn *ᵥ ((φ * u) • a) := by
    intro u
    rw [hφ, mulVec_smul]
    rcases hor with e | e
    · rw [e]; simp
    · rw [e]
  unfold TaskLinkPD.rotPD
  simp only [mirrorTrajectory]
  rcases quinticSpline t k.tStart k.tEnd 0 0 0 1 0 0 with _ | qs
  · rfl
  simp only [hax, hax', hs, hs', hvec, hmat, Option.map_some, Option.some.injEq]
  have e : mirrorTurn * angleAxisMat (qs 0 * φ) a * mirrorTurnᵀ * (mirror3 * k.rotInit * mirror3)
      = mirror3 * (angleAxisMat (qs 0 * φ) a * k.rotInit) * mirror3 := by
    rw [turn_T, ← conj_eq]
    have : mirror3 * angleAxisMat (qs 0 * φ) a * mirror3 * (mirror3 * k.rotInit * mirror3)
        = mirror3 * (angleAxisMat (qs 0 * φ) a * (mirror3 * mirror3 * k.rotInit)) * mirror3 := by simp only [Matrix.mul_assoc]
    rw [this, mirror3_sq, Matrix.one_mul]
  rw [e, phi_mirror, ← mulVec_sub, gain_mirrorTurn, gain_mirrorTurn, ← mulVec_add]

/-- C91, disagreement.  A trajectory of exactly half a turn about `x` is its own mirror image, and the mirror image of its command is the
opposite one: the robot and its mirror image are told to turn the same way. -/
theorem C91_half_turn : ∃ (k : TaskLinkPD) (t : ℝ) (f : Vec3), IsRot k.rotInit ∧ IsRot k.rotDes ∧ f ≠ 0 ∧
    k.rotPD t 1 0 = some f ∧ (mirrorTrajectory k).rotPD t (mirror3 * 1 * mirror3) (mirrorTurn *ᵥ 0) = some (-(mirrorTurn *ᵥ f)) := by
  obtain ⟨y, hy, hdy⟩ := C16_rest_to_rest (show (0 : ℝ) < 1 by norm_num) 0 1
  have hex : ∃ t, y t 1 ≠ 0 := by
    by_contra hall
    push Not at hall
    have c0 := is_const_of_deriv_eq_zero (f := fun s => y s 0) (fun t => (hdy t).1.differentiableAt)
      (fun t => by rw [(hdy t).1.deriv, hall])
    have := c0 (-1) 2
    have e0 := hy (-1)
    have e1 := hy 2
    rw [quinticSpline, if_pos (by norm_num)] at e0
    rw [quinticSpline, if_neg (by norm_num), if_pos (by norm_num)] at e1
    rw [← Option.some.inj e0, ← Option.some.inj e1] at this
    simp at this
  obtain ⟨t, ht⟩ := hex
  have hf : HalfTurn.k.rotPD t 1 0 = some ((Real.pi * y t 1) • ![1, 0, 0]) := by
    unfold TaskLinkPD.rotPD
    have e : quinticSpline t HalfTurn.k.tStart HalfTurn.k.tEnd 0 0 0 1 0 0 = some (y t) := hy t
    rw [e]
    have e1 : quatOfMat HalfTurn.k.rotInit = ⟨1, 0, 0, 0⟩ := HalfTurn.quat_one
    have e2 : quatOfMat HalfTurn.k.rotDes = ⟨0, 1, 0, 0⟩ := HalfTurn.quat_half
    simp only [e1, e2, HalfTurn.axis_straight]
    simp [HalfTurn.k]
  have hsame : mirrorTrajectory HalfTurn.k = HalfTurn.k := by
    simp only [mirrorTrajectory, HalfTurn.k, mulVec_zero, Matrix.mul_one, mirror3_sq]
    congr 1
    ext i j
    fin_cases i <;> fin_cases j <;> simp [mirror3, mul_diagonal, diagonal_mul]
  refine ⟨HalfTurn.k, t, (Real.pi * y t 1) • ![1, 0, 0], IsRot.one, ?_, ?_, hf, ?_⟩
  · constructor
    · ext i j
      fin_cases i <;> fin_cases j <;> simp [HalfTurn.k, Matrix.mul_apply, Fin.sum_univ_three]
    · simp [HalfTurn.k, det_fin_three]
  · intro h
    have := congrFun h 0
    simp [ht, Real.pi_ne_zero] at this
  · rw [hsame, Matrix.mul_one, mirror3_sq, mulVec_zero, hf]
    refine congrArg some ?_
    ext i
    fin_cases i <;> simp [mirrorTurn, mulVec_diagonal]

/-! ### a symmetric robot: a body with two hinged arms -/

namespace Flap

/-- A link at `x` of a robot whose base is at the origin, with the velocity `jv k` and the angular velocity `jw k` for joint `k`. -/
noncomputable def link (m : ℝ) (x : Vec3) (jv jw : Fin 2 → Vec3) : MovingLink (Sys (Fin 2)) where
  m := m
  I := 1
  x := x
  Jv := Matrix.of fun i r => match r with
    | .inl (.inl j) => (1 : Mat3) i j
    | .inl (.inr j) => crossProduct (Pi.single j 1) x i
    | .inr k => jv k i
  Jw := Matrix.of fun i r => match r with
    | .inl (.inl _) => 0
    | .inl (.inr j) => (1 : Mat3) i j
    | .inr k => jw k i

/-- The body, and an arm at either side on a hinge along `x`. -/
noncomputable def links : List (MovingLink (Sys (Fin 2))) :=
  [link 5 ![0, 0, 1] 0 0, link 2 ![0, 1, 0] ![![0, 0, 1 / 2], 0] ![![1, 0, 0], 0],
    link 2 ![0, -1, 0] ![0, ![0, 0, -(1 / 2)]] ![0, ![1, 0, 0]]]

/-- Left and right change places; the hinges point the same way, so they turn the other way in the mirror. -/
def e : Equiv.Perm (Fin 2) := Equiv.swap 0 1

def s : Fin 2 → ℝ := fun _ => -1

theorem floating (m : ℝ) (x : Vec3) (jv jw : Fin 2 → Vec3) : FloatingBase 0 1 (link m x jv jw) := by
  constructor
  · intro v ω
    ext i
    fin_cases i <;> simp [link, mulVec, dotProduct, baseVelocity, Fin.sum_univ_three, cross_apply, Pi.single_apply] <;> ring
  · intro v ω
    ext i
    fin_cases i <;> simp [link, mulVec, dotProduct, baseVelocity, Fin.sum_univ_three, Matrix.one_apply]

theorem mirrored (m : ℝ) (x : Vec3) (jv jw : Fin 2 → Vec3) :
    mirrorLink e s (link m x jv jw) = link m (mirror3 *ᵥ x) (fun i => s i • (mirror3 *ᵥ jv (e i))) (fun i => s i • (mirrorTurn *ᵥ jw (e i))) := by
  unfold mirrorLink link
  simp only [Matrix.mul_one, mirror3_sq]
  congr 1
  · ext i r
    rcases r with (r | r) | r <;> fin_cases i <;> fin_cases r <;>
      simp [mirrorSys, Matrix.mul_apply, Fin.sum_univ_three, mirror3, mirrorTurn, cross_apply, e, s, mulVec_diagonal, diagonal_mul]
  · ext i r
    rcases r with (r | r) | r <;> fin_cases i <;> fin_cases r <;>
      simp [mirrorSys, Matrix.mul_apply, Fin.sum_univ_three, mirror3, mirrorTurn, cross_apply, e, s, mulVec_diagonal, diagonal_mul]

theorem symmetric : (links.map (mirrorLink e s)).Perm links := by
  have e0 : mirrorLink e s (link 5 ![0, 0, 1] 0 0) = link 5 ![0, 0, 1] 0 0 := by
    rw [mirrored]
    congr 1
    · ext i; fin_cases i <;> simp [mirror3, mulVec_diagonal]
    · ext i j; simp
    · ext i j; simp
  have e1 : mirrorLink e s (link 2 ![0, 1, 0] ![![0, 0, 1 / 2], 0] ![![1, 0, 0], 0])
      = link 2 ![0, -1, 0] ![0, ![0, 0, -(1 / 2)]] ![0, ![1, 0, 0]] := by
    rw [mirrored]
    congr 1
    · ext i; fin_cases i <;> simp [mirror3, mulVec_diagonal]
    · ext i j; fin_cases i <;> fin_cases j <;> simp [mirror3, mulVec_diagonal, e, s]
    · ext i j; fin_cases i <;> fin_cases j <;> simp [mirrorTurn, mulVec_diagonal, e, s]
  have e2 : mirrorLink e s (link 2 ![0, -1, 0] ![0, ![0, 0, -(1 / 2)]] ![0, ![1, 0, 0]])
      = link 2 ![0, 1, 0] ![![0, 0, 1 / 2], 0] ![![1, 0, 0], 0] := by
    rw [mirrored]
    congr 1
    · ext i; fin_cases i <;> simp [mirror3, mulVec_diagonal]
    · ext i j; fin_cases i <;> fin_cases j <;> simp [mirror3, mulVec_diagonal, e, s]
    · ext i j; fin_cases i <;> fin_cases j <;> simp [mirrorTurn, mulVec_diagonal, e, s]
  simp only [links, List.map_cons, List.map_nil, e0, e1, e2]
  exact (List.Perm.swap _ _ _).cons _

end Flap

/-- The hypotheses of `C91_kinematics` and `C91_kinematics_symmetric` are met by a body with two hinged arms. -/
example : ∃ u, updateKinematics true (massMatrix Flap.links) 0 1 (mass Flap.links) 0 = some u ∧
    mirrorMass Flap.e Flap.s ((massMatrix Flap.links).submatrix joined joined) = (massMatrix Flap.links).submatrix joined joined ∧
    mirrorAll Flap.e Flap.s (u.G ∘ joined) = u.G ∘ joined ∧ u.comPos 1 = 0 := by
  refine C91_kinematics_symmetric Flap.e Flap.s IsRot.one (by simp [Flap.links]) ?_ ?_ ?_ Flap.symmetric 0
  · intro l hl
    simp only [Flap.links, List.mem_cons, List.not_mem_nil, or_false] at hl
    rcases hl with rfl | rfl | rfl <;> norm_num [Flap.link]
  · intro l hl
    simp only [Flap.links, List.mem_cons, List.not_mem_nil, or_false] at hl
    rcases hl with rfl | rfl | rfl <;> exact Matrix.PosDef.one
  · intro l hl
    simp only [Flap.links, List.mem_cons, List.not_mem_nil, or_false] at hl
    rcases hl with rfl | rfl | rfl <;> exact Flap.floating _ _ _ _

end Verif.Props
