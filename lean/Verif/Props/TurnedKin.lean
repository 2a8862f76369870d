import Verif.Lemmas.Carried
import Verif.Props.Kinematics
import Verif.Props.TaskPD
import Verif.Props.Rotation

/-!
# C80: what the library computes about the whole body, and the task commands, of a robot turned and moved
-/

set_option linter.unusedSectionVars false

namespace Verif.Props
open Matrix Verif Verif.Spec Verif.Model

section
variable {ι : Type*} [Fintype ι] [DecidableEq ι]

theorem rotZ_gravity (θ : ℝ) : (rotateWithZ θ)ᵀ *ᵥ ![0, 0, -9.81] = ![0, 0, -9.81] := by
  ext i
  fin_cases i <;> simp [rotateWithZ, mulVec, dotProduct, Fin.sum_univ_three]

/-- C80 (kinematics).  Turn a floating-base robot about the vertical and move it: `UpdateKinematics` then finds its centre of mass
turned and moved, the Jacobian and the inertia of the centre of mass, its velocity and the angular velocity of the whole turned, and the
mass matrix and the weight in the new base coordinates (which is what `SeenAs` says). -/
theorem C80_kinematics {L : List (MovingLink (Sys ι))} {x0 : Vec3} {R0 : Mat3} (hR : IsRot R0) (hL : L ≠ [])
    (hm : ∀ l ∈ L, 0 < l.m) (hI : ∀ l ∈ L, l.I.PosDef) (hb : ∀ l ∈ L, FloatingBase x0 R0 l) (θ : ℝ) (d : Vec3)
    (qd : Sys ι → ℝ) :
    ∃ s s', updateKinematics true (massMatrix L) x0 R0 (mass L) (turnSys (rotateWithZ θ) *ᵥ qd) = some s ∧
      updateKinematics true (massMatrix (L.map (carryLink (rotateWithZ θ) d))) (rotateWithZ θ *ᵥ x0 + d) (rotateWithZ θ * R0)
        (mass (L.map (carryLink (rotateWithZ θ) d))) qd = some s' ∧
      massMatrix (L.map (carryLink (rotateWithZ θ) d)) = (turnSys (rotateWithZ θ))ᵀ * massMatrix L * turnSys (rotateWithZ θ) ∧
      s'.G = (turnSys (rotateWithZ θ))ᵀ *ᵥ s.G ∧
      s'.comPos = rotateWithZ θ *ᵥ s.comPos + d ∧
      s'.jacLin = rotateWithZ θ * s.jacLin * turnSys (rotateWithZ θ) ∧
      s'.inertia = rotateWithZ θ * s.inertia * (rotateWithZ θ)ᵀ ∧
      s'.v = rotateWithZ θ *ᵥ s.v ∧ s'.w = rotateWithZ θ *ᵥ s.w := by
  have hQ : IsRot (rotateWithZ θ) := (C18_axis_rotations θ 0).2.2.1
  have hM : mass L ≠ 0 := (mass_pos hm hL).ne'
  have hg := rotZ_gravity θ
  generalize rotateWithZ θ = Q at *
  obtain ⟨s, hs, c1, j1, v1, w1, -, g1, i1, -, -, a1⟩ := C25_com_partial hR hL hm hI hb (turnSys Q *ᵥ qd)
  obtain ⟨s', hs', c2, j2, v2, w2, -, g2, i2, -, -, a2⟩ := C25_com_partial (L := L.map (carryLink Q d)) (IsRot.mul hQ hR)
    (by simpa using hL)
    (by
      intro l hl
      obtain ⟨l0, h0, rfl⟩ := List.mem_map.mp hl
      exact hm l0 h0)
    (by
      intro l hl
      obtain ⟨l0, h0, rfl⟩ := List.mem_map.mp hl
      exact carry_posDef hQ (hI l0 h0))
    (by
      intro l hl
      obtain ⟨l0, h0, rfl⟩ := List.mem_map.mp hl
      exact carry_floating hQ d (hb l0 h0)) qd
  have hcom : s'.comPos = Q *ᵥ s.comPos + d := com_unique (by rwa [carry_mass]) c2 (carry_com c1)
  have hjac : s'.jacLin = Q * s.jacLin * turnSys Q := by
    rw [carry_mass, carry_jac, ← j1, Matrix.mul_smul, Matrix.smul_mul] at j2
    have e := congrArg ((mass L)⁻¹ • ·) j2
    simpa only [smul_smul, inv_mul_cancel₀ hM, one_smul] using e
  have hin : s'.inertia = Q * s.inertia * Qᵀ := by rw [i2, hcom, carry_inertia hQ, i1]
  refine ⟨s, s', hs, hs', carry_massMatrix hQ d L, ?_, hcom, hjac, hin, ?_, ?_⟩
  · rw [g2, g1, carry_gravity hg, mulVec_neg]
  · rw [v2, v1, hjac, Matrix.mul_assoc, ← mulVec_mulVec, ← mulVec_mulVec]
  · have hpd : s.inertia.PosDef := by rw [i1]; exact compositeInertia_posDef hm hI hL _
    have hu : IsUnit s.inertia.det := (Matrix.isUnit_iff_isUnit_det _).mp hpd.isUnit
    rw [hcom, carry_momentum hQ, ← a1, hin] at a2
    have e := congrArg (fun v => s.inertia⁻¹ *ᵥ (Qᵀ *ᵥ v)) a2
    simp only [mulVec_mulVec] at e
    have h1 : s.inertia⁻¹ * (Qᵀ * (Q * s.inertia * Qᵀ)) = Qᵀ := by
      have : s.inertia⁻¹ * (Qᵀ * (Q * s.inertia * Qᵀ)) = s.inertia⁻¹ * ((Qᵀ * Q) * s.inertia) * Qᵀ := by simp only [Matrix.mul_assoc]
      rw [this, hQ.orth, Matrix.one_mul, nonsing_inv_mul _ hu, Matrix.one_mul]
    have h2 : s.inertia⁻¹ * (Qᵀ * (Q * s.inertia)) = 1 := by
      have : s.inertia⁻¹ * (Qᵀ * (Q * s.inertia)) = s.inertia⁻¹ * ((Qᵀ * Q) * s.inertia) := by simp only [Matrix.mul_assoc]
      rw [this, hQ.orth, Matrix.one_mul, nonsing_inv_mul _ hu]
    rw [h1, h2, one_mulVec] at e
    rw [← e, mulVec_mulVec, IsRot.orth' hQ, one_mulVec]

/-- The coordinates of the base in one group. -/
def joined : Fin 6 ⊕ ι ≃ Sys ι := (Equiv.sumCongr (finSumFinEquiv (m := 3) (n := 3)) (Equiv.refl ι)).symm

/-- So the mass matrix and the weight the library has for the robot turned and moved are those `SeenAs` asks for. -/
theorem C80_kinematics_seen {L : List (MovingLink (Sys ι))} {x0 : Vec3} {R0 : Mat3} (hR : IsRot R0) (hL : L ≠ [])
    (hm : ∀ l ∈ L, 0 < l.m) (hI : ∀ l ∈ L, l.I.PosDef) (hb : ∀ l ∈ L, FloatingBase x0 R0 l) (θ : ℝ) (d : Vec3)
    (qd : Sys ι → ℝ) {c : ℕ} (J : Matrix (Fin c) (Fin 6 ⊕ ι) ℝ) :
    ∃ s s', updateKinematics true (massMatrix L) x0 R0 (mass L) (turnSys (rotateWithZ θ) *ᵥ qd) = some s ∧
      updateKinematics true (massMatrix (L.map (carryLink (rotateWithZ θ) d))) (rotateWithZ θ *ᵥ x0 + d) (rotateWithZ θ * R0)
        (mass (L.map (carryLink (rotateWithZ θ) d))) qd = some s' ∧
      SeenAs (turnBase (rotateWithZ θ)) (turnRows (rotateWithZ θ) c)
        ((massMatrix L).submatrix joined joined) J (s.G ∘ joined)
        ((massMatrix (L.map (carryLink (rotateWithZ θ) d))).submatrix joined joined)
        (turnRows (rotateWithZ θ) c * J * baseChange (turnBase (rotateWithZ θ))) (s'.G ∘ joined) := by
  obtain ⟨s, s', hs, hs', hA, hG, -⟩ := C80_kinematics hR hL hm hI hb θ d qd
  have hB : baseChange (ι := ι) (turnBase (rotateWithZ θ)) = (turnSys (rotateWithZ θ)).submatrix joined joined := by
    rw [← baseChange_turnSys]
    ext i j
    rcases i with i | i <;> rcases j with j | j <;> simp [joined]
  refine ⟨s, s', hs, hs', ?_, rfl, ?_⟩
  · rw [hA, hB, transpose_submatrix, submatrix_mul_equiv, submatrix_mul_equiv]
  · rw [hG, hB, transpose_submatrix, submatrix_mulVec_equiv]
    congr 2
    ext i
    simp

end

/-! ### Task commands -/

/-- The trajectory of a task, turned and moved. -/
def carryTrajectory (Q : Mat3) (d : Vec3) (k : TaskLinkPD) : TaskLinkPD :=
  { k with
    posInit := Q *ᵥ k.posInit + d
    velInit := Q *ᵥ k.velInit
    posDes := Q *ᵥ k.posDes + d
    velDes := Q *ᵥ k.velDes
    rotInit := Q * k.rotInit
    rotDes := Q * k.rotDes }

theorem spline_linear (t t0 tf : ℝ) :
    (∀ x0 v0 xf vf, quinticSpline t t0 tf x0 v0 0 xf vf 0 = none) ∨
    ∃ a b c e : Fin 3 → ℝ, a + c = ![1, 0, 0] ∧
      ∀ x0 v0 xf vf, quinticSpline t t0 tf x0 v0 0 xf vf 0 = some (x0 • a + v0 • b + xf • c + vf • e) := by
  unfold quinticSpline
  by_cases h1 : t < t0
  · refine Or.inr ⟨![1, 0, 0], ![0, 1, 0], 0, 0, by simp, fun x0 v0 xf vf => ?_⟩
    rw [if_pos h1]
    congr 1; ext i; fin_cases i <;> simp
  simp only [if_neg h1]
  by_cases h2 : t > tf
  · refine Or.inr ⟨0, 0, ![1, 0, 0], ![0, 1, 0], by simp, fun x0 v0 xf vf => ?_⟩
    rw [if_pos h2]
    congr 1; ext i; fin_cases i <;> simp
  simp only [if_neg h2]
  rcases eigenInverse (quinticMat (tf - t0)) with _ | M
  · exact Or.inl fun _ _ _ _ => rfl
  refine Or.inr ⟨quinticEval 1 0 0 (M *ᵥ quinticRhs (tf - t0) 1 0 0 0 0 0) (t - t0), quinticEval 0 1 0 (M *ᵥ quinticRhs (tf - t0) 0 1 0 0 0 0) (t - t0),
    quinticEval 0 0 0 (M *ᵥ quinticRhs (tf - t0) 0 0 0 1 0 0) (t - t0), quinticEval 0 0 0 (M *ᵥ quinticRhs (tf - t0) 0 0 0 0 1 0) (t - t0), ?_, ?_⟩
  · ext i
    fin_cases i <;> simp [quinticEval, quinticRhs, mulVec, dotProduct, Fin.sum_univ_three] <;> ring
  · intro x0 v0 xf vf
    refine congrArg some ?_
    ext i
    fin_cases i <;> simp [quinticEval, quinticRhs, mulVec, dotProduct, Fin.sum_univ_three] <;> ring

theorem posPD_reference (k : TaskLinkPD) (hk : k.mode ≤ 5) (t : ℝ) (p v : Vec3)
    {a b c e : Fin 3 → ℝ}
    (h : ∀ x0 v0 xf vf, quinticSpline t k.tStart k.tEnd x0 v0 0 xf vf 0 = some (x0 • a + v0 • b + xf • c + vf • e)) :
    k.posPD t p v = some (
      k.posA * (a 2 • k.posInit + b 2 • k.velInit + c 2 • k.posDes + e 2 • k.velDes)
      + k.posP * (a 0 • k.posInit + b 0 • k.velInit + c 0 • k.posDes + e 0 • k.velDes - p)
      + k.posD * (a 1 • k.posInit + b 1 • k.velInit + c 1 • k.posDes + e 1 • k.velDes - v)) := by
  unfold TaskLinkPD.posPD TaskLinkPD.axis
  rw [if_pos hk, h, h, h]
  simp only [Option.some.injEq]
  ext i
  fin_cases i <;> simp [vecHead, vecTail] <;> ring

theorem gain_turn {θ : ℝ} {g : Vec3} (hg : g 0 = g 1) (x : Vec3) : g * (rotateWithZ θ *ᵥ x) = rotateWithZ θ *ᵥ (g * x) := by
  ext i
  fin_cases i <;> simp [rotateWithZ, mulVec, dotProduct, Fin.sum_univ_three, vecHead, vecTail, hg] <;> ring

/-- C80 (position command of a task).  With the same gain along `x` and `y`, the commanded acceleration of the turned and moved robot,
on the trajectory turned and moved, is the turned one. -/
theorem C80_position_command (k : TaskLinkPD) (hP : k.posP 0 = k.posP 1) (hD : k.posD 0 = k.posD 1) (hA : k.posA 0 = k.posA 1)
    (θ : ℝ) (d : Vec3) (t : ℝ) (p v : Vec3) :
    (carryTrajectory (rotateWithZ θ) d k).posPD t (rotateWithZ θ *ᵥ p + d) (rotateWithZ θ *ᵥ v)
      = (k.posPD t p v).map (rotateWithZ θ *ᵥ ·) := by
  by_cases hk : k.mode ≤ 5
  swap
  · rw [C44_position_rotation_modes k (by omega), C44_position_rotation_modes _ (show 5 < (carryTrajectory _ d k).mode by simpa [carryTrajectory] using hk)]
    simp
  rcases spline_linear t k.tStart k.tEnd with h | ⟨a, b, c, e, hac, h⟩
  · unfold TaskLinkPD.posPD TaskLinkPD.axis
    rw [if_pos hk, if_pos (show (carryTrajectory (rotateWithZ θ) d k).mode ≤ 5 from hk)]
    simp only [carryTrajectory, h]
    rfl
  have h0 : c 0 = 1 - a 0 := by have := congrFun hac 0; simp at this; linarith
  have h1 : c 1 = - a 1 := by have := congrFun hac 1; simp at this; linarith
  have h2 : c 2 = - a 2 := by have := congrFun hac 2; simp at this; linarith
  rw [posPD_reference k hk t p v h, posPD_reference (carryTrajectory (rotateWithZ θ) d k) hk t _ _ h, Option.map_some, mulVec_add, mulVec_add,
    ← gain_turn hP, ← gain_turn hD, ← gain_turn hA]
  simp only [carryTrajectory, mulVec_add, mulVec_sub, mulVec_smul, h0, h1, h2]
  congr 4 <;> module

/-- C80, disagreement.  The gains act along the axes of the world, not of the robot: a task with a gain along `x` only pulls a robot
1 m off its goal when it faces one way, and not at all when robot and goal are turned by a quarter. -/
theorem C80_position_gain : ∃ (k : TaskLinkPD) (p v : Vec3) (t : ℝ),
    k.posPD t p v = some ![1, 0, 0] ∧
    (carryTrajectory (rotateWithZ (Real.pi / 2)) 0 k).posPD t (rotateWithZ (Real.pi / 2) *ᵥ p + 0) (rotateWithZ (Real.pi / 2) *ᵥ v) = some 0 := by
  set k : TaskLinkPD :=
    { mode := 0
      tStart := 0
      tEnd := 1
      posInit := ![1, 0, 0]
      velInit := 0
      posDes := ![1, 0, 0]
      velDes := 0
      rotInit := 1
      rotDes := 1
      posP := ![1, 0, 0]
      posD := 0
      posA := 0
      rotP := 0
      rotD := 0
      rotA := 0 } with hk
  refine ⟨k, 0, 0, -1, ?_, ?_⟩
  · unfold TaskLinkPD.posPD TaskLinkPD.axis quinticSpline
    rw [if_pos (by norm_num [hk]), if_pos (by norm_num [hk]), if_pos (by norm_num [hk]), if_pos (by norm_num [hk])]
    simp only [Option.some.injEq]
    ext i
    fin_cases i <;> simp [hk, vecHead, vecTail]
  · unfold TaskLinkPD.posPD TaskLinkPD.axis quinticSpline
    rw [if_pos (by norm_num [hk, carryTrajectory]), if_pos (by norm_num [hk, carryTrajectory]), if_pos (by norm_num [hk, carryTrajectory]),
      if_pos (by norm_num [hk, carryTrajectory])]
    simp only [Option.some.injEq]
    ext i
    fin_cases i <;> simp [hk, vecHead, vecTail, carryTrajectory, rotateWithZ, mulVec, dotProduct, Fin.sum_univ_three]

/-! ### Orientation command -/

theorem phi_turn {Q : Mat3} (h : IsRot Q) (C D : Mat3) : getPhi (Q * C) (Q * D) = Q *ᵥ getPhi C D := by
  have col : ∀ (M : Mat3) (i : Fin 3), (fun k => (Q * M) k i) = Q *ᵥ fun k => M k i := fun M i => rfl
  simp only [getPhi, col, cross_turn h, mulVec_smul, mulVec_add]

theorem dot_turn {Q : Mat3} (h : IsRot Q) (a b : Vec3) : (Q *ᵥ a) ⬝ᵥ (Q *ᵥ b) = a ⬝ᵥ b := by
  rw [dotProduct_mulVec, vecMul_mulVec, h.orth, vecMul_one]

theorem angleAxis_turn {Q : Mat3} (h : IsRot Q) (x : ℝ) (a : Vec3) : angleAxisMat x (Q *ᵥ a) = Q * angleAxisMat x a * Qᵀ := by
  have key : ∀ v, angleAxisMat x (Q *ᵥ a) *ᵥ (Q *ᵥ v) = (Q * angleAxisMat x a * Qᵀ) *ᵥ (Q *ᵥ v) := by
    intro v
    rw [angleAxisMat_about x (Q *ᵥ a), dot_turn h, cross_turn h, mulVec_mulVec, Matrix.mul_assoc, h.orth, Matrix.mul_one,
      ← mulVec_mulVec, angleAxisMat_about x a, mulVec_add, mulVec_add, mulVec_smul, mulVec_smul, mulVec_smul]
  refine Matrix.ext_of_mulVec_single fun i => ?_
  have := key (Qᵀ *ᵥ Pi.single i 1)
  rwa [mulVec_mulVec (Pi.single i 1) Q, IsRot.orth' h, one_mulVec] at this

theorem angleAxis_trace (x : ℝ) {a : Vec3} (ha : a ⬝ᵥ a = 1) : (angleAxisMat x a).trace = 1 + 2 * Real.cos x := by
  simp only [dotProduct, Fin.sum_univ_three] at ha
  simp [angleAxisMat, trace, Fin.sum_univ_three]
  linear_combination (1 - Real.cos x) * ha

/-- Angle and axis of the turned rotation: the same angle about the turned axis, unless it is a half turn or none. -/
theorem angleAxis_unique {Q : Mat3} (h : IsRot Q) {θ θ' : ℝ} {a a' : Vec3} (ha : a ⬝ᵥ a = 1) (ha' : a' ⬝ᵥ a' = 1) (h0 : 0 ≤ θ)
    (hπ : θ ≤ Real.pi) (h0' : 0 ≤ θ') (hπ' : θ' ≤ Real.pi) (hne : (angleAxisMat θ a).trace ≠ -1)
    (he : angleAxisMat θ' a' = Q * angleAxisMat θ a * Qᵀ) : θ' = θ ∧ (θ = 0 ∨ a' = Q *ᵥ a) := by
  have htr : (angleAxisMat θ' a').trace = (angleAxisMat θ a).trace := by
    rw [he, trace_mul_comm, ← Matrix.mul_assoc, h.orth, Matrix.one_mul]
  have hc : Real.cos θ' = Real.cos θ := by
    rw [angleAxis_trace θ' ha', angleAxis_trace θ ha] at htr
    linarith
  have hθ : θ' = θ := Real.injOn_cos ⟨h0', hπ'⟩ ⟨h0, hπ⟩ hc
  refine ⟨hθ, ?_⟩
  by_cases hz : θ = 0
  · exact Or.inl hz
  right
  have hlt : θ < Real.pi := by
    refine lt_of_le_of_ne hπ fun e => hne ?_
    rw [angleAxis_trace θ ha, e, Real.cos_pi]; norm_num
  have hs : Real.sin θ ≠ 0 := (Real.sin_pos_of_pos_of_lt_pi (lt_of_le_of_ne h0 (Ne.symm hz)) hlt).ne'
  have e1 : getPhi 1 (angleAxisMat θ a) = Real.sin θ • a :=
    C20_phi_axis IsRot.one (by rw [transpose_one, Matrix.mul_one]; exact angleAxisMat_about θ a)
  have e2 : getPhi 1 (angleAxisMat θ' a') = Real.sin θ • a' := by
    rw [hθ]
    exact C20_phi_axis IsRot.one (by rw [transpose_one, Matrix.mul_one]; exact angleAxisMat_about θ a')
  have e3 : getPhi 1 (angleAxisMat θ' a') = Q *ᵥ getPhi 1 (angleAxisMat θ a) := by
    have e := phi_turn h Qᵀ (angleAxisMat θ a * Qᵀ)
    rw [IsRot.orth' h, ← Matrix.mul_assoc, ← he] at e
    rw [e]
    congr 1
    rw [getPhi_eq, getPhi_eq, transpose_transpose, Matrix.mul_assoc, h.orth, transpose_one]
  rw [e1, e2, mulVec_smul] at e3
  have := congrArg ((Real.sin θ)⁻¹ • ·) e3
  simpa only [smul_smul, inv_mul_cancel₀ hs, one_smul] using this

/-- C80 (orientation command of a task).  With the same gain about `x` and `y`, the commanded angular acceleration of the turned robot,
on the trajectory turned with it, is the turned one; unless the trajectory is exactly a half turn (or so small a turn that Eigen
interpolates linearly, see C44). -/
theorem C80_orientation_command_partial (k : TaskLinkPD) (hP : k.rotP 0 = k.rotP 1) (hD : k.rotD 0 = k.rotD 1) (h0 : IsRot k.rotInit)
    (hf : IsRot k.rotDes) (hd : k.rotDes = k.rotInit ∨ (1 + (k.rotDes * k.rotInitᵀ).trace) / 4 < slerpOne ^ 2)
    (hh : (k.rotDes * k.rotInitᵀ).trace ≠ -1) (θ : ℝ) (d : Vec3) (t : ℝ) (C : Mat3) (w : Vec3) :
    (carryTrajectory (rotateWithZ θ) d k).rotPD t (rotateWithZ θ * C) (rotateWithZ θ *ᵥ w)
      = (k.rotPD t C w).map (rotateWithZ θ *ᵥ ·) := by
  have hQ : IsRot (rotateWithZ θ) := (C18_axis_rotations θ 0).2.2.1
  have hM : (rotateWithZ θ * k.rotDes) * (rotateWithZ θ * k.rotInit)ᵀ = rotateWithZ θ * (k.rotDes * k.rotInitᵀ) * (rotateWithZ θ)ᵀ := by
    rw [transpose_mul]; simp only [Matrix.mul_assoc]
  have htr : ((rotateWithZ θ * k.rotDes) * (rotateWithZ θ * k.rotInit)ᵀ).trace = (k.rotDes * k.rotInitᵀ).trace := by
    rw [hM, trace_mul_comm, ← Matrix.mul_assoc, hQ.orth, Matrix.one_mul]
  obtain ⟨φ, a, hax, hu, p0, pπ, hend, hs⟩ := rotReference h0 hf hd
  obtain ⟨φ', a', hax', hu', p0', pπ', hend', hs'⟩ := rotReference (IsRot.mul hQ h0) (IsRot.mul hQ hf)
    (by
      rcases hd with hd | hd
      · left; rw [hd]
      · right; rw [htr]; exact hd)
  have hrel : angleAxisMat φ a = k.rotDes * k.rotInitᵀ := by
    rw [← hend, Matrix.mul_assoc, IsRot.orth' h0, Matrix.mul_one]
  have hrel' : angleAxisMat φ' a' = rotateWithZ θ * angleAxisMat φ a * (rotateWithZ θ)ᵀ := by
    rw [hrel, ← hM, ← hend', Matrix.mul_assoc, IsRot.orth' (IsRot.mul hQ h0), Matrix.mul_one]
  obtain ⟨hφ, hor⟩ := angleAxis_unique hQ hu hu' p0 pπ p0' pπ' (by rw [hrel]; exact hh) hrel'
  have hmat : ∀ u : ℝ, angleAxisMat (u * φ') a' = rotateWithZ θ * angleAxisMat (u * φ) a * (rotateWithZ θ)ᵀ := by
    intro u
    rw [hφ]
    rcases hor with e | e
    · rw [e, mul_zero, angleAxisMat_zero, angleAxisMat_zero, Matrix.mul_one, IsRot.orth' hQ]
    · rw [e, angleAxis_turn hQ]
  have hvec : ∀ u : ℝ, (φ' * u) • a' = rotateWithZ θ *ᵥ ((φ * u) • a) := by
    intro u
    rw [hφ, mulVec_smul]
    rcases hor with e | e
    · rw [e]; simp
    · rw [e]
  unfold TaskLinkPD.rotPD
  simp only [carryTrajectory]
  rcases quinticSpline t k.tStart k.tEnd 0 0 0 1 0 0 with _ | qs
  · rfl
  simp only [hax, hax', hs, hs', hvec, hmat, Option.map_some, Option.some.injEq]
  have e : rotateWithZ θ * angleAxisMat (qs 0 * φ) a * (rotateWithZ θ)ᵀ * (rotateWithZ θ * k.rotInit)
      = rotateWithZ θ * (angleAxisMat (qs 0 * φ) a * k.rotInit) := by
    have : rotateWithZ θ * angleAxisMat (qs 0 * φ) a * (rotateWithZ θ)ᵀ * (rotateWithZ θ * k.rotInit)
        = rotateWithZ θ * (angleAxisMat (qs 0 * φ) a * (((rotateWithZ θ)ᵀ * rotateWithZ θ) * k.rotInit)) := by simp only [Matrix.mul_assoc]
    rw [this, hQ.orth, Matrix.one_mul]
  rw [e, phi_turn hQ, ← mulVec_sub, gain_turn hP, gain_turn hD, ← mulVec_add]

namespace HalfTurn

/-- A task that turns its link by half a turn about `x` in one second, with velocity feedback only. -/
noncomputable def k : TaskLinkPD where
  mode := 6
  tStart := 0
  tEnd := 1
  posInit := 0
  velInit := 0
  posDes := 0
  velDes := 0
  rotInit := 1
  rotDes := !![1, 0, 0; 0, -1, 0; 0, 0, -1]
  posP := 0
  posD := 0
  posA := 0
  rotP := 0
  rotD := 1
  rotA := 0

noncomputable def θ : ℝ := -Real.arccos (-7 / 25)

theorem cos_θ : Real.cos θ = -7 / 25 := by
  rw [θ, Real.cos_neg, Real.cos_arccos] <;> norm_num

theorem sin_θ : Real.sin θ = -24 / 25 := by
  rw [θ, Real.sin_neg, Real.sin_arccos, show (1 : ℝ) - (-7 / 25) ^ 2 = (24 / 25) ^ 2 by norm_num, Real.sqrt_sq (by norm_num)]
  norm_num

theorem sqrt_four : √(4 : ℝ) = 2 := by
  rw [show (4 : ℝ) = 2 ^ 2 by norm_num, Real.sqrt_sq (by norm_num)]

theorem arg_I : Complex.arg ⟨0, 1⟩ = Real.pi / 2 := Complex.arg_I

theorem quat_one : quatOfMat 1 = ⟨1, 0, 0, 0⟩ := by
  unfold quatOfMat
  rw [if_pos (by norm_num)]
  have : √((1 : Mat3) 0 0 + (1 : Mat3) 1 1 + (1 : Mat3) 2 2 + 1) = 2 := by
    rw [← sqrt_four]; norm_num
  rw [this]
  simp

theorem quat_half : quatOfMat !![1, 0, 0; 0, -1, 0; 0, 0, -1] = ⟨0, 1, 0, 0⟩ := by
  have h : √(4 : ℝ) = 2 := sqrt_four
  have e : (1 : ℝ) + 1 + 1 + 1 = 4 := by norm_num
  simp [quatOfMat, e, h] <;> norm_num

theorem quat_turn : quatOfMat (rotateWithZ θ) = ⟨3 / 5, 0, 0, -4 / 5⟩ := by
  have h : √((36 : ℝ) / 25) = 6 / 5 := by rw [show (36 : ℝ) / 25 = (6 / 5) ^ 2 by norm_num, Real.sqrt_sq (by norm_num)]
  simp [quatOfMat, rotateWithZ, cos_θ, sin_θ]
  norm_num [h]

theorem quat_turned : quatOfMat (rotateWithZ θ * !![1, 0, 0; 0, -1, 0; 0, 0, -1]) = ⟨0, -3 / 5, 4 / 5, 0⟩ := by
  have e : rotateWithZ θ * !![1, 0, 0; 0, -1, 0; 0, 0, -1] = !![-7 / 25, -24 / 25, 0; -24 / 25, 7 / 25, 0; 0, 0, -1] := by
    ext i j
    fin_cases i <;> fin_cases j <;> simp [rotateWithZ, cos_θ, sin_θ, Matrix.mul_apply, Fin.sum_univ_three] <;> norm_num
  have h : √((64 : ℝ) / 25) = 8 / 5 := by rw [show (64 : ℝ) / 25 = (8 / 5) ^ 2 by norm_num, Real.sqrt_sq (by norm_num)]
  rw [e]
  simp [quatOfMat]
  norm_num [h]

theorem axis_straight : angleAxisOfQuat (quatMul ⟨0, 1, 0, 0⟩ (quatInv ⟨1, 0, 0, 0⟩)) = (Real.pi, ![1, 0, 0]) := by
  have h := arg_I
  norm_num [angleAxisOfQuat, quatMul, quatInv, h]
  ring

theorem axis_turned : angleAxisOfQuat (quatMul ⟨0, -3 / 5, 4 / 5, 0⟩ (quatInv ⟨3 / 5, 0, 0, -4 / 5⟩)) = (Real.pi, ![7 / 25, 24 / 25, 0]) := by
  have h := arg_I
  norm_num [angleAxisOfQuat, quatMul, quatInv, h]
  ring

end HalfTurn

/-- C80, disagreement.  A trajectory of exactly half a turn goes one way round or the other depending on the heading: here the turned
robot is told to turn the opposite way. -/
theorem C80_half_turn : ∃ (k : TaskLinkPD) (θ t : ℝ) (f : Vec3), IsRot k.rotInit ∧ IsRot k.rotDes ∧ k.rotD = 1 ∧ f ≠ 0 ∧
    k.rotPD t 1 0 = some f ∧
    (carryTrajectory (rotateWithZ θ) 0 k).rotPD t (rotateWithZ θ * 1) (rotateWithZ θ *ᵥ 0) = some (-(rotateWithZ θ *ᵥ f)) := by
  obtain ⟨y, hy, hdy⟩ := C16_rest_to_rest (show (0 : ℝ) < 1 by norm_num) 0 1
  have hex : ∃ t, y t 1 ≠ 0 := by
    by_contra hall
    push Not at hall
    have c0 := is_const_of_deriv_eq_zero (f := fun s => y s 0) (fun t => (hdy t).1.differentiableAt)
      (fun t => by rw [(hdy t).1.deriv, hall])
    have := c0 (-1) 2
    have e0 := hy (-1)
    have e1 := hy 2
    rw [quinticSpline, if_pos (by norm_num)] at e0
    rw [quinticSpline, if_neg (by norm_num), if_pos (by norm_num)] at e1
    rw [← Option.some.inj e0, ← Option.some.inj e1] at this
    simp at this
  obtain ⟨t, ht⟩ := hex
  refine ⟨HalfTurn.k, HalfTurn.θ, t, (Real.pi * y t 1) • ![1, 0, 0], IsRot.one, ?_, rfl, ?_, ?_, ?_⟩
  · constructor
    · ext i j
      fin_cases i <;> fin_cases j <;> simp [HalfTurn.k, Matrix.mul_apply, Fin.sum_univ_three]
    · simp [HalfTurn.k, det_fin_three]
  · intro h
    have := congrFun h 0
    simp [ht, Real.pi_ne_zero] at this
  · unfold TaskLinkPD.rotPD
    have e : quinticSpline t HalfTurn.k.tStart HalfTurn.k.tEnd 0 0 0 1 0 0 = some (y t) := hy t
    rw [e]
    have e1 : quatOfMat HalfTurn.k.rotInit = ⟨1, 0, 0, 0⟩ := HalfTurn.quat_one
    have e2 : quatOfMat HalfTurn.k.rotDes = ⟨0, 1, 0, 0⟩ := HalfTurn.quat_half
    simp only [e1, e2, HalfTurn.axis_straight]
    simp [HalfTurn.k]
  · unfold TaskLinkPD.rotPD
    have e : quinticSpline t (carryTrajectory (rotateWithZ HalfTurn.θ) 0 HalfTurn.k).tStart
      (carryTrajectory (rotateWithZ HalfTurn.θ) 0 HalfTurn.k).tEnd 0 0 0 1 0 0 = some (y t) := hy t
    rw [e]
    have e1 : quatOfMat (carryTrajectory (rotateWithZ HalfTurn.θ) 0 HalfTurn.k).rotInit = ⟨3 / 5, 0, 0, -4 / 5⟩ := by
      simp only [carryTrajectory, HalfTurn.k, Matrix.mul_one]; exact HalfTurn.quat_turn
    have e2 : quatOfMat (carryTrajectory (rotateWithZ HalfTurn.θ) 0 HalfTurn.k).rotDes = ⟨0, -3 / 5, 4 / 5, 0⟩ := HalfTurn.quat_turned
    simp only [e1, e2, HalfTurn.axis_turned, mulVec_smul, mulVec_zero]
    have e3 : rotateWithZ HalfTurn.θ *ᵥ ![1, 0, 0] = ![-7 / 25, -24 / 25, 0] := by
      ext i
      fin_cases i <;> simp [rotateWithZ, mulVec, dotProduct, Fin.sum_univ_three, HalfTurn.cos_θ, HalfTurn.sin_θ] <;> norm_num
    rw [e3, ← smul_neg]
    have e4 : (carryTrajectory (rotateWithZ HalfTurn.θ) 0 HalfTurn.k).rotP = 0 := rfl
    have e5 : (carryTrajectory (rotateWithZ HalfTurn.θ) 0 HalfTurn.k).rotD = 1 := rfl
    rw [e4, e5]
    congr 1
    ext i
    fin_cases i <;> norm_num

end Verif.Props
