import Verif.Spec.Weight
import Verif.Props.Kinematics
import Verif.Props.Zmp
import Verif.Props.Order
import Verif.Props.Contact

/-!
# C99: the ground carries the robot
-/

set_option linter.unusedSectionVars false

namespace Verif.Props
open Matrix Verif Verif.Spec Verif.Model

variable {ι : Type} [Fintype ι] [DecidableEq ι] {k : ℕ}

/-- the mass matrix in the coordinates of the controller -/
noncomputable def ctrlMass (L : List (MovingLink (Sys ι))) : Matrix (Fin 6 ⊕ ι) (Fin 6 ⊕ ι) ℝ :=
  (massMatrix L).submatrix sysIdx.symm sysIdx.symm

theorem sum_dot {α : Type*} (L : List α) (f : α → Fin 3 → ℝ) (u : Fin 3 → ℝ) : u ⬝ᵥ (L.map f).sum = (L.map fun l => u ⬝ᵥ f l).sum := by
  induction L with
  | nil => simp
  | cons l L ih => simp [dotProduct_add, ih]

theorem mass_dot {σ : Type*} [Fintype σ] (L : List (MovingLink σ)) (b q : σ → ℝ) :
    b ⬝ᵥ (massMatrix L *ᵥ q) = (L.map fun l => l.m * ((l.Jv *ᵥ b) ⬝ᵥ (l.Jv *ᵥ q)) + (l.Jw *ᵥ b) ⬝ᵥ (l.I *ᵥ (l.Jw *ᵥ q))).sum := by
  unfold massMatrix
  induction L with
  | nil => simp
  | cons l L ih =>
    simp only [List.map_cons, List.sum_cons, add_mulVec, dotProduct_add, ih]
    congr 2
    · rw [smul_mulVec, dotProduct_smul, smul_eq_mul, ← mulVec_mulVec, dotProduct_mulVec, vecMul_transpose]
    · rw [← mulVec_mulVec, ← mulVec_mulVec, dotProduct_mulVec, vecMul_transpose]

theorem weight_dot {σ : Type*} [Fintype σ] (L : List (MovingLink σ)) (g : Fin 3 → ℝ) (b : σ → ℝ) :
    b ⬝ᵥ Spec.gravityForce g L = (L.map fun l => l.m * ((l.Jv *ᵥ b) ⬝ᵥ g)).sum := by
  unfold Spec.gravityForce
  induction L with
  | nil => simp
  | cons l L ih =>
    simp only [List.map_cons, List.sum_cons, dotProduct_add, ih]
    congr 1
    rw [mulVec_smul, dotProduct_smul, smul_eq_mul, dotProduct_mulVec, vecMul_transpose]

theorem dot6 (a b : Fin 6 → ℝ) : a ⬝ᵥ b = fpart a ⬝ᵥ fpart b + mpart a ⬝ᵥ mpart b := by
  simp [dotProduct, fpart, mpart, Fin.sum_univ_succ]
  ring

theorem stack_dot (g : Fin k → Foot ι) (b : Fin 6 ⊕ ι → ℝ) (F : Fin (6 * k) → ℝ) :
    (stackFn g *ᵥ b) ⬝ᵥ F = ∑ i, ((g i).jac *ᵥ b) ⬝ᵥ wrenchOf F i := by
  rw [dotProduct, ← wrenchPlace.sum_comp, Fintype.sum_prod_type]
  refine Finset.sum_congr rfl fun i _ => Finset.sum_congr rfl fun j _ => ?_
  have h1 : (⟨(wrenchPlace (i, j)).val / 6, by omega⟩ : Fin k) = i := by apply Fin.ext; simp only [wrenchPlace_val]; omega
  have h2 : (⟨(wrenchPlace (i, j)).val % 6, by omega⟩ : Fin 6) = j := by apply Fin.ext; simp only [wrenchPlace_val]; omega
  have h3 : (stackFn g *ᵥ b) (wrenchPlace (i, j)) = ((g i).jac *ᵥ b) j := by
    show (stackFn g (wrenchPlace (i, j))) ⬝ᵥ b = (g i).jac j ⬝ᵥ b
    show (g ⟨(wrenchPlace (i, j)).val / 6, _⟩).jac ⟨(wrenchPlace (i, j)).val % 6, _⟩ ⬝ᵥ b = _
    rw [h1, h2]
  rw [h3]
  congr 2
  exact Fin.ext (wrenchPlace_val i j)

theorem cross_dot (w r f : Fin 3 → ℝ) : crossProduct w r ⬝ᵥ f = w ⬝ᵥ crossProduct r f := by
  simp [dotProduct, cross_apply, Fin.sum_univ_three]
  ring

theorem zero_of_all {a : Fin 3 → ℝ} (h : ∀ u : Fin 3 → ℝ, u ⬝ᵥ a = 0) : a = 0 := dotProduct_self_eq_zero.mp (h a)

variable {L : List (MovingLink (Sys ι))} {x0 : Vec3} {R0 : Mat3} {g : Fin k → Foot ι} {p : Fin k → Vec3} {qd : Sys ι → ℝ}
  {s : WholeBody ι}

theorem momentum_dot (L : List (MovingLink (Sys ι))) (q : Sys ι → ℝ) (c u w : Vec3) :
    (L.map fun l => l.m * ((u + crossProduct w (l.x - c)) ⬝ᵥ (l.Jv *ᵥ q)) + w ⬝ᵥ (l.I *ᵥ (l.Jw *ᵥ q))).sum =
      u ⬝ᵥ linearMomentum L q + w ⬝ᵥ angularMomentum c L q := by
  unfold linearMomentum angularMomentum
  induction L with
  | nil => simp
  | cons l L ih =>
    rw [List.map_cons, List.sum_cons, ih]
    simp only [List.map_cons, List.sum_cons, dotProduct_add, dotProduct_smul, smul_eq_mul, add_dotProduct, cross_dot]
    ring

theorem weight_about (L : List (MovingLink (Sys ι))) (γ c u w : Vec3) :
    (L.map fun l => l.m * ((u + crossProduct w (l.x - c)) ⬝ᵥ γ)).sum =
      u ⬝ᵥ (mass L • γ) + w ⬝ᵥ crossProduct ((L.map fun l => l.m • l.x).sum - mass L • c) γ := by
  unfold mass
  induction L with
  | nil => simp
  | cons l L ih =>
    simp only [List.map_cons, List.sum_cons, ih]
    simp [dotProduct, cross_apply, Fin.sum_univ_three]
    ring

/-- The virtual motion with linear velocity `u` of the point `c` and angular velocity `w`. -/
noncomputable def swing (x0 : Vec3) (R0 : Mat3) (c u w : Vec3) : Sys ι → ℝ := baseVelocity (u + crossProduct w (x0 - c)) (R0ᵀ *ᵥ w)

/-- The power of all forces in a virtual motion. -/
theorem virtual_power (hR : IsRot R0) (hb : ∀ l ∈ L, FloatingBase x0 R0 l) (hf : ∀ i, RidesOnBase x0 R0 (p i) (g i).jac) (γ : Vec3)
    (qdd : Fin 6 ⊕ ι → ℝ) (F : Fin (6 * k) → ℝ) (c u w : Vec3) :
    (swing x0 R0 c u w ∘ sysIdx.symm) ⬝ᵥ (ctrlMass L *ᵥ qdd + (stackFn g)ᵀ *ᵥ F + -(Spec.gravityForce γ L) ∘ sysIdx.symm) =
    u ⬝ᵥ (linearMomentum L (qdd ∘ sysIdx) + ∑ i, fpart (wrenchOf F i) - mass L • γ) +
      w ⬝ᵥ (angularMomentum c L (qdd ∘ sysIdx) + ∑ i, (mpart (wrenchOf F i) + crossProduct (p i - c) (fpart (wrenchOf F i))) -
        crossProduct ((L.map fun l => l.m • l.x).sum - mass L • c) γ) := by
  rw [swing]
  set b : Sys ι → ℝ := baseVelocity (u + crossProduct w (x0 - c)) (R0ᵀ *ᵥ w) with hbdef
  have hRw : R0 *ᵥ (R0ᵀ *ᵥ w) = w := by rw [mulVec_mulVec, mul_eq_one_comm.mp hR.orth, one_mulVec]
  have hlin : ∀ x : Vec3, u + crossProduct w (x0 - c) + crossProduct w (x - x0) = u + crossProduct w (x - c) := by
    intro x
    rw [add_assoc, ← map_add]
    congr 2
    abel
  have hJv : ∀ l ∈ L, l.Jv *ᵥ b = u + crossProduct w (l.x - c) := fun l hl => by rw [(hb l hl).lin, hRw, hlin]
  have hJw : ∀ l ∈ L, l.Jw *ᵥ b = w := fun l hl => by rw [(hb l hl).ang, hRw]
  have em : (b ∘ sysIdx.symm) ⬝ᵥ (ctrlMass L *ᵥ qdd) = b ⬝ᵥ (massMatrix L *ᵥ (qdd ∘ sysIdx)) := by
    rw [ctrlMass, submatrix_mulVec_equiv, Equiv.symm_symm]
    exact Equiv.sum_comp sysIdx.symm fun x => b x * (massMatrix L *ᵥ (qdd ∘ sysIdx)) x
  have eJ : (b ∘ sysIdx.symm) ⬝ᵥ ((stackFn g)ᵀ *ᵥ F) =
      ∑ i, ((u + crossProduct w (p i - c)) ⬝ᵥ fpart (wrenchOf F i) + w ⬝ᵥ mpart (wrenchOf F i)) := by
    rw [dotProduct_mulVec, vecMul_transpose, stack_dot]
    refine Finset.sum_congr rfl fun i _ => ?_
    rw [dot6, (hf i _ _).1, (hf i _ _).2, hRw, hlin]
  have eg : (b ∘ sysIdx.symm) ⬝ᵥ (-(Spec.gravityForce γ L) ∘ sysIdx.symm) = -(b ⬝ᵥ Spec.gravityForce γ L) := by
    rw [← dotProduct_neg]
    exact Equiv.sum_comp sysIdx.symm fun x => b x * (-(Spec.gravityForce γ L)) x
  rw [dotProduct_add, dotProduct_add, em, eJ, eg, mass_dot, weight_dot]
  rw [List.map_congr_left (g := fun l => l.m * ((u + crossProduct w (l.x - c)) ⬝ᵥ (l.Jv *ᵥ (qdd ∘ sysIdx))) +
      w ⬝ᵥ (l.I *ᵥ (l.Jw *ᵥ (qdd ∘ sysIdx)))) fun l hl => by rw [hJv l hl, hJw l hl],
    List.map_congr_left (l := L) (f := fun l => l.m * ((l.Jv *ᵥ b) ⬝ᵥ γ)) (g := fun l => l.m * ((u + crossProduct w (l.x - c)) ⬝ᵥ γ))
      fun l hl => by rw [hJv l hl], momentum_dot, weight_about]
  have es : ∑ i, ((u + crossProduct w (p i - c)) ⬝ᵥ fpart (wrenchOf F i) + w ⬝ᵥ mpart (wrenchOf F i)) =
      u ⬝ᵥ ∑ i, fpart (wrenchOf F i) + w ⬝ᵥ ∑ i, (mpart (wrenchOf F i) + crossProduct (p i - c) (fpart (wrenchOf F i))) := by
    rw [dotProduct_sum, dotProduct_sum, ← Finset.sum_add_distrib]
    refine Finset.sum_congr rfl fun i _ => ?_
    rw [add_dotProduct, cross_dot, dotProduct_add]
    ring
  rw [es]
  rw [dotProduct_sub, dotProduct_add, dotProduct_sub, dotProduct_add]
  ring

theorem swing_actuate (c u w : Vec3) (τ : ι → ℝ) : (swing x0 R0 c u w ∘ sysIdx.symm) ⬝ᵥ actuate τ = 0 := by
  simp [dotProduct, Fintype.sum_sum_type, actuate, swing, baseVelocity, sysIdx]

/-- A generalised force without power in any motion of the base is one of joint torques. -/
theorem actuate_of_swing (hR : IsRot R0) {y : Fin 6 ⊕ ι → ℝ} (h : ∀ u w, (swing x0 R0 0 u w ∘ sysIdx.symm) ⬝ᵥ y = 0) :
    y = actuate fun j => y (.inr j) := by
  have key : ∀ v ω : Vec3, (baseVelocity v ω ∘ sysIdx.symm) ⬝ᵥ y = 0 := by
    intro v ω
    have := h (v - crossProduct (R0 *ᵥ ω) x0) (R0 *ᵥ ω)
    simpa only [swing, sub_zero, sub_add_cancel, mulVec_mulVec, hR.orth, one_mulVec] using this
  ext x
  rcases x with a | j
  · have e : y (.inl a) = (baseVelocity (fun i => (Pi.single a 1 : Fin 6 → ℝ) (finSumFinEquiv (m := 3) (n := 3) (.inl i)))
        (fun i => (Pi.single a 1 : Fin 6 → ℝ) (finSumFinEquiv (m := 3) (n := 3) (.inr i))) ∘ sysIdx.symm) ⬝ᵥ y := by
      have : (baseVelocity (fun i => (Pi.single a 1 : Fin 6 → ℝ) (finSumFinEquiv (m := 3) (n := 3) (.inl i)))
        (fun i => (Pi.single a 1 : Fin 6 → ℝ) (finSumFinEquiv (m := 3) (n := 3) (.inr i))) ∘ sysIdx.symm : Fin 6 ⊕ ι → ℝ) = Pi.single (.inl a) 1 := by
        ext x
        obtain ⟨x, rfl⟩ := sysIdx.surjective x
        rw [Function.comp_apply, Equiv.symm_apply_apply]
        rcases x with (i | i) | j
        · simp [baseVelocity, sysIdx, Pi.single_apply]
        · simp [baseVelocity, sysIdx, Pi.single_apply]
        · simp [baseVelocity, sysIdx]
      rw [this, single_one_dotProduct]
    rw [e, key]
    rfl
  · rfl

/-- **C99 (which forces can hold the robot).**  Some joint torque holds the robot still with the contact forces `F` if and only if these add up to the
weight and have its moment. -/
theorem C99_held_iff (hR : IsRot R0) (hb : ∀ l ∈ L, FloatingBase x0 R0 l) (hf : ∀ i, RidesOnBase x0 R0 (p i) (g i).jac) (γ : Vec3)
    (F : Fin (6 * k) → ℝ) :
    (∃ τ, Motion (ctrlMass L) (stackFn g) (-(Spec.gravityForce γ L) ∘ sysIdx.symm) τ 0 F) ↔
      ∑ i, fpart (wrenchOf F i) = mass L • γ ∧
        ∑ i, (mpart (wrenchOf F i) + crossProduct (p i) (fpart (wrenchOf F i))) = crossProduct (L.map fun l => l.m • l.x).sum γ := by
  have hq : ((0 : Fin 6 ⊕ ι → ℝ) ∘ sysIdx) = 0 := rfl
  have hl : linearMomentum L (0 : Sys ι → ℝ) = 0 := List.sum_eq_zero fun x hx => by
    obtain ⟨l, -, rfl⟩ := List.mem_map.mp hx
    simp
  have ha : angularMomentum 0 L (0 : Sys ι → ℝ) = 0 := List.sum_eq_zero fun x hx => by
    obtain ⟨l, -, rfl⟩ := List.mem_map.mp hx
    simp
  have key := virtual_power hR hb hf γ 0 F 0
  simp only [hq, hl, ha, zero_add, smul_zero, sub_zero] at key
  constructor
  · rintro ⟨τ, h, -⟩
    have h0 := fun u w => (key u w).symm.trans ((congrArg (fun v => (swing x0 R0 0 u w ∘ sysIdx.symm) ⬝ᵥ v) h).trans (swing_actuate 0 u w τ))
    have k1 := fun u => h0 u 0
    have k2 := fun w => h0 0 w
    simp only [zero_dotProduct, add_zero, zero_add] at k1 k2
    exact ⟨sub_eq_zero.mp (zero_of_all k1), sub_eq_zero.mp (zero_of_all k2)⟩
  · rintro ⟨h1, h2⟩
    refine ⟨_, actuate_of_swing (x0 := x0) hR fun u w => ?_, by simp [ContactsFixed]⟩
    rw [key, h1, h2, sub_self, sub_self, dotProduct_zero, dotProduct_zero, add_zero]

/-- gravity as the code knows it -/
noncomputable def earth : Vec3 := ![0, 0, -9.81]

/-- **C99 (Newton and Euler).**  A robot at rest on the ground with any joint torques: the contact forces the library reports add up to the weight
minus mass times the acceleration of the reported centre of mass, and their moment about it is the rate of the angular momentum, reversed (forces
are those on the ground). -/
theorem C99_balance (hR : IsRot R0) (hL : L ≠ []) (hm : ∀ l ∈ L, 0 < l.m) (hI : ∀ l ∈ L, l.I.PosDef) (hb : ∀ l ∈ L, FloatingBase x0 R0 l)
    (hf : ∀ i, RidesOnBase x0 R0 (p i) (g i).jac) (hs : updateKinematics true (massMatrix L) x0 R0 (mass L) qd = some s)
    (hA : IsSPD (ctrlMass L)) {S : ContactSpace (6 * k) ι} (hS : contactSpace (stackFn g) (ctrlMass L)⁻¹ = some S) (τ : ι → ℝ)
    {qdd : Fin 6 ⊕ ι → ℝ} {F' : Fin (6 * k) → ℝ} (h : Motion (ctrlMass L) (stackFn g) (s.G ∘ sysIdx.symm) τ qdd F') :
    let F := contactForce S (Model.gravityForce S (s.G ∘ sysIdx.symm)) τ
    ∑ i, fpart (wrenchOf F i) = mass L • (earth - s.jacLin *ᵥ (qdd ∘ sysIdx)) ∧
      ∑ i, (mpart (wrenchOf F i) + crossProduct (p i - s.comPos) (fpart (wrenchOf F i))) = -(angularMomentum s.comPos L (qdd ∘ sysIdx)) := by
  intro F
  obtain rfl : F' = F := (C01_contact_force_exact hA hS _ τ).2.1 _ _ h
  obtain ⟨s', hs', hcom, hjac, -, -, -, hG, -⟩ := C25_com_partial hR hL hm hI hb qd
  obtain rfl : s = s' := Option.some.inj (hs.symm.trans hs')
  have hd := h.1
  rw [hG] at hd
  have key := fun u w => (virtual_power hR hb hf _ qdd F s.comPos u w).symm.trans
    ((congrArg (fun v => (swing x0 R0 s.comPos u w ∘ sysIdx.symm) ⬝ᵥ v) hd).trans (swing_actuate s.comPos u w τ))
  have hc0 : (L.map fun l => l.m • l.x).sum - mass L • s.comPos = 0 := sub_eq_zero.mpr hcom.symm
  have hlm : mass L • (s.jacLin *ᵥ (qdd ∘ sysIdx)) = linearMomentum L (qdd ∘ sysIdx) := by
    rw [← smul_mulVec, hjac]
    unfold linearMomentum
    rw [linMap_sum (fun A : Matrix (Fin 3) (Sys ι) ℝ => A *ᵥ (qdd ∘ sysIdx)) (by simp) (fun _ _ => add_mulVec _ _ _)]
    exact sum_congr' fun l _ => smul_mulVec _ _ _
  have k1 := fun u => key u 0
  have k2 := fun w => key 0 w
  simp only [zero_dotProduct, add_zero, zero_add] at k1 k2
  have h1 := zero_of_all k1
  have h2 := zero_of_all k2
  rw [hc0, map_zero, LinearMap.zero_apply, sub_zero] at h2
  constructor
  · rw [smul_sub, hlm, earth]
    rw [← sub_eq_zero, ← h1]
    abel
  · rw [← sub_eq_zero, ← h2]
    abel

/-- **C99 (standing still).**  If the robot stands still, the ground carries its weight and nothing else, without moment about the reported centre of
mass. -/
theorem C99_weight (hR : IsRot R0) (hL : L ≠ []) (hm : ∀ l ∈ L, 0 < l.m) (hI : ∀ l ∈ L, l.I.PosDef) (hb : ∀ l ∈ L, FloatingBase x0 R0 l)
    (hf : ∀ i, RidesOnBase x0 R0 (p i) (g i).jac) (hs : updateKinematics true (massMatrix L) x0 R0 (mass L) qd = some s)
    (hA : IsSPD (ctrlMass L)) {S : ContactSpace (6 * k) ι} (hS : contactSpace (stackFn g) (ctrlMass L)⁻¹ = some S) (τ : ι → ℝ)
    {F' : Fin (6 * k) → ℝ} (h : Motion (ctrlMass L) (stackFn g) (s.G ∘ sysIdx.symm) τ 0 F') :
    let F := contactForce S (Model.gravityForce S (s.G ∘ sysIdx.symm)) τ
    ∑ i, fpart (wrenchOf F i) = ![0, 0, -9.81 * mass L] ∧
      ∑ i, (mpart (wrenchOf F i) + crossProduct (p i - s.comPos) (fpart (wrenchOf F i))) = 0 := by
  intro F
  obtain ⟨h1, h2⟩ := C99_balance hR hL hm hI hb hf hs hA hS τ h
  have h0 : ((0 : Fin 6 ⊕ ι → ℝ) ∘ sysIdx) = 0 := rfl
  rw [h0] at h1 h2
  refine ⟨h1.trans ?_, h2.trans ?_⟩
  · rw [mulVec_zero, sub_zero, earth]
    ext i; fin_cases i <;> simp [mul_comm]
  · unfold angularMomentum
    rw [neg_eq_zero]
    refine List.sum_eq_zero fun x hx => ?_
    obtain ⟨l, -, rfl⟩ := List.mem_map.mp hx
    simp

/-- A foot that rides on the base moves with every motion of the base. -/
theorem rides_moves {x0 : Vec3} {R0 : Mat3} {p : Vec3} {J : Matrix (Fin 6) (Fin 6 ⊕ ι) ℝ} (hR : IsRot R0) (hf : RidesOnBase x0 R0 p J) {v : Fin 6 → ℝ}
    (h0 : J *ᵥ Sum.elim v 0 = 0) : v = 0 := by
  have e : (Sum.elim v 0 : Fin 6 ⊕ ι → ℝ) = baseVelocity (fun i => v (finSumFinEquiv (m := 3) (n := 3) (.inl i)))
      (fun i => v (finSumFinEquiv (m := 3) (n := 3) (.inr i))) ∘ sysIdx.symm := by
    ext x
    obtain ⟨x, rfl⟩ := sysIdx.surjective x
    rw [Function.comp_apply, Equiv.symm_apply_apply]
    rcases x with (i | i) | j <;> rfl
  rw [e] at h0
  obtain ⟨hl, ha⟩ := hf (fun i => v (finSumFinEquiv (m := 3) (n := 3) (.inl i))) (fun i => v (finSumFinEquiv (m := 3) (n := 3) (.inr i)))
  rw [h0] at hl ha
  have hw : (fun i => v (finSumFinEquiv (m := 3) (n := 3) (.inr i))) = 0 := by
    have := congrArg (R0ᵀ *ᵥ ·) ha
    simp only [mulVec_mulVec, hR.orth, one_mulVec] at this
    rw [← this]
    have : mpart (0 : Fin 6 → ℝ) = 0 := by ext i; fin_cases i <;> rfl
    rw [this, mulVec_zero]
  rw [hw, mulVec_zero] at hl
  have hv0 : (fun i => v (finSumFinEquiv (m := 3) (n := 3) (.inl i))) = 0 := by
    have h0 : fpart (0 : Fin 6 → ℝ) = 0 := by ext i; fin_cases i <;> rfl
    rw [h0, map_zero, LinearMap.zero_apply, add_zero] at hl
    exact hl.symm
  ext a
  obtain ⟨a, rfl⟩ := (finSumFinEquiv (m := 3) (n := 3)).surjective a
  rcases a with i | i
  · exact congrFun hv0 i
  · exact congrFun hw i

theorem stackFn_row (g : Fin k → Foot ι) (b : Fin 6 ⊕ ι → ℝ) (i : Fin k) (j : Fin 6) :
    (stackFn g *ᵥ b) ⟨6 * i + j, by omega⟩ = ((g i).jac *ᵥ b) j := by
  have h1 : (⟨(6 * (i : ℕ) + j) / 6, by omega⟩ : Fin k) = i := by apply Fin.ext; show (6 * (i : ℕ) + j) / 6 = i; omega
  have h2 : (⟨(6 * (i : ℕ) + j) % 6, by omega⟩ : Fin 6) = j := by apply Fin.ext; show (6 * (i : ℕ) + j) % 6 = j; omega
  show (g ⟨(6 * (i : ℕ) + j) / 6, _⟩).jac ⟨(6 * (i : ℕ) + j) % 6, _⟩ ⬝ᵥ b = _
  rw [h1, h2]
  rfl

/-- **C03 (feet of a real robot).**  The hypothesis `BaseDetermined` of C03 holds on every robot with a contact: one foot that rides on the base determines
the motion of the base. -/
theorem C03_feet_determine_base (hR : IsRot R0) (hk : 0 < k) (hf : ∀ i, RidesOnBase x0 R0 (p i) (g i).jac) : BaseDetermined (stackFn g) := by
  intro v hv
  refine rides_moves hR (hf ⟨0, hk⟩) (funext fun j => ?_)
  rw [← stackFn_row, hv]
  rfl

/-- **C05 (feet of a real robot).**  With two or more feet that ride on the base and independent contact rows the contact calculation always succeeds. -/
theorem C05_feet_succeed (hR : IsRot R0) (hk : 1 < k) (hf : ∀ i, RidesOnBase x0 R0 (p i) (g i).jac) {A : Matrix (Fin 6 ⊕ ι) (Fin 6 ⊕ ι) ℝ} (hA : IsSPD A)
    (hind : IndependentRows (stackFn g)) (cod : (W : Matrix ι ι ℝ) → CodNull W) :
    ∃ S out, calculateContactConstraint (stackFn g) A⁻¹ cod = .ret 1 S (some out) := by
  refine (C05_outcome hA hind (by omega) cod).1.mpr ⟨C03_feet_determine_base hR (by omega) hf, ?_⟩
  rw [isUnit_iff_ne_zero]
  intro h0
  obtain ⟨v, hv, hv0⟩ := exists_mulVec_eq_zero_iff.mpr h0
  refine hv (rides_moves hR (hf ⟨k - 1, by omega⟩) (funext fun j => ?_))
  rw [← stackFn_row]
  have := congrFun hv0 j
  have e : (⟨6 * k - 6 + j, by omega⟩ : Fin (6 * k)) = ⟨6 * (k - 1) + j, by omega⟩ := by apply Fin.ext; show 6 * k - 6 + (j : ℕ) = 6 * (k - 1) + j; omega
  rw [lastSixBase, mulVec, dotProduct] at this
  simp only [submatrix_apply, e] at this
  rw [mulVec, dotProduct, Fintype.sum_sum_type]
  simpa using this

/-- **C99 (gravity compensation).**  With the torque of gravity compensation, on any number of feet but none, the ground carries the weight and nothing
else. -/
theorem C99_gravity (hR : IsRot R0) (hL : L ≠ []) (hm : ∀ l ∈ L, 0 < l.m) (hI : ∀ l ∈ L, l.I.PosDef) (hb : ∀ l ∈ L, FloatingBase x0 R0 l)
    (hf : ∀ i, RidesOnBase x0 R0 (p i) (g i).jac) (hs : updateKinematics true (massMatrix L) x0 R0 (mass L) qd = some s)
    (hA : IsSPD (ctrlMass L)) {S : ContactSpace (6 * k) ι} (hS : contactSpace (stackFn g) (ctrlMass L)⁻¹ = some S)
    (hk : 0 < k) :
    let G := s.G ∘ sysIdx.symm
    let F := contactForce S (Model.gravityForce S G) (gravityTorque S (ctrlMass L)⁻¹ G)
    ∑ i, fpart (wrenchOf F i) = ![0, 0, -9.81 * mass L] ∧
      ∑ i, (mpart (wrenchOf F i) + crossProduct (p i - s.comPos) (fpart (wrenchOf F i))) = 0 := by
  intro G F
  obtain ⟨qdd, h⟩ := (C01_contact_force_exact hA hS G (gravityTorque S (ctrlMass L)⁻¹ G)).1
  obtain rfl := (C03_gravity_compensation hA hS G h).2 (C03_feet_determine_base hR hk hf)
  exact C99_weight hR hL hm hI hb hf hs hA hS _ h

theorem moment_shift (p : Fin k → Vec3) (f m : Fin k → Vec3) (c d : Vec3) :
    ∑ i, (m i + crossProduct (p i - d) (f i)) = ∑ i, (m i + crossProduct (p i - c) (f i)) + crossProduct (c - d) (∑ i, f i) := by
  rw [map_sum, ← Finset.sum_add_distrib]
  refine Finset.sum_congr rfl fun i _ => ?_
  have : p i - d = (p i - c) + (c - d) := by abel
  rw [this, map_add, LinearMap.add_apply, add_assoc]

/-- The equation of the cart on a table for any point about which the feet have no horizontal moment. -/
theorem cart_table {s : WholeBody ι} {F : Fin (6 * k) → ℝ} {a η q : Vec3} {M z : ℝ}
    (h1 : ∑ i, fpart (wrenchOf F i) = M • (earth - a))
    (h2 : ∑ i, (mpart (wrenchOf F i) + crossProduct (p i - s.comPos) (fpart (wrenchOf F i))) = -η) (hpz : q 2 = z)
    (hmom : ∀ b : Fin 3, b ≠ 2 → (∑ i, (mpart (wrenchOf F i) + crossProduct (p i - q) (fpart (wrenchOf F i)))) b = 0) :
    M * (9.81 + a 2) * (q 0 - s.comPos 0) = -(M * (s.comPos 2 - z) * a 0) - η 1 ∧
      M * (9.81 + a 2) * (q 1 - s.comPos 1) = -(M * (s.comPos 2 - z) * a 1) + η 0 := by
  rw [moment_shift p _ _ s.comPos q, h1, h2] at hmom
  have e0 := hmom 0 (by decide)
  have e1 := hmom 1 (by decide)
  change (-η + crossProduct (s.comPos - q) (M • (earth - a))) 0 = 0 at e0
  change (-η + crossProduct (s.comPos - q) (M • (earth - a))) 1 = 0 at e1
  have c0 : ∀ u v : Vec3, crossProduct u v 0 = u 1 * v 2 - u 2 * v 1 := fun u v => by rw [cross_apply]; rfl
  have c1 : ∀ u v : Vec3, crossProduct u v 1 = u 2 * v 0 - u 0 * v 2 := fun u v => by rw [cross_apply]; rfl
  have g0 : earth 0 = 0 := rfl
  have g1 : earth 1 = 0 := rfl
  have g2 : earth 2 = -9.81 := rfl
  rw [Pi.add_apply, c0] at e0
  rw [Pi.add_apply, c1] at e1
  simp only [Pi.neg_apply, Pi.sub_apply, Pi.smul_apply, smul_eq_mul, g0, g1, g2, hpz] at e0 e1
  constructor
  · linear_combination (-1 : ℝ) * e1
  · linear_combination e0

section Zmp
variable {on off : List ZmpContact} {f : Fin on.length → Foot ι}

/-- **C99 (the zero moment point).**  Active contacts first, all at the height `z`, each pressing: `getZMP` of the reported contact forces returns a point
at this height that obeys the equation of the cart on a table, with the acceleration `a` of the centre of mass and the rate `η` of the angular
momentum about it. -/
theorem C99_zmp_partial (hR : IsRot R0) (hL : L ≠ []) (hm : ∀ l ∈ L, 0 < l.m) (hI : ∀ l ∈ L, l.I.PosDef) (hb : ∀ l ∈ L, FloatingBase x0 R0 l)
    (hon : ∀ c ∈ on, c.contact = true) (hoff : ∀ c ∈ off, c.contact = false) (hne : on ≠ []) {z : ℝ} (hz : ∀ c ∈ on, c.pos 2 = z)
    (hf : ∀ i, RidesOnBase x0 R0 on[i].pos (f i).jac) (hs : updateKinematics true (massMatrix L) x0 R0 (mass L) qd = some s)
    (hA : IsSPD (ctrlMass L)) {S : ContactSpace (6 * on.length) ι} (hS : contactSpace (stackFn f) (ctrlMass L)⁻¹ = some S) (τ : ι → ℝ)
    {qdd : Fin 6 ⊕ ι → ℝ} {F' : Fin (6 * on.length) → ℝ} (h : Motion (ctrlMass L) (stackFn f) (s.G ∘ sysIdx.symm) τ qdd F')
    (hpress : ∀ j, 1 / 1000 ≤ press (wrenchOf (contactForce S (Model.gravityForce S (s.G ∘ sysIdx.symm)) τ) j)) :
    let a := s.jacLin *ᵥ (qdd ∘ sysIdx)
    let η := angularMomentum s.comPos L (qdd ∘ sysIdx)
    ∃ p, getZMP (on ++ off) (contactForce S (Model.gravityForce S (s.G ∘ sysIdx.symm)) τ) = .zmp p ∧ p 2 = z ∧
      mass L * (9.81 + a 2) * (p 0 - s.comPos 0) = -(mass L * (s.comPos 2 - z) * a 0) - η 1 ∧
      mass L * (9.81 + a 2) * (p 1 - s.comPos 1) = -(mass L * (s.comPos 2 - z) * a 1) + η 0 := by
  intro a η
  obtain ⟨p, hp, hpz, hmom⟩ := C15_zero_moment_partial hon hoff hne _ hpress hz
  obtain ⟨h1, h2⟩ := C99_balance (p := fun i => on[i].pos) hR hL hm hI hb hf hs hA hS τ h
  refine ⟨p, hp, hpz, ?_⟩
  exact cart_table h1 h2 hpz hmom

/-- **C99 (standing still: under the centre of mass).**  If the robot also stands still, `getZMP` returns the point of the ground under the reported
centre of mass, whatever the torques and however the feet share the weight. -/
theorem C99_zmp_still_partial (hR : IsRot R0) (hL : L ≠ []) (hm : ∀ l ∈ L, 0 < l.m) (hI : ∀ l ∈ L, l.I.PosDef) (hb : ∀ l ∈ L, FloatingBase x0 R0 l)
    (hon : ∀ c ∈ on, c.contact = true) (hoff : ∀ c ∈ off, c.contact = false) (hne : on ≠ []) {z : ℝ} (hz : ∀ c ∈ on, c.pos 2 = z)
    (hf : ∀ i, RidesOnBase x0 R0 on[i].pos (f i).jac) (hs : updateKinematics true (massMatrix L) x0 R0 (mass L) qd = some s)
    (hA : IsSPD (ctrlMass L)) {S : ContactSpace (6 * on.length) ι} (hS : contactSpace (stackFn f) (ctrlMass L)⁻¹ = some S) (τ : ι → ℝ)
    {F' : Fin (6 * on.length) → ℝ} (h : Motion (ctrlMass L) (stackFn f) (s.G ∘ sysIdx.symm) τ 0 F')
    (hpress : ∀ j, 1 / 1000 ≤ press (wrenchOf (contactForce S (Model.gravityForce S (s.G ∘ sysIdx.symm)) τ) j)) :
    getZMP (on ++ off) (contactForce S (Model.gravityForce S (s.G ∘ sysIdx.symm)) τ) = .zmp ![s.comPos 0, s.comPos 1, z] := by
  obtain ⟨p, hp, hpz, h0, h1⟩ := C99_zmp_partial hR hL hm hI hb hon hoff hne hz hf hs hA hS τ h hpress
  have hq : ((0 : Fin 6 ⊕ ι → ℝ) ∘ sysIdx) = 0 := rfl
  have hη : angularMomentum s.comPos L ((0 : Fin 6 ⊕ ι → ℝ) ∘ sysIdx) = 0 := by
    rw [hq]
    unfold angularMomentum
    refine List.sum_eq_zero fun x hx => ?_
    obtain ⟨l, -, rfl⟩ := List.mem_map.mp hx
    simp
  rw [hη, hq, mulVec_zero] at h0 h1
  have hM := mass_pos hm hL
  simp only [Pi.zero_apply, add_zero, mul_zero, neg_zero, sub_zero] at h0 h1
  have hM' : mass L * 9.81 ≠ 0 := by positivity
  have p0 := (mul_eq_zero.mp h0).resolve_left hM'
  have p1 := (mul_eq_zero.mp h1).resolve_left hM'
  rw [hp]
  congr 1
  ext i
  fin_cases i
  · exact sub_eq_zero.mp p0
  · exact sub_eq_zero.mp p1
  · exact hpz

end Zmp

end Verif.Props
