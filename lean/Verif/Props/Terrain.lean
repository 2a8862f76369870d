import Verif.Props.Supply
import Verif.Lemmas.Terrain

/-!
# C103: where a robot can stand, on any terrain
-/

set_option linter.unusedSectionVars false

namespace Verif.Props
open Matrix Verif Verif.Spec Verif.Model Verif.Lemmas

variable {ι : Type} [Fintype ι] [DecidableEq ι] {n k : ℕ} {cs : List ContactLink}

/-- Where the centre of mass may be for the robot to stand on the feet that are switched on. -/
def standRegion (cs : List ContactLink) (hk : k = (active cs).length) (p : Fin k → Vec3) : Set Vec3 :=
  supportRegion p (fun i => (footAt cs hk i).rotm) (fun i => (footAt cs hk i).planeX) (fun i => (footAt cs hk i).planeY)
    (fun i => (footAt cs hk i).friction) (fun i => (footAt cs hk i).frictionZ)

/-- Each foot that is switched on could carry the weight alone without slipping. -/
def FeetFooting (cs : List ContactLink) (hk : k = (active cs).length) : Prop :=
  Footing (fun i => (footAt cs hk i).rotm) (fun i => (footAt cs hk i).planeX) (fun i => (footAt cs hk i).planeY)
    (fun i => (footAt cs hk i).friction) (fun i => (footAt cs hk i).frictionZ)

/-- The soles that are switched on lie in one plane. -/
def FeetInPlane (Q : Mat3) (cs : List ContactLink) (hk : k = (active cs).length) (p : Fin k → Vec3) : Prop :=
  InPlane Q p fun i => (footAt cs hk i).rotm

/-- **C103 (a convex prism).**  Where a robot can stand depends only on where its centre of mass is seen from above, and from two places also every place
between them will do. -/
theorem C103_prism (hk : k = (active cs).length) (p : Fin k → Vec3) (hp : ∀ l ∈ cs, 0 < l.planeX ∧ 0 < l.planeY) :
    Convex ℝ (standRegion cs hk p) ∧ ∀ c ∈ standRegion cs hk p, ∀ c', c' 0 = c 0 → c' 1 = c 1 → c' ∈ standRegion cs hk p := by
  refine ⟨supply_convex (fun i => hp _ (footAt_mem hk i)) _, fun c hc c' h0 h1 => ?_⟩
  have e : c' = c + ![0, 0, c' 2 - c 2] := by
    funext j
    fin_cases j
    · show c' 0 = c 0 + 0
      rw [h0, add_zero]
    · show c' 1 = c 1 + 0
      rw [h1, add_zero]
    · show c' 2 = c 2 + (c' 2 - c 2)
      ring
  rw [e]
  exact supply_vertical _ hc

/-- **C103 (the soles are enough).**  If every foot could carry the weight alone without slipping, a robot can stand with its centre of mass above or below
any point of the convex hull of its soles, whatever their heights and directions. -/
theorem C103_hull (hk : k = (active cs).length) (p : Fin k → Vec3) (hp : ∀ l ∈ cs, 0 < l.planeX ∧ 0 < l.planeY) (hrot : ∀ l ∈ active cs, IsRot l.rotm)
    (hg : FeetFooting cs hk) {c : Vec3} (hc : ∃ h, ![c 0, c 1, h] ∈ polygon cs hk p) : c ∈ standRegion cs hk p := by
  obtain ⟨h, hc⟩ := hc
  exact (C103_prism hk p hp).2 _ (hull_supply (fun i => hrot _ (List.getElem_mem _)) (fun i => hp _ (footAt_mem hk i)) hg hc) c rfl rfl

/-- **C103 (slopes).**  On soles in one plane, level or inclined, nothing else will do: the centre of mass has to be above or below a point of the convex
hull of the soles. -/
theorem C103_slope (hk : k = (active cs).length) (hk0 : 0 < k) {p : Fin k → Vec3} (hp : ∀ l ∈ cs, 0 < l.planeX ∧ 0 < l.planeY) {Q : Mat3}
    (hQ : FeetInPlane Q cs hk p) (hv : upIn Q 2 ≠ 0) {c : Vec3} (hc : c ∈ standRegion cs hk p) : ∃ h, ![c 0, c 1, h] ∈ polygon cs hk p :=
  plane_supply hk0 hQ (fun i => hp _ (footAt_mem hk i)) hv hc

/-- **C103 (too steep).**  On parallel soles too steep for their friction a robot cannot stand, wherever its centre of mass. -/
theorem C103_too_steep (hk : k = (active cs).length) (p : Fin k → Vec3) (hp : ∀ l ∈ cs, 0 < l.planeX ∧ 0 < l.planeY) {Q : Mat3} {m : ℝ}
    (hQ : ∀ l ∈ active cs, l.rotm = Q ∧ l.friction ≤ m) (hs : m * upIn Q 2 < |upIn Q 0| ∨ m * upIn Q 2 < |upIn Q 1|) : standRegion cs hk p = ∅ :=
  steep_supply (fun i => (hQ _ (List.getElem_mem _)).1) (fun i => hp _ (footAt_mem hk i)) (fun i => (hQ _ (List.getElem_mem _)).2) hs

section
variable {L : List (MovingLink (Sys ι))} {x0 : Vec3} {R0 : Mat3} {g : Fin k → Foot ι} {p : Fin k → Vec3} {qd : Sys ι → ℝ}
  {s : WholeBody ι}

/-- **C103 (standing).**  Some joint torque holds the robot still without a foot tipping or slipping, if and only if its centre of mass is in the support
region of its feet: whatever the heights and directions of the soles, and whatever the mass. -/
theorem C103_stands_iff (hR : IsRot R0) (hL : L ≠ []) (hm : ∀ l ∈ L, 0 < l.m) (hI : ∀ l ∈ L, l.I.PosDef) (hb : ∀ l ∈ L, FloatingBase x0 R0 l)
    (hf : ∀ i, RidesOnBase x0 R0 (p i) (g i).jac) (hs : updateKinematics true (massMatrix L) x0 R0 (mass L) qd = some s)
    (hk : k = (active cs).length) (hc : 6 * k = 6 * (active cs).length) (hp : ∀ l ∈ cs, 0 < l.planeX ∧ 0 < l.planeY) :
    (∃ τ F, Motion (ctrlMass L) (stackFn g) (s.G ∘ sysIdx.symm) τ 0 F ∧ ContactsHold cs (F ∘ Fin.cast hc.symm)) ↔ s.comPos ∈ standRegion cs hk p := by
  have hM : 0 < 9.81 * mass L := mul_pos (by norm_num) (mass_pos hm hL)
  rw [C101_motion_iff hR hL hm hI hb hf hs hk hc (show ContactsFixed (stackFn g) 0 from mulVec_zero _)]
  have hq0 : ((0 : Fin 6 ⊕ ι → ℝ) ∘ sysIdx) = 0 := rfl
  have hη : angularMomentum s.comPos L ((0 : Fin 6 ⊕ ι → ℝ) ∘ sysIdx) = 0 := by
    rw [hq0]
    unfold angularMomentum
    refine List.sum_eq_zero fun x hx => ?_
    obtain ⟨l, -, rfl⟩ := List.mem_map.mp hx
    simp
  have he : mass L • (earth - s.jacLin *ᵥ ((0 : Fin 6 ⊕ ι → ℝ) ∘ sysIdx)) = (9.81 * mass L) • ![0, 0, -1] := by
    rw [hq0, mulVec_zero, sub_zero]
    have : earth = ![0, 0, -9.81] := by funext j; fin_cases j <;> rfl
    rw [this]
    funext j; fin_cases j <;> simp; ring
  rw [hη, he, neg_zero]
  have hl : ∀ i, 0 < (footAt cs hk i).planeX ∧ 0 < (footAt cs hk i).planeY := fun i => hp _ (footAt_mem hk i)
  constructor
  · intro h
    have := supply_scale hl (inv_nonneg.mpr hM.le) h
    rwa [smul_smul, inv_mul_cancel₀ hM.ne', one_smul, smul_zero] at this
  · intro h
    have := supply_scale hl hM.le h
    rwa [smul_zero] at this

/-- **C103 (standing on a slope).**  On soles in one plane, level or inclined, each with footing, a robot can stand if and only if its centre of mass is above
or below a point of the convex hull of its soles. -/
theorem C103_slope_iff (hR : IsRot R0) (hL : L ≠ []) (hm : ∀ l ∈ L, 0 < l.m) (hI : ∀ l ∈ L, l.I.PosDef) (hb : ∀ l ∈ L, FloatingBase x0 R0 l)
    (hf : ∀ i, RidesOnBase x0 R0 (p i) (g i).jac) (hs : updateKinematics true (massMatrix L) x0 R0 (mass L) qd = some s)
    (hk : k = (active cs).length) (hc : 6 * k = 6 * (active cs).length) (hk0 : 0 < k) (hp : ∀ l ∈ cs, 0 < l.planeX ∧ 0 < l.planeY)
    (hrot : ∀ l ∈ active cs, IsRot l.rotm) {Q : Mat3} (hQ : FeetInPlane Q cs hk p) (hv : upIn Q 2 ≠ 0) (hg : FeetFooting cs hk) :
    (∃ τ F, Motion (ctrlMass L) (stackFn g) (s.G ∘ sysIdx.symm) τ 0 F ∧ ContactsHold cs (F ∘ Fin.cast hc.symm)) ↔
      ∃ h, ![s.comPos 0, s.comPos 1, h] ∈ polygon cs hk p :=
  (C103_stands_iff hR hL hm hI hb hf hs hk hc hp).trans ⟨C103_slope hk hk0 hp hQ hv, C103_hull hk p hp hrot hg⟩

end

variable {L : List (MovingLink (Sys (Fin n)))} {x0 : Vec3} {R0 : Mat3} {g : Fin k → Foot (Fin n)} {p : Fin k → Vec3} {qd : Sys (Fin n) → ℝ}
  {s : WholeBody (Fin n)}

/-- **C103 (redistribution).**  Without torque limits, redistribution of a torque that would hold the robot still succeeds if and only if the centre of mass
is in the support region. -/
theorem C103_redistribute_iff (hR : IsRot R0) (hL : L ≠ []) (hm : ∀ l ∈ L, 0 < l.m) (hI : ∀ l ∈ L, l.I.PosDef) (hb : ∀ l ∈ L, FloatingBase x0 R0 l)
    (hf : ∀ i, RidesOnBase x0 R0 (p i) (g i).jac) (hs : updateKinematics true (massMatrix L) x0 R0 (mass L) qd = some s)
    (hA : IsSPD (ctrlMass L)) (R : QPRobot n (6 * k)) (hS : contactSpace (stackFn g) (ctrlMass L)⁻¹ = some R.S)
    (hP : R.P = Model.gravityForce R.S (s.G ∘ sysIdx.symm)) (h6 : ∀ l ∈ R.cs, l.type = .c6d)
    (hk : k = (active R.cs).length) (hk1 : 1 < k) (hp : ∀ l ∈ R.cs, 0 < l.planeX ∧ 0 < l.planeY)
    (cod : (W : Matrix (Fin n) (Fin n) ℝ) → CodNull W) {v m : ℕ} {V2 : Matrix (Fin m) (Fin n) ℝ}
    (hR' : calculateContactConstraint (stackFn g) (ctrlMass L)⁻¹ cod = .ret v R.S (some ⟨m, V2, R.NwJw⟩)) {solve : RSolver} (hsolve : solve.Exact)
    (hcomp : solve.Complete) (hlim : R.limit = none)
    {base τc : Fin n → ℝ} {F : Fin (6 * k) → ℝ} (hM : Motion (ctrlMass L) (stackFn g) (s.G ∘ sysIdx.symm) (base + τc) 0 F) :
    (∃ τc', redistribute R solve (base + τc) τc = some (1, τc')) ↔ s.comPos ∈ standRegion R.cs hk p := by
  have hc : 6 * k = 6 * (active R.cs).length := congrArg (6 * ·) hk
  rw [← C103_stands_iff hR hL hm hI hb hf hs hk hc hp]
  constructor
  · rintro ⟨τc', h⟩
    obtain ⟨qdd, hM'⟩ := (C01_contact_force_exact hA hS (s.G ∘ sysIdx.symm) (base + τc')).1
    have hq := C10_motion_unchanged hA R (by omega) cod hR' h hM hM'
    subst hq
    exact ⟨_, _, hM', (C10_safe hA R hS hP h6 hp hc (by omega) (fun k d x hx => (hsolve k d x hx).1) h).2 _ _ hM'⟩
  · rintro ⟨τ, F', hτ, hF'⟩
    refine (C10_succeeds_iff hA R hS hP h6 hp hc (by omega) cod hR' hsolve hcomp base τc).mpr ⟨τ - base, by simp [hlim], ?_⟩
    intro q1 F1 q2 F2 m1 m2
    rw [add_sub_cancel] at m2
    obtain ⟨-, u1, u2⟩ := C01_contact_force_exact hA hS (s.G ∘ sysIdx.symm) τ
    obtain rfl := (u1 _ _ m2).trans (u1 _ _ hτ).symm
    exact ⟨(u2 _ _ _ _ m2 hτ).trans ((C01_contact_force_exact hA hS (s.G ∘ sysIdx.symm) (base + τc)).2.2 _ _ _ _ hM m1), hF'⟩

/-- **C103 (a robot that would fall is reported).**  With the centre of mass outside the support region, redistribution of a torque that would hold the robot
still returns 0 and no contact torque. -/
theorem C103_topples (hR : IsRot R0) (hL : L ≠ []) (hm : ∀ l ∈ L, 0 < l.m) (hI : ∀ l ∈ L, l.I.PosDef) (hb : ∀ l ∈ L, FloatingBase x0 R0 l)
    (hf : ∀ i, RidesOnBase x0 R0 (p i) (g i).jac) (hs : updateKinematics true (massMatrix L) x0 R0 (mass L) qd = some s)
    (hA : IsSPD (ctrlMass L)) (R : QPRobot n (6 * k)) (hS : contactSpace (stackFn g) (ctrlMass L)⁻¹ = some R.S)
    (hP : R.P = Model.gravityForce R.S (s.G ∘ sysIdx.symm)) (h6 : ∀ l ∈ R.cs, l.type = .c6d)
    (hk : k = (active R.cs).length) (hk1 : 1 < k) (hp : ∀ l ∈ R.cs, 0 < l.planeX ∧ 0 < l.planeY)
    (cod : (W : Matrix (Fin n) (Fin n) ℝ) → CodNull W) {v m : ℕ} {V2 : Matrix (Fin m) (Fin n) ℝ}
    (hR' : calculateContactConstraint (stackFn g) (ctrlMass L)⁻¹ cod = .ret v R.S (some ⟨m, V2, R.NwJw⟩)) {solve : RSolver} (hsolve : solve.Sound)
    {base τc : Fin n → ℝ} {F : Fin (6 * k) → ℝ} (hM : Motion (ctrlMass L) (stackFn g) (s.G ∘ sysIdx.symm) (base + τc) 0 F)
    (hout : s.comPos ∉ standRegion R.cs hk p) : redistribute R solve (base + τc) τc = some (0, 0) := by
  have hc : 6 * k = 6 * (active R.cs).length := congrArg (6 * ·) hk
  have hno : ∀ τc', redistribute R solve (base + τc) τc ≠ some (1, τc') := by
    intro τc' h
    refine hout ((C103_stands_iff hR hL hm hI hb hf hs hk hc hp).mp ?_)
    obtain ⟨qdd, hM'⟩ := (C01_contact_force_exact hA hS (s.G ∘ sysIdx.symm) (base + τc')).1
    have hq := C10_motion_unchanged hA R (by omega) cod hR' h hM hM'
    subst hq
    exact ⟨_, _, hM', (C10_safe hA R hS hP h6 hp hc (by omega) hsolve h).2 _ _ hM'⟩
  obtain ⟨C, e, -⟩ := stackC_holds (c := 6 * k) h6 hp (congrArg (6 * ·) hk)
  unfold redistribute at hno ⊢
  rw [if_pos (show 6 * k > 6 by omega)] at hno ⊢
  simp only [QPRobot.C, e] at hno ⊢
  split
  · rename_i hq
    simp only [hq] at hno
    exact absurd rfl (hno _)
  · rfl

/-- **C103 (QP task control).**  Without torque limits and with the centre of mass in the support region QP task control succeeds, whatever the tasks and
their commands. -/
theorem C103_never_fails (hR : IsRot R0) (hL : L ≠ []) (hm : ∀ l ∈ L, 0 < l.m) (hI : ∀ l ∈ L, l.I.PosDef) (hb : ∀ l ∈ L, FloatingBase x0 R0 l)
    (hf : ∀ i, RidesOnBase x0 R0 (p i) (g i).jac) (hs : updateKinematics true (massMatrix L) x0 R0 (mass L) qd = some s)
    (hA : IsSPD (ctrlMass L)) (R : QPRobot n (6 * k)) (hS : contactSpace (stackFn g) (ctrlMass L)⁻¹ = some R.S)
    (hP : R.P = Model.gravityForce R.S (s.G ∘ sysIdx.symm)) (hg : R.τg = gravityTorque R.S (ctrlMass L)⁻¹ (s.G ∘ sysIdx.symm))
    (h6 : ∀ l ∈ R.cs, l.type = .c6d)
    (hk : k = (active R.cs).length) (hk1 : 1 < k) (hp : ∀ l ∈ R.cs, 0 < l.planeX ∧ 0 < l.planeY)
    (cod : (W : Matrix (Fin n) (Fin n) ℝ) → CodNull W) {v m : ℕ} {V2 : Matrix (Fin m) (Fin n) ℝ}
    (hR' : calculateContactConstraint (stackFn g) (ctrlMass L)⁻¹ cod = .ret v R.S (some ⟨m, V2, R.NwJw⟩)) {solve : Solver} (hsolve : solve.Sound)
    (hcomp : solve.Complete) (hlim : R.limit = none) (hcom : s.comPos ∈ standRegion R.cs hk p) (ts : List (TaskReady (Fin n))) :
    ∃ τt τc, calcTaskControlTorqueQP R solve ts = .ret 1 τt τc := by
  have hc : 6 * k = 6 * (active R.cs).length := congrArg (6 * ·) hk
  obtain ⟨τ, F', hτ, hF'⟩ := (C103_stands_iff hR hL hm hI hb hf hs hk hc hp).mpr hcom
  obtain ⟨q0, h0⟩ := (C01_contact_force_exact hA hS (s.G ∘ sysIdx.symm) R.τg).1
  have hq0 : q0 = 0 := by
    rw [hg] at h0
    exact (C03_gravity_compensation hA hS _ h0).2 (C03_feet_determine_base hR (by omega) hf)
  subst hq0
  have e : R.τg + (τ - R.τg) = τ := add_sub_cancel _ _
  refine C60_never_fails hA hS hP h6 hp hc (by omega) cod hR' hsolve hcomp (δ := τ - R.τg) (movesNothing_of_same hA h0 (e.symm ▸ hτ)) ?_ ts
  rw [e]
  refine ⟨by simp [hlim], fun qdd F h => ?_⟩
  have u := (C01_contact_force_exact hA hS (s.G ∘ sysIdx.symm) τ).2.1
  rwa [(u _ _ h).trans (u _ _ hτ).symm]

end Verif.Props
