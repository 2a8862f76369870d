import Verif.Props.Weight
import Verif.Lemmas.Stance
import Verif.Props.QPControl
import Verif.Props.QPFail
import Verif.Props.FollowedQP

/-!
# C100: the centre of mass and the support polygon
-/

set_option linter.unusedSectionVars false

namespace Verif.Props
open Matrix Verif Verif.Spec Verif.Model Verif.Lemmas

variable {ι : Type} [Fintype ι] [DecidableEq ι] {n k : ℕ} {cs : List ContactLink}

/-- The `i`-th contact that is switched on. -/
abbrev footAt (cs : List ContactLink) (hk : k = (active cs).length) (i : Fin k) : ContactLink := (active cs)[Fin.cast hk i]

/-- The support polygon of the contacts switched on, with soles at the points `p`. -/
def polygon (cs : List ContactLink) (hk : k = (active cs).length) (p : Fin k → Vec3) : Set Vec3 :=
  supportPolygon p (fun i => (footAt cs hk i).rotm) (fun i => (footAt cs hk i).planeX) (fun i => (footAt cs hk i).planeY)

theorem holds_cast (hk : k = (active cs).length) (hc : 6 * k = 6 * (active cs).length) (F : Fin (6 * k) → ℝ) :
    ContactsHold cs (F ∘ Fin.cast hc.symm) ↔ ∀ i, NoTip (footAt cs hk i).planeX (footAt cs hk i).planeY (inFrame (footAt cs hk i).rotm (wrenchOf F i)) ∧
      NoSlip (footAt cs hk i).friction (footAt cs hk i).frictionZ (inFrame (footAt cs hk i).rotm (wrenchOf F i)) := by
  subst hk
  exact Iff.rfl

theorem footAt_mem (hk : k = (active cs).length) (i : Fin k) : footAt cs hk i ∈ cs := List.mem_of_mem_filter (List.getElem_mem _)

section
variable {L : List (MovingLink (Sys ι))} {x0 : Vec3} {R0 : Mat3} {g : Fin k → Foot ι} {p : Fin k → Vec3} {qd : Sys ι → ℝ}
  {s : WholeBody ι}

/-- **C100 (any motion).**  Whatever torque is applied: if the feet, flat on level ground, neither tip nor slip, some point of the support polygon obeys the
equation of the cart on a table. -/
theorem C100_motion (hR : IsRot R0) (hL : L ≠ []) (hm : ∀ l ∈ L, 0 < l.m) (hI : ∀ l ∈ L, l.I.PosDef) (hb : ∀ l ∈ L, FloatingBase x0 R0 l)
    (hf : ∀ i, RidesOnBase x0 R0 (p i) (g i).jac) (hs : updateKinematics true (massMatrix L) x0 R0 (mass L) qd = some s)
    (hA : IsSPD (ctrlMass L)) {S : ContactSpace (6 * k) ι} (hS : contactSpace (stackFn g) (ctrlMass L)⁻¹ = some S)
    (hk : k = (active cs).length) (hc : 6 * k = 6 * (active cs).length) (hk0 : 0 < k) (hp : ∀ l ∈ cs, 0 < l.planeX ∧ 0 < l.planeY)
    (hflat : ∀ l ∈ active cs, Flat l.rotm) {z : ℝ} (hz : ∀ i, p i 2 = z) {τ : ι → ℝ} {qdd : Fin 6 ⊕ ι → ℝ} {F : Fin (6 * k) → ℝ}
    (h : Motion (ctrlMass L) (stackFn g) (s.G ∘ sysIdx.symm) τ qdd F) (hF : ContactsHold cs (F ∘ Fin.cast hc.symm)) :
    let a := s.jacLin *ᵥ (qdd ∘ sysIdx)
    let η := angularMomentum s.comPos L (qdd ∘ sysIdx)
    ∃ q ∈ polygon cs hk p, q 2 = z ∧
      mass L * (9.81 + a 2) * (q 0 - s.comPos 0) = -(mass L * (s.comPos 2 - z) * a 0) - η 1 ∧
      mass L * (9.81 + a 2) * (q 1 - s.comPos 1) = -(mass L * (s.comPos 2 - z) * a 1) + η 0 := by
  intro a η
  obtain ⟨q, hq, hq2, hmom⟩ := zmp_in_polygon (p := p) (R := fun i => (footAt cs hk i).rotm) (lx := fun i => (footAt cs hk i).planeX)
    (ly := fun i => (footAt cs hk i).planeY) hk0 hz (fun i => hflat _ (List.getElem_mem _)) (fun i => hp _ (footAt_mem hk i))
    (w := wrenchOf F) fun i => ((holds_cast hk hc F).mp hF i).1
  obtain ⟨h1, h2⟩ := C99_balance hR hL hm hI hb hf hs hA hS τ h
  rw [← (C01_contact_force_exact hA hS _ τ).2.1 _ _ h] at h1 h2
  exact ⟨q, hq, hq2, cart_table h1 h2 hq2 hmom⟩

/-- **C100 (who can stand).**  Some torque holds the robot still on its feet, flat on level ground, so that none tips or slips, if and only if the
reported centre of mass is above the support polygon. -/
theorem C100_stands_iff (hR : IsRot R0) (hL : L ≠ []) (hm : ∀ l ∈ L, 0 < l.m) (hI : ∀ l ∈ L, l.I.PosDef) (hb : ∀ l ∈ L, FloatingBase x0 R0 l)
    (hf : ∀ i, RidesOnBase x0 R0 (p i) (g i).jac) (hs : updateKinematics true (massMatrix L) x0 R0 (mass L) qd = some s)
    (hA : IsSPD (ctrlMass L)) {S : ContactSpace (6 * k) ι} (hS : contactSpace (stackFn g) (ctrlMass L)⁻¹ = some S)
    (hk : k = (active cs).length) (hc : 6 * k = 6 * (active cs).length) (hk0 : 0 < k) (hp : ∀ l ∈ cs, 0 < l.planeX ∧ 0 < l.planeY)
    (hμ : ∀ l ∈ active cs, 0 ≤ l.friction ∧ 0 ≤ l.frictionZ) (hflat : ∀ l ∈ active cs, Flat l.rotm) {z : ℝ} (hz : ∀ i, p i 2 = z) :
    (∃ τ F, Motion (ctrlMass L) (stackFn g) (s.G ∘ sysIdx.symm) τ 0 F ∧ ContactsHold cs (F ∘ Fin.cast hc.symm)) ↔
      ![s.comPos 0, s.comPos 1, z] ∈ polygon cs hk p := by
  have hM := mass_pos hm hL
  constructor
  · rintro ⟨τ, F, h, hF⟩
    obtain ⟨q, hq, hq2, h0, h1⟩ := C100_motion hR hL hm hI hb hf hs hA hS hk hc hk0 hp hflat hz h hF
    have hq0 : ((0 : Fin 6 ⊕ ι → ℝ) ∘ sysIdx) = 0 := rfl
    have hη : angularMomentum s.comPos L ((0 : Fin 6 ⊕ ι → ℝ) ∘ sysIdx) = 0 := by
      rw [hq0]
      unfold angularMomentum
      refine List.sum_eq_zero fun x hx => ?_
      obtain ⟨l, -, rfl⟩ := List.mem_map.mp hx
      simp
    rw [hη, hq0, mulVec_zero] at h0 h1
    simp only [Pi.zero_apply, add_zero, mul_zero, neg_zero, sub_zero] at h0 h1
    have hM' : mass L * 9.81 ≠ 0 := by positivity
    have e : q = ![s.comPos 0, s.comPos 1, z] := by
      funext i
      fin_cases i
      · exact sub_eq_zero.mp ((mul_eq_zero.mp h0).resolve_left hM')
      · exact sub_eq_zero.mp ((mul_eq_zero.mp h1).resolve_left hM')
      · exact hq2
    rwa [← e]
  · intro hcom
    obtain ⟨w, hw, hfw, hmw⟩ := carried_of_polygon (p := p) (R := fun i => (footAt cs hk i).rotm) (lx := fun i => (footAt cs hk i).planeX)
      (ly := fun i => (footAt cs hk i).planeY) (fun i => hflat _ (List.getElem_mem _)) (fun i => hp _ (footAt_mem hk i))
      (μ := fun i => (footAt cs hk i).friction) (μz := fun i => (footAt cs hk i).frictionZ) (fun i => hμ _ (List.getElem_mem _))
      (P := 9.81 * mass L) (by positivity) hcom
    let F : Fin (6 * k) → ℝ := fun r => w (wrenchPlace.symm r).1 (wrenchPlace.symm r).2
    have hFw : ∀ i, wrenchOf F i = w i := by
      intro i
      funext j
      have e : (⟨6 * i + j, by omega⟩ : Fin (6 * k)) = wrenchPlace (i, j) := Fin.ext (wrenchPlace_val i j).symm
      show F _ = _
      simp only [F]
      rw [e, Equiv.symm_apply_apply]
    obtain ⟨s', hs', hcm, -, -, -, -, hG, -⟩ := C25_com_partial hR hL hm hI hb qd
    obtain rfl : s = s' := Option.some.inj (hs.symm.trans hs')
    obtain ⟨τ, h⟩ := (C99_held_iff hR hb hf earth F).mpr ⟨by
        simp only [hFw]
        rw [hfw]
        funext i; fin_cases i <;> simp [earth, mul_comm], by
        simp only [hFw]
        rw [hmw, ← show mass L • s.comPos = _ from hcm, map_smul]
        have c0 := cross0; have c1 := cross1; have c2 := cross2
        funext i
        fin_cases i
        · simp only [Fin.zero_eta, LinearMap.smul_apply, Pi.smul_apply, smul_eq_mul, cross0, earth, cons_val]; ring
        · simp only [Fin.mk_one, LinearMap.smul_apply, Pi.smul_apply, smul_eq_mul, cross1, earth, cons_val]; ring
        · simp only [Fin.reduceFinMk, LinearMap.smul_apply, Pi.smul_apply, smul_eq_mul, cross2, earth, cons_val]; ring⟩
    refine ⟨τ, F, by rw [hG]; exact h, (holds_cast hk hc F).mpr fun i => ?_⟩
    rw [hFw]
    exact hw i

end

variable {L : List (MovingLink (Sys (Fin n)))} {x0 : Vec3} {R0 : Mat3} {g : Fin k → Foot (Fin n)} {p : Fin k → Vec3} {qd : Sys (Fin n) → ℝ}
  {s : WholeBody (Fin n)}

/-- **C100 (QP task control).**  Whenever QP task control reports success on level ground, the motion it commands has its zero moment point in the support
polygon, whatever the tasks. -/
theorem C100_task_control (hR : IsRot R0) (hL : L ≠ []) (hm : ∀ l ∈ L, 0 < l.m) (hI : ∀ l ∈ L, l.I.PosDef) (hb : ∀ l ∈ L, FloatingBase x0 R0 l)
    (hf : ∀ i, RidesOnBase x0 R0 (p i) (g i).jac) (hs : updateKinematics true (massMatrix L) x0 R0 (mass L) qd = some s)
    (hA : IsSPD (ctrlMass L)) (R : QPRobot n (6 * k)) (hS : contactSpace (stackFn g) (ctrlMass L)⁻¹ = some R.S)
    (hP : R.P = Model.gravityForce R.S (s.G ∘ sysIdx.symm)) (h6 : ∀ l ∈ R.cs, l.type = .c6d)
    (hk : k = (active R.cs).length) (hk0 : 0 < k) (hp : ∀ l ∈ R.cs, 0 < l.planeX ∧ 0 < l.planeY) (hflat : ∀ l ∈ active R.cs, Flat l.rotm) {z : ℝ}
    (hz : ∀ i, p i 2 = z) {solve : Solver} (hsolve : solve.Sound) {ts : List (TaskReady (Fin n))} (hts : ts ≠ []) {τt τc : Fin n → ℝ}
    (h : calcTaskControlTorqueQP R solve ts = .ret 1 τt τc) :
    ∃ qdd F, Motion (ctrlMass L) (stackFn g) (s.G ∘ sysIdx.symm) (R.τg + τt + τc) qdd F ∧
      let a := s.jacLin *ᵥ (qdd ∘ sysIdx)
      let η := angularMomentum s.comPos L (qdd ∘ sysIdx)
      ∃ q ∈ polygon R.cs hk p, q 2 = z ∧
        mass L * (9.81 + a 2) * (q 0 - s.comPos 0) = -(mass L * (s.comPos 2 - z) * a 0) - η 1 ∧
        mass L * (9.81 + a 2) * (q 1 - s.comPos 1) = -(mass L * (s.comPos 2 - z) * a 1) + η 0 := by
  have hc : 6 * k = 6 * (active R.cs).length := congrArg (6 * ·) hk
  obtain ⟨qdd, hM⟩ := (C01_contact_force_exact hA hS (s.G ∘ sysIdx.symm) (R.τg + τt + τc)).1
  exact ⟨qdd, _, hM, C100_motion hR hL hm hI hb hf hs hA hS hk hc hk0 hp hflat hz hM (C09_contacts_hold hA R hS hP h6 hp hc hsolve hts h hM)⟩

/-- **C100 (redistribution).**  A torque that holds the robot still is given to contact redistribution, with more than one foot on the ground.  Success means
that the centre of mass is above the support polygon. -/
theorem C100_redistribute (hR : IsRot R0) (hL : L ≠ []) (hm : ∀ l ∈ L, 0 < l.m) (hI : ∀ l ∈ L, l.I.PosDef) (hb : ∀ l ∈ L, FloatingBase x0 R0 l)
    (hf : ∀ i, RidesOnBase x0 R0 (p i) (g i).jac) (hs : updateKinematics true (massMatrix L) x0 R0 (mass L) qd = some s)
    (hA : IsSPD (ctrlMass L)) (R : QPRobot n (6 * k)) (hS : contactSpace (stackFn g) (ctrlMass L)⁻¹ = some R.S)
    (hP : R.P = Model.gravityForce R.S (s.G ∘ sysIdx.symm)) (h6 : ∀ l ∈ R.cs, l.type = .c6d)
    (hk : k = (active R.cs).length) (hk1 : 1 < k) (hp : ∀ l ∈ R.cs, 0 < l.planeX ∧ 0 < l.planeY)
    (hμ : ∀ l ∈ active R.cs, 0 ≤ l.friction ∧ 0 ≤ l.frictionZ) (hflat : ∀ l ∈ active R.cs, Flat l.rotm) {z : ℝ}
    (hz : ∀ i, p i 2 = z) (cod : (W : Matrix (Fin n) (Fin n) ℝ) → CodNull W) {v m : ℕ} {V2 : Matrix (Fin m) (Fin n) ℝ}
    (hR' : calculateContactConstraint (stackFn g) (ctrlMass L)⁻¹ cod = .ret v R.S (some ⟨m, V2, R.NwJw⟩)) {solve : RSolver} (hsolve : solve.Sound)
    {base τc τc' : Fin n → ℝ} {F : Fin (6 * k) → ℝ} (hM : Motion (ctrlMass L) (stackFn g) (s.G ∘ sysIdx.symm) (base + τc) 0 F)
    (h : redistribute R solve (base + τc) τc = some (1, τc')) : ![s.comPos 0, s.comPos 1, z] ∈ polygon R.cs hk p := by
  have hc : 6 * k = 6 * (active R.cs).length := congrArg (6 * ·) hk
  obtain ⟨qdd, hM'⟩ := (C01_contact_force_exact hA hS (s.G ∘ sysIdx.symm) (base + τc')).1
  have hq := C10_motion_unchanged hA R (by omega) cod hR' h hM hM'
  subst hq
  exact (C100_stands_iff hR hL hm hI hb hf hs hA hS hk hc (by omega) hp hμ hflat hz).mp
    ⟨_, _, hM', (C10_safe hA R hS hP h6 hp hc (by omega) hsolve h).2 _ _ hM'⟩

/-- **C100 (redistribution without torque limits).**  Then it also succeeds whenever the centre of mass is above the support polygon. -/
theorem C100_redistribute_iff (hR : IsRot R0) (hL : L ≠ []) (hm : ∀ l ∈ L, 0 < l.m) (hI : ∀ l ∈ L, l.I.PosDef) (hb : ∀ l ∈ L, FloatingBase x0 R0 l)
    (hf : ∀ i, RidesOnBase x0 R0 (p i) (g i).jac) (hs : updateKinematics true (massMatrix L) x0 R0 (mass L) qd = some s)
    (hA : IsSPD (ctrlMass L)) (R : QPRobot n (6 * k)) (hS : contactSpace (stackFn g) (ctrlMass L)⁻¹ = some R.S)
    (hP : R.P = Model.gravityForce R.S (s.G ∘ sysIdx.symm)) (h6 : ∀ l ∈ R.cs, l.type = .c6d)
    (hk : k = (active R.cs).length) (hk1 : 1 < k) (hp : ∀ l ∈ R.cs, 0 < l.planeX ∧ 0 < l.planeY)
    (hμ : ∀ l ∈ active R.cs, 0 ≤ l.friction ∧ 0 ≤ l.frictionZ) (hflat : ∀ l ∈ active R.cs, Flat l.rotm) {z : ℝ}
    (hz : ∀ i, p i 2 = z) (cod : (W : Matrix (Fin n) (Fin n) ℝ) → CodNull W) {v m : ℕ} {V2 : Matrix (Fin m) (Fin n) ℝ}
    (hR' : calculateContactConstraint (stackFn g) (ctrlMass L)⁻¹ cod = .ret v R.S (some ⟨m, V2, R.NwJw⟩)) {solve : RSolver} (hsolve : solve.Exact)
    (hcomp : solve.Complete) (hlim : R.limit = none)
    {base τc : Fin n → ℝ} {F : Fin (6 * k) → ℝ} (hM : Motion (ctrlMass L) (stackFn g) (s.G ∘ sysIdx.symm) (base + τc) 0 F) :
    (∃ τc', redistribute R solve (base + τc) τc = some (1, τc')) ↔ ![s.comPos 0, s.comPos 1, z] ∈ polygon R.cs hk p := by
  have hc : 6 * k = 6 * (active R.cs).length := congrArg (6 * ·) hk
  constructor
  · rintro ⟨τc', h⟩
    exact C100_redistribute hR hL hm hI hb hf hs hA R hS hP h6 hk hk1 hp hμ hflat hz cod hR' (fun k d x hx => (hsolve k d x hx).1) hM h
  · intro hcom
    obtain ⟨τ, F', hτ, hF'⟩ := (C100_stands_iff hR hL hm hI hb hf hs hA hS hk hc (by omega) hp hμ hflat hz).mpr hcom
    refine (C10_succeeds_iff hA R hS hP h6 hp hc (by omega) cod hR' hsolve hcomp base τc).mpr ⟨τ - base, by simp [hlim], ?_⟩
    intro q1 F1 q2 F2 m1 m2
    rw [add_sub_cancel] at m2
    obtain ⟨-, u1, u2⟩ := C01_contact_force_exact hA hS (s.G ∘ sysIdx.symm) τ
    obtain rfl := (u1 _ _ m2).trans (u1 _ _ hτ).symm
    exact ⟨(u2 _ _ _ _ m2 hτ).trans ((C01_contact_force_exact hA hS (s.G ∘ sysIdx.symm) (base + τc)).2.2 _ _ _ _ hM m1), hF'⟩

/-- **C100 (a toppling robot is reported).**  If the centre of mass is not above the support polygon, redistribution of a torque that would hold the robot
still returns 0 and no contact torque. -/
theorem C100_topples (hR : IsRot R0) (hL : L ≠ []) (hm : ∀ l ∈ L, 0 < l.m) (hI : ∀ l ∈ L, l.I.PosDef) (hb : ∀ l ∈ L, FloatingBase x0 R0 l)
    (hf : ∀ i, RidesOnBase x0 R0 (p i) (g i).jac) (hs : updateKinematics true (massMatrix L) x0 R0 (mass L) qd = some s)
    (hA : IsSPD (ctrlMass L)) (R : QPRobot n (6 * k)) (hS : contactSpace (stackFn g) (ctrlMass L)⁻¹ = some R.S)
    (hP : R.P = Model.gravityForce R.S (s.G ∘ sysIdx.symm)) (h6 : ∀ l ∈ R.cs, l.type = .c6d)
    (hk : k = (active R.cs).length) (hk1 : 1 < k) (hp : ∀ l ∈ R.cs, 0 < l.planeX ∧ 0 < l.planeY)
    (hμ : ∀ l ∈ active R.cs, 0 ≤ l.friction ∧ 0 ≤ l.frictionZ) (hflat : ∀ l ∈ active R.cs, Flat l.rotm) {z : ℝ}
    (hz : ∀ i, p i 2 = z) (cod : (W : Matrix (Fin n) (Fin n) ℝ) → CodNull W) {v m : ℕ} {V2 : Matrix (Fin m) (Fin n) ℝ}
    (hR' : calculateContactConstraint (stackFn g) (ctrlMass L)⁻¹ cod = .ret v R.S (some ⟨m, V2, R.NwJw⟩)) {solve : RSolver} (hsolve : solve.Sound)
    {base τc : Fin n → ℝ} {F : Fin (6 * k) → ℝ} (hM : Motion (ctrlMass L) (stackFn g) (s.G ∘ sysIdx.symm) (base + τc) 0 F)
    (hout : ![s.comPos 0, s.comPos 1, z] ∉ polygon R.cs hk p) : redistribute R solve (base + τc) τc = some (0, 0) := by
  have hno := fun τc' h => hout (C100_redistribute hR hL hm hI hb hf hs hA R hS hP h6 hk hk1 hp hμ hflat hz cod hR' hsolve (τc' := τc') hM h)
  obtain ⟨C, e, -⟩ := stackC_holds (c := 6 * k) h6 hp (congrArg (6 * ·) hk)
  unfold redistribute at hno ⊢
  rw [if_pos (show 6 * k > 6 by omega)] at hno ⊢
  simp only [QPRobot.C, e] at hno ⊢
  split
  · rename_i hq
    simp only [hq] at hno
    exact absurd rfl (hno _)
  · rfl

/-- **C100 (QP task control cannot fail over the support polygon).**  Without torque limits and with the centre of mass above the support polygon QP task
control succeeds, whatever the tasks and their commands. -/
theorem C100_never_fails (hR : IsRot R0) (hL : L ≠ []) (hm : ∀ l ∈ L, 0 < l.m) (hI : ∀ l ∈ L, l.I.PosDef) (hb : ∀ l ∈ L, FloatingBase x0 R0 l)
    (hf : ∀ i, RidesOnBase x0 R0 (p i) (g i).jac) (hs : updateKinematics true (massMatrix L) x0 R0 (mass L) qd = some s)
    (hA : IsSPD (ctrlMass L)) (R : QPRobot n (6 * k)) (hS : contactSpace (stackFn g) (ctrlMass L)⁻¹ = some R.S)
    (hP : R.P = Model.gravityForce R.S (s.G ∘ sysIdx.symm)) (hg : R.τg = gravityTorque R.S (ctrlMass L)⁻¹ (s.G ∘ sysIdx.symm))
    (h6 : ∀ l ∈ R.cs, l.type = .c6d)
    (hk : k = (active R.cs).length) (hk1 : 1 < k) (hp : ∀ l ∈ R.cs, 0 < l.planeX ∧ 0 < l.planeY)
    (hμ : ∀ l ∈ active R.cs, 0 ≤ l.friction ∧ 0 ≤ l.frictionZ) (hflat : ∀ l ∈ active R.cs, Flat l.rotm) {z : ℝ}
    (hz : ∀ i, p i 2 = z) (cod : (W : Matrix (Fin n) (Fin n) ℝ) → CodNull W) {v m : ℕ} {V2 : Matrix (Fin m) (Fin n) ℝ}
    (hR' : calculateContactConstraint (stackFn g) (ctrlMass L)⁻¹ cod = .ret v R.S (some ⟨m, V2, R.NwJw⟩)) {solve : Solver} (hsolve : solve.Sound)
    (hcomp : solve.Complete) (hlim : R.limit = none) (hcom : ![s.comPos 0, s.comPos 1, z] ∈ polygon R.cs hk p) (ts : List (TaskReady (Fin n))) :
    ∃ τt τc, calcTaskControlTorqueQP R solve ts = .ret 1 τt τc := by
  have hc : 6 * k = 6 * (active R.cs).length := congrArg (6 * ·) hk
  obtain ⟨τ, F', hτ, hF'⟩ := (C100_stands_iff hR hL hm hI hb hf hs hA hS hk hc (by omega) hp hμ hflat hz).mpr hcom
  obtain ⟨q0, h0⟩ := (C01_contact_force_exact hA hS (s.G ∘ sysIdx.symm) R.τg).1
  have hq0 : q0 = 0 := by
    rw [hg] at h0
    exact (C03_gravity_compensation hA hS _ h0).2 (C03_feet_determine_base hR (by omega) hf)
  subst hq0
  have e : R.τg + (τ - R.τg) = τ := add_sub_cancel _ _
  refine C60_never_fails hA hS hP h6 hp hc (by omega) cod hR' hsolve hcomp (δ := τ - R.τg) (movesNothing_of_same hA h0 (e.symm ▸ hτ)) ?_ ts
  rw [e]
  refine ⟨by simp [hlim], fun qdd F h => ?_⟩
  have u := (C01_contact_force_exact hA hS (s.G ∘ sysIdx.symm) τ).2.1
  rwa [(u _ _ h).trans (u _ _ hτ).symm]

/-- **C100 (the reported ZMP).**  With the contacts on the ground registered first and each pressing, `getZMP` of the forces reported after successful QP task
control is in the support polygon. -/
theorem C100_zmp {on off : List ZmpContact} {f : Fin on.length → Foot (Fin n)} (hR : IsRot R0) (hL : L ≠ []) (hm : ∀ l ∈ L, 0 < l.m)
    (hI : ∀ l ∈ L, l.I.PosDef) (hb : ∀ l ∈ L, FloatingBase x0 R0 l) (hon : ∀ c ∈ on, c.contact = true) (hoff : ∀ c ∈ off, c.contact = false)
    (hne : on ≠ []) {z : ℝ} (hz : ∀ c ∈ on, c.pos 2 = z)
    (hf : ∀ i, RidesOnBase x0 R0 on[i].pos (f i).jac) (hs : updateKinematics true (massMatrix L) x0 R0 (mass L) qd = some s)
    (hA : IsSPD (ctrlMass L)) (R : QPRobot n (6 * on.length)) (hS : contactSpace (stackFn f) (ctrlMass L)⁻¹ = some R.S)
    (hP : R.P = Model.gravityForce R.S (s.G ∘ sysIdx.symm)) (h6 : ∀ l ∈ R.cs, l.type = .c6d)
    (hk : on.length = (active R.cs).length) (hp : ∀ l ∈ R.cs, 0 < l.planeX ∧ 0 < l.planeY) (hflat : ∀ l ∈ active R.cs, Flat l.rotm)
    {solve : Solver} (hsolve : solve.Sound) {ts : List (TaskReady (Fin n))} (hts : ts ≠ []) {τt τc : Fin n → ℝ}
    (h : calcTaskControlTorqueQP R solve ts = .ret 1 τt τc)
    (hpress : ∀ j, 1 / 1000 ≤ press (wrenchOf (contactForce R.S R.P (R.τg + τt + τc)) j)) :
    ∃ q ∈ polygon R.cs hk (fun i => on[i].pos), getZMP (on ++ off) (contactForce R.S R.P (R.τg + τt + τc)) = .zmp q := by
  have hk0 : 0 < on.length := List.length_pos_iff.mpr hne
  obtain ⟨qdd, F, hM, q, hq, hq2, h0, h1⟩ := C100_task_control (p := fun i => on[i].pos) hR hL hm hI hb hf hs hA R hS hP h6 hk hk0 hp hflat
    (fun i => hz _ (List.getElem_mem _)) hsolve hts h
  rw [hP] at hpress ⊢
  obtain ⟨q', hzmp, hq2', h0', h1'⟩ := C99_zmp_partial (off := off) hR hL hm hI hb hon hoff hne hz hf hs hA hS _ hM hpress
  have hbal := congrFun (C99_balance (p := fun i => on[i].pos) hR hL hm hI hb hf hs hA hS _ hM).1 2
  have hpos : 0 < ∑ j, press (wrenchOf (contactForce R.S (Model.gravityForce R.S (s.G ∘ sysIdx.symm)) (R.τg + τt + τc)) j) := by
    haveI : Nonempty (Fin on.length) := ⟨⟨0, hk0⟩⟩
    exact Finset.sum_pos (fun j _ => lt_of_lt_of_le (by norm_num) (hpress j)) Finset.univ_nonempty
  have hw : mass L * (9.81 + (s.jacLin *ᵥ (qdd ∘ sysIdx)) 2) ≠ 0 := by
    have e : ∑ j, press (wrenchOf (contactForce R.S (Model.gravityForce R.S (s.G ∘ sysIdx.symm)) (R.τg + τt + τc)) j) =
        mass L * (9.81 + (s.jacLin *ᵥ (qdd ∘ sysIdx)) 2) := by
      rw [Finset.sum_apply] at hbal
      have g2 : earth 2 = -9.81 := rfl
      simp only [Pi.smul_apply, Pi.sub_apply, smul_eq_mul, g2] at hbal
      simp only [press, Finset.sum_neg_distrib]
      have : ∀ w : Fin 6 → ℝ, fpart w 2 = w 2 := fun w => rfl
      simp only [this] at hbal
      rw [hbal]; ring
    rw [← e]
    exact hpos.ne'
  have e : q' = q := by
    funext i
    fin_cases i
    · exact sub_left_injective (mul_left_cancel₀ hw (h0'.trans h0.symm))
    · exact sub_left_injective (mul_left_cancel₀ hw (h1'.trans h1.symm))
    · exact hq2'.trans hq2.symm
  exact ⟨q, hq, e ▸ hzmp⟩

end Verif.Props
