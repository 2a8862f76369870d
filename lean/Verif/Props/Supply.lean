import Verif.Props.Stance
import Verif.Props.Kept
import Verif.Lemmas.Supply

/-!
# C101: which commands the ground lets a robot follow
-/

set_option linter.unusedSectionVars false

namespace Verif.Props
open Matrix Verif Verif.Spec Verif.Model Verif.Lemmas

variable {ι : Type} [Fintype ι] [DecidableEq ι] {n k : ℕ} {cs : List ContactLink}

/-- The feet that are switched on can press with the force `f` and the moment `m` about `c`. -/
def FeetSupply (cs : List ContactLink) (hk : k = (active cs).length) (p : Fin k → Vec3) (c f m : Vec3) : Prop :=
  CanSupply p (fun i => (footAt cs hk i).rotm) (fun i => (footAt cs hk i).planeX) (fun i => (footAt cs hk i).planeY)
    (fun i => (footAt cs hk i).friction) (fun i => (footAt cs hk i).frictionZ) c f m

/-- The feet that are switched on have grip enough for the force `f`. -/
def FeetGrip (cs : List ContactLink) (hk : k = (active cs).length) (f : Vec3) : Prop :=
  Grips (fun i => (footAt cs hk i).rotm) (fun i => (footAt cs hk i).planeX) (fun i => (footAt cs hk i).planeY)
    (fun i => (footAt cs hk i).friction) (fun i => (footAt cs hk i).frictionZ) f

section
variable {L : List (MovingLink (Sys ι))} {x0 : Vec3} {R0 : Mat3} {g : Fin k → Foot ι} {p : Fin k → Vec3} {qd : Sys ι → ℝ}
  {s : WholeBody ι}

theorem com_rate {L : List (MovingLink (Sys ι))} {J : Matrix (Fin 3) (Sys ι) ℝ} (h : mass L • J = (L.map fun l => l.m • l.Jv).sum) (q : Sys ι → ℝ) :
    mass L • (J *ᵥ q) = linearMomentum L q := by
  rw [← smul_mulVec, h]
  unfold linearMomentum
  rw [linMap_sum (fun A : Matrix (Fin 3) (Sys ι) ℝ => A *ᵥ q) (by simp) (fun _ _ => add_mulVec _ _ _)]
  exact sum_congr' fun l _ => smul_mulVec _ _ _

/-- **C101 (Newton and Euler are all).**  Some joint torque gives the acceleration `qdd` with the contact forces `F` if and only if the contacts stay where
they are, the forces add up to the weight minus mass times the acceleration of the centre of mass, and their moment about it is the rate of the angular
momentum, reversed. -/
theorem C101_forces_iff (hR : IsRot R0) (hL : L ≠ []) (hm : ∀ l ∈ L, 0 < l.m) (hI : ∀ l ∈ L, l.I.PosDef) (hb : ∀ l ∈ L, FloatingBase x0 R0 l)
    (hf : ∀ i, RidesOnBase x0 R0 (p i) (g i).jac) (hs : updateKinematics true (massMatrix L) x0 R0 (mass L) qd = some s)
    (qdd : Fin 6 ⊕ ι → ℝ) (F : Fin (6 * k) → ℝ) :
    (∃ τ, Motion (ctrlMass L) (stackFn g) (s.G ∘ sysIdx.symm) τ qdd F) ↔ ContactsFixed (stackFn g) qdd ∧
      ∑ i, fpart (wrenchOf F i) = mass L • (earth - s.jacLin *ᵥ (qdd ∘ sysIdx)) ∧
      ∑ i, (mpart (wrenchOf F i) + crossProduct (p i - s.comPos) (fpart (wrenchOf F i))) = -(angularMomentum s.comPos L (qdd ∘ sysIdx)) := by
  obtain ⟨s', hs', hcom, hjac, -, -, -, hG, -⟩ := C25_com_partial hR hL hm hI hb qd
  obtain rfl : s = s' := Option.some.inj (hs.symm.trans hs')
  have hc0 : (L.map fun l => l.m • l.x).sum - mass L • s.comPos = 0 := sub_eq_zero.mpr hcom.symm
  have hlm := com_rate hjac (qdd ∘ sysIdx)
  have key := fun u w => virtual_power hR hb hf earth qdd F s.comPos u w
  rw [hc0, map_zero, LinearMap.zero_apply] at key
  simp only [sub_zero] at key
  rw [hG]
  constructor
  · rintro ⟨τ, h, hfix⟩
    have h0 := fun u w => (key u w).symm.trans
      ((congrArg (fun v => (swing x0 R0 s.comPos u w ∘ sysIdx.symm) ⬝ᵥ v) h).trans (swing_actuate s.comPos u w τ))
    have k1 := fun u => h0 u 0
    have k2 := fun w => h0 0 w
    simp only [zero_dotProduct, add_zero, zero_add] at k1 k2
    refine ⟨hfix, ?_, ?_⟩
    · rw [smul_sub, hlm, ← sub_eq_zero, ← zero_of_all k1]
      abel
    · rw [← sub_eq_zero, ← zero_of_all k2]
      abel
  · rintro ⟨hfix, h1, h2⟩
    refine ⟨_, actuate_of_swing (x0 := x0) hR fun u w => ?_, hfix⟩
    have e : swing x0 R0 0 u w = (swing x0 R0 s.comPos (u + crossProduct w s.comPos) w : Sys ι → ℝ) := by
      unfold swing
      congr 1
      rw [sub_zero, map_sub]
      abel
    rw [e]
    refine (key _ _).trans ?_
    rw [h1, h2, smul_sub, hlm]
    simp

/-- **C101 (which motions are possible).**  An acceleration that keeps the contacts where they are can be brought about by some joint torque, without
a foot tipping or slipping, if and only if the feet can supply the force and the moment it takes. -/
theorem C101_motion_iff (hR : IsRot R0) (hL : L ≠ []) (hm : ∀ l ∈ L, 0 < l.m) (hI : ∀ l ∈ L, l.I.PosDef) (hb : ∀ l ∈ L, FloatingBase x0 R0 l)
    (hf : ∀ i, RidesOnBase x0 R0 (p i) (g i).jac) (hs : updateKinematics true (massMatrix L) x0 R0 (mass L) qd = some s)
    (hk : k = (active cs).length) (hc : 6 * k = 6 * (active cs).length) {qdd : Fin 6 ⊕ ι → ℝ} (hfix : ContactsFixed (stackFn g) qdd) :
    (∃ τ F, Motion (ctrlMass L) (stackFn g) (s.G ∘ sysIdx.symm) τ qdd F ∧ ContactsHold cs (F ∘ Fin.cast hc.symm)) ↔
      FeetSupply cs hk p s.comPos (mass L • (earth - s.jacLin *ᵥ (qdd ∘ sysIdx))) (-(angularMomentum s.comPos L (qdd ∘ sysIdx))) := by
  constructor
  · rintro ⟨τ, F, h, hF⟩
    obtain ⟨-, h1, h2⟩ := (C101_forces_iff hR hL hm hI hb hf hs qdd F).mp ⟨τ, h⟩
    exact ⟨wrenchOf F, (holds_cast hk hc F).mp hF, h1, h2⟩
  · rintro ⟨w, hw, h1, h2⟩
    let F : Fin (6 * k) → ℝ := fun r => w (wrenchPlace.symm r).1 (wrenchPlace.symm r).2
    have hFw : ∀ i, wrenchOf F i = w i := by
      intro i
      funext j
      have e : (⟨6 * i + j, by omega⟩ : Fin (6 * k)) = wrenchPlace (i, j) := Fin.ext (wrenchPlace_val i j).symm
      show F _ = _
      simp only [F]
      rw [e, Equiv.symm_apply_apply]
    obtain ⟨τ, h⟩ := (C101_forces_iff (p := p) hR hL hm hI hb hf hs qdd F).mpr ⟨hfix, by simpa only [hFw] using h1, by simpa only [hFw] using h2⟩
    exact ⟨τ, F, h, (holds_cast hk hc F).mpr fun i => by rw [hFw]; exact hw i⟩

/-- The zero moment point a motion takes, in the ground plane at height `z`: `M` the mass, `c` the centre of mass, `a` its acceleration, `η` the rate of
the angular momentum about it. -/
noncomputable def cartPoint (M z : ℝ) (c a η : Vec3) : Vec3 :=
  ![c 0 - (M * (c 2 - z) * a 0 + η 1) / (M * (9.81 + a 2)), c 1 - (M * (c 2 - z) * a 1 - η 0) / (M * (9.81 + a 2)), z]

/-- **C101 (level ground, what it takes).**  On feet flat on level ground an acceleration that does not fall as fast as gravity can only be brought about,
without a foot tipping or slipping, if its zero moment point is in the support polygon. -/
theorem C101_level_needs (hR : IsRot R0) (hL : L ≠ []) (hm : ∀ l ∈ L, 0 < l.m) (hI : ∀ l ∈ L, l.I.PosDef) (hb : ∀ l ∈ L, FloatingBase x0 R0 l)
    (hf : ∀ i, RidesOnBase x0 R0 (p i) (g i).jac) (hs : updateKinematics true (massMatrix L) x0 R0 (mass L) qd = some s)
    (hA : IsSPD (ctrlMass L)) {S : ContactSpace (6 * k) ι} (hS : contactSpace (stackFn g) (ctrlMass L)⁻¹ = some S)
    (hk : k = (active cs).length) (hc : 6 * k = 6 * (active cs).length) (hk0 : 0 < k) (hp : ∀ l ∈ cs, 0 < l.planeX ∧ 0 < l.planeY)
    (hflat : ∀ l ∈ active cs, Flat l.rotm) {z : ℝ} (hz : ∀ i, p i 2 = z) {τ : ι → ℝ} {qdd : Fin 6 ⊕ ι → ℝ} {F : Fin (6 * k) → ℝ}
    (h : Motion (ctrlMass L) (stackFn g) (s.G ∘ sysIdx.symm) τ qdd F) (hF : ContactsHold cs (F ∘ Fin.cast hc.symm))
    (hfall : 0 < 9.81 + (s.jacLin *ᵥ (qdd ∘ sysIdx)) 2) :
    cartPoint (mass L) z s.comPos (s.jacLin *ᵥ (qdd ∘ sysIdx)) (angularMomentum s.comPos L (qdd ∘ sysIdx)) ∈ polygon cs hk p := by
  have hw : mass L * (9.81 + (s.jacLin *ᵥ (qdd ∘ sysIdx)) 2) ≠ 0 := (mul_pos (mass_pos hm hL) hfall).ne'
  obtain ⟨q, hq, hq2, h0, h1⟩ := C100_motion hR hL hm hI hb hf hs hA hS hk hc hk0 hp hflat hz h hF
  have e : q = cartPoint (mass L) z s.comPos (s.jacLin *ᵥ (qdd ∘ sysIdx)) (angularMomentum s.comPos L (qdd ∘ sysIdx)) := by
    funext i
    fin_cases i
    · show q 0 = s.comPos 0 - _ / _
      rw [eq_sub_iff_add_eq, ← eq_sub_iff_add_eq', div_eq_iff hw]
      linear_combination h0
    · show q 1 = s.comPos 1 - _ / _
      rw [eq_sub_iff_add_eq, ← eq_sub_iff_add_eq', div_eq_iff hw]
      linear_combination h1
    · exact hq2
  rwa [← e]

/-- **C101 (level ground).**  On feet flat on level ground with grip enough, an acceleration that keeps the contacts where they are, does not fall as fast
as gravity and takes no moment about the vertical through its zero moment point can be brought about if and only if this point is in the support polygon. -/
theorem C101_level_iff (hR : IsRot R0) (hL : L ≠ []) (hm : ∀ l ∈ L, 0 < l.m) (hI : ∀ l ∈ L, l.I.PosDef) (hb : ∀ l ∈ L, FloatingBase x0 R0 l)
    (hf : ∀ i, RidesOnBase x0 R0 (p i) (g i).jac) (hs : updateKinematics true (massMatrix L) x0 R0 (mass L) qd = some s)
    (hA : IsSPD (ctrlMass L)) {S : ContactSpace (6 * k) ι} (hS : contactSpace (stackFn g) (ctrlMass L)⁻¹ = some S)
    (hk : k = (active cs).length) (hc : 6 * k = 6 * (active cs).length) (hk0 : 0 < k) (hp : ∀ l ∈ cs, 0 < l.planeX ∧ 0 < l.planeY)
    (hflat : ∀ l ∈ active cs, Flat l.rotm) {z : ℝ} (hz : ∀ i, p i 2 = z) {qdd : Fin 6 ⊕ ι → ℝ} (hfix : ContactsFixed (stackFn g) qdd)
    (hfall : 0 < 9.81 + (s.jacLin *ᵥ (qdd ∘ sysIdx)) 2) (hgrip : FeetGrip cs hk (mass L • (earth - s.jacLin *ᵥ (qdd ∘ sysIdx))))
    (hyaw : let a := s.jacLin *ᵥ (qdd ∘ sysIdx)
      let η := angularMomentum s.comPos L (qdd ∘ sysIdx)
      let q := cartPoint (mass L) z s.comPos a η
      mass L * ((q 0 - s.comPos 0) * a 1 - (q 1 - s.comPos 1) * a 0) = η 2) :
    (∃ τ F, Motion (ctrlMass L) (stackFn g) (s.G ∘ sysIdx.symm) τ qdd F ∧ ContactsHold cs (F ∘ Fin.cast hc.symm)) ↔
      cartPoint (mass L) z s.comPos (s.jacLin *ᵥ (qdd ∘ sysIdx)) (angularMomentum s.comPos L (qdd ∘ sysIdx)) ∈ polygon cs hk p := by
  have hM := mass_pos hm hL
  have hw : mass L * (9.81 + (s.jacLin *ᵥ (qdd ∘ sysIdx)) 2) ≠ 0 := (mul_pos hM hfall).ne'
  constructor
  · rintro ⟨τ, F, h, hF⟩
    exact C101_level_needs hR hL hm hI hb hf hs hA hS hk hc hk0 hp hflat hz h hF hfall
  · intro hq
    refine (C101_motion_iff hR hL hm hI hb hf hs hk hc hfix).mpr ?_
    generalize s.jacLin *ᵥ (qdd ∘ sysIdx) = a at *
    generalize angularMomentum s.comPos L (qdd ∘ sysIdx) = η at *
    have h := supply_shift s.comPos (supply_of_polygon (f := mass L • (earth - a)) (fun i => hflat _ (List.getElem_mem _))
      (fun i => hp _ (footAt_mem hk i)) (by
        have g2 : earth 2 = -9.81 := rfl
        rw [Pi.smul_apply, Pi.sub_apply, g2, smul_eq_mul]
        nlinarith) hgrip hq)
    suffices e : -η = 0 + crossProduct (cartPoint (mass L) z s.comPos a η - s.comPos) (mass L • (earth - a)) by
      rw [e]
      exact h
    clear h
    rw [zero_add]
    have g0 : earth 0 = 0 := rfl
    have g1 : earth 1 = 0 := rfl
    have g2 : earth 2 = -9.81 := rfl
    have c2 : cartPoint (mass L) z s.comPos a η 2 = z := rfl
    have c0 : mass L * (9.81 + a 2) * (cartPoint (mass L) z s.comPos a η 0 - s.comPos 0) = -(mass L * (s.comPos 2 - z) * a 0) - η 1 := by
      show mass L * (9.81 + a 2) * (s.comPos 0 - _ / _ - s.comPos 0) = _
      field_simp
      ring
    have c1 : mass L * (9.81 + a 2) * (cartPoint (mass L) z s.comPos a η 1 - s.comPos 1) = -(mass L * (s.comPos 2 - z) * a 1) + η 0 := by
      show mass L * (9.81 + a 2) * (s.comPos 1 - _ / _ - s.comPos 1) = _
      field_simp
      ring
    simp only at hyaw
    generalize cartPoint (mass L) z s.comPos a η = q at *
    funext i
    fin_cases i
    · simp only [Fin.zero_eta, cross0, Pi.neg_apply, Pi.sub_apply, Pi.smul_apply, smul_eq_mul, g0, g1, g2, c2]
      linear_combination c1
    · simp only [Fin.mk_one, cross1, Pi.neg_apply, Pi.sub_apply, Pi.smul_apply, smul_eq_mul, g0, g1, g2, c2]
      linear_combination -c0
    · simp only [Fin.reduceFinMk, cross2, Pi.neg_apply, Pi.sub_apply, Pi.smul_apply, smul_eq_mul, g0, g1, g2]
      linear_combination hyaw

end

variable {L : List (MovingLink (Sys (Fin n)))} {x0 : Vec3} {R0 : Mat3} {g : Fin k → Foot (Fin n)} {p : Fin k → Vec3} {qd : Sys (Fin n) → ℝ}
  {s : WholeBody (Fin n)}

/-- what the ground can supply some torque can do safely -/
theorem supply_safe (hR : IsRot R0) (hL : L ≠ []) (hm : ∀ l ∈ L, 0 < l.m) (hI : ∀ l ∈ L, l.I.PosDef) (hb : ∀ l ∈ L, FloatingBase x0 R0 l)
    (hf : ∀ i, RidesOnBase x0 R0 (p i) (g i).jac) (hs : updateKinematics true (massMatrix L) x0 R0 (mass L) qd = some s)
    (hA : IsSPD (ctrlMass L)) {S : ContactSpace (6 * k) (Fin n)} (hS : contactSpace (stackFn g) (ctrlMass L)⁻¹ = some S)
    (hk : k = (active cs).length) (hc : 6 * k = 6 * (active cs).length) {τ : Fin n → ℝ}
    (h : ∀ qdd F, Motion (ctrlMass L) (stackFn g) (s.G ∘ sysIdx.symm) τ qdd F →
      FeetSupply cs hk p s.comPos (mass L • (earth - s.jacLin *ᵥ (qdd ∘ sysIdx))) (-(angularMomentum s.comPos L (qdd ∘ sysIdx)))) :
    ∃ ν, MovesNothing (ctrlMass L) (stackFn g) (s.G ∘ sysIdx.symm) ν ∧ SafeTorque (ctrlMass L) (stackFn g) (s.G ∘ sysIdx.symm) none cs hc (τ + ν) := by
  obtain ⟨qdd, hM⟩ := (C01_contact_force_exact hA hS (s.G ∘ sysIdx.symm) τ).1
  obtain ⟨τ', F, hτ, hF⟩ := (C101_motion_iff (cs := cs) hR hL hm hI hb hf hs hk hc hM.2).mpr (h _ _ hM)
  have e : τ + (τ' - τ) = τ' := add_sub_cancel _ _
  refine ⟨_, movesNothing_of_same hA hM (e.symm ▸ hτ), ?_⟩
  rw [e]
  refine ⟨by simp, fun qdd F h => ?_⟩
  have u := (C01_contact_force_exact hA hS (s.G ∘ sysIdx.symm) τ').2.1
  rwa [(u _ _ h).trans (u _ _ hτ).symm]

/-- **C101 (which commands QP task control follows).**  Without torque limits, with two or more feet and an exact solver: QP task control succeeds and leaves
every command as it is if and only if, for each task, the feet can supply the force and the moment that following this task and those above it takes. -/
theorem C101_followed_iff (hR : IsRot R0) (hL : L ≠ []) (hm : ∀ l ∈ L, 0 < l.m) (hI : ∀ l ∈ L, l.I.PosDef) (hb : ∀ l ∈ L, FloatingBase x0 R0 l)
    (hf : ∀ i, RidesOnBase x0 R0 (p i) (g i).jac) (hs : updateKinematics true (massMatrix L) x0 R0 (mass L) qd = some s)
    (hA : IsSPD (ctrlMass L)) (R : QPRobot n (6 * k)) (hS : contactSpace (stackFn g) (ctrlMass L)⁻¹ = some R.S)
    (hP : R.P = Model.gravityForce R.S (s.G ∘ sysIdx.symm)) (h6 : ∀ l ∈ R.cs, l.type = .c6d)
    (hk : k = (active R.cs).length) (hk1 : 1 < k) (hp : ∀ l ∈ R.cs, 0 < l.planeX ∧ 0 < l.planeY)
    (cod : (W : Matrix (Fin n) (Fin n) ℝ) → CodNull W) {v m : ℕ} {V2 : Matrix (Fin m) (Fin n) ℝ}
    (hR' : calculateContactConstraint (stackFn g) (ctrlMass L)⁻¹ cod = .ret v R.S (some ⟨m, V2, R.NwJw⟩)) {solve : Solver} (hsolve : solve.Exact)
    (hcomp : solve.Complete) (hlim : R.limit = none) (l : List (TaskReady (Fin n) × TaskRecord n)) :
    (∃ τt τc rs, taskControlQPRec R solve l = (.ret 1 τt τc, rs) ∧ ∀ r ∈ rs, r.fqp.2 = 0) ↔
      ∀ j < l.length, ∀ qdd F, Motion (ctrlMass L) (stackFn g) (s.G ∘ sysIdx.symm) (R.τg + taskTorque R.S ((l.map Prod.fst).take (j + 1))) qdd F →
        FeetSupply R.cs hk p s.comPos (mass L • (earth - s.jacLin *ᵥ (qdd ∘ sysIdx))) (-(angularMomentum s.comPos L (qdd ∘ sysIdx))) := by
  have hc : 6 * k = 6 * (active R.cs).length := congrArg (6 * ·) hk
  rw [C48_kept_iff hA hS hP h6 hp hc (by omega) cod hR' hsolve hcomp l]
  refine forall_congr' fun j => forall_congr' fun _ => ⟨fun ⟨ν, hν, hsafe⟩ qdd F hM => ?_, fun h => ?_⟩
  · obtain ⟨q', hM'⟩ := (C01_contact_force_exact hA hS (s.G ∘ sysIdx.symm) (R.τg + taskTorque R.S ((l.map Prod.fst).take (j + 1)) + ν)).1
    obtain rfl := hν _ _ _ _ _ hM hM'
    exact (C101_motion_iff hR hL hm hI hb hf hs hk hc hM.2).mp ⟨_, _, hM', hsafe.2 _ _ hM'⟩
  · rw [hlim]
    exact supply_safe hR hL hm hI hb hf hs hA hS hk hc h

/-- **C101 (the nearest command).**  No torque limits, two or more feet, an exact solver.  Every task of a successful call is changed as little as the ground
requires: with the tasks above it commanded as recorded, no command `g` whose motion the feet could supply is nearer to the task's own. -/
theorem C101_nearest (hR : IsRot R0) (hL : L ≠ []) (hm : ∀ l ∈ L, 0 < l.m) (hI : ∀ l ∈ L, l.I.PosDef) (hb : ∀ l ∈ L, FloatingBase x0 R0 l)
    (hf : ∀ i, RidesOnBase x0 R0 (p i) (g i).jac) (hs : updateKinematics true (massMatrix L) x0 R0 (mass L) qd = some s)
    (hA : IsSPD (ctrlMass L)) (R : QPRobot n (6 * k)) (hS : contactSpace (stackFn g) (ctrlMass L)⁻¹ = some R.S)
    (hP : R.P = Model.gravityForce R.S (s.G ∘ sysIdx.symm)) (h6 : ∀ l ∈ R.cs, l.type = .c6d)
    (hk : k = (active R.cs).length) (hk1 : 1 < k) (hp : ∀ l ∈ R.cs, 0 < l.planeX ∧ 0 < l.planeY)
    (cod : (W : Matrix (Fin n) (Fin n) ℝ) → CodNull W) {v m : ℕ} {V2 : Matrix (Fin m) (Fin n) ℝ}
    (hR' : calculateContactConstraint (stackFn g) (ctrlMass L)⁻¹ cod = .ret v R.S (some ⟨m, V2, R.NwJw⟩)) {solve : Solver} (hsolve : solve.Exact)
    (hlim : R.limit = none) (T : TaskReady (Fin n)) (q : TaskRecord n) (above below : List (TaskReady (Fin n) × TaskRecord n)) {τt τc : Fin n → ℝ}
    {rs : List (TaskRecord n)} (h : taskControlQPRec R solve (above ++ (T, q) :: below) = (.ret 1 τt τc, rs)) :
    ∃ r a, rs[above.length]? = some r ∧ r.fqp = ⟨T.t, a⟩ ∧ ∀ b, (∀ qdd F, Motion (ctrlMass L) (stackFn g) (s.G ∘ sysIdx.symm)
        (R.τg + taskTorque R.S (List.zipWith followed (above.map Prod.fst) rs ++ [withCommand T b])) qdd F →
        FeetSupply R.cs hk p s.comPos (mass L • (earth - s.jacLin *ᵥ (qdd ∘ sysIdx))) (-(angularMomentum s.comPos L (qdd ∘ sysIdx)))) →
      a ⬝ᵥ a ≤ (b - T.f) ⬝ᵥ (b - T.f) := by
  have hc : 6 * k = 6 * (active R.cs).length := congrArg (6 * ·) hk
  obtain ⟨r, a, e1, e2, hbest⟩ := C92_levels_least hA hS hP h6 hp hc (by omega) cod hR' hsolve T q above below h
  refine ⟨r, a, e1, e2, fun b hsup => ?_⟩
  obtain ⟨ν, hν, hsafe⟩ := supply_safe (cs := R.cs) hR hL hm hI hb hf hs hA hS hk hc hsup
  exact hbest b ν hν (by rw [hlim]; exact hsafe)

end Verif.Props
