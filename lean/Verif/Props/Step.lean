import Verif.Props.StanceMet
import Verif.Props.Lift

/-!
# C102: which feet can be lifted
-/

set_option linter.unusedSectionVars false

namespace Verif.Props
open Matrix Verif Verif.Spec Verif.Model Verif.Lemmas

variable {n : ℕ} {l : List (Foot (Fin n))}

/-- The ground under the contacts chosen by `on`, with soles at the points `p`: the convex hull of their soles. -/
def stancePolygon (l : List (Foot (Fin n))) (p : Fin l.length → Vec3) (on : Fin l.length → Bool) : Set Vec3 :=
  convexHull ℝ (⋃ i : {i // on i = true}, sole (p i) (l.get i).link.rotm (l.get i).link.planeX (l.get i).link.planeY)

theorem count_set (on : Fin l.length → Bool) : (standing (setContacts l on)).length = (active ((setContacts l on).map Foot.link)).length := by
  rw [active_set, List.length_map]

theorem footAt_set (on : Fin l.length → Bool) (k : Fin (standing (setContacts l on)).length) :
    footAt ((setContacts l on).map Foot.link) (count_set on) k = { (l.get (numberOf l on k)).link with contact := on (numberOf l on k) } := by
  have e : footAt ((setContacts l on).map Foot.link) (count_set on) k = ((standing (setContacts l on)).get k).link := by
    have := List.getElem_of_eq (active_set on) (i := k.val) (by rw [← count_set]; exact k.isLt)
    rw [List.getElem_map] at this
    exact this
  rw [e, get_standing]

theorem polygon_set (on : Fin l.length → Bool) (p : Fin l.length → Vec3) :
    polygon ((setContacts l on).map Foot.link) (count_set on) (fun k => p (numberOf l on k)) = stancePolygon l p on := by
  unfold polygon supportPolygon stancePolygon
  congr 1
  ext x
  simp only [Set.mem_iUnion, footAt_set]
  constructor
  · rintro ⟨k, hk⟩
    exact ⟨⟨_, number_on on k⟩, hk⟩
  · rintro ⟨⟨i, hi⟩, h⟩
    obtain ⟨k, rfl⟩ := exists_place on hi
    exact ⟨k, h⟩

theorem holds_set (on : Fin l.length → Bool) {f : Fin l.length → Fin 6 → ℝ} :
    ContactsHold ((setContacts l on).map Foot.link) (stackForces l on f ∘ Fin.cast (rows_set on).symm) ↔ ∀ i, on i = true → FootHolds (l.get i).link (f i) := by
  refine ⟨fun h i hi => ?_, holds_of on⟩
  obtain ⟨k, rfl⟩ := exists_place on hi
  have := (holds_cast (count_set on) (rows_set on) _).mp h k
  rw [wrench_stack, footAt_set] at this
  exact this

/-- fewer contacts remain independent -/
theorem independent_sub {on on' : Fin l.length → Bool} (hsub : ∀ i, on' i = true → on i = true) (h : IndependentRows (stackFeet (setContacts l on))) :
    IndependentRows (stackFeet (setContacts l on')) := by
  intro F hF
  obtain ⟨f, rfl, hz⟩ := exists_forces on' F
  have h0 := h (stackForces l on f) (by
    rw [stack_transpose, sum_unloaded hsub fun i _ hi => hz i hi, ← stack_transpose]
    exact hF)
  funext r
  obtain ⟨i, hi, e⟩ : ∃ i, on' i = true ∧ stackForces l on' f r = f i ⟨r % 6, by omega⟩ :=
    ⟨numberOf l on' ⟨r / 6, by omega⟩, number_on on' _, rfl⟩
  obtain ⟨k, rfl⟩ := exists_place on (hsub i hi)
  rw [e, ← wrench_stack on f k, h0]
  rfl

theorem rides_unit {x0 : Vec3} {R0 : Mat3} {p : Vec3} {f : Foot (Fin n)} (hR : IsRot R0) (hf : RidesOnBase x0 R0 p f.jac) : IsUnit (footBase f).det := by
  rw [isUnit_iff_ne_zero]
  intro h0
  obtain ⟨v, hv, hv0⟩ := exists_mulVec_eq_zero_iff.mpr h0
  refine hv (rides_moves hR hf (funext fun j => ?_))
  have := congrFun hv0 j
  rw [mulVec, dotProduct, Fintype.sum_sum_type]
  simpa [footBase, mulVec, dotProduct] using this

theorem sole_convex (p : Vec3) (R : Mat3) (lx ly : ℝ) : Convex ℝ (sole p R lx ly) := by
  rintro _ ⟨a, b, ha, hb, rfl⟩ _ ⟨a', b', ha', hb', rfl⟩ u v hu hv huv
  refine ⟨u * a + v * a', u * b + v * b', ?_, ?_, ?_⟩
  · rw [abs_le] at ha ha' ⊢
    constructor <;> nlinarith
  · rw [abs_le] at hb hb' ⊢
    constructor <;> nlinarith
  · have e : (![u * a + v * a', u * b + v * b', 0] : Vec3) = u • ![a, b, 0] + v • ![a', b', 0] := by
      funext i; fin_cases i <;> simp
    rw [e, mulVec_add, mulVec_smul, mulVec_smul]
    have e2 : p = u • p + v • p := by rw [← add_smul, huv, one_smul]
    conv_rhs => rw [e2]
    rw [smul_add, smul_add]
    abel

/-- More feet on the ground, a larger polygon. -/
theorem C102_mono {on on' : Fin l.length → Bool} (p : Fin l.length → Vec3) (hsub : ∀ i, on' i = true → on i = true) :
    stancePolygon l p on' ⊆ stancePolygon l p on :=
  convexHull_mono (Set.iUnion_subset fun i => Set.subset_iUnion_of_subset ⟨i, hsub i i.2⟩ subset_rfl)

section
variable {L : List (MovingLink (Sys (Fin n)))} {x0 : Vec3} {R0 : Mat3} {p : Fin l.length → Vec3} {qd : Sys (Fin n) → ℝ} {s : WholeBody (Fin n)}
  {on on' : Fin l.length → Bool}

/-- **C102 (which feet a robot can stand on).**  The contacts are registered once, and `SetContact` chooses `on`.  Some torque holds the robot still on the chosen
contacts, flat on level ground, so that none tips or slips, if and only if the centre of mass is above the convex hull of the chosen soles. -/
theorem C102_stand_iff (hR : IsRot R0) (hL : L ≠ []) (hm : ∀ l ∈ L, 0 < l.m) (hI : ∀ l ∈ L, l.I.PosDef) (hb : ∀ l ∈ L, FloatingBase x0 R0 l)
    (hf : ∀ i, RidesOnBase x0 R0 (p i) (l.get i).jac) (hs : updateKinematics true (massMatrix L) x0 R0 (mass L) qd = some s)
    (hA : IsSPD (ctrlMass L)) (hp : ∀ f ∈ l, 0 < f.link.planeX ∧ 0 < f.link.planeY) (hμ : ∀ f ∈ l, 0 ≤ f.link.friction ∧ 0 ≤ f.link.frictionZ)
    (hflat : ∀ f ∈ l, Flat f.link.rotm) {z : ℝ} (hz : ∀ i, p i 2 = z) (hind : IndependentRows (stackFeet (setContacts l on))) (hone : ∃ i, on i = true) :
    (∃ τ f, Motion (ctrlMass L) (stackFeet (setContacts l on)) (s.G ∘ sysIdx.symm) τ 0 (stackForces l on f) ∧
      ∀ i, on i = true → FootHolds (l.get i).link (f i)) ↔ ![s.comPos 0, s.comPos 1, z] ∈ stancePolygon l p on := by
  obtain ⟨S, hS⟩ := Option.isSome_iff_exists.mp ((C02_finite_iff_independent hA).mpr hind)
  obtain ⟨i0, hi0⟩ := hone
  obtain ⟨k0, -⟩ := exists_place on hi0
  have hmem : ∀ c ∈ (setContacts l on).map Foot.link, ∃ i : Fin l.length, c = { (l.get i).link with contact := on i } := by
    intro c hc
    simp only [setContacts, List.map_map, List.mem_map] at hc
    obtain ⟨i, -, rfl⟩ := hc
    exact ⟨i, rfl⟩
  have hrides : ∀ k, RidesOnBase x0 R0 (p (numberOf l on k)) ((standing (setContacts l on)).get k).jac := by
    intro k
    rw [get_standing]
    exact hf _
  have key := C100_stands_iff (g := (standing (setContacts l on)).get) (p := fun k => p (numberOf l on k)) hR hL hm hI hb hrides hs hA hS (count_set on)
    (rows_set on) k0.pos (fun c hc => by obtain ⟨i, rfl⟩ := hmem c hc; exact hp _ (List.get_mem _ _))
    (fun c hc => by obtain ⟨i, rfl⟩ := hmem c (List.mem_of_mem_filter hc); exact hμ _ (List.get_mem _ _))
    (fun c hc => by obtain ⟨i, rfl⟩ := hmem c (List.mem_of_mem_filter hc); exact hflat _ (List.get_mem _ _)) (z := z) fun k => hz _
  rw [polygon_set] at key
  rw [← key]
  constructor
  · rintro ⟨τ, f, hM, h⟩
    exact ⟨τ, _, hM, (holds_set on).mpr h⟩
  · rintro ⟨τ, F, hM, h⟩
    obtain ⟨f, rfl, -⟩ := exists_forces on F
    exact ⟨τ, f, hM, (holds_set on).mp h⟩

/-- **C102 (which feet can be lifted).**  A robot stands on the contacts `on`.  Some torque holds it still there, with no load on the contacts outside `on'` and no
contact tipping or slipping, if and only if the centre of mass is above the convex hull of the soles of `on'`. -/
theorem C102_lift_iff (hR : IsRot R0) (hL : L ≠ []) (hm : ∀ l ∈ L, 0 < l.m) (hI : ∀ l ∈ L, l.I.PosDef) (hb : ∀ l ∈ L, FloatingBase x0 R0 l)
    (hf : ∀ i, RidesOnBase x0 R0 (p i) (l.get i).jac) (hs : updateKinematics true (massMatrix L) x0 R0 (mass L) qd = some s)
    (hA : IsSPD (ctrlMass L)) (hp : ∀ f ∈ l, 0 < f.link.planeX ∧ 0 < f.link.planeY) (hμ : ∀ f ∈ l, 0 ≤ f.link.friction ∧ 0 ≤ f.link.frictionZ)
    (hflat : ∀ f ∈ l, Flat f.link.rotm) {z : ℝ} (hz : ∀ i, p i 2 = z) (hind : IndependentRows (stackFeet (setContacts l on)))
    (hsub : ∀ i, on' i = true → on i = true) (hone : ∃ i, on' i = true) :
    (∃ τ f, Motion (ctrlMass L) (stackFeet (setContacts l on)) (s.G ∘ sysIdx.symm) τ 0 (stackForces l on f) ∧
      (∀ i, on i = true → FootHolds (l.get i).link (f i)) ∧ ∀ i, on i = true → on' i = false → f i = 0) ↔
      ![s.comPos 0, s.comPos 1, z] ∈ stancePolygon l p on' := by
  rw [← C102_stand_iff hR hL hm hI hb hf hs hA hp hμ hflat hz (independent_sub hsub hind) hone]
  constructor
  · rintro ⟨τ, f, hM, h, h0⟩
    exact ⟨τ, f, C98_lift_motion hsub h0 hM, fun i hi => h i (hsub i hi)⟩
  · rintro ⟨τ, f, hM, h⟩
    obtain ⟨g, e, hz'⟩ := exists_forces on' (stackForces l on' f)
    rw [e] at hM
    have hg : ∀ i, on' i = true → g i = f i := by
      intro i hi
      obtain ⟨k, rfl⟩ := exists_place on' hi
      rw [← wrench_stack on' g k, ← e, wrench_stack]
    refine ⟨τ, g, C98_set_down_motion hsub (fun i _ hi => hz' i hi) (fun i _ _ => mulVec_zero _) hM, fun i _ => ?_, fun i _ hi => hz' i hi⟩
    cases hi : on' i
    · rw [hz' i hi]; exact footHolds_zero _
    · rw [hg i hi]; exact h i hi

/-- C102 (after the feet are lifted, QP control).  The centre of mass is above the soles that stay, two or more, and torques are not limited: QP task control
does not fail, whatever the tasks are. -/
theorem C102_never_fails (hR : IsRot R0) (hL : L ≠ []) (hm : ∀ l ∈ L, 0 < l.m) (hI : ∀ l ∈ L, l.I.PosDef) (hb : ∀ l ∈ L, FloatingBase x0 R0 l)
    (hf : ∀ i, RidesOnBase x0 R0 (p i) (l.get i).jac) (hs : updateKinematics true (massMatrix L) x0 R0 (mass L) qd = some s)
    (hA : IsSPD (ctrlMass L)) (h6 : ∀ f ∈ l, f.link.type = .c6d) (hp : ∀ f ∈ l, 0 < f.link.planeX ∧ 0 < f.link.planeY)
    (hμ : ∀ f ∈ l, 0 ≤ f.link.friction ∧ 0 ≤ f.link.frictionZ)
    (hflat : ∀ f ∈ l, Flat f.link.rotm) {z : ℝ} (hz : ∀ i, p i 2 = z) (hind : IndependentRows (stackFeet (setContacts l on')))
    (htwo : 2 ≤ (numbers on').length) (cod : (W : Matrix (Fin n) (Fin n) ℝ) → CodNull W) {solve : Solver} (hsound : solve.Sound) (hcomp : solve.Complete)
    (hcom : ![s.comPos 0, s.comPos 1, z] ∈ stancePolygon l p on') {ts : List (TaskIn (Fin n))} {out : ℕ × (Fin n → ℝ) × (Fin n → ℝ) × (Fin n → ℝ)}
    (h : feetQP (ctrlMass L) (s.G ∘ sysIdx.symm) cod none solve ts (setContacts l on') = some out) : out.1 = 1 := by
  have hone : ∃ i, on' i = true := by
    obtain ⟨i, hi⟩ := List.exists_mem_of_length_pos (show 0 < (numbers on').length by omega)
    exact ⟨i, (List.mem_filter.mp hi).2⟩
  obtain ⟨τ, f, hM, hh⟩ := (C102_stand_iff hR hL hm hI hb hf hs hA hp hμ hflat hz hind hone).mpr hcom
  exact qp_stands hA h6 hp (fun i _ => rides_unit hR (hf i)) htwo cod hsound hcomp hM (fun L hL => by cases hL) hh h

/-- **C102 (after the feet are lifted, redistribution).**  Two or more feet stay, torques are not limited and the solver is exact.  Redistribution of a torque that
holds the robot still succeeds if and only if the centre of mass is above the soles that stay. -/
theorem C102_redistribute_iff (hR : IsRot R0) (hL : L ≠ []) (hm : ∀ l ∈ L, 0 < l.m) (hI : ∀ l ∈ L, l.I.PosDef) (hb : ∀ l ∈ L, FloatingBase x0 R0 l)
    (hf : ∀ i, RidesOnBase x0 R0 (p i) (l.get i).jac) (hs : updateKinematics true (massMatrix L) x0 R0 (mass L) qd = some s)
    (hA : IsSPD (ctrlMass L)) (h6 : ∀ f ∈ l, f.link.type = .c6d) (hp : ∀ f ∈ l, 0 < f.link.planeX ∧ 0 < f.link.planeY)
    (hμ : ∀ f ∈ l, 0 ≤ f.link.friction ∧ 0 ≤ f.link.frictionZ)
    (hflat : ∀ f ∈ l, Flat f.link.rotm) {z : ℝ} (hz : ∀ i, p i 2 = z) (hind : IndependentRows (stackFeet (setContacts l on')))
    (htwo : 2 ≤ (numbers on').length) (cod : (W : Matrix (Fin n) (Fin n) ℝ) → CodNull W) {solve : RSolver} (hexact : solve.Exact) (hcomp : solve.Complete)
    {base τc : Fin n → ℝ} {F : Fin (6 * (standing (setContacts l on')).length) → ℝ}
    (hM : Motion (ctrlMass L) (stackFeet (setContacts l on')) (s.G ∘ sysIdx.symm) (base + τc) 0 F) :
    (∃ τc', feetRedistribute (ctrlMass L) (s.G ∘ sysIdx.symm) cod none solve (base + τc) τc (setContacts l on') = some (1, τc')) ↔
      ![s.comPos 0, s.comPos 1, z] ∈ stancePolygon l p on' := by
  have hlen := standing_set_length l on'
  have hmem : ∀ c ∈ (setContacts l on').map Foot.link, ∃ i : Fin l.length, c = { (l.get i).link with contact := on' i } := by
    intro c hc
    simp only [setContacts, List.map_map, List.mem_map] at hc
    obtain ⟨i, -, rfl⟩ := hc
    exact ⟨i, rfl⟩
  have hrides : ∀ k, RidesOnBase x0 R0 (p (numberOf l on' k)) ((standing (setContacts l on')).get k).jac := by
    intro k
    rw [get_standing]
    exact hf _
  obtain ⟨S, ⟨m, V2, N⟩, hcalc⟩ := C05_feet_succeed (g := (standing (setContacts l on')).get) hR (by omega) hrides hA hind cod
  have e : ∀ τ τ', feetRedistribute (ctrlMass L) (s.G ∘ sysIdx.symm) cod none solve τ τ' (setContacts l on') =
      redistribute { S := S, NwJw := N, P := Model.gravityForce S (s.G ∘ sysIdx.symm), τg := gravityTorque S (ctrlMass L)⁻¹ (s.G ∘ sysIdx.symm), limit := none, cs := (setContacts l on').map Foot.link } solve τ τ' := by
    intro τ τ'
    unfold feetRedistribute redistributeCycle
    rw [show calculateContactConstraint (stackFeet (setContacts l on')) (ctrlMass L)⁻¹ cod = _ from hcalc]
  rw [e, ← polygon_set]
  exact C100_redistribute_iff (g := (standing (setContacts l on')).get) (p := fun k => p (numberOf l on' k)) hR hL hm hI hb hrides hs hA
    { S := S, NwJw := N, P := Model.gravityForce S (s.G ∘ sysIdx.symm), τg := gravityTorque S (ctrlMass L)⁻¹ (s.G ∘ sysIdx.symm), limit := none, cs := (setContacts l on').map Foot.link }
    (ret_space hcalc) rfl (fun c hc => by obtain ⟨i, rfl⟩ := hmem c hc; exact h6 _ (List.get_mem _ _)) (count_set on') (by omega)
    (fun c hc => by obtain ⟨i, rfl⟩ := hmem c hc; exact hp _ (List.get_mem _ _))
    (fun c hc => by obtain ⟨i, rfl⟩ := hmem c (List.mem_of_mem_filter hc); exact hμ _ (List.get_mem _ _))
    (fun c hc => by obtain ⟨i, rfl⟩ := hmem c (List.mem_of_mem_filter hc); exact hflat _ (List.get_mem _ _)) (fun k => hz _) cod hcalc hexact hcomp rfl hM

/-- **C102 (the last foot).**  Only the contact `i₀` stays.  Its gravity compensation holds the robot without tipping or slipping if and only if the centre of mass
is above its sole; and then the robot could take up exactly this torque before, on all feet, with every other foot unloaded. -/
theorem C102_last_foot (hR : IsRot R0) (hL : L ≠ []) (hm : ∀ l ∈ L, 0 < l.m) (hI : ∀ l ∈ L, l.I.PosDef) (hb : ∀ l ∈ L, FloatingBase x0 R0 l)
    (hf : ∀ i, RidesOnBase x0 R0 (p i) (l.get i).jac) (hs : updateKinematics true (massMatrix L) x0 R0 (mass L) qd = some s)
    (hA : IsSPD (ctrlMass L)) (hp : ∀ f ∈ l, 0 < f.link.planeX ∧ 0 < f.link.planeY) (hμ : ∀ f ∈ l, 0 ≤ f.link.friction ∧ 0 ≤ f.link.frictionZ)
    (hflat : ∀ f ∈ l, Flat f.link.rotm) {z : ℝ} (hz : ∀ i, p i 2 = z) (hind : IndependentRows (stackFeet (setContacts l on)))
    {i₀ : Fin l.length} (hon : on i₀ = true) {τ' : Fin n → ℝ} (hτ' : feetGravity (ctrlMass L) (s.G ∘ sysIdx.symm) (setContacts l fun i => i == i₀) = some τ') :
    (∃ f, Motion (ctrlMass L) (stackFeet (setContacts l on)) (s.G ∘ sysIdx.symm) τ' 0 (stackForces l on f) ∧
      (∀ i, on i = true → FootHolds (l.get i).link (f i)) ∧ ∀ i, on i = true → i ≠ i₀ → f i = 0) ↔
      ![s.comPos 0, s.comPos 1, z] ∈ sole (p i₀) (l.get i₀).link.rotm (l.get i₀).link.planeX (l.get i₀).link.planeY := by
  have hsub : ∀ i, (i == i₀) = true → on i = true := fun i hi => by rw [eq_of_beq hi]; exact hon
  have hpoly : stancePolygon l p (fun i => i == i₀) = sole (p i₀) (l.get i₀).link.rotm (l.get i₀).link.planeX (l.get i₀).link.planeY := by
    unfold stancePolygon
    rw [show (⋃ i : {i // (i == i₀) = true}, sole (p i) (l.get i).link.rotm (l.get i).link.planeX (l.get i).link.planeY) =
      sole (p i₀) (l.get i₀).link.rotm (l.get i₀).link.planeX (l.get i₀).link.planeY from ?_]
    · exact (sole_convex _ _ _ _).convexHull_eq
    · ext x
      simp only [Set.mem_iUnion]
      constructor
      · rintro ⟨⟨i, hi⟩, h⟩
        rw [← eq_of_beq hi]; exact h
      · intro h
        exact ⟨⟨i₀, by simp⟩, h⟩
  rw [← hpoly, ← C102_lift_iff hR hL hm hI hb hf hs hA hp hμ hflat hz hind hsub ⟨i₀, by simp⟩]
  constructor
  · rintro ⟨f, hM, h, h0⟩
    exact ⟨τ', f, hM, h, fun i hi hne => h0 i hi (by simpa using hne)⟩
  · rintro ⟨τ, f, hM, h, h0⟩
    have h0' : ∀ i, on i = true → i ≠ i₀ → f i = 0 := fun i hi hne => h0 i hi (by simpa using hne)
    obtain rfl := (C98_gravity_iff hA (rides_unit hR (hf i₀)) hon hind hM hτ').mpr h0'
    exact ⟨f, hM, h, h0'⟩

end

end Verif.Props
