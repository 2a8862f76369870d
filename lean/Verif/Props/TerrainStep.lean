import Verif.Props.Step
import Verif.Props.Terrain
import Verif.Props.StanceReduced

/-!
# C103: which feet can be lifted on any terrain; the motions of the joint-acceleration QP
-/

set_option linter.unusedSectionVars false

namespace Verif.Props
open Matrix Verif Verif.Spec Verif.Model Verif.Lemmas

section
variable {n : ℕ} {l : List (Foot (Fin n))}

/-- Where the centre of mass may be above the contacts chosen by `on`, with soles at the points `p`: where forces of these contacts, none of which tips or
slips, carry a weight. -/
def stanceRegion (l : List (Foot (Fin n))) (p : Fin l.length → Vec3) (on : Fin l.length → Bool) : Set Vec3 :=
  {c | ∃ w : Fin l.length → Fin 6 → ℝ, (∀ i, on i = true → FootHolds (l.get i).link (w i)) ∧ (∀ i, on i = false → w i = 0) ∧
    ∑ i, fpart (w i) = ![0, 0, -1] ∧ ∑ i, (mpart (w i) + crossProduct (p i - c) (fpart (w i))) = 0}

section
variable {L : List (MovingLink (Sys (Fin n)))} {x0 : Vec3} {R0 : Mat3} {p : Fin l.length → Vec3} {qd : Sys (Fin n) → ℝ} {s : WholeBody (Fin n)}
  {on on' : Fin l.length → Bool}

theorem sum_chosen (on : Fin l.length → Bool) (h : Fin l.length → Vec3) (h0 : ∀ i, on i = false → h i = 0) :
    ∑ k : Fin (standing (setContacts l on)).length, h (numberOf l on k) = ∑ i, h i := by
  have himg : ∑ i ∈ Finset.univ.image (numberOf l on), h i = ∑ k, h (numberOf l on k) := Finset.sum_image fun a _ b _ e => number_inj on e
  rw [← himg]
  refine Finset.sum_subset (Finset.subset_univ _) fun i _ hi => h0 i ?_
  by_contra hne
  obtain ⟨k, rfl⟩ := exists_place on (Bool.eq_true_of_not_eq_false hne)
  exact hi (Finset.mem_image_of_mem _ (Finset.mem_univ k))

theorem wrench_zero {p c : Vec3} {w : Fin 6 → ℝ} (h : w = 0) : fpart w = 0 ∧ mpart w + crossProduct (p - c) (fpart w) = 0 := by
  have e1 : fpart (0 : Fin 6 → ℝ) = 0 := by funext j; fin_cases j <;> rfl
  have e2 : mpart (0 : Fin 6 → ℝ) = 0 := by funext j; fin_cases j <;> rfl
  rw [h, e1, e2, map_zero, add_zero]
  exact ⟨rfl, rfl⟩

theorem region_set (on : Fin l.length → Bool) (p : Fin l.length → Vec3) :
    standRegion ((setContacts l on).map Foot.link) (count_set on) (fun k => p (numberOf l on k)) = stanceRegion l p on := by
  have hsum : ∀ (c : Vec3) (w : Fin l.length → Fin 6 → ℝ), (∀ i, on i = false → w i = 0) →
      ∑ k, fpart (w (numberOf l on k)) = ∑ i, fpart (w i) ∧
      ∑ k, (mpart (w (numberOf l on k)) + crossProduct (p (numberOf l on k) - c) (fpart (w (numberOf l on k)))) =
        ∑ i, (mpart (w i) + crossProduct (p i - c) (fpart (w i))) := fun c w hw =>
    ⟨sum_chosen on (fun i => fpart (w i)) fun i hi => (wrench_zero (p := 0) (c := 0) (hw i hi)).1,
      sum_chosen on (fun i => mpart (w i) + crossProduct (p i - c) (fpart (w i))) fun i hi => (wrench_zero (hw i hi)).2⟩
  ext c
  constructor
  · rintro ⟨w, hw, h1, h2⟩
    classical
    let w' : Fin l.length → Fin 6 → ℝ := fun i => if hi : on i = true then w (exists_place on hi).choose else 0
    have hw' : ∀ k, w' (numberOf l on k) = w k := by
      intro k
      have hi := number_on on k
      show (if hi : on (numberOf l on k) = true then w (exists_place on hi).choose else 0) = w k
      rw [dif_pos hi, number_inj on (exists_place on hi).choose_spec]
    have h0 : ∀ i, on i = false → w' i = 0 := fun i hi => dif_neg (by rw [hi]; exact Bool.false_ne_true)
    obtain ⟨s1, s2⟩ := hsum c w' h0
    simp only [hw'] at s1 s2
    refine ⟨w', fun i hi => ?_, h0, s1.symm.trans h1, s2.symm.trans h2⟩
    obtain ⟨k, rfl⟩ := exists_place on hi
    have := hw k
    simp only [footAt_set] at this
    rw [hw']
    exact this
  · rintro ⟨w, hw, h0, h1, h2⟩
    obtain ⟨s1, s2⟩ := hsum c w h0
    refine ⟨fun k => w (numberOf l on k), fun k => ?_, s1.trans h1, s2.trans h2⟩
    simp only [footAt_set]
    exact hw _ (number_on on k)

/-- More feet on the ground, a larger region. -/
theorem C103_mono {on on' : Fin l.length → Bool} (p : Fin l.length → Vec3) (hsub : ∀ i, on' i = true → on i = true) :
    stanceRegion l p on' ⊆ stanceRegion l p on := by
  rintro c ⟨w, hw, h0, h1, h2⟩
  refine ⟨w, fun i _ => ?_, fun i hi => h0 i ?_, h1, h2⟩
  · cases h : on' i
    · rw [h0 i h]; exact footHolds_zero _
    · exact hw i h
  · cases h : on' i
    · rfl
    · rw [hsub i h] at hi; cases hi

/-- **C103 (which feet a robot can stand on, on any terrain).**  The contacts are registered once, and `SetContact` chooses `on`.  Some torque holds the robot
still on the chosen contacts so that none tips or slips if and only if the centre of mass is in their support region. -/
theorem C103_stand_on_iff (hR : IsRot R0) (hL : L ≠ []) (hm : ∀ l ∈ L, 0 < l.m) (hI : ∀ l ∈ L, l.I.PosDef) (hb : ∀ l ∈ L, FloatingBase x0 R0 l)
    (hf : ∀ i, RidesOnBase x0 R0 (p i) (l.get i).jac) (hs : updateKinematics true (massMatrix L) x0 R0 (mass L) qd = some s)
    (hp : ∀ f ∈ l, 0 < f.link.planeX ∧ 0 < f.link.planeY) :
    (∃ τ f, Motion (ctrlMass L) (stackFeet (setContacts l on)) (s.G ∘ sysIdx.symm) τ 0 (stackForces l on f) ∧
      ∀ i, on i = true → FootHolds (l.get i).link (f i)) ↔ s.comPos ∈ stanceRegion l p on := by
  have hmem : ∀ c ∈ (setContacts l on).map Foot.link, ∃ i : Fin l.length, c = { (l.get i).link with contact := on i } := by
    intro c hc
    simp only [setContacts, List.map_map, List.mem_map] at hc
    obtain ⟨i, -, rfl⟩ := hc
    exact ⟨i, rfl⟩
  have hrides : ∀ k, RidesOnBase x0 R0 (p (numberOf l on k)) ((standing (setContacts l on)).get k).jac := by
    intro k
    rw [get_standing]
    exact hf _
  have key := C103_stands_iff (g := (standing (setContacts l on)).get) (p := fun k => p (numberOf l on k)) hR hL hm hI hb hrides hs (count_set on)
    (rows_set on) (fun c hc => by obtain ⟨i, rfl⟩ := hmem c hc; exact hp _ (List.get_mem _ _))
  rw [region_set] at key
  rw [← key]
  constructor
  · rintro ⟨τ, f, hM, h⟩
    exact ⟨τ, _, hM, (holds_set on).mpr h⟩
  · rintro ⟨τ, F, hM, h⟩
    obtain ⟨f, rfl, -⟩ := exists_forces on F
    exact ⟨τ, f, hM, (holds_set on).mp h⟩

/-- **C103 (which feet can be lifted on any terrain).**  A robot stands on the contacts `on`.  Some torque holds it still there, with no load on the contacts
outside `on'` and no contact tipping or slipping, if and only if the centre of mass is in the support region of `on'`. -/
theorem C103_lift_iff (hR : IsRot R0) (hL : L ≠ []) (hm : ∀ l ∈ L, 0 < l.m) (hI : ∀ l ∈ L, l.I.PosDef) (hb : ∀ l ∈ L, FloatingBase x0 R0 l)
    (hf : ∀ i, RidesOnBase x0 R0 (p i) (l.get i).jac) (hs : updateKinematics true (massMatrix L) x0 R0 (mass L) qd = some s)
    (hp : ∀ f ∈ l, 0 < f.link.planeX ∧ 0 < f.link.planeY) (hsub : ∀ i, on' i = true → on i = true) :
    (∃ τ f, Motion (ctrlMass L) (stackFeet (setContacts l on)) (s.G ∘ sysIdx.symm) τ 0 (stackForces l on f) ∧
      (∀ i, on i = true → FootHolds (l.get i).link (f i)) ∧ ∀ i, on i = true → on' i = false → f i = 0) ↔ s.comPos ∈ stanceRegion l p on' := by
  rw [← C103_stand_on_iff hR hL hm hI hb hf hs hp]
  constructor
  · rintro ⟨τ, f, hM, h, h0⟩
    exact ⟨τ, f, C98_lift_motion hsub h0 hM, fun i hi => h i (hsub i hi)⟩
  · rintro ⟨τ, f, hM, h⟩
    obtain ⟨g, e, hz'⟩ := exists_forces on' (stackForces l on' f)
    rw [e] at hM
    have hg : ∀ i, on' i = true → g i = f i := by
      intro i hi
      obtain ⟨k, rfl⟩ := exists_place on' hi
      rw [← wrench_stack on' g k, ← e, wrench_stack]
    refine ⟨τ, g, C98_set_down_motion hsub (fun i _ hi => hz' i hi) (fun i _ _ => mulVec_zero _) hM, fun i _ => ?_, fun i _ hi => hz' i hi⟩
    cases hi : on' i
    · rw [hz' i hi]; exact footHolds_zero _
    · rw [hg i hi]; exact h i hi

/-- C103 (after the feet are lifted, QP control).  The centre of mass is in the support region of the contacts that stay, two or more, and torques are not
limited: QP task control does not fail, whatever the tasks are. -/
theorem C103_lifted_never_fails (hR : IsRot R0) (hL : L ≠ []) (hm : ∀ l ∈ L, 0 < l.m) (hI : ∀ l ∈ L, l.I.PosDef) (hb : ∀ l ∈ L, FloatingBase x0 R0 l)
    (hf : ∀ i, RidesOnBase x0 R0 (p i) (l.get i).jac) (hs : updateKinematics true (massMatrix L) x0 R0 (mass L) qd = some s)
    (hA : IsSPD (ctrlMass L)) (h6 : ∀ f ∈ l, f.link.type = .c6d) (hp : ∀ f ∈ l, 0 < f.link.planeX ∧ 0 < f.link.planeY)
    (htwo : 2 ≤ (numbers on').length) (cod : (W : Matrix (Fin n) (Fin n) ℝ) → CodNull W) {solve : Solver} (hsound : solve.Sound) (hcomp : solve.Complete)
    (hcom : s.comPos ∈ stanceRegion l p on') {ts : List (TaskIn (Fin n))} {out : ℕ × (Fin n → ℝ) × (Fin n → ℝ) × (Fin n → ℝ)}
    (h : feetQP (ctrlMass L) (s.G ∘ sysIdx.symm) cod none solve ts (setContacts l on') = some out) : out.1 = 1 := by
  obtain ⟨τ, f, hM, hh⟩ := (C103_stand_on_iff hR hL hm hI hb hf hs hp).mpr hcom
  exact qp_stands hA h6 hp (fun i _ => rides_unit hR (hf i)) htwo cod hsound hcomp hM (fun L hL => by cases hL) hh h

/-- **C103 (after the feet are lifted, redistribution).**  Two or more feet stay, torques are not limited and the solver is exact.  Redistribution of a torque
that holds the robot still succeeds if and only if the centre of mass is in the support region of the contacts that stay. -/
theorem C103_lifted_redistribute_iff (hR : IsRot R0) (hL : L ≠ []) (hm : ∀ l ∈ L, 0 < l.m) (hI : ∀ l ∈ L, l.I.PosDef) (hb : ∀ l ∈ L, FloatingBase x0 R0 l)
    (hf : ∀ i, RidesOnBase x0 R0 (p i) (l.get i).jac) (hs : updateKinematics true (massMatrix L) x0 R0 (mass L) qd = some s)
    (hA : IsSPD (ctrlMass L)) (h6 : ∀ f ∈ l, f.link.type = .c6d) (hp : ∀ f ∈ l, 0 < f.link.planeX ∧ 0 < f.link.planeY)
    (hind : IndependentRows (stackFeet (setContacts l on')))
    (htwo : 2 ≤ (numbers on').length) (cod : (W : Matrix (Fin n) (Fin n) ℝ) → CodNull W) {solve : RSolver} (hexact : solve.Exact) (hcomp : solve.Complete)
    {base τc : Fin n → ℝ} {F : Fin (6 * (standing (setContacts l on')).length) → ℝ}
    (hM : Motion (ctrlMass L) (stackFeet (setContacts l on')) (s.G ∘ sysIdx.symm) (base + τc) 0 F) :
    (∃ τc', feetRedistribute (ctrlMass L) (s.G ∘ sysIdx.symm) cod none solve (base + τc) τc (setContacts l on') = some (1, τc')) ↔
      s.comPos ∈ stanceRegion l p on' := by
  have hlen := standing_set_length l on'
  have hmem : ∀ c ∈ (setContacts l on').map Foot.link, ∃ i : Fin l.length, c = { (l.get i).link with contact := on' i } := by
    intro c hc
    simp only [setContacts, List.map_map, List.mem_map] at hc
    obtain ⟨i, -, rfl⟩ := hc
    exact ⟨i, rfl⟩
  have hrides : ∀ k, RidesOnBase x0 R0 (p (numberOf l on' k)) ((standing (setContacts l on')).get k).jac := by
    intro k
    rw [get_standing]
    exact hf _
  obtain ⟨S, ⟨m, V2, N⟩, hcalc⟩ := C05_feet_succeed (g := (standing (setContacts l on')).get) hR (by omega) hrides hA hind cod
  have e : ∀ τ τ', feetRedistribute (ctrlMass L) (s.G ∘ sysIdx.symm) cod none solve τ τ' (setContacts l on') =
      redistribute { S := S, NwJw := N, P := Model.gravityForce S (s.G ∘ sysIdx.symm), τg := gravityTorque S (ctrlMass L)⁻¹ (s.G ∘ sysIdx.symm), limit := none, cs := (setContacts l on').map Foot.link } solve τ τ' := by
    intro τ τ'
    unfold feetRedistribute redistributeCycle
    rw [show calculateContactConstraint (stackFeet (setContacts l on')) (ctrlMass L)⁻¹ cod = _ from hcalc]
  rw [e, ← region_set]
  exact C103_redistribute_iff (g := (standing (setContacts l on')).get) (p := fun k => p (numberOf l on' k)) hR hL hm hI hb hrides hs hA
    { S := S, NwJw := N, P := Model.gravityForce S (s.G ∘ sysIdx.symm), τg := gravityTorque S (ctrlMass L)⁻¹ (s.G ∘ sysIdx.symm), limit := none, cs := (setContacts l on').map Foot.link }
    (ret_space hcalc) rfl (fun c hc => by obtain ⟨i, rfl⟩ := hmem c hc; exact h6 _ (List.get_mem _ _)) (count_set on') (by omega)
    (fun c hc => by obtain ⟨i, rfl⟩ := hmem c hc; exact hp _ (List.get_mem _ _))
    cod hcalc hexact hcomp rfl hM

end
end

section
variable {ι : Type} [Fintype ι] [DecidableEq ι] {k : ℕ}
variable {L : List (MovingLink (Sys ι))} {x0 : Vec3} {R0 : Mat3} {g : Fin k → Foot ι} {p : Fin k → Vec3} {qd : Sys ι → ℝ} {s : WholeBody ι}

/-- **C101, C103 (joint-acceleration QP).**  Whatever the tasks and the terrain: the feet can supply the force and the moment of the motion of every level
that reports success.  In particular no level answers with a robot at rest unless the centre of mass is in the support region. -/
theorem C103_jacc (hR : IsRot R0) (hL : L ≠ []) (hm : ∀ l ∈ L, 0 < l.m) (hI : ∀ l ∈ L, l.I.PosDef) (hb : ∀ l ∈ L, FloatingBase x0 R0 l)
    (hf : ∀ i, RidesOnBase x0 R0 (p i) (g i).jac) (hs : updateKinematics true (massMatrix L) x0 R0 (mass L) qd = some s)
    {cs : List ContactLink} {lim : Option (ι → ℝ)} (h6 : ∀ l ∈ cs, l.type = .c6d)
    (hk : k = (active cs).length) (hp : ∀ l ∈ cs, 0 < l.planeX ∧ 0 < l.planeY)
    {solve : JSolver} (hsolve : solve.Sound) {ts ts' : List (JTask ι (6 * k))} {m : ℕ}
    (h : jaccPass ⟨ctrlMass L, s.G ∘ sysIdx.symm, stackFn g, cs, lim⟩ solve ts m = some (true, ts')) :
    ∃ o : ℕ → JAnswer ι (6 * k), (∀ j < m, ∃ T', ts'[j]? = some T' ∧ T'.out = some (o j)) ∧ ∀ j < m,
      Motion (ctrlMass L) (stackFn g) (s.G ∘ sysIdx.symm) (o j).torque (o j).acc (o j).force ∧
      FeetSupply cs hk p s.comPos (mass L • (earth - s.jacLin *ᵥ ((o j).acc ∘ sysIdx))) (-(angularMomentum s.comPos L ((o j).acc ∘ sysIdx))) ∧
      ((o j).acc = 0 → s.comPos ∈ standRegion cs hk p) := by
  have hc : 6 * k = 6 * (active cs).length := congrArg (6 * ·) hk
  obtain ⟨o, h1, h2⟩ := C35_stack_partial (R := ⟨ctrlMass L, s.G ∘ sysIdx.symm, stackFn g, cs, lim⟩) h6 hp hc hsolve h
  refine ⟨o, h1, fun j hj => ?_⟩
  obtain ⟨ho, -⟩ := h2 j hj
  have hM : Motion (ctrlMass L) (stackFn g) (s.G ∘ sysIdx.symm) (o j).torque (o j).acc (o j).force := ho.motion
  refine ⟨hM, (C101_motion_iff hR hL hm hI hb hf hs hk hc hM.2).mp ⟨_, _, hM, ho.contacts⟩, fun h0 => ?_⟩
  rw [h0] at hM
  exact (C103_stands_iff hR hL hm hI hb hf hs hk hc hp).mp ⟨_, _, hM, ho.contacts⟩

end

end Verif.Props
