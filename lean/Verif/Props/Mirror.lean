import Verif.Lemmas.Mirror

/-!
# C91: a robot and its mirror image get mirrored torques
-/

set_option linter.unusedSectionVars false

namespace Verif.Props
open Matrix Verif Verif.Spec Verif.Model

section
variable {ι : Type*} [Fintype ι] [DecidableEq ι] {e : Equiv.Perm ι} {s : ι → ℝ}
  {A : Matrix (Fin 6 ⊕ ι) (Fin 6 ⊕ ι) ℝ} {G : Fin 6 ⊕ ι → ℝ}

/-! ### The mirror image of a robot -/

/-- C91 (the physics).  Under the torques seen in the mirror, the mirror image of the robot moves as the robot does, seen in the
mirror, and so do its contact forces. -/
theorem C91_motion (hs : Signs s) {k : ℕ} (g : Fin k → Foot ι) (τ : ι → ℝ) (qdd : Fin 6 ⊕ ι → ℝ) (F : Fin (6 * k) → ℝ) :
    Motion (mirrorMass e s A) (stackFn (mirrorFoot e s ∘ g)) (mirrorAll e s G) (mirrorTorque e s τ) (mirrorAll e s qdd) (mirrorStack F)
      ↔ Motion A (stackFn g) G τ qdd F := by
  rw [← mirrorRows_mulVec, C80_motion mirrorSix_sq (mirrorRows_orth k) (mirror_seen e s A G g), mirrorAll_eq', C84_motion hs]

theorem gravity_mirror (hs : Signs s) (k : ℕ) (g : Fin k → Foot ι) :
    gravityCommand (stackFn (mirrorFoot e s ∘ g)) (mirrorMass e s A)⁻¹ (mirrorAll e s G)
      = (gravityCommand (stackFn g) A⁻¹ G).map (mirrorTorque e s) := by
  rw [C80_gravity mirrorSix_sq (mirrorRows_orth k) (mirror_seen e s A G g), C84_gravity hs]

/-- C91 (gravity compensation, mirror image).  The mirror image of a robot gets the torque seen in the mirror. -/
theorem C91_gravity_mirror (hs : Signs s) (l : List (Foot ι)) :
    feetGravity (mirrorMass e s A) (mirrorAll e s G) (l.map (mirrorFoot e s)) = (feetGravity A G l).map (mirrorTorque e s) := by
  unfold feetGravity stackFeet
  rw [standing_mirror]
  exact (map_fn (fun _ g => gravityCommand (stackFn g) (mirrorMass e s A)⁻¹ (mirrorAll e s G)) (mirrorFoot e s) (standing l)).trans
    (gravity_mirror hs _ _)

/-- C91 (task control without QP, mirror image).  For every list of tasks and their mirror images. -/
theorem C91_closed_mirror (hs : Signs s) (l : List (Foot ι)) {ts ts' : List (TaskIn ι)} (ht : List.Forall₂ (MirrorTask e s) ts ts') :
    feetClosed (mirrorMass e s A) (mirrorAll e s G) ts' (l.map (mirrorFoot e s)) = (feetClosed A G ts l).map (mirrorTorque e s) := by
  unfold feetClosed stackFeet
  rw [standing_mirror]
  refine (map_fn (fun _ g => closedCommand (stackFn g) (mirrorMass e s A)⁻¹ (mirrorAll e s G) ts') (mirrorFoot e s) (standing l)).trans ?_
  rw [C80_closed_command mirrorSix_sq (mirrorRows_orth _) (mirror_seen e s A G _) (mirror_tasks ht), C84_closed_command hs]

theorem forces_mirror (hs : Signs s) (τ : ι → ℝ) (k : ℕ) (g : Fin k → Foot ι) :
    forcesAt (mirrorMass e s A) (mirrorAll e s G) (mirrorTorque e s τ) (mirrorFoot e s ∘ g)
      = (forcesAt A G τ g).map (Multiset.map fun p => (mirrorFoot e s p.1, mirrorWrench p.2)) := by
  unfold forcesAt
  have h := mirror_seen e s A G g
  have hR := mirrorRows_orth k
  rw [contactSpace_seen mirrorSix_sq hR h, contactSpace_counted hs, Option.map_map, Option.map_map, Option.map_map]
  rcases hS : contactSpace (stackFn g) A⁻¹ with _ | S
  · rfl
  simp only [Option.map_some, Option.some.injEq, Function.comp]
  have hS1 : contactSpace (recountCols e s (stackFn g)) (recountMass e s A)⁻¹
      = some (jointSpace (countMatrix e s) (countMatrix e s)ᵀ S) := by rw [contactSpace_counted hs, hS]; rfl
  have hS2 := contactSpace_seen mirrorSix_sq hR h
  rw [hS1, Option.map_some] at hS2
  rw [C80_contact_force mirrorSix_sq hR h hS1 hS2, C84_contact_force hs hS hS1, Multiset.map_map, mirrorRows_mulVec]
  refine Multiset.map_congr rfl fun i _ => ?_
  simp only [Function.comp, wrenchOf_mirror]

/-- C91 (contact forces, mirror image).  For torques seen in the mirror the library reports the forces seen in the mirror. -/
theorem C91_forces_mirror (hs : Signs s) (τ : ι → ℝ) (l : List (Foot ι)) :
    (feetForces (mirrorMass e s A) (mirrorAll e s G) (mirrorTorque e s τ) (l.map (mirrorFoot e s))).map Multiset.ofList
      = (feetForces A G τ l).map fun F => Multiset.ofList (F.map fun p => (mirrorFoot e s p.1, mirrorWrench p.2)) := by
  have key : ∀ (A : Matrix (Fin 6 ⊕ ι) (Fin 6 ⊕ ι) ℝ) (G : Fin 6 ⊕ ι → ℝ) (τ : ι → ℝ) (l : List (Foot ι)),
      (feetForces A G τ l).map Multiset.ofList = forcesAt A G τ (standing l).get := by
    intro A G τ l
    unfold feetForces forcesAt stackFeet
    rw [Option.map_map]
    congr 1
    funext S
    simp only [Function.comp]
    rw [List.ofFn_eq_map, ← Multiset.map_coe]
    rfl
  have e2 : (feetForces A G τ l).map (fun F => Multiset.ofList (F.map fun p => (mirrorFoot e s p.1, mirrorWrench p.2)))
      = ((feetForces A G τ l).map Multiset.ofList).map (Multiset.map fun p => (mirrorFoot e s p.1, mirrorWrench p.2)) := by
    rw [Option.map_map]; rfl
  rw [e2, key, key, standing_mirror]
  exact (map_fn (fun _ g => forcesAt (mirrorMass e s A) (mirrorAll e s G) (mirrorTorque e s τ) g) (mirrorFoot e s) (standing l)).trans
    (forces_mirror hs τ _ _)

/-! ### A robot that is its own mirror image -/

/-- The robot, its weight and its contacts look the same in the mirror; the contacts may have been registered in any order. -/
structure LooksMirrored (e : Equiv.Perm ι) (s : ι → ℝ) (A : Matrix (Fin 6 ⊕ ι) (Fin 6 ⊕ ι) ℝ) (G : Fin 6 ⊕ ι → ℝ) (l : List (Foot ι)) :
    Prop where
  mass : mirrorMass e s A = A
  weight : mirrorAll e s G = G
  feet : (l.map (mirrorFoot e s)).Perm l

/-- C91 (gravity compensation).  A robot that looks the same in the mirror gets a torque that looks the same in the mirror. -/
theorem C91_gravity (hs : Signs s) {l : List (Foot ι)} (h : LooksMirrored e s A G l) {τ : ι → ℝ} (hτ : feetGravity A G l = some τ) :
    mirrorTorque e s τ = τ := by
  have h1 := C91_gravity_mirror (e := e) (A := A) (G := G) hs l
  rw [h.mass, h.weight, C81_gravity h.feet, hτ, Option.map_some, Option.some.injEq] at h1
  exact h1.symm

/-- C91 (task control without QP).  So does every list of tasks that look the same in the mirror. -/
theorem C91_closed (hs : Signs s) {l : List (Foot ι)} (h : LooksMirrored e s A G l) {ts : List (TaskIn ι)}
    (ht : List.Forall₂ (MirrorTask e s) ts ts) {τ : ι → ℝ} (hτ : feetClosed A G ts l = some τ) : mirrorTorque e s τ = τ := by
  have h1 := C91_closed_mirror (A := A) (G := G) hs l ht
  rw [h.mass, h.weight, C81_closed ts h.feet, hτ, Option.map_some, Option.some.injEq] at h1
  exact h1.symm

/-- C91 (contact forces).  For a torque that looks the same in the mirror the forces at the contacts do. -/
theorem C91_forces (hs : Signs s) {l : List (Foot ι)} (h : LooksMirrored e s A G l) {τ : ι → ℝ} (hτ : mirrorTorque e s τ = τ)
    {F : List (Foot ι × (Fin 6 → ℝ))} (hF : feetForces A G τ l = some F) :
    (F.map fun p => (mirrorFoot e s p.1, mirrorWrench p.2)).Perm F := by
  have h1 := C91_forces_mirror (e := e) (A := A) (G := G) hs τ l
  rw [h.mass, h.weight, hτ, C81_forces τ h.feet, hF, Option.map_some, Option.map_some, Option.some.injEq] at h1
  exact (Multiset.coe_eq_coe.mp h1).symm

end

/-! ### QP control -/

section
variable {n : ℕ} {e : Equiv.Perm (Fin n)} {s : Fin n → ℝ} {A : Matrix (Fin 6 ⊕ Fin n) (Fin 6 ⊕ Fin n) ℝ} {G : Fin 6 ⊕ Fin n → ℝ}

theorem active_mirror (l : List (Foot (Fin n))) :
    active ((l.map (mirrorFoot e s)).map Foot.link) = List.ofFn fun i => (mirrorFoot e s ((standing l).get i)).link := by
  rw [active_links]
  rw [standing_mirror]
  exact map_fn (fun _ g => List.ofFn fun i => (g i).link) (mirrorFoot e s) (standing l)

theorem six_mirror {l : List (Foot (Fin n))} (h6 : ∀ f ∈ l, f.link.type = .c6d) :
    (∀ c ∈ l.map Foot.link, c.type = .c6d) ∧ ∀ c ∈ (l.map (mirrorFoot e s)).map Foot.link, c.type = .c6d := by
  constructor
  · intro c hc; obtain ⟨f, hf, rfl⟩ := List.mem_map.mp hc; exact h6 f hf
  · intro c hc
    obtain ⟨f, hf, rfl⟩ := List.mem_map.mp hc
    obtain ⟨f0, hf0, rfl⟩ := List.mem_map.mp hf
    exact h6 f0 hf0

/-- C91 (a cycle with QP task control, mirror image).  Return value, gravity torque and task torque of the mirror image are those of
the robot, seen in the mirror; exact solvers that answer every solvable problem, contacts of type 6DOF.  (The torque for the contact
forces need not be unique, C86.) -/
theorem C91_qp_mirror_partial (hs : Signs s) {l : List (Foot (Fin n))} (h6 : ∀ f ∈ l, f.link.type = .c6d)
    (cod : (W : Matrix (Fin n) (Fin n) ℝ) → CodNull W) (limit : Option (Fin n → ℝ)) {solve solve' : Solver} (he : solve.Exact)
    (hcomp : solve.Complete) (he' : solve'.Exact) (hcomp' : solve'.Complete) {ts ts' : List (TaskIn (Fin n))}
    (ht : List.Forall₂ (MirrorTask e s) ts ts') :
    (feetQP (mirrorMass e s A) (mirrorAll e s G) cod (limit.map (recountLimit e)) solve' ts' (l.map (mirrorFoot e s))).map
        (fun o => (o.1, o.2.1, o.2.2.1))
      = (feetQP A G cod limit solve ts l).map (fun o => (o.1, mirrorTorque e s o.2.1, mirrorTorque e s o.2.2.1)) := by
  unfold feetQP stackFeet
  have ha := active_links l
  have ha' := active_mirror (e := e) (s := s) l
  obtain ⟨h6l, h6l'⟩ := six_mirror (e := e) (s := s) h6
  revert ha ha' h6l h6l'
  generalize (l.map (mirrorFoot e s)).map Foot.link = cs'
  generalize l.map Foot.link = cs
  intro ha ha' h6l h6l'
  rw [standing_mirror]
  refine (congrArg _ (map_fn (fun _ g => qpCycle (stackFn g) (mirrorMass e s A)⁻¹ (mirrorAll e s G) cod (limit.map (recountLimit e)) cs'
    solve' ts') (mirrorFoot e s) (standing l))).trans ?_
  have h1 := qpCycle_seen_top mirrorSix_sq (mirrorRows_orth _) (keepsTop_mirror _) (mirror_seen e s A G (standing l).get)
    (stackC_mirror (standing l).get ha ha' h6l h6l') cod (limit.map (recountLimit e)) he hcomp he' hcomp' (mirror_tasks ht)
  unfold SameCycle at h1
  rw [h1]
  exact C84_qp_cycle_partial hs A _ G cod cod limit cs he hcomp he hcomp ts

/-- C91 (contact redistribution by QP, mirror image).  Return value and contact torque of the mirror image, its contacts registered in
the same order, are those of the robot, seen in the mirror. -/
theorem C91_redistribute_mirror (hs : Signs s) {l : List (Foot (Fin n))} (h6 : ∀ f ∈ l, f.link.type = .c6d)
    (hl : standing l ≠ []) (cod : (W : Matrix (Fin n) (Fin n) ℝ) → CodNull W) (limit : Option (Fin n → ℝ)) {solve solve' : RSolver}
    (he : solve.Exact) (hcomp : solve.Complete) (he' : solve'.Exact) (hcomp' : solve'.Complete) (τin τc : Fin n → ℝ) :
    feetRedistribute (mirrorMass e s A) (mirrorAll e s G) cod (limit.map (recountLimit e)) solve' (mirrorTorque e s τin)
        (mirrorTorque e s τc) (l.map (mirrorFoot e s))
      = (feetRedistribute A G cod limit solve τin τc l).map (fun o => (o.1, mirrorTorque e s o.2)) := by
  unfold feetRedistribute stackFeet
  have ha := active_links l
  have ha' := active_mirror (e := e) (s := s) l
  obtain ⟨h6l, h6l'⟩ := six_mirror (e := e) (s := s) h6
  revert ha ha' h6l h6l'
  generalize (l.map (mirrorFoot e s)).map Foot.link = cs'
  generalize l.map Foot.link = cs
  intro ha ha' h6l h6l'
  have hpos : 0 < (standing l).length := List.length_pos_of_ne_nil hl
  have hact : 1 ≤ (active cs).length := by rw [ha, List.length_ofFn]; exact hpos
  have hact' : 1 ≤ (active cs').length := by rw [ha', List.length_ofFn]; exact hpos
  rw [standing_mirror]
  refine (map_fn (fun _ g => redistributeCycle (stackFn g) (mirrorMass e s A)⁻¹ (mirrorAll e s G) cod (limit.map (recountLimit e)) cs'
    solve' (mirrorTorque e s τin) (mirrorTorque e s τc)) (mirrorFoot e s) (standing l)).trans ?_
  rw [redistributeCycle_seen mirrorSix_sq (mirrorRows_orth _) (keepsTop_mirror _) (stackC_mirror (standing l).get ha ha' h6l h6l')
    (fun _ => hact) (fun _ => hact') (mirror_seen e s A G (standing l).get) cod (limit.map (recountLimit e)) he hcomp he' hcomp']
  exact C84_redistribute_qp hs A _ G cod cod limit hact he hcomp he hcomp τin τc

/-- C91 (a cycle with QP task control).  A robot that looks the same in the mirror, with limits and tasks that do, gets a gravity torque
and a task torque that do; contacts of type 6DOF whose base columns are invertible. -/
theorem C91_qp_partial (hs : Signs s) (hA : IsSPD A) {l : List (Foot (Fin n))} (h : LooksMirrored e s A G l)
    (h6 : ∀ f ∈ l, f.link.type = .c6d) (hb : ∀ f ∈ l, IsUnit (footBase f).det)
    (cod : (W : Matrix (Fin n) (Fin n) ℝ) → CodNull W) {limit : Option (Fin n → ℝ)} (hL : limit.map (recountLimit e) = limit)
    {solve : Solver} (he : solve.Exact) (hcomp : solve.Complete) {ts : List (TaskIn (Fin n))}
    (ht : List.Forall₂ (MirrorTask e s) ts ts) {v : ℕ} {τg τt τc : Fin n → ℝ}
    (hr : feetQP A G cod limit solve ts l = some (v, τg, τt, τc)) : mirrorTorque e s τg = τg ∧ mirrorTorque e s τt = τt := by
  have h1 := C91_qp_mirror_partial (A := A) (G := G) hs h6 cod limit he hcomp he hcomp ht
  rw [h.mass, h.weight, hL] at h1
  have h2 := C81_qp_cycle_partial (G := G) hA h.feet h6 hb cod limit he hcomp he hcomp ts
  unfold SameCycle at h2
  rw [h1, hr] at h2
  simp only [Option.map_some, Option.some.injEq, Prod.mk.injEq, true_and] at h2
  exact h2

end

end Verif.Props
