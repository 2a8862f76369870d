import Verif.Props.Supply
import Verif.Props.StanceMet

/-!
# C101: a body on a slide, carried by two blocks
-/

set_option linter.unusedSectionVars false

namespace Verif.Props
open Matrix Verif Verif.Spec Verif.Model Verif.Lemmas

namespace Slide

/-- the coordinates of the base and the blocks among all -/
def legs : Sys (Fin 6) → Sys (Fin 7)
  | .inl a => .inl a
  | .inr j => .inr j.castSucc

/-- a block that does not move with the slide -/
noncomputable def ofLeg (l : MovingLink (Sys (Fin 6))) : MovingLink (Sys (Fin 7)) :=
  { m := l.m, I := l.I, x := l.x, Jv := Matrix.of fun i => Sum.elim (fun a => l.Jv i (.inl a)) (Fin.snoc (α := fun _ => ℝ) (fun j => l.Jv i (.inr j)) 0), Jw := Matrix.of fun i => Sum.elim (fun a => l.Jw i (.inl a)) (Fin.snoc (α := fun _ => ℝ) (fun j => l.Jw i (.inr j)) 0) }

theorem ofLeg_v (l : MovingLink (Sys (Fin 6))) (q : Sys (Fin 7) → ℝ) : (ofLeg l).Jv *ᵥ q = l.Jv *ᵥ (q ∘ legs) := by
  funext i
  simp only [ofLeg, mulVec, dotProduct, Fintype.sum_sum_type (α₁ := Fin 3 ⊕ Fin 3), legs, Fin.sum_univ_castSucc (n := 6), Matrix.of_apply, Sum.elim_inl,
    Sum.elim_inr, Fin.snoc_castSucc, Fin.snoc_last, zero_mul, add_zero, Function.comp_apply]

theorem ofLeg_w (l : MovingLink (Sys (Fin 6))) (q : Sys (Fin 7) → ℝ) : (ofLeg l).Jw *ᵥ q = l.Jw *ᵥ (q ∘ legs) := by
  funext i
  simp only [ofLeg, mulVec, dotProduct, Fintype.sum_sum_type (α₁ := Fin 3 ⊕ Fin 3), legs, Fin.sum_univ_castSucc (n := 6), Matrix.of_apply, Sum.elim_inl,
    Sum.elim_inr, Fin.snoc_castSucc, Fin.snoc_last, zero_mul, add_zero, Function.comp_apply]

/-- the body on the slide, a metre above the middle between the blocks; the seventh joint moves it forwards -/
noncomputable def body : MovingLink (Sys (Fin 7)) :=
  { m := 1, I := 1, x := ![0, 1 / 2, 1], Jv := Matrix.of fun i => Sum.elim (Sum.elim (Pi.single i 1) (!![0, 1, -1 / 2; -1, 0, 0; 1 / 2, 0, 0] i)) (!![0, 0, 0, 0, 0, 0, 1; 0, 0, 0, 0, 0, 0, 0; 0, 0, 0, 0, 0, 0, 0] i), Jw := Matrix.of fun i => Sum.elim (Sum.elim 0 (Pi.single i 1)) 0 }

theorem body_v (q : Sys (Fin 7) → ℝ) : body.Jv *ᵥ q = ![q (.inl (.inl 0)) + (q (.inl (.inr 1)) - q (.inl (.inr 2)) / 2) + q (.inr 6),
    q (.inl (.inl 1)) - q (.inl (.inr 0)), q (.inl (.inl 2)) + q (.inl (.inr 0)) / 2] := by
  funext i
  fin_cases i <;> simp [body, mulVec, dotProduct, Fin.sum_univ_succ, Pi.single_apply] <;> ring

theorem body_w (q : Sys (Fin 7) → ℝ) : body.Jw *ᵥ q = ![q (.inl (.inr 0)), q (.inl (.inr 1)), q (.inl (.inr 2))] := by
  funext i
  fin_cases i <;> simp [body, mulVec, dotProduct, Fin.sum_univ_succ, Pi.single_apply]

theorem body_floating : FloatingBase 0 1 body := by
  refine ⟨fun v ω => ?_, fun v ω => ?_⟩
  · rw [body_v, one_mulVec, cross_apply]
    funext i; fin_cases i <;> simp [baseVelocity, body] <;> ring
  · rw [body_w, one_mulVec]
    funext i; fin_cases i <;> simp [baseVelocity]

noncomputable abbrev L : List (MovingLink (Sys (Fin 7))) := [ofLeg Blocks.first, ofLeg (Blocks.second 0), body]

theorem base_legs (v ω : Vec3) : (baseVelocity v ω : Sys (Fin 7) → ℝ) ∘ legs = baseVelocity v ω := by
  funext i
  rcases i with (i | i) | i <;> rfl

theorem floating : ∀ l ∈ L, FloatingBase 0 1 l := by
  have hl : ∀ l ∈ Blocks.L 0, FloatingBase 0 1 (ofLeg l) := fun l hl =>
    ⟨fun v ω => by rw [ofLeg_v, base_legs]; exact (Blocks.floating 0 l hl).lin v ω, fun v ω => by rw [ofLeg_w, base_legs]; exact (Blocks.floating 0 l hl).ang v ω⟩
  intro l h
  simp only [L, List.mem_cons, List.not_mem_nil, or_false] at h
  rcases h with rfl | rfl | rfl
  · exact hl _ (by simp)
  · exact hl _ (by simp)
  · exact body_floating

theorem masses : ∀ l ∈ L, 0 < l.m := by
  intro l h
  simp only [L, List.mem_cons, List.not_mem_nil, or_false] at h
  rcases h with rfl | rfl | rfl <;> norm_num [ofLeg, Blocks.first, Blocks.second, body]

theorem inertias : ∀ l ∈ L, l.I.PosDef := by
  intro l h
  simp only [L, List.mem_cons, List.not_mem_nil, or_false] at h
  rcases h with rfl | rfl | rfl <;> exact PosDef.one

theorem still (q : Sys (Fin 7) → ℝ) (h : ∀ l ∈ L, l.Jv *ᵥ q = 0 ∧ l.Jw *ᵥ q = 0) : q = 0 := by
  have h1 : q ∘ legs = 0 := Blocks.still 0 _ fun l hl => by
    rw [← ofLeg_v, ← ofLeg_w]
    simp only [Blocks.L, List.mem_cons, List.not_mem_nil, or_false] at hl
    rcases hl with rfl | rfl
    · exact h _ (by simp)
    · exact h _ (by simp)
  have hb : ∀ a, q (.inl a) = 0 := fun a => congrFun h1 (.inl a)
  have h3 := (h body (by simp)).1
  rw [body_v] at h3
  have c0 := congrFun h3 0
  simp [hb] at c0
  funext i
  rcases i with i | i
  · exact hb i
  · refine Fin.lastCases ?_ (fun j => ?_) i
    · exact c0
    · exact congrFun h1 (.inr j)

theorem spd : IsSPD (ctrlMass L) := by
  refine isSPD_reindex (massMatrix_spd ?_ still) _
  intro l h
  refine ⟨masses l h, ?_⟩
  simp only [L, List.mem_cons, List.not_mem_nil, or_false] at h
  rcases h with rfl | rfl | rfl <;> exact isSPD_one

/-- a foot that does not move with the slide -/
noncomputable def ofFoot (f : Foot (Fin 6)) : Foot (Fin 7) :=
  { link := f.link, jac := Matrix.of fun a => Sum.elim (fun b => f.jac a (.inl b)) (Fin.snoc (α := fun _ => ℝ) (fun j => f.jac a (.inr j)) 0) }

noncomputable def feet (i : Fin 2) : Foot (Fin 7) := ofFoot (Blocks.feet 0 i)

/-- what the feet see of a motion -/
def seen (q : Fin 6 ⊕ Fin 7 → ℝ) : Fin 6 ⊕ Fin 6 → ℝ := Sum.elim (fun a => q (.inl a)) fun j => q (.inr j.castSucc)

theorem feet_mul (i : Fin 2) (q : Fin 6 ⊕ Fin 7 → ℝ) : (feet i).jac *ᵥ q = (Blocks.feet 0 i).jac *ᵥ seen q := by
  funext a
  simp only [feet, ofFoot, mulVec, dotProduct, Fintype.sum_sum_type, seen, Fin.sum_univ_castSucc (n := 6), Matrix.of_apply, Sum.elim_inl,
    Sum.elim_inr, Fin.snoc_castSucc, Fin.snoc_last, zero_mul, add_zero]

theorem rides (i : Fin 2) : RidesOnBase 0 1 ((Blocks.on 0).get i).pos (feet i).jac := by
  intro v ω
  rw [feet_mul]
  have e : seen ((baseVelocity v ω : Sys (Fin 7) → ℝ) ∘ sysIdx.symm) = (baseVelocity v ω : Sys (Fin 6) → ℝ) ∘ sysIdx.symm := by
    funext x
    rcases x with x | x <;> simp [seen, sysIdx, baseVelocity]
  rw [e]
  exact Blocks.rides 0 i v ω

theorem independent : IndependentRows (stackFn feet) := by
  intro F hF
  refine Blocks.independent 0 F (funext fun x => ?_)
  rcases x with x | x
  · exact congrFun hF (.inl x)
  · refine Eq.trans ?_ (congrFun hF (.inr x.castSucc))
    show ∑ r, stackFn (Blocks.feet 0) r (.inr x) * F r = ∑ r, stackFn feet r (.inr x.castSucc) * F r
    refine Finset.sum_congr rfl fun r _ => ?_
    congr 1
    exact (Fin.snoc_castSucc (α := fun _ => ℝ) (n := 6) 0 (fun j => (Blocks.feet 0 ⟨r / 6, by omega⟩).jac ⟨r % 6, by omega⟩ (.inr j)) x).symm

/-- Only the slide can move. -/
theorem fixed {q : Fin 6 ⊕ Fin 7 → ℝ} (h : ContactsFixed (stackFn feet) q) : q = Pi.single (.inr 6) (q (.inr 6)) := by
  have hs : seen q = 0 := by
    refine Blocks.fixed (funext fun r => ?_)
    refine Eq.trans ?_ (congrFun (show stackFn feet *ᵥ q = 0 from h) r)
    exact (congrFun (feet_mul ⟨r / 6, by omega⟩ q) ⟨r % 6, by omega⟩).symm
  funext x
  rcases x with x | x
  · rw [Pi.single_eq_of_ne (by simp)]
    exact congrFun hs (.inl x)
  · refine Fin.lastCases ?_ (fun j => ?_) x
    · exact (Pi.single_eq_same (M := fun _ => ℝ) (Sum.inr (6 : Fin 7)) _).symm
    · rw [Pi.single_eq_of_ne (by
        intro h
        have := Sum.inr.inj h
        exact absurd this (Fin.castSucc_lt_last j).ne)]
      exact congrFun hs (.inr j)

theorem mass_L : mass L = 3 := by
  norm_num [mass, Blocks.first, Blocks.second, body, ofLeg]

/-- the task of the slide -/
noncomputable def task (α : ℝ) : TaskIn (Fin 7) := { t := 1, J := Matrix.of fun _ => Pi.single (.inr 6) 1, f := fun _ => α }

/-- the robot as task control sees it, without torque limits -/
noncomputable def robot (S : ContactSpace (6 * 2) (Fin 7)) (N : Matrix (Fin 7) (Fin (6 * 2 - 6)) ℝ) (P : Fin (6 * 2) → ℝ) (τg : Fin 7 → ℝ) : QPRobot 7 (6 * 2) :=
  { S := S, NwJw := N, P := P, τg := τg, limit := none, cs := [Blocks.pad, Blocks.pad] }

theorem slide_legs (α : ℝ) : (Pi.single (.inr 6) α : Sys (Fin 7) → ℝ) ∘ legs = 0 := by
  funext x
  rcases x with x | j
  · exact Pi.single_eq_of_ne (by simp [legs]) _
  · refine Pi.single_eq_of_ne (fun h => ?_) _
    exact absurd (Sum.inr.inj h) (Fin.castSucc_lt_last j).ne

theorem linear (α : ℝ) : linearMomentum L (Pi.single (.inr 6) α) = ![α, 0, 0] := by
  simp only [linearMomentum, L, List.map_cons, List.map_nil, List.sum_cons, List.sum_nil, ofLeg_v, slide_legs, mulVec_zero, smul_zero, zero_add, body_v]
  funext i
  fin_cases i <;> simp [body]

theorem angular (α : ℝ) : angularMomentum ![0, 1 / 2, 1 / 3] L (Pi.single (.inr 6) α) = ![0, 2 / 3 * α, 0] := by
  simp only [angularMomentum, L, List.map_cons, List.map_nil, List.sum_cons, List.sum_nil, ofLeg_v, ofLeg_w, slide_legs, mulVec_zero, map_zero, smul_zero,
    zero_add, add_zero, body_v, body_w, cross_apply]
  funext i
  fin_cases i
  · simp [body]
  · simp [body]
    left
    norm_num
  · simp [body]

theorem sole_mem {x y : ℝ} (i : Fin 2) (hx : |x| ≤ 1 / 10) (hy : ((Blocks.on 0).get i).pos = ![0, y, 0]) :
    ![x, y, 0] ∈ polygon [Blocks.pad, Blocks.pad] Blocks.two fun i => ((Blocks.on 0).get i).pos := by
  refine subset_convexHull ℝ _ (Set.mem_iUnion.mpr ⟨i, x, 0, ?_, ?_, ?_⟩)
  · show |x| ≤ (footAt [Blocks.pad, Blocks.pad] Blocks.two i).planeX
    rw [Blocks.foot_pad]; exact hx
  · show |(0 : ℝ)| ≤ (footAt [Blocks.pad, Blocks.pad] Blocks.two i).planeY
    rw [Blocks.foot_pad]; norm_num [Blocks.pad]
  · show ![x, y, 0] = ((Blocks.on 0).get i).pos + (footAt [Blocks.pad, Blocks.pad] Blocks.two i).rotm *ᵥ ![x, 0, 0]
    rw [Blocks.foot_pad, hy, show Blocks.pad.rotm = 1 from rfl, one_mulVec]
    funext a; fin_cases a <;> simp

/-- Half-way between the feet the polygon is as wide as the soles. -/
theorem polygon_iff (x : ℝ) : ![x, 1 / 2, 0] ∈ polygon [Blocks.pad, Blocks.pad] Blocks.two (fun i => ((Blocks.on 0).get i).pos) ↔ |x| ≤ 1 / 10 := by
  constructor
  · intro h
    have hsub : polygon [Blocks.pad, Blocks.pad] Blocks.two (fun i => ((Blocks.on 0).get i).pos) ⊆ {q : Vec3 | |q 0| ≤ 1 / 10} := by
      refine convexHull_min (Set.iUnion_subset fun i => ?_) ?_
      · rintro q ⟨a, b, ha, -, rfl⟩
        replace ha : |a| ≤ (footAt [Blocks.pad, Blocks.pad] Blocks.two i).planeX := ha
        show |(((Blocks.on 0).get i).pos + (footAt [Blocks.pad, Blocks.pad] Blocks.two i).rotm *ᵥ ![a, b, 0]) 0| ≤ 1 / 10
        rw [Blocks.foot_pad] at ha ⊢
        rw [show Blocks.pad.rotm = 1 from rfl, one_mulVec, Pi.add_apply, show ((Blocks.on 0).get i).pos 0 = 0 by fin_cases i <;> rfl, zero_add]
        exact ha
      · intro q₁ h₁ q₂ h₂ a b ha hb hab
        simp only [Set.mem_ofPred_eq, abs_le] at h₁ h₂ ⊢
        show -(1 / 10) ≤ a * q₁ 0 + b * q₂ 0 ∧ a * q₁ 0 + b * q₂ 0 ≤ 1 / 10
        constructor <;> nlinarith
    exact hsub h
  · intro hx
    have h : Convex ℝ (polygon [Blocks.pad, Blocks.pad] Blocks.two fun i => ((Blocks.on 0).get i).pos) := convex_convexHull ℝ _
    have := h (sole_mem (y := 0) 0 hx (by funext a; fin_cases a <;> rfl)) (sole_mem (y := 1) 1 hx (by funext a; fin_cases a <;> rfl))
      (show (0 : ℝ) ≤ 1 / 2 by norm_num) (show (0 : ℝ) ≤ 1 / 2 by norm_num) (by norm_num)
    have e : (![x, 1 / 2, 0] : Vec3) = (1 / 2 : ℝ) • ![x, 0, 0] + (1 / 2 : ℝ) • ![x, 1, 0] := by
      funext i
      fin_cases i <;> simp
      ring
    rw [e]
    exact this

/-- the centre of mass -/
theorem com {s : WholeBody (Fin 7)} (hcom : IsCOM L s.comPos) : s.comPos = ![0, 1 / 2, 1 / 3] := by
  have hc : mass L • s.comPos = _ := hcom
  rw [mass_L] at hc
  have c0 := congrFun hc 0; have c1 := congrFun hc 1; have c2 := congrFun hc 2
  simp [Blocks.first, Blocks.second, body, ofLeg] at c0 c1 c2
  funext i
  fin_cases i
  · simpa using c0
  · simp; linarith
  · simp; linarith

/-- the acceleration of the slide alone -/
noncomputable def acc (α : ℝ) : Fin 6 ⊕ Fin 7 → ℝ := Pi.single (.inr 6) α

theorem acc_sys (α : ℝ) : acc α ∘ sysIdx = Pi.single (.inr 6) α := by
  unfold acc
  funext x
  rcases x with x | x
  · simp [sysIdx]
  · simp [sysIdx, Pi.single_apply]

theorem acc_fixed (α : ℝ) : ContactsFixed (stackFn feet) (acc α) := by
  have hs : seen (acc α) = 0 := by
    funext x
    rcases x with x | x
    · show (Pi.single (.inr 6) α : Fin 6 ⊕ Fin 7 → ℝ) (.inl x) = 0
      exact Pi.single_eq_of_ne (by simp) _
    · exact Pi.single_eq_of_ne (fun h => absurd (Sum.inr.inj h) (Fin.castSucc_lt_last x).ne) _
  funext r
  refine Eq.trans (congrFun (feet_mul ⟨r / 6, by omega⟩ (acc α)) ⟨r % 6, by omega⟩) ?_
  rw [hs, mulVec_zero]
  rfl

theorem ready {S : ContactSpace (6 * 2) (Fin 7)} (hS : contactSpace (stackFn feet) (ctrlMass L)⁻¹ = some S) (α : ℝ) :
    ∃ T, calculateJKT S (ctrlMass L)⁻¹ (task α) = some T := by
  refine Option.isSome_iff_exists.mp ((C06_finite_iff spd hS _).mpr ?_)
  rintro y ⟨F, hy⟩
  have h1 := congrFun hy (.inr 6)
  have e1 : ((stackFn feet)ᵀ *ᵥ F) (.inr 6) = 0 := by
    rw [mulVec, dotProduct]
    refine Finset.sum_eq_zero fun r _ => ?_
    have : stackFn feet r (.inr 6) = 0 := Fin.snoc_last (α := fun _ => ℝ) (n := 6) 0 (fun j => (Blocks.feet 0 ⟨r / 6, by omega⟩).jac ⟨r % 6, by omega⟩ (.inr j))
    rw [transpose_apply, this, zero_mul]
  rw [e1] at h1
  have e2 : ((task α).Jᵀ *ᵥ y) (.inr 6) = y (0 : Fin 1) := by
    show ∑ r : Fin 1, (Pi.single (.inr 6) 1 : Fin 6 ⊕ Fin 7 → ℝ) (.inr 6) * y r = _
    rw [Fin.sum_univ_one, Pi.single_eq_same, _root_.one_mul]
  rw [e2] at h1
  funext j
  have : j = (0 : Fin 1) := Subsingleton.elim (α := Fin 1) _ _
  rw [this]
  exact h1.symm

/-- the motion that follows a command -/
theorem follows {S : ContactSpace (6 * 2) (Fin 7)} (hS : contactSpace (stackFn feet) (ctrlMass L)⁻¹ = some S) {α : ℝ} {T : TaskReady (Fin 7)}
    (hT : calculateJKT S (ctrlMass L)⁻¹ (task α) = some T) {G : Fin 6 ⊕ Fin 7 → ℝ} {qdd : Fin 6 ⊕ Fin 7 → ℝ} {F : Fin (6 * 2) → ℝ}
    (hM : Motion (ctrlMass L) (stackFn feet) G (gravityTorque S (ctrlMass L)⁻¹ G + taskTorque S [T]) qdd F) : qdd = acc α := by
  have hBd := C03_feet_determine_base (p := fun i : Fin 2 => ((Blocks.on 0).get i).pos) IsRot.one (by norm_num) rides
  have h1 := congrFun (C06_task_achieved spd hS hBd hT hM).1 (0 : Fin 1)
  have h2 : (Pi.single (.inr 6) 1 : Fin 6 ⊕ Fin 7 → ℝ) ⬝ᵥ qdd = α := h1
  rw [single_one_dotProduct] at h2
  rw [fixed hM.2, h2]
  rfl

/-- The ground can supply an acceleration of the slide up to 2.943 m/s². -/
theorem supply {qd : Sys (Fin 7) → ℝ} {s : WholeBody (Fin 7)} (hs : updateKinematics true (massMatrix L) 0 1 (mass L) qd = some s) (α : ℝ) :
    FeetSupply [Blocks.pad, Blocks.pad] Blocks.two (fun i => ((Blocks.on 0).get i).pos) s.comPos (mass L • (earth - s.jacLin *ᵥ (acc α ∘ sysIdx)))
      (-(angularMomentum s.comPos L (acc α ∘ sysIdx))) ↔ |α| ≤ 2.943 := by
  obtain ⟨s', hs', hcom, hjac, -⟩ := C25_com_partial IsRot.one (List.cons_ne_nil _ _) masses inertias floating qd
  obtain rfl : s = s' := Option.some.inj (hs.symm.trans hs')
  have hc3 := com hcom
  obtain ⟨S, hS⟩ := Option.isSome_iff_exists.mp ((C02_finite_iff_independent spd).mpr independent)
  have hp : ∀ l ∈ [Blocks.pad, Blocks.pad], 0 < l.planeX ∧ 0 < l.planeY := fun l hl => by rw [Blocks.pads l hl]; norm_num [Blocks.pad]
  have hact : ∀ l ∈ active [Blocks.pad, Blocks.pad], l = Blocks.pad := fun l hl => Blocks.pads l (List.mem_of_mem_filter hl)
  have hflat : ∀ l ∈ active [Blocks.pad, Blocks.pad], Flat l.rotm := fun l hl => by rw [hact l hl]; exact flat_one
  have hz : ∀ i : Fin 2, ((Blocks.on 0).get i).pos 2 = 0 := by intro i; fin_cases i <;> rfl
  have hc : 6 * 2 = 6 * (active [Blocks.pad, Blocks.pad]).length := congrArg (6 * ·) Blocks.two
  have hqs := acc_sys α
  have hfix := acc_fixed α
  generalize acc α = qdd at hqs hfix
  have ha : s.jacLin *ᵥ (qdd ∘ sysIdx) = ![α / 3, 0, 0] := by
    have h1 := com_rate hjac (qdd ∘ sysIdx)
    rw [show mass [ofLeg Blocks.first, ofLeg (Blocks.second 0), body] = 3 from mass_L] at h1
    have h2 : (3 : ℝ) • (s.jacLin *ᵥ (qdd ∘ sysIdx)) = ![α, 0, 0] := by
      rw [h1, hqs]
      exact linear α
    have e0 := congrFun h2 0; have e1 := congrFun h2 1; have e2 := congrFun h2 2
    simp only [Pi.smul_apply, smul_eq_mul, cons_val] at e0 e1 e2
    funext i
    fin_cases i
    · show (s.jacLin *ᵥ (qdd ∘ sysIdx)) 0 = α / 3
      linarith
    · show (s.jacLin *ᵥ (qdd ∘ sysIdx)) 1 = 0
      linarith
    · show (s.jacLin *ᵥ (qdd ∘ sysIdx)) 2 = 0
      linarith
  have hη : angularMomentum s.comPos L (qdd ∘ sysIdx) = ![0, 2 / 3 * α, 0] := by rw [hqs, hc3]; exact angular α
  have hcart : cartPoint (mass L) 0 s.comPos (s.jacLin *ᵥ (qdd ∘ sysIdx)) (angularMomentum s.comPos L (qdd ∘ sysIdx)) = ![-(α / 29.43), 1 / 2, 0] := by
    rw [ha, hη, hc3, mass_L]
    unfold cartPoint
    funext i
    fin_cases i
    · simp; ring
    · simp
    · rfl
  have hfall : 0 < 9.81 + (s.jacLin *ᵥ (qdd ∘ sysIdx)) 2 := by
    rw [ha]
    show (0 : ℝ) < 9.81 + 0
    norm_num
  have hα : |-(α / 29.43)| ≤ 1 / 10 ↔ |α| ≤ 2.943 := by
    rw [abs_neg, abs_div, abs_of_pos (show (0 : ℝ) < 29.43 by norm_num), div_le_iff₀ (by norm_num)]
    norm_num
  have hmot := C101_motion_iff (cs := [Blocks.pad, Blocks.pad]) (p := fun i : Fin 2 => ((Blocks.on 0).get i).pos) IsRot.one (List.cons_ne_nil _ _) masses inertias
    floating rides hs Blocks.two hc hfix
  refine ⟨fun h => ?_, fun h => ?_⟩
  · obtain ⟨τ, F, hτ, hF⟩ := hmot.mpr h
    have := C101_level_needs (p := fun i : Fin 2 => ((Blocks.on 0).get i).pos) IsRot.one (List.cons_ne_nil _ _) masses inertias
      floating rides hs spd hS Blocks.two hc (by norm_num) hp hflat hz hτ hF hfall
    rw [hcart] at this
    exact hα.mp ((polygon_iff _).mp this)
  · refine hmot.mp ((C101_level_iff (p := fun i : Fin 2 => ((Blocks.on 0).get i).pos) (z := 0) IsRot.one (List.cons_ne_nil _ _) masses inertias
      floating rides hs spd hS Blocks.two hc (by norm_num) hp hflat hz hfix hfall ?_ ?_).mpr ?_)
    · rw [ha, mass_L]
      intro i
      show |((footAt [Blocks.pad, Blocks.pad] Blocks.two i).rotmᵀ *ᵥ _) 0| ≤ (footAt [Blocks.pad, Blocks.pad] Blocks.two i).friction * _ ∧
        |((footAt [Blocks.pad, Blocks.pad] Blocks.two i).rotmᵀ *ᵥ _) 1| ≤ (footAt [Blocks.pad, Blocks.pad] Blocks.two i).friction * _ ∧
        (footAt [Blocks.pad, Blocks.pad] Blocks.two i).planeX * |((footAt [Blocks.pad, Blocks.pad] Blocks.two i).rotmᵀ *ᵥ _) 1| +
        (footAt [Blocks.pad, Blocks.pad] Blocks.two i).planeY * |((footAt [Blocks.pad, Blocks.pad] Blocks.two i).rotmᵀ *ᵥ _) 0| ≤
        (footAt [Blocks.pad, Blocks.pad] Blocks.two i).frictionZ * _
      rw [Blocks.foot_pad, show Blocks.pad.rotm = 1 from rfl, transpose_one, one_mulVec]
      have e0 : ((3 : ℝ) • (earth - ![α / 3, 0, 0])) 0 = -α := by simp [earth]; ring
      have e1 : ((3 : ℝ) • (earth - ![α / 3, 0, 0])) 1 = 0 := by simp [earth]
      have e2 : ((3 : ℝ) • (earth - ![α / 3, 0, 0])) 2 = -29.43 := by simp [earth]; norm_num
      rw [e0, e1, e2]
      norm_num [Blocks.pad, abs_neg]
      norm_num at h
      exact ⟨by linarith, by linarith⟩
    · simp only [hcart]
      rw [ha, hη, hc3]
      simp
    · rw [hcart]
      exact (polygon_iff _).mpr (hα.mpr h)

end Slide

/-- The hypotheses of the theorems of C101 are met, and both sides of each equivalence occur: the two blocks with the body on the slide can follow, and QP task
control follows, a command to the slide exactly up to 2.943 m/s². -/
theorem C101_slide (qd : Sys (Fin 7) → ℝ) (cod : (W : Matrix (Fin 7) (Fin 7) ℝ) → CodNull W) (α : ℝ) : ∃ s S N T, let G := s.G ∘ sysIdx.symm
    let R := Slide.robot S N (Model.gravityForce S G) (gravityTorque S (ctrlMass Slide.L)⁻¹ G)
    updateKinematics true (massMatrix Slide.L) 0 1 (mass Slide.L) qd = some s ∧
    (∃ m V2, calculateContactConstraint (stackFn Slide.feet) (ctrlMass Slide.L)⁻¹ cod = .ret 1 S (some ⟨m, V2, N⟩)) ∧
    calculateJKT S (ctrlMass Slide.L)⁻¹ (Slide.task α) = some T ∧
    ((∃ τt τc rs, taskControlQPRec R Stand.solver [(T, TaskRecord.fresh 7)] = (.ret 1 τt τc, rs) ∧ ∀ r ∈ rs, r.fqp.2 = 0) ↔ |α| ≤ 2.943) := by
  obtain ⟨s, hs, -⟩ := C25_com_partial IsRot.one (List.cons_ne_nil _ _) Slide.masses Slide.inertias Slide.floating qd
  obtain ⟨S, ⟨m, V2, N⟩, hcalc⟩ := C05_feet_succeed (p := fun i : Fin 2 => ((Blocks.on 0).get i).pos) IsRot.one (by norm_num) Slide.rides
    Slide.spd Slide.independent cod
  have hS := ret_space hcalc
  obtain ⟨T, hT⟩ := Slide.ready hS α
  refine ⟨s, S, N, T, hs, ⟨m, V2, hcalc⟩, hT, ?_⟩
  set R := Slide.robot S N (Model.gravityForce S (s.G ∘ sysIdx.symm)) (gravityTorque S (ctrlMass Slide.L)⁻¹ (s.G ∘ sysIdx.symm)) with hRdef
  have h6 : ∀ l ∈ R.cs, l.type = .c6d := fun l hl => by rw [Blocks.pads l hl]; rfl
  have hp : ∀ l ∈ R.cs, 0 < l.planeX ∧ 0 < l.planeY := fun l hl => by rw [Blocks.pads l hl]; norm_num [Blocks.pad]
  have hkey := C101_followed_iff (p := fun i : Fin 2 => ((Blocks.on 0).get i).pos) IsRot.one (List.cons_ne_nil _ _) Slide.masses Slide.inertias Slide.floating
    Slide.rides hs Slide.spd R hS rfl h6 Blocks.two (by norm_num) hp cod hcalc Stand.solver_exact Stand.solver_complete rfl [(T, TaskRecord.fresh 7)]
  refine hkey.trans ⟨fun h => ?_, fun h => ?_⟩
  · obtain ⟨qdd, hM⟩ := (C01_contact_force_exact Slide.spd hS (s.G ∘ sysIdx.symm) (R.τg + taskTorque S [T])).1
    have := h 0 (by simp) _ _ hM
    rw [Slide.follows hS hT hM] at this
    exact (Slide.supply hs α).mp this
  · intro j hj qdd F hM
    obtain rfl : j = 0 := by simpa using hj
    rw [Slide.follows hS hT hM]
    exact (Slide.supply hs α).mpr h

/-- The hypotheses of `C101_nearest` are met, and it tells what happens beyond the limit: whatever is commanded, QP task control succeeds and the slide takes
the nearest acceleration between -2.943 and 2.943 m/s². -/
theorem C101_clipped (qd : Sys (Fin 7) → ℝ) (cod : (W : Matrix (Fin 7) (Fin 7) ℝ) → CodNull W) (α : ℝ) : ∃ s S N T τt τc, let G := s.G ∘ sysIdx.symm
    let R := Slide.robot S N (Model.gravityForce S G) (gravityTorque S (ctrlMass Slide.L)⁻¹ G)
    updateKinematics true (massMatrix Slide.L) 0 1 (mass Slide.L) qd = some s ∧
    (∃ m V2, calculateContactConstraint (stackFn Slide.feet) (ctrlMass Slide.L)⁻¹ cod = .ret 1 S (some ⟨m, V2, N⟩)) ∧
    calculateJKT S (ctrlMass Slide.L)⁻¹ (Slide.task α) = some T ∧
    calcTaskControlTorqueQP R Stand.solver [T] = .ret 1 τt τc ∧
    ∀ qdd F, Motion (ctrlMass Slide.L) (stackFn Slide.feet) G (R.τg + τt + τc) qdd F → qdd = Pi.single (.inr 6) (max (-2.943) (min 2.943 α)) := by
  obtain ⟨s, hs, hcom, -⟩ := C25_com_partial IsRot.one (List.cons_ne_nil _ _) Slide.masses Slide.inertias Slide.floating qd
  obtain ⟨S, ⟨m, V2, N⟩, hcalc⟩ := C05_feet_succeed (p := fun i : Fin 2 => ((Blocks.on 0).get i).pos) IsRot.one (by norm_num) Slide.rides
    Slide.spd Slide.independent cod
  have hS := ret_space hcalc
  have hBd := C03_feet_determine_base (p := fun i : Fin 2 => ((Blocks.on 0).get i).pos) IsRot.one (by norm_num) Slide.rides
  obtain ⟨T, hT⟩ := Slide.ready hS α
  set R := Slide.robot S N (Model.gravityForce S (s.G ∘ sysIdx.symm)) (gravityTorque S (ctrlMass Slide.L)⁻¹ (s.G ∘ sysIdx.symm)) with hRdef
  have h6 : ∀ l ∈ R.cs, l.type = .c6d := fun l hl => by rw [Blocks.pads l hl]; rfl
  have hp : ∀ l ∈ R.cs, 0 < l.planeX ∧ 0 < l.planeY := fun l hl => by rw [Blocks.pads l hl]; norm_num [Blocks.pad]
  have hact : ∀ l ∈ active R.cs, l = Blocks.pad := fun l hl => Blocks.pads l (List.mem_of_mem_filter hl)
  have hμ : ∀ l ∈ active R.cs, 0 ≤ l.friction ∧ 0 ≤ l.frictionZ := fun l hl => by rw [hact l hl]; norm_num [Blocks.pad]
  have hflat : ∀ l ∈ active R.cs, Flat l.rotm := fun l hl => by rw [hact l hl]; exact flat_one
  have hz : ∀ i : Fin 2, ((Blocks.on 0).get i).pos 2 = 0 := by intro i; fin_cases i <;> rfl
  have hc : 6 * 2 = 6 * (active R.cs).length := congrArg (6 * ·) Blocks.two
  have hover : ![s.comPos 0, s.comPos 1, 0] ∈ polygon R.cs Blocks.two fun i => ((Blocks.on 0).get i).pos := by
    rw [Slide.com hcom]; exact Blocks.over
  obtain ⟨τt, τc, h⟩ := C100_never_fails (p := fun i : Fin 2 => ((Blocks.on 0).get i).pos) IsRot.one (List.cons_ne_nil _ _) Slide.masses Slide.inertias
      Slide.floating Slide.rides hs Slide.spd R hS rfl rfl h6 Blocks.two (by norm_num) hp hμ hflat hz cod hcalc Stand.solver_sound
      Stand.solver_complete rfl hover [T]
  refine ⟨s, S, N, T, τt, τc, hs, ⟨m, V2, hcalc⟩, hT, h, fun qdd F hM => ?_⟩
  obtain ⟨Λ, K, rfl⟩ : ∃ Λ K, T = TaskReady.mk (Slide.task α) Λ K := by
    obtain ⟨X, -, hX⟩ := Option.map_eq_some_iff.mp hT
    exact ⟨_, _, hX.symm⟩
  obtain ⟨rs, hrs⟩ := records_of R h
  obtain ⟨r, a, e1, e2, hnear⟩ := C101_nearest (p := fun i : Fin 2 => ((Blocks.on 0).get i).pos) IsRot.one (List.cons_ne_nil _ _) Slide.masses Slide.inertias
    Slide.floating Slide.rides hs Slide.spd R hS rfl h6 Blocks.two (by norm_num) hp cod hcalc Stand.solver_exact rfl _ _ [] [] hrs
  obtain ⟨r', rest, a', rfl, ha', hacc⟩ := C92_attained (T := TaskReady.mk (Slide.task α) Λ K) Slide.spd R hS hBd rfl (by norm_num) cod hcalc Stand.solver hT hrs
  obtain rfl : r' = r := by simpa using e1
  obtain rfl : a' = a := eq_of_heq (Sigma.mk.inj (ha'.symm.trans e2)).2
  -- what the slide does
  have hq : qdd = Slide.acc (α + a' (0 : Fin 1)) := by
    have h1 := congrFun (hacc _ _ hM) (0 : Fin 1)
    have h2 : (Pi.single (.inr 6) 1 : Fin 6 ⊕ Fin 7 → ℝ) ⬝ᵥ qdd = α + a' (0 : Fin 1) := h1
    rw [single_one_dotProduct] at h2
    rw [Slide.fixed hM.2, h2]
    rfl
  -- the ground supplies it
  have hin : |α + a' (0 : Fin 1)| ≤ 2.943 := by
    refine (Slide.supply hs _).mp ?_
    rw [← hq]
    exact (C101_motion_iff (cs := R.cs) (p := fun i : Fin 2 => ((Blocks.on 0).get i).pos) IsRot.one (List.cons_ne_nil _ _) Slide.masses Slide.inertias
      Slide.floating Slide.rides hs Blocks.two hc hM.2).mp ⟨_, _, hM, C09_contacts_hold Slide.spd R hS rfl h6 hp hc Stand.solver_sound (List.cons_ne_nil _ _) h hM⟩
  -- nothing nearer is possible
  have hle : ∀ β : ℝ, |β| ≤ 2.943 → a' (0 : Fin 1) * a' (0 : Fin 1) ≤ (β - α) * (β - α) := by
    intro β hβ
    have := hnear (fun _ => β) fun qdd F hM' => by
      have hT' := jkt_withCommand (T := TaskReady.mk (Slide.task α) Λ K) hT (fun _ => β)
      rw [Slide.follows (α := β) hS hT' hM']
      exact (Slide.supply hs β).mpr hβ
    have e : ∀ x y : Fin 1 → ℝ, x ⬝ᵥ y = x 0 * y 0 := fun x y => by simp [dotProduct]
    exact (e _ _).symm.trans_le (this.trans_eq (e _ _))
  rw [hq]
  show Pi.single _ _ = _
  congr 1
  have h1 := hle (max (-2.943) (min 2.943 α)) (abs_le.mpr ⟨le_max_left _ _, max_le (by norm_num) (min_le_left _ _)⟩)
  obtain ⟨h2, h3⟩ := abs_le.mp hin
  generalize a' (0 : Fin 1) = x at *
  rcases le_total α (-2.943) with hα | hα
  · rw [min_eq_right (by linarith), max_eq_left hα] at h1 ⊢
    nlinarith
  · rw [max_eq_right (le_min (by norm_num) hα)] at h1 ⊢
    rcases le_total 2.943 α with hβ | hβ
    · rw [min_eq_left hβ] at h1 ⊢
      nlinarith
    · rw [min_eq_right hβ] at h1 ⊢
      nlinarith

end Verif.Props
