import Verif.Props.Order

/-!
# C81: where the order in which contacts are registered matters
-/

set_option linter.unusedSectionVars false

namespace Verif.Props
open Matrix Verif Verif.Spec Verif.Model

theorem stackFn_transpose {n k : ℕ} (g : Fin k → Foot (Fin n)) (F : Fin (6 * k) → ℝ) :
    (stackFn g)ᵀ *ᵥ F = ∑ i, (g i).jacᵀ *ᵥ wrenchOf F i := by
  ext s
  rw [Finset.sum_apply, mulVec, dotProduct, ← Equiv.sum_comp wrenchPlace, Fintype.sum_prod_type]
  refine Finset.sum_congr rfl fun i _ => ?_
  simp only [mulVec, dotProduct]
  refine Finset.sum_congr rfl fun a _ => ?_
  have h1 : (⟨(wrenchPlace (i, a)).val / 6, by omega⟩ : Fin k) = i := by apply Fin.ext; simp only [wrenchPlace_val]; omega
  have h2 : (⟨(wrenchPlace (i, a)).val % 6, by omega⟩ : Fin 6) = a := by apply Fin.ext; simp only [wrenchPlace_val]; omega
  simp only [transpose_apply, stackFn, of_apply, h1, h2]
  congr 1
  unfold wrenchOf
  congr 1
  exact Fin.ext (wrenchPlace_val i a)

/-! Two feet with a unit mass matrix: one fixed to the base, six joints moving the other, one metre beside it. -/
namespace Pair

noncomputable def left : Foot (Fin 6) where
  link := exContact true
  jac := Matrix.of fun i s => match s with
    | Sum.inl j => if i = j then 1 else 0
    | Sum.inr _ => 0

noncomputable def right : Foot (Fin 6) where
  link := exContact true
  jac := Matrix.of fun i s => match s with
    | Sum.inl j => (![![1, 0, 0, 0, 0, -1], ![0, 1, 0, 0, 0, 0], ![0, 0, 1, 1, 0, 0],
        ![0, 0, 0, 1, 0, 0], ![0, 0, 0, 0, 1, 0], ![0, 0, 0, 0, 0, 1]] : Fin 6 → Fin 6 → ℝ) i j
    | Sum.inr j => if i = j then 1 else 0

theorem left_T (w : Fin 6 → ℝ) : left.jacᵀ *ᵥ w = Sum.elim w 0 := by
  ext s
  rcases s with s | s <;> simp [left, mulVec, dotProduct]

theorem right_T (w : Fin 6 → ℝ) :
    right.jacᵀ *ᵥ w = Sum.elim ![w 0, w 1, w 2, w 2 + w 3, w 4, w 5 - w 0] w := by
  ext s
  rcases s with s | s
  · simp only [right, mulVec, dotProduct, transpose_apply, of_apply, Fin.sum_univ_six, Sum.elim_inl]
    fin_cases s <;> simp <;> ring
  · simp [right, mulVec, dotProduct]

theorem left_base : IsUnit (footBase left).det := by
  have : footBase left = 1 := by ext i j; simp [footBase, left, Matrix.one_apply]
  rw [this]; simp

theorem right_base : IsUnit (footBase right).det := by
  have h : ∀ v, footBase right *ᵥ v = 0 → v = 0 := by
    intro v hv
    have h0 := congrFun hv 0; have h1 := congrFun hv 1; have h2 := congrFun hv 2
    have h3 := congrFun hv 3; have h4 := congrFun hv 4; have h5 := congrFun hv 5
    simp [footBase, right, mulVec, dotProduct, Fin.sum_univ_six] at h0 h1 h2 h3 h4 h5
    ext i
    fin_cases i <;> simp_all
  rw [isUnit_iff_ne_zero]
  intro h0
  obtain ⟨v, hv, hv0⟩ := exists_mulVec_eq_zero_iff.mpr h0
  exact hv (h v hv0)

/-- Both feet press with 100. -/
def press100 : Fin 6 → ℝ := ![0, 0, -100, 0, 0, 0]

/-- The torque of the fourth joint is 11. -/
def τ : Fin 6 → ℝ := Pi.single 3 11

/-- Every joint gives at most 10. -/
def L : Fin 6 → ℝ := fun _ => 10

noncomputable def G : Fin 6 ⊕ Fin 6 → ℝ := actuate τ - (left.jacᵀ *ᵥ press100 + right.jacᵀ *ᵥ press100)

/-- Change of the force at the left foot for a change `δ` of the torques. -/
def dLeft (δ : Fin 6 → ℝ) : Fin 6 → ℝ := -![δ 0, δ 1, δ 2, δ 2 + δ 3, δ 4, δ 5 - δ 0]

/-- The feet in some order: `s 0` is the number of the left one. -/
noncomputable def feet (s : Equiv.Perm (Fin 2)) : Fin 2 → Foot (Fin 6) := ![left, right] ∘ s

/-- The forces, in that order. -/
def force (s : Equiv.Perm (Fin 2)) (δ : Fin 6 → ℝ) : Fin (6 * 2) → ℝ := fun r =>
  press100 ⟨r % 6, by omega⟩ + (![dLeft δ, δ] (s ⟨r / 6, by omega⟩)) ⟨r % 6, by omega⟩

theorem force_wrench (s : Equiv.Perm (Fin 2)) (δ : Fin 6 → ℝ) (i : Fin 2) :
    wrenchOf (force s δ) i = press100 + ![dLeft δ, δ] (s i) := by
  ext j
  have h1 : (⟨(6 * i.val + j.val) / 6, by omega⟩ : Fin 2) = i := Fin.ext (by simp only; omega)
  have h2 : (⟨(6 * i.val + j.val) % 6, by omega⟩ : Fin 6) = j := Fin.ext (by simp only; omega)
  simp only [wrenchOf, force, h1, h2, Pi.add_apply]

theorem motion (s : Equiv.Perm (Fin 2)) (δ : Fin 6 → ℝ) : Motion 1 (stackFn (feet s)) G (τ + δ) 0 (force s δ) := by
  constructor
  · unfold Dynamics
    rw [mulVec_zero, zero_add, stackFn_transpose]
    simp only [force_wrench, feet, Function.comp]
    rw [Equiv.sum_comp s (fun i => (![left, right] i).jacᵀ *ᵥ (press100 + ![dLeft δ, δ] i)), Fin.sum_univ_two]
    simp only [cons_val_zero, cons_val_one]
    unfold G
    rw [mulVec_add, mulVec_add, left_T (dLeft δ), right_T δ]
    have : actuate (τ + δ) = actuate τ + actuate δ := by ext i; rcases i with i | i <;> simp [actuate]
    rw [this]
    have e : Sum.elim (dLeft δ) 0 + Sum.elim ![δ 0, δ 1, δ 2, δ 2 + δ 3, δ 4, δ 5 - δ 0] δ = actuate δ := by
      ext i
      rcases i with i | i
      · fin_cases i <;> simp [actuate, dLeft]
      · simp [actuate]
    rw [← e]
    abel
  · unfold ContactsFixed; simp

theorem ind (s : Equiv.Perm (Fin 2)) : IndependentRows (stackFn (feet s)) := by
  intro F h
  rw [stackFn_transpose] at h
  have hs : ∀ i, wrenchOf F i = wrenchOf F (s.symm (s i)) := fun i => by rw [Equiv.symm_apply_apply]
  simp only [feet, Function.comp] at h
  have h' : ∑ i, (![left, right] (s i)).jacᵀ *ᵥ wrenchOf F i = ∑ i, (![left, right] i).jacᵀ *ᵥ wrenchOf F (s.symm i) := by
    rw [← Equiv.sum_comp s (fun i => (![left, right] i).jacᵀ *ᵥ wrenchOf F (s.symm i))]
    simp only [Equiv.symm_apply_apply]
  rw [h', Fin.sum_univ_two] at h
  simp only [cons_val_zero, cons_val_one] at h
  rw [left_T, right_T] at h
  have hr : wrenchOf F (s.symm 1) = 0 := by
    ext j
    have := congrFun h (Sum.inr j)
    simpa using this
  have hl : wrenchOf F (s.symm 0) = 0 := by
    ext j
    have := congrFun h (Sum.inl j)
    rw [hr] at this
    fin_cases j <;> simpa using this
  have hall : ∀ i, wrenchOf F i = 0 := by
    intro i
    rw [hs i]
    rcases Fin.exists_fin_two.mp ⟨s i, rfl⟩ with h | h <;> rw [h]
    · exact hl
    · exact hr
  ext r
  have := congrFun (hall ⟨r / 6, by omega⟩) ⟨r % 6, by omega⟩
  simp only [wrenchOf, Pi.zero_apply] at this
  rw [Pi.zero_apply, ← this]
  congr 1
  apply Fin.ext
  simp only
  omega

theorem base (s : Equiv.Perm (Fin 2)) (i : Fin 2) : IsUnit (footBase (feet s i)).det := by
  simp only [feet, Function.comp]
  rcases Fin.exists_fin_two.mp ⟨s i, rfl⟩ with h | h <;> rw [h]
  · exact left_base
  · exact right_base

/-- Both are contacts of the example floor. -/
noncomputable def cs : List ContactLink := [exContact true, exContact true]

theorem holds {F : Fin (6 * 2) → ℝ} (hF : ∀ i : Fin 2, wrenchOf F i 2 ≤ -90 ∧ ∀ j : Fin 6, j ≠ 2 → |wrenchOf F i j| ≤ 2)
    (hc : 6 * 2 = 6 * (active cs).length) : ContactsHold cs (F ∘ Fin.cast hc.symm) := by
  intro i
  have hi : i.val < 2 := by have := i.isLt; omega
  have hl : ∀ l ∈ active cs, l = exContact true := by simp [active, cs, exContact]
  have hi' := hl _ (List.getElem_mem i.isLt)
  simp only [Fin.getElem_fin, hi']
  rw [show (exContact true).rotm = 1 from rfl, Stand.inFrame_one]
  obtain ⟨h2, h⟩ := hF ⟨i, hi⟩
  have hw : wrenchOf (F ∘ Fin.cast hc.symm) i = wrenchOf F ⟨i, hi⟩ := rfl
  rw [hw]
  generalize wrenchOf F ⟨i, hi⟩ = w at h2 h
  have a0 := abs_le.mp (h 0 (by decide)); have a1 := abs_le.mp (h 1 (by decide)); have a3 := abs_le.mp (h 3 (by decide))
  have a4 := abs_le.mp (h 4 (by decide)); have a5 := abs_le.mp (h 5 (by decide))
  have hx : (exContact true).planeX = 15 / 100 := rfl
  have hy : (exContact true).planeY = 75 / 1000 := rfl
  have hf : (exContact true).friction = 2 / 10 := rfl
  have hz : (exContact true).frictionZ = 2 / 10 := rfl
  rw [hx, hy, hf, hz]
  constructor
  · rw [noTip_iff (by norm_num) (by norm_num)]
    simp only [press, abs_le]
    refine ⟨⟨?_, ?_⟩, ?_, ?_⟩ <;> linarith
  · simp only [NoSlip, press, abs_le]
    refine ⟨⟨?_, ?_⟩, ⟨?_, ?_⟩, ?_, ?_⟩ <;> linarith

/-- What redistribution leaves in the two orders. -/
theorem least (s : Equiv.Perm (Fin 2)) (cod : (W : Matrix (Fin 6) (Fin 6) ℝ) → CodNull W) {solve : RSolver} (he : solve.Exact)
    (hcomp : solve.Complete) :
    ∃ δ, redistributeCycle (stackFn (feet s)) (1 : Matrix (Fin 6 ⊕ Fin 6) (Fin 6 ⊕ Fin 6) ℝ)⁻¹ G cod (some L) cs solve τ 0 = some (1, δ) ∧
      WithinLimit L (τ + δ) ∧ ∀ δ', WithinLimit L (τ + δ') → (∀ i, |δ' i| ≤ 1) →
        ∑ i, (![dLeft δ, δ] (s 0) i) ^ 2 ≤ ∑ i, (![dLeft δ', δ'] (s 0) i) ^ 2 := by
  have hA : IsSPD (1 : Matrix (Fin 6 ⊕ Fin 6) (Fin 6 ⊕ Fin 6) ℝ) := isSPD_one
  obtain ⟨S, ⟨k, V2, N⟩, hR⟩ := stackFn_outcome hA (feet s) (base s) (ind s) (by norm_num) cod
  have hS := ccc_space hR
  have h6 : ∀ l ∈ cs, l.type = .c6d := by simp [cs, exContact]
  have hp : ∀ l ∈ cs, 0 < l.planeX ∧ 0 < l.planeY := by simp [cs, exContact]
  have hc : 6 * 2 = 6 * (active cs).length := by simp [active, cs, exContact]
  let R : QPRobot 6 (6 * 2) := ⟨S, N, gravityForce S G, gravityTorque S (1 : Matrix (Fin 6 ⊕ Fin 6) (Fin 6 ⊕ Fin 6) ℝ)⁻¹ G, some L, cs⟩
  have hmot : ∀ δ qdd F, Motion 1 (stackFn (feet s)) G (τ + δ) qdd F → qdd = 0 ∧ F = force s δ := by
    intro δ qdd F h
    refine ⟨(C01_contact_force_exact hA hS G _).2.2 _ _ _ _ h (motion s δ), ?_⟩
    rw [(C01_contact_force_exact hA hS G _).2.1 _ _ h]
    exact ((C01_contact_force_exact hA hS G _).2.1 _ _ (motion s δ)).symm
  have hhold : ∀ δ : Fin 6 → ℝ, (∀ i, |δ i| ≤ 1) → ContactsHold cs (force s δ ∘ Fin.cast hc.symm) := by
    intro δ hδ
    refine holds (fun i => ?_) hc
    rw [force_wrench]
    have d0 := abs_le.mp (hδ 0); have d1 := abs_le.mp (hδ 1); have d2 := abs_le.mp (hδ 2)
    have d3 := abs_le.mp (hδ 3); have d4 := abs_le.mp (hδ 4); have d5 := abs_le.mp (hδ 5)
    rcases Fin.exists_fin_two.mp ⟨s i, rfl⟩ with h | h <;> rw [h]
    · refine ⟨by simp [press100, dLeft]; linarith, fun j hj => ?_⟩
      rw [abs_le]
      fin_cases j <;> simp [press100, dLeft] at hj ⊢ <;> constructor <;> linarith
    · refine ⟨by simp [press100]; linarith, fun j hj => ?_⟩
      rw [abs_le]
      fin_cases j <;> simp [press100] at hj ⊢ <;> constructor <;> linarith
  have hz : Motion 1 (stackFn (feet s)) G (τ + 0) 0 (force s 0) := motion s 0
  obtain ⟨δ, hδ⟩ := (C10_succeeds_iff hA R hS rfl h6 hp hc (by norm_num) cod hR he hcomp τ 0).mpr
    ⟨Pi.single 3 (-1), fun L' hL' => by
      obtain rfl : L = L' := Option.some.inj hL'
      intro j
      fin_cases j <;> simp [τ, L, Pi.single_apply] <;> norm_num, fun qdd F qdd' F' hM hM' => by
      obtain ⟨rfl, rfl⟩ := hmot _ _ _ hM
      obtain ⟨rfl, rfl⟩ := hmot _ _ _ hM'
      exact ⟨rfl, hhold _ fun i => by fin_cases i <;> simp [Pi.single_apply]⟩⟩
  have hsafe := (C10_safe hA R hS rfl h6 hp hc (by norm_num) (fun k d x hx => (he k d x hx).1) hδ).1 L rfl
  refine ⟨δ, ?_, hsafe, fun δ' hl hb => ?_⟩
  · unfold redistributeCycle
    rw [hR]
    rw [add_zero] at hδ
    exact hδ
  · have := C10_least hA R hS rfl h6 hp hc (by norm_num) cod hR he hδ
      (fun L' hL' => by obtain rfl : L = L' := Option.some.inj hL'; exact hl) (motion s 0) (motion s δ) (motion s δ') (hhold δ' hb)
    have hcast : ∀ d : Fin 6 → ℝ, ∀ i : Fin 6, force s d (Fin.castLE (Nat.sub_le (6 * 2) 6) i) - force s 0 (Fin.castLE (Nat.sub_le (6 * 2) 6) i)
        = ![dLeft d, d] (s 0) i := by
      intro d i
      have hi : force s d (Fin.castLE (Nat.sub_le (6 * 2) 6) i) = wrenchOf (force s d) 0 i := by
        unfold wrenchOf; congr 1; apply Fin.ext; simp
      have hi0 : force s 0 (Fin.castLE (Nat.sub_le (6 * 2) 6) i) = wrenchOf (force s 0) 0 i := by
        unfold wrenchOf; congr 1; apply Fin.ext; simp
      rw [hi, hi0, force_wrench, force_wrench]
      have h0 : ![dLeft 0, (0 : Fin 6 → ℝ)] (s 0) = 0 := by
        rcases Fin.exists_fin_two.mp ⟨s 0, rfl⟩ with h | h <;> rw [h]
        · ext j; fin_cases j <;> simp [dLeft]
        · rfl
      rw [h0]
      simp
    change ∑ i : Fin 6, _ ≤ ∑ i : Fin 6, _ at this
    have e1 := Finset.sum_congr (rfl : (Finset.univ : Finset (Fin 6)) = Finset.univ) fun i _ => congrArg (· ^ 2) (hcast δ i)
    have e2 := Finset.sum_congr (rfl : (Finset.univ : Finset (Fin 6)) = Finset.univ) fun i _ => congrArg (· ^ 2) (hcast δ' i)
    exact (e1.symm.trans_le this).trans_eq e2

end Pair

/-- C81 (contact redistribution by QP, negation).  A robot on two feet whose contact torque depends on which foot was registered
first, whatever exact solver is used: the feet, the weight, the limits and the torque to be redistributed are the same. -/
theorem C81_redistribute_differs (cod : (W : Matrix (Fin 6) (Fin 6) ℝ) → CodNull W) {solve : RSolver} (he : solve.Exact)
    (hcomp : solve.Complete) :
    ∃ δ δ', feetRedistribute 1 Pair.G cod (some Pair.L) solve Pair.τ 0 [Pair.left, Pair.right] = some (1, δ) ∧
      feetRedistribute 1 Pair.G cod (some Pair.L) solve Pair.τ 0 [Pair.right, Pair.left] = some (1, δ') ∧ δ ≠ δ' := by
  obtain ⟨δ, h, hl, hmin⟩ := Pair.least 1 cod he hcomp
  obtain ⟨δ', h', hl', hmin'⟩ := Pair.least (Equiv.swap 0 1) cod he hcomp
  have e1 : Pair.feet 1 = [Pair.left, Pair.right].get := by ext i : 1; fin_cases i <;> rfl
  have e2 : Pair.feet (Equiv.swap 0 1) = [Pair.right, Pair.left].get := by
    ext i : 1
    fin_cases i
    · exact congrArg ![Pair.left, Pair.right] (Equiv.swap_apply_left 0 1)
    · exact congrArg ![Pair.left, Pair.right] (Equiv.swap_apply_right 0 1)
  refine ⟨δ, δ', ?_, ?_, fun heq => ?_⟩
  · rw [e1] at h; exact h
  · rw [e2] at h'; exact h'
  subst heq
  have h3 := (abs_le.mp (hl 3)).2
  have hw : ∀ a : ℝ, |a| ≤ 1 → WithinLimit Pair.L (Pair.τ + ![0, 0, a, -1, 0, 0]) := by
    intro a ha j
    fin_cases j <;> simp [Pair.τ, Pair.L] <;> norm_num
    linarith
  have m1 := hmin ![0, 0, 1 / 2, -1, 0, 0] (hw (1 / 2) (by norm_num)) (fun i => by fin_cases i <;> norm_num)
  have m2 := hmin' ![0, 0, 0, -1, 0, 0] (hw 0 (by norm_num)) (fun i => by fin_cases i <;> norm_num)
  have s1 : Equiv.swap (0 : Fin 2) 1 0 = 1 := Equiv.swap_apply_left 0 1
  rw [s1] at m2
  simp [Pair.dLeft, Fin.sum_univ_six, Pair.τ, Pair.L] at m1 m2 h3
  nlinarith [sq_nonneg (δ 0), sq_nonneg (δ 1), sq_nonneg (δ 2), sq_nonneg (δ 4), sq_nonneg (δ 5), sq_nonneg (δ 3 + 1)]

/-- A third foot, in the air. -/
noncomputable def Pair.off : Foot (Fin 6) := ⟨exContact false, 0⟩

/-- The hypotheses of `C81_gravity`, `C81_closed`, `C81_forces`, `C81_qp_cycle_partial` and `C81_redistribute_last` are met by this
robot, and there is a result to compare. -/
theorem C81_hypotheses_met : ∃ (cod : (W : Matrix (Fin 6) (Fin 6) ℝ) → CodNull W) (solve : Solver) (rsolve : RSolver),
    solve.Exact ∧ solve.Complete ∧ rsolve.Exact ∧ rsolve.Complete ∧ IsSPD (1 : Matrix (Fin 6 ⊕ Fin 6) (Fin 6 ⊕ Fin 6) ℝ) ∧
    [Pair.right, Pair.left].Perm [Pair.left, Pair.right] ∧
    (∀ f ∈ [Pair.left, Pair.right], f.link.type = .c6d ∧ IsUnit (footBase f).det) ∧
    (feetQP 1 Pair.G cod none solve [] [Pair.left, Pair.right]).isSome ∧ (feetGravity 1 Pair.G [Pair.left, Pair.right]).isSome ∧
    [Pair.off, Pair.left, Pair.right].Perm [Pair.left, Pair.off, Pair.right] ∧
    (standing [Pair.off, Pair.left, Pair.right]).getLast? = (standing [Pair.left, Pair.off, Pair.right]).getLast? ∧
    ∃ δ, feetRedistribute 1 Pair.G cod (some Pair.L) rsolve Pair.τ 0 [Pair.left, Pair.right] = some (1, δ) := by
  classical
  let cod : (W : Matrix (Fin 6) (Fin 6) ℝ) → CodNull W := fun W => (exists_codNull W).some
  have hA : IsSPD (1 : Matrix (Fin 6 ⊕ Fin 6) (Fin 6 ⊕ Fin 6) ℝ) := isSPD_one
  have e1 : Pair.feet 1 = [Pair.left, Pair.right].get := by ext i : 1; fin_cases i <;> rfl
  obtain ⟨S, ⟨k, V2, N⟩, hR⟩ := stackFn_outcome hA (Pair.feet 1) (Pair.base 1) (Pair.ind 1) (by norm_num) cod
  obtain ⟨δ, h, -⟩ := Pair.least 1 cod Stand.rsolver_exact Stand.rsolver_complete
  rw [e1] at hR h
  have hS := ccc_space hR
  refine ⟨cod, Stand.solver, Stand.rsolver, Stand.solver_exact, Stand.solver_complete, Stand.rsolver_exact, Stand.rsolver_complete, hA,
    List.Perm.swap _ _ _, ?_, ?_, ?_, List.Perm.swap _ _ _, by simp [standing, Pair.off, Pair.left, Pair.right, exContact], δ, h⟩
  · intro f hf
    simp only [List.mem_cons, List.not_mem_nil, or_false] at hf
    rcases hf with rfl | rfl
    · exact ⟨rfl, Pair.left_base⟩
    · exact ⟨rfl, Pair.right_base⟩
  · change (qpCycle (stackFn [Pair.left, Pair.right].get) _ _ _ _ _ _ _).isSome
    unfold qpCycle
    rw [hR]
    rfl
  · change (gravityCommand (stackFn [Pair.left, Pair.right].get) _ _).isSome
    unfold gravityCommand
    rw [hS]
    rfl

end Verif.Props
