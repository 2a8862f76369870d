import Verif.Props.Mirror
import Verif.Props.OrderLast

/-!
# C91: a robot that looks the same in the mirror, and where its contact torque does not
-/

set_option linter.unusedSectionVars false

namespace Verif.Props
open Matrix Verif Verif.Spec Verif.Model

/-! A robot with two legs of three joints, its feet half a metre to the left and to the right, and two arms of one joint.  The first
joint of a leg is at the hip, with an axis halfway between forwards and sideways; the second one moves the foot up and outwards, the
third one forwards while turning it. -/
namespace Twin

/-- The joint on the other side. -/
def e : Equiv.Perm (Fin 8) where
  toFun := ![3, 4, 5, 0, 1, 2, 7, 6]
  invFun := ![3, 4, 5, 0, 1, 2, 7, 6]
  left_inv := by decide
  right_inv := by decide

/-- Joints on either side turn as in the mirror. -/
def s : Fin 8 → ℝ := fun _ => 1

theorem signs : Signs s := fun _ => Or.inl rfl

noncomputable def left : Foot (Fin 8) where
  link := exContact true
  jac := Matrix.of fun i r => match r with
    | Sum.inl j => (![![1, 0, 0, 0, 0, -1 / 2], ![0, 1, 0, 0, 0, 0], ![0, 0, 1, 1 / 2, 0, 0],
        ![0, 0, 0, 1, 0, 0], ![0, 0, 0, 0, 1, 0], ![0, 0, 0, 0, 0, 1]] : Fin 6 → Fin 6 → ℝ) i j
    | Sum.inr j => (![![0, 0, 1, 0, 0, 0, 0, 0], ![0, 1, 0, 0, 0, 0, 0, 0], ![1 / 2, 1, 0, 0, 0, 0, 0, 0],
        ![1, 0, 0, 0, 0, 0, 0, 0], ![1, 0, 0, 0, 0, 0, 0, 0], ![0, 0, 1, 0, 0, 0, 0, 0]] : Fin 6 → Fin 8 → ℝ) i j

noncomputable def right : Foot (Fin 8) where
  link := exContact true
  jac := Matrix.of fun i r => match r with
    | Sum.inl j => (![![1, 0, 0, 0, 0, 1 / 2], ![0, 1, 0, 0, 0, 0], ![0, 0, 1, -1 / 2, 0, 0],
        ![0, 0, 0, 1, 0, 0], ![0, 0, 0, 0, 1, 0], ![0, 0, 0, 0, 0, 1]] : Fin 6 → Fin 6 → ℝ) i j
    | Sum.inr j => (![![0, 0, 0, 0, 0, 1, 0, 0], ![0, 0, 0, 0, -1, 0, 0, 0], ![0, 0, 0, 1 / 2, 1, 0, 0, 0],
        ![0, 0, 0, -1, 0, 0, 0, 0], ![0, 0, 0, 1, 0, 0, 0, 0], ![0, 0, 0, 0, 0, -1, 0, 0]] : Fin 6 → Fin 8 → ℝ) i j

theorem mirror_one : mirror3 * (1 : Matrix (Fin 3) (Fin 3) ℝ) * mirror3 = 1 := by
  ext i j
  fin_cases i <;> fin_cases j <;> simp [mirror3]

theorem mirror_link : mirrorContact (exContact true) = exContact true := by
  unfold mirrorContact
  have : (exContact true).rotm = 1 := rfl
  rw [this, mirror_one]
  rfl

theorem mirror_left : mirrorFoot e s left = right := by
  unfold mirrorFoot
  have hj : (Matrix.of fun a r => mirrorSign a * mirrorCols e s left.jac a r) = right.jac := by
    ext a r
    rcases r with r | r
    · fin_cases a <;> fin_cases r <;> simp [mirrorCols, mirrorSigns, mirrorSign, counted, left, right] <;> norm_num
    · fin_cases a <;> fin_cases r <;> simp [mirrorCols, mirrorSigns, mirrorSign, counted, left, right, e, s]
  rw [hj, show left.link = exContact true from rfl, mirror_link]
  rfl

theorem mirror_right : mirrorFoot e s right = left := by
  unfold mirrorFoot
  have hj : (Matrix.of fun a r => mirrorSign a * mirrorCols e s right.jac a r) = left.jac := by
    ext a r
    rcases r with r | r
    · fin_cases a <;> fin_cases r <;> simp [mirrorCols, mirrorSigns, mirrorSign, counted, left, right] <;> norm_num
    · fin_cases a <;> fin_cases r <;> simp [mirrorCols, mirrorSigns, mirrorSign, counted, left, right, e, s]
  rw [hj, show right.link = exContact true from rfl, mirror_link]
  rfl

theorem left_T (w : Fin 6 → ℝ) : left.jacᵀ *ᵥ w
    = Sum.elim ![w 0, w 1, w 2, w 3 + w 2 / 2, w 4, w 5 - w 0 / 2] ![w 2 / 2 + w 3 + w 4, w 1 + w 2, w 0 + w 5, 0, 0, 0, 0, 0] := by
  ext r
  rcases r with r | r
  · simp only [left, mulVec, dotProduct, transpose_apply, of_apply, Fin.sum_univ_six, Sum.elim_inl]
    fin_cases r <;> simp <;> ring
  · simp only [left, mulVec, dotProduct, transpose_apply, of_apply, Fin.sum_univ_six, Sum.elim_inr]
    fin_cases r <;> simp
    ring

theorem right_T (w : Fin 6 → ℝ) : right.jacᵀ *ᵥ w
    = Sum.elim ![w 0, w 1, w 2, w 3 - w 2 / 2, w 4, w 5 + w 0 / 2] ![0, 0, 0, w 2 / 2 - w 3 + w 4, w 2 - w 1, w 0 - w 5, 0, 0] := by
  ext r
  rcases r with r | r
  · simp only [right, mulVec, dotProduct, transpose_apply, of_apply, Fin.sum_univ_six, Sum.elim_inl]
    fin_cases r <;> simp <;> ring
  · simp only [right, mulVec, dotProduct, transpose_apply, of_apply, Fin.sum_univ_six, Sum.elim_inr]
    fin_cases r <;> simp <;> ring

theorem unit_of_ker {M : Matrix (Fin 6) (Fin 6) ℝ} (h : ∀ v, M *ᵥ v = 0 → v = 0) : IsUnit M.det := by
  rw [isUnit_iff_ne_zero]
  intro h0
  obtain ⟨v, hv, hv0⟩ := exists_mulVec_eq_zero_iff.mpr h0
  exact hv (h v hv0)

theorem left_base : IsUnit (footBase left).det := by
  refine unit_of_ker fun v hv => ?_
  have h0 := congrFun hv 0; have h1 := congrFun hv 1; have h2 := congrFun hv 2
  have h3 := congrFun hv 3; have h4 := congrFun hv 4; have h5 := congrFun hv 5
  simp [footBase, left, mulVec, dotProduct, Fin.sum_univ_six] at h0 h1 h2 h3 h4 h5
  ext i
  fin_cases i <;> simp_all

theorem right_base : IsUnit (footBase right).det := by
  refine unit_of_ker fun v hv => ?_
  have h0 := congrFun hv 0; have h1 := congrFun hv 1; have h2 := congrFun hv 2
  have h3 := congrFun hv 3; have h4 := congrFun hv 4; have h5 := congrFun hv 5
  simp [footBase, right, mulVec, dotProduct, Fin.sum_univ_six] at h0 h1 h2 h3 h4 h5
  ext i
  fin_cases i <;> simp_all

/-- Both hips are asked for a torque of 11. -/
def τ : Fin 8 → ℝ := ![11, 0, 0, 11, 0, 0, 0, 0]

/-- No joint gives more than 10. -/
def L : Fin 8 → ℝ := fun _ => 10

theorem τ_mirror : mirrorTorque e s τ = τ := by
  ext i
  fin_cases i <;> simp [recount, e, s, τ]

noncomputable def G : Fin 6 ⊕ Fin 8 → ℝ := actuate τ - (left.jacᵀ *ᵥ Pair.press100 + right.jacᵀ *ᵥ Pair.press100)

theorem G_eq : G = Sum.elim ![0, 0, 200, 0, 0, 0] ![61, 100, 0, 61, 100, 0, 0, 0] := by
  unfold G
  rw [left_T, right_T]
  ext r
  rcases r with r | r
  · fin_cases r <;> simp [actuate, Pair.press100]
    all_goals norm_num
  · fin_cases r <;> simp [actuate, Pair.press100, τ]
    all_goals norm_num

theorem looks : LooksMirrored e s 1 G [left, right] := by
  refine ⟨?_, ?_, ?_⟩
  · ext r q
    rcases r with r | r <;> rcases q with q | q <;> simp [mirrorMass, mirrorSigns, counted, s, Matrix.one_apply]
    by_cases h : r = q
    · subst h; simp [mirrorSign_sq]
    · simp [h]
  · rw [G_eq]
    ext r
    rcases r with r | r
    · fin_cases r <;> simp [mirrorAll, mirrorSigns, mirrorSign, counted]
    · fin_cases r <;> simp [mirrorAll, mirrorSigns, counted, s, e]
  · simp only [List.map_cons, List.map_nil, mirror_left, mirror_right]
    exact List.Perm.swap _ _ _

/-- Change of the force at the left foot for a change `δ` of the torques. -/
noncomputable def dLeft (δ : Fin 8 → ℝ) : Fin 6 → ℝ :=
  ![(δ 2 - δ 5) / 3, (δ 1 + δ 4) / 2, (δ 1 - δ 4) / 2, (δ 0 + δ 3) / 2 - (δ 1 - δ 4) / 4, (δ 0 - δ 3) / 2, (2 * δ 2 + δ 5) / 3]

/-- And at the right foot. -/
noncomputable def dRight (δ : Fin 8 → ℝ) : Fin 6 → ℝ :=
  ![-((δ 2 - δ 5) / 3), -((δ 1 + δ 4) / 2), -((δ 1 - δ 4) / 2), -((δ 0 + δ 3) / 2) - (δ 1 - δ 4) / 4, -((δ 0 - δ 3) / 2),
    -((2 * δ 2 + δ 5) / 3) + (δ 2 - δ 5) / 3]

/-- The forces at the feet. -/
noncomputable def force (δ : Fin 8 → ℝ) : Fin (6 * 2) → ℝ := fun r =>
  Pair.press100 ⟨r % 6, by omega⟩ + (![dLeft δ, dRight δ] ⟨r / 6, by omega⟩) ⟨r % 6, by omega⟩

theorem force_wrench (δ : Fin 8 → ℝ) (i : Fin 2) : wrenchOf (force δ) i = Pair.press100 + ![dLeft δ, dRight δ] i := by
  ext j
  have h1 : (⟨(6 * i.val + j.val) / 6, by omega⟩ : Fin 2) = i := Fin.ext (by simp only; omega)
  have h2 : (⟨(6 * i.val + j.val) % 6, by omega⟩ : Fin 6) = j := Fin.ext (by simp only; omega)
  simp only [wrenchOf, force, h1, h2, Pi.add_apply]

/-- Only the arms move. -/
def arms (δ : Fin 8 → ℝ) : Fin 6 ⊕ Fin 8 → ℝ := Sum.elim 0 ![0, 0, 0, 0, 0, 0, δ 6, δ 7]

noncomputable def feet : Fin 2 → Foot (Fin 8) := [left, right].get

theorem motion (δ : Fin 8 → ℝ) : Motion 1 (stackFn feet) G (τ + δ) (arms δ) (force δ) := by
  constructor
  · unfold Dynamics
    rw [one_mulVec, stackFn_transpose]
    simp only [force_wrench, Fin.sum_univ_two, cons_val_zero, cons_val_one]
    change arms δ + (left.jacᵀ *ᵥ (Pair.press100 + dLeft δ) + right.jacᵀ *ᵥ (Pair.press100 + dRight δ)) + G = _
    unfold G
    rw [mulVec_add, mulVec_add, left_T (dLeft δ), right_T (dRight δ)]
    have : actuate (τ + δ) = actuate τ + actuate δ := by ext i; rcases i with i | i <;> simp [actuate]
    rw [this]
    have e : arms δ + (Sum.elim ![dLeft δ 0, dLeft δ 1, dLeft δ 2, dLeft δ 3 + dLeft δ 2 / 2, dLeft δ 4, dLeft δ 5 - dLeft δ 0 / 2]
          ![dLeft δ 2 / 2 + dLeft δ 3 + dLeft δ 4, dLeft δ 1 + dLeft δ 2, dLeft δ 0 + dLeft δ 5, 0, 0, 0, 0, 0]
        + Sum.elim ![dRight δ 0, dRight δ 1, dRight δ 2, dRight δ 3 - dRight δ 2 / 2, dRight δ 4, dRight δ 5 + dRight δ 0 / 2]
          ![0, 0, 0, dRight δ 2 / 2 - dRight δ 3 + dRight δ 4, dRight δ 2 - dRight δ 1, dRight δ 0 - dRight δ 5, 0, 0]) = actuate δ := by
      ext i
      rcases i with i | i
      · fin_cases i <;> simp [actuate, dLeft, dRight, arms] <;> ring
      · fin_cases i <;> simp [actuate, dLeft, dRight, arms] <;> ring
    rw [← e]
    abel
  · unfold ContactsFixed
    ext r
    simp only [mulVec, dotProduct, Fintype.sum_sum_type, arms, Sum.elim_inl, Sum.elim_inr, Pi.zero_apply, mul_zero,
      Finset.sum_const_zero, zero_add]
    have h : ∀ (i : Fin 2) (a : Fin 6) (j : Fin 8), 6 ≤ j.val → (feet i).jac a (Sum.inr j) = 0 := by
      intro i a j hj
      have hj' : j = 6 ∨ j = 7 := by omega
      fin_cases i <;> fin_cases a <;> rcases hj' with rfl | rfl <;> rfl
    refine Finset.sum_eq_zero fun j _ => ?_
    by_cases hj : 6 ≤ j.val
    · rw [show stackFn feet r (Sum.inr j) = 0 from h _ _ j hj, zero_mul]
    · have : (![0, 0, 0, 0, 0, 0, δ 6, δ 7] : Fin 8 → ℝ) j = 0 := by
        have hj' : j = 0 ∨ j = 1 ∨ j = 2 ∨ j = 3 ∨ j = 4 ∨ j = 5 := by omega
        rcases hj' with rfl | rfl | rfl | rfl | rfl | rfl <;> rfl
      rw [this, mul_zero]

theorem ind : IndependentRows (stackFn feet) := by
  intro F h
  rw [stackFn_transpose, Fin.sum_univ_two] at h
  change left.jacᵀ *ᵥ wrenchOf F 0 + right.jacᵀ *ᵥ wrenchOf F 1 = 0 at h
  rw [left_T, right_T] at h
  generalize ha : wrenchOf F 0 = a at h
  generalize hb : wrenchOf F 1 = b at h
  have b0 := congrFun h (Sum.inl 0); have b1 := congrFun h (Sum.inl 1); have b2 := congrFun h (Sum.inl 2)
  have b3 := congrFun h (Sum.inl 3); have b4 := congrFun h (Sum.inl 4); have b5 := congrFun h (Sum.inl 5)
  have j0 := congrFun h (Sum.inr 0); have j1 := congrFun h (Sum.inr 1); have j2 := congrFun h (Sum.inr 2)
  have j3 := congrFun h (Sum.inr 3); have j4 := congrFun h (Sum.inr 4); have j5 := congrFun h (Sum.inr 5)
  simp at b0 b1 b2 b3 b4 b5 j0 j1 j2 j3 j4 j5
  have ha0 : a = 0 := by ext i; fin_cases i <;> simp <;> linarith
  have hb0 : b = 0 := by ext i; fin_cases i <;> simp <;> linarith
  have hall : ∀ i, wrenchOf F i = 0 := by
    intro i
    rcases Fin.exists_fin_two.mp ⟨i, rfl⟩ with h | h <;> rw [h]
    · rw [ha, ha0]
    · rw [hb, hb0]
  ext r
  have := congrFun (hall ⟨r / 6, by omega⟩) ⟨r % 6, by omega⟩
  simp only [wrenchOf, Pi.zero_apply] at this
  rw [Pi.zero_apply, ← this]
  congr 1
  apply Fin.ext
  simp only
  omega

theorem base (i : Fin 2) : IsUnit (footBase (feet i)).det := by
  fin_cases i
  · exact left_base
  · exact right_base

theorem hold (δ : Fin 8 → ℝ) (h : ∀ i, |δ i| ≤ 1) (hc : 6 * 2 = 6 * (active Pair.cs).length) :
    ContactsHold Pair.cs (force δ ∘ Fin.cast hc.symm) := by
  refine Pair.holds (fun i => ?_) hc
  rw [force_wrench]
  have d0 := abs_le.mp (h 0); have d1 := abs_le.mp (h 1); have d2 := abs_le.mp (h 2)
  have d3 := abs_le.mp (h 3); have d4 := abs_le.mp (h 4); have d5 := abs_le.mp (h 5)
  rcases Fin.exists_fin_two.mp ⟨i, rfl⟩ with h | h <;> rw [h]
  · refine ⟨by simp [Pair.press100, dLeft]; linarith, fun j hj => ?_⟩
    rw [abs_le]
    fin_cases j <;> simp [Pair.press100, dLeft] at hj ⊢ <;> constructor <;> linarith
  · refine ⟨by simp [Pair.press100, dRight]; linarith, fun j hj => ?_⟩
    rw [abs_le]
    fin_cases j <;> simp [Pair.press100, dRight] at hj ⊢ <;> constructor <;> linarith

/-- What redistribution leaves. -/
theorem least (cod : (W : Matrix (Fin 8) (Fin 8) ℝ) → CodNull W) {solve : RSolver} (he : solve.Exact) (hcomp : solve.Complete) :
    ∃ δ, redistributeCycle (stackFn feet) (1 : Matrix (Fin 6 ⊕ Fin 8) (Fin 6 ⊕ Fin 8) ℝ)⁻¹ G cod (some L) Pair.cs solve τ 0 = some (1, δ) ∧
      WithinLimit L (τ + δ) ∧ ∀ δ', δ' 6 = 0 → δ' 7 = 0 → WithinLimit L (τ + δ') → (∀ i, |δ' i| ≤ 1) →
        ∑ i, (dLeft δ i) ^ 2 ≤ ∑ i, (dLeft δ' i) ^ 2 := by
  have hA : IsSPD (1 : Matrix (Fin 6 ⊕ Fin 8) (Fin 6 ⊕ Fin 8) ℝ) := isSPD_one
  obtain ⟨S, ⟨k, V2, N⟩, hR⟩ := stackFn_outcome hA feet base ind (by norm_num) cod
  have hS := ccc_space hR
  have h6 : ∀ l ∈ Pair.cs, l.type = .c6d := by simp [Pair.cs, exContact]
  have hp : ∀ l ∈ Pair.cs, 0 < l.planeX ∧ 0 < l.planeY := by simp [Pair.cs, exContact]
  have hc : 6 * 2 = 6 * (active Pair.cs).length := by simp [active, Pair.cs, exContact]
  let R : QPRobot 8 (6 * 2) :=
    ⟨S, N, gravityForce S G, gravityTorque S (1 : Matrix (Fin 6 ⊕ Fin 8) (Fin 6 ⊕ Fin 8) ℝ)⁻¹ G, some L, Pair.cs⟩
  have hmot : ∀ δ qdd F, Motion 1 (stackFn feet) G (τ + δ) qdd F → qdd = arms δ ∧ F = force δ := by
    intro δ qdd F h
    refine ⟨(C01_contact_force_exact hA hS G _).2.2 _ _ _ _ h (motion δ), ?_⟩
    rw [(C01_contact_force_exact hA hS G _).2.1 _ _ h]
    exact ((C01_contact_force_exact hA hS G _).2.1 _ _ (motion δ)).symm
  have harms : ∀ δ : Fin 8 → ℝ, δ 6 = 0 → δ 7 = 0 → arms δ = arms 0 := by
    intro δ h6 h7
    unfold arms
    rw [h6, h7]
    rfl
  obtain ⟨δ, hδ⟩ := (C10_succeeds_iff hA R hS rfl h6 hp hc (by norm_num) cod hR he hcomp τ 0).mpr
    ⟨![-1, 0, 0, -1, 0, 0, 0, 0], fun L' hL' => by
      obtain rfl : L = L' := Option.some.inj hL'
      intro j
      fin_cases j <;> simp [τ, L] <;> norm_num, fun qdd F qdd' F' hM hM' => by
      obtain ⟨rfl, rfl⟩ := hmot _ _ _ hM
      obtain ⟨rfl, rfl⟩ := hmot _ _ _ hM'
      exact ⟨harms _ rfl rfl, hold _ (fun i => by fin_cases i <;> simp) hc⟩⟩
  have hsafe := (C10_safe hA R hS rfl h6 hp hc (by norm_num) (fun k d x hx => (he k d x hx).1) hδ).1 L rfl
  refine ⟨δ, ?_, hsafe, fun δ' h6' h7' hl hb => ?_⟩
  · unfold redistributeCycle
    rw [hR]
    rw [add_zero] at hδ
    exact hδ
  · have := C10_least hA R hS rfl h6 hp hc (by norm_num) cod hR he hδ
      (fun L' hL' => by obtain rfl : L = L' := Option.some.inj hL'; exact hl) (motion 0) (motion δ)
      (by rw [← harms δ' h6' h7']; exact motion δ') (hold δ' hb hc)
    have hcast : ∀ d : Fin 8 → ℝ, ∀ i : Fin 6, force d (Fin.castLE (Nat.sub_le (6 * 2) 6) i) - force 0 (Fin.castLE (Nat.sub_le (6 * 2) 6) i)
        = dLeft d i := by
      intro d i
      have hi : ∀ d, force d (Fin.castLE (Nat.sub_le (6 * 2) 6) i) = wrenchOf (force d) 0 i := by
        intro d; unfold wrenchOf; congr 1; apply Fin.ext; simp
      rw [hi, hi, force_wrench, force_wrench]
      have h0 : dLeft 0 = 0 := by ext j; fin_cases j <;> simp [dLeft]
      simp [h0]
    change ∑ i : Fin 6, _ ≤ ∑ i : Fin 6, _ at this
    have e1 := Finset.sum_congr (rfl : (Finset.univ : Finset (Fin 6)) = Finset.univ) fun i _ => congrArg (· ^ 2) (hcast δ i)
    have e2 := Finset.sum_congr (rfl : (Finset.univ : Finset (Fin 6)) = Finset.univ) fun i _ => congrArg (· ^ 2) (hcast δ' i)
    exact (e1.symm.trans_le this).trans_eq e2

/-- The velocities of both arms. -/
def armJ : Matrix (Fin 2) (Fin 6 ⊕ Fin 8) ℝ := Matrix.of fun a r => match r with
  | Sum.inl _ => 0
  | Sum.inr j => (![![0, 0, 0, 0, 0, 0, 1, 0], ![0, 0, 0, 0, 0, 0, 0, 1]] : Fin 2 → Fin 8 → ℝ) a j

/-- Both arms are to be raised. -/
def T : TaskIn (Fin 8) := ⟨2, armJ, ![3, 3]⟩

/-- One arm for the other. -/
def other : Matrix (Fin 2) (Fin 2) ℝ := !![0, 1; 1, 0]

theorem T_mirror : MirrorTask e s T T := by
  have h0 : otherᵀ * other = 1 := by
    ext i j
    fin_cases i <;> fin_cases j <;> simp [Matrix.mul_apply, other]
  have h1 : other * mirrorCols e s armJ = armJ := by
    ext a r
    rcases r with r | r
    · fin_cases a <;> simp [Matrix.mul_apply, mirrorCols, counted, armJ]
    · fin_cases a <;> fin_cases r <;> simp [Matrix.mul_apply, mirrorCols, counted, armJ, mirrorSigns, s, e, other]
  have h2 : other *ᵥ ![3, 3] = ![3, 3] := by
    ext a
    fin_cases a <;> simp [mulVec, dotProduct, other]
  refine ⟨other, h0, ?_⟩
  change T = ⟨2, other * mirrorCols e s armJ, other *ᵥ ![3, 3]⟩
  rw [h1, h2]
  rfl

theorem arm_T (y : Fin 2 → ℝ) : armJᵀ *ᵥ y = Sum.elim (fun _ => 0) ![0, 0, 0, 0, 0, 0, y 0, y 1] := by
  ext r
  rcases r with r | r
  · simp [armJ, mulVec, dotProduct]
  · fin_cases r <;> simp [armJ, mulVec, dotProduct]

theorem free {S : ContactSpace (6 * 2) (Fin 8)}
    (hS : contactSpace (stackFn feet) (1 : Matrix (Fin 6 ⊕ Fin 8) (Fin 6 ⊕ Fin 8) ℝ)⁻¹ = some S) :
    (calculateJKT S (1 : Matrix (Fin 6 ⊕ Fin 8) (Fin 6 ⊕ Fin 8) ℝ)⁻¹ T).isSome := by
  have key : ∀ y : Fin 2 → ℝ, (∃ F, (stackFn feet)ᵀ *ᵥ F = armJᵀ *ᵥ y) → y = 0 := by
    rintro y ⟨F, hF⟩
    rw [stackFn_transpose, Fin.sum_univ_two] at hF
    change left.jacᵀ *ᵥ wrenchOf F 0 + right.jacᵀ *ᵥ wrenchOf F 1 = _ at hF
    rw [left_T, right_T, arm_T] at hF
    have h6 := congrFun hF (Sum.inr 6)
    have h7 := congrFun hF (Sum.inr 7)
    simp at h6 h7
    ext i
    fin_cases i
    · exact h6.symm
    · exact h7.symm
  exact (C06_finite_iff isSPD_one hS T).mpr key

end Twin

/-- C91 (contact redistribution by QP, negation).  A robot that looks the same in the mirror, with a torque to be redistributed and
limits that do, gets a contact torque that does not, whatever exact solver is used: the second joints of the legs get torques that
differ, so one foot presses more than the other. -/
theorem C91_redistribute_lopsided (cod : (W : Matrix (Fin 8) (Fin 8) ℝ) → CodNull W) {solve : RSolver} (he : solve.Exact)
    (hcomp : solve.Complete) :
    LooksMirrored Twin.e Twin.s 1 Twin.G [Twin.left, Twin.right] ∧ mirrorTorque Twin.e Twin.s Twin.τ = Twin.τ ∧
      recountLimit Twin.e Twin.L = Twin.L ∧
      ∃ δ, feetRedistribute 1 Twin.G cod (some Twin.L) solve Twin.τ 0 [Twin.left, Twin.right] = some (1, δ) ∧
        mirrorTorque Twin.e Twin.s δ ≠ δ ∧ δ 1 < δ 4 := by
  refine ⟨Twin.looks, Twin.τ_mirror, rfl, ?_⟩
  obtain ⟨δ, h, hl, hmin⟩ := Twin.least cod he hcomp
  have hlt : δ 1 < δ 4 := by
    have h0 := (abs_le.mp (hl 0)).2
    have h3 := (abs_le.mp (hl 3)).2
    have m := hmin ![-1, -2 / 5, 0, -1, 2 / 5, 0, 0, 0] rfl rfl
      (by intro j; fin_cases j <;> simp [Twin.τ, Twin.L] <;> norm_num [abs_le]) (by intro i; fin_cases i <;> norm_num [abs_le])
    simp [Twin.dLeft, Fin.sum_univ_six, Twin.τ, Twin.L] at m h0 h3
    by_contra hc
    push Not at hc
    nlinarith [sq_nonneg (δ 2 - δ 5), sq_nonneg (δ 1 + δ 4), sq_nonneg (δ 0 - δ 3), sq_nonneg (2 * δ 2 + δ 5)]
  refine ⟨δ, h, fun heq => ?_, hlt⟩
  have := congrFun heq 1
  simp [recount, Twin.e, Twin.s] at this
  linarith

/-- The hypotheses of the theorems about robots that look the same in the mirror are met by this robot, and there are results to
compare: the weight, two raised arms without QP and with QP, and the forces at the feet. -/
theorem C91_hypotheses_met : ∃ (cod : (W : Matrix (Fin 8) (Fin 8) ℝ) → CodNull W) (solve : Solver) (rsolve : RSolver),
    solve.Exact ∧ solve.Complete ∧ rsolve.Exact ∧ rsolve.Complete ∧ IsSPD (1 : Matrix (Fin 6 ⊕ Fin 8) (Fin 6 ⊕ Fin 8) ℝ) ∧
    Signs Twin.s ∧ LooksMirrored Twin.e Twin.s 1 Twin.G [Twin.left, Twin.right] ∧
    (∀ f ∈ [Twin.left, Twin.right], f.link.type = .c6d ∧ IsUnit (footBase f).det) ∧
    List.Forall₂ (MirrorTask Twin.e Twin.s) [Twin.T] [Twin.T] ∧ (some Twin.L).map (recountLimit Twin.e) = some Twin.L ∧
    standing [Twin.left, Twin.right] ≠ [] ∧
    (feetGravity 1 Twin.G [Twin.left, Twin.right]).isSome ∧ (feetClosed 1 Twin.G [Twin.T] [Twin.left, Twin.right]).isSome ∧
    (feetForces 1 Twin.G Twin.τ [Twin.left, Twin.right]).isSome ∧
    (feetQP 1 Twin.G cod (some Twin.L) solve [Twin.T] [Twin.left, Twin.right]).isSome := by
  classical
  let cod : (W : Matrix (Fin 8) (Fin 8) ℝ) → CodNull W := fun W => (exists_codNull W).some
  have hA : IsSPD (1 : Matrix (Fin 6 ⊕ Fin 8) (Fin 6 ⊕ Fin 8) ℝ) := isSPD_one
  obtain ⟨S, ⟨k, V2, N⟩, hR⟩ := stackFn_outcome hA Twin.feet Twin.base Twin.ind (by norm_num) cod
  have hS := ccc_space hR
  obtain ⟨Y, hY⟩ := Option.isSome_iff_exists.mp (Twin.free hS)
  have hts : calcTaskSpace S (1 : Matrix (Fin 6 ⊕ Fin 8) (Fin 6 ⊕ Fin 8) ℝ)⁻¹ [Twin.T] = some [Y] := by
    unfold calcTaskSpace; rw [List.mapM_cons, hY]; rfl
  refine ⟨cod, Stand.solver, Stand.rsolver, Stand.solver_exact, Stand.solver_complete, Stand.rsolver_exact, Stand.rsolver_complete, hA,
    Twin.signs, Twin.looks, ?_, List.Forall₂.cons Twin.T_mirror List.Forall₂.nil, rfl, ?_, ?_, ?_, ?_, ?_⟩
  · intro f hf
    simp only [List.mem_cons, List.not_mem_nil, or_false] at hf
    rcases hf with rfl | rfl
    · exact ⟨rfl, Twin.left_base⟩
    · exact ⟨rfl, Twin.right_base⟩
  · simp [standing, Twin.left, Twin.right, exContact]
  · change (gravityCommand (stackFn Twin.feet) _ _).isSome
    unfold gravityCommand
    rw [hS]
    rfl
  · change (closedCommand (stackFn Twin.feet) _ _ _).isSome
    unfold closedCommand
    rw [hS]
    simp only
    rw [hts]
    rfl
  · change ((contactSpace (stackFn Twin.feet) _).map _).isSome
    rw [hS]
    rfl
  · change (qpCycle (stackFn Twin.feet) _ _ cod (some Twin.L) Pair.cs Stand.solver [Twin.T]).isSome
    unfold qpCycle
    rw [hR]
    simp only
    rw [hts]
    simp only
    obtain ⟨v, τt, τc, hv, -⟩ := C47_defined_partial
      (⟨S, N, gravityForce S Twin.G, gravityTorque S (1 : Matrix (Fin 6 ⊕ Fin 8) (Fin 6 ⊕ Fin 8) ℝ)⁻¹ Twin.G, some Twin.L, Pair.cs⟩ :
        QPRobot 8 (6 * 2)) (by norm_num) (by simp [Pair.cs, exContact]) (by simp [Pair.cs, exContact])
      (by simp [active, Pair.cs, exContact]) Stand.solver [Y]
    rw [hv]
    rfl

end Verif.Props
