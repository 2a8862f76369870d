import Verif.Lemmas.SwapFeet
import Verif.Props.ClosedForm

/-!
# C81: the two feet registered the other way round, redistribution without a QP; point contacts registered first or last
-/

set_option linter.unusedSectionVars false

namespace Verif.Props
open Matrix Verif Verif.Spec Verif.Model

/-- Row of the other contact. -/
def swapHalves (i : Fin 12) : Fin 12 := ⟨(i + 6) % 12, Nat.mod_lt _ (by norm_num)⟩

theorem swapHalves_swapHalves (i : Fin 12) : swapHalves (swapHalves i) = i := by
  fin_cases i <;> rfl

/-- The permutation of the rows. -/
def swapEquiv : Fin 12 ≃ Fin 12 := ⟨swapHalves, swapHalves, swapHalves_swapHalves, swapHalves_swapHalves⟩

theorem swap12_eq (F : Fin 12 → ℝ) : swap12 F = fun i => F (swapEquiv i) := by
  ext i
  fin_cases i <;> rfl

theorem swap12_swap12 (F : Fin 12 → ℝ) : swap12 (swap12 F) = F := by
  ext i
  fin_cases i <;> rfl

section jac
variable {ι : Type*} [Fintype ι] [DecidableEq ι]

/-- The contact Jacobian with the two contacts registered the other way round. -/
def otherFirst (J : Matrix (Fin 12) (Fin 6 ⊕ ι) ℝ) : Matrix (Fin 12) (Fin 6 ⊕ ι) ℝ := J.submatrix swapEquiv id

theorem otherFirst_mulVec (J : Matrix (Fin 12) (Fin 6 ⊕ ι) ℝ) (v : Fin 6 ⊕ ι → ℝ) : otherFirst J *ᵥ v = swap12 (J *ᵥ v) := by
  rw [swap12_eq]; rfl

theorem otherFirst_T (J : Matrix (Fin 12) (Fin 6 ⊕ ι) ℝ) (F : Fin 12 → ℝ) : (otherFirst J)ᵀ *ᵥ swap12 F = Jᵀ *ᵥ F := by
  rw [swap12_eq]
  ext j
  simp only [mulVec, dotProduct, transpose_apply, otherFirst, submatrix_apply, id]
  exact Equiv.sum_comp swapEquiv fun i => J i j * F i

theorem otherFirst_ind {J : Matrix (Fin 12) (Fin 6 ⊕ ι) ℝ} (h : IndependentRows J) : IndependentRows (otherFirst J) := by
  intro F hF
  have e := otherFirst_T J (swap12 F)
  rw [swap12_swap12, hF] at e
  have := h _ e.symm
  rw [← swap12_swap12 F, this]
  ext i; fin_cases i <;> rfl

theorem otherFirst_base {J : Matrix (Fin 12) (Fin 6 ⊕ ι) ℝ} (h : BaseDetermined J) : BaseDetermined (otherFirst J) := by
  intro w hw
  rw [otherFirst_mulVec] at hw
  refine h w ?_
  rw [← swap12_swap12 (J *ᵥ _), hw]
  ext i; fin_cases i <;> rfl

theorem otherFirst_motion {A : Matrix (Fin 6 ⊕ ι) (Fin 6 ⊕ ι) ℝ} {J : Matrix (Fin 12) (Fin 6 ⊕ ι) ℝ} {G : Fin 6 ⊕ ι → ℝ}
    {τ : ι → ℝ} {qdd : Fin 6 ⊕ ι → ℝ} {F : Fin 12 → ℝ} (h : Motion A J G τ qdd F) :
    Motion A (otherFirst J) G τ qdd (swap12 F) := by
  refine ⟨?_, ?_⟩
  · have := h.1
    unfold Dynamics at this ⊢
    rw [otherFirst_T]
    exact this
  · have : J *ᵥ qdd = 0 := h.2
    unfold ContactsFixed
    rw [otherFirst_mulVec, this]
    ext i; fin_cases i <;> rfl

theorem otherFirst_rigid {J : Matrix (Fin 12) (Fin 6 ⊕ ι) ℝ} {p₁ p₂ : Fin 3 → ℝ} (h : RigidBase J p₁ p₂) :
    RigidBase (otherFirst J) p₂ p₁ := by
  obtain ⟨o, T, hT, hV⟩ := h
  refine ⟨o, T, hT, fun w => ?_⟩
  obtain ⟨h1, h2, h3, h4⟩ := hV w
  rw [otherFirst_mulVec]
  exact ⟨h3, h4, h1, h2⟩

end jac

/-! ## A foot and two point contacts -/

/-- **C81 (negation, whether there is a result).** A robot stands on a foot and two point contacts, anywhere.  Registered
foot first, the computation gives no finite result; registered points first, the same robot gets one. -/
theorem C81_points_last (p q : Fin 3 → ℝ) (cod : (W : Matrix (Fin 6) (Fin 6) ℝ) → CodNull W) :
    calculateContactConstraint (Points.J p q) Points.A⁻¹ cod = .nonFinite ∧
    ∃ S out, calculateContactConstraint (otherFirst (Points.J p q)) Points.A⁻¹ cod = .ret 1 S (some out) := by
  refine ⟨(C05_points_last_not_finite p q cod).2.2.2, ?_⟩
  refine (C05_outcome Points.hA (otherFirst_ind (Points.J_ind p q)) (by norm_num) cod).1.mpr
    ⟨otherFirst_base (Points.J_base p q), ?_⟩
  have : lastSixBase (by norm_num) (otherFirst (Points.J p q)) = 1 := by
    ext i j
    fin_cases i <;> fin_cases j <;> simp [lastSixBase, otherFirst, swapEquiv, swapHalves, Points.J]
  rw [this]; simp

/-! ## The split of two feet -/

theorem Fl_div_ne (s : Bool) {a b : ℝ} (h : b ≠ 0) : Fl.div s a b = .fin (a / b) := by
  simp [Fl.div, h]

/-- **C81 (split).** If some split in the requested range keeps both feet, and the ratio asked for is determined, then with
the feet the other way round each foot gets what it gets now. -/
theorem C81_split {p : RedistParams} (hp : RedistParams.Valid p) (s s' : Fin 4 → Bool) {P1 P2 : Fin 3 → ℝ} {F : Fin 12 → ℝ}
    (hpress : resultant P1 P2 F 2 < 0) {η₀ : ℝ} (hη : 1 - p.etaCust ≤ η₀ ∧ η₀ ≤ p.etaCust)
    (h₀ : BothFeetHold p (splitForce P1 P2 (resultant P1 P2 F) η₀)) (hA : coefA P1 P2 (resultant P1 P2 F) 0 ≠ 0) :
    ∃ η, contactRedistribute s p P1 P2 F = some (η, splitForce P1 P2 (resultant P1 P2 F) η) ∧
      contactRedistribute s' p P2 P1 (swap12 F) = some (1 - η, swap12 (splitForce P1 P2 (resultant P1 P2 F) η)) := by
  set R := resultant P1 P2 F with hR
  have hh := hp.half
  have ho := hp.one
  have hC := coefC_nonneg hp.width.le hp.length.le hp.mu R
  have h₀' := (bothFeetHold_iff hp P1 P2 hpress η₀ (by linarith [hη.1]) (by linarith [hη.2])).mp h₀
  obtain ⟨l, u, e1, e2⟩ := bounds_mirror s s' (A := coefA P1 P2 R) (B := coefB P2 R) hC p.etaCust
  obtain ⟨l', u', e1', -, -, hiff⟩ := bounds_spec s (A := coefA P1 P2 R) (B := coefB P2 R) hC (1 - p.etaCust) p.etaCust
  rw [e1] at e1'
  obtain ⟨rfl, rfl⟩ : l = l' ∧ u = u' := by simpa using e1'
  obtain ⟨m1, m2⟩ := (hiff η₀).mpr ⟨hη, fun i _ => h₀' i⟩
  set x := -coefB P2 R 0 / coefA P1 P2 R 0 with hx
  obtain ⟨η, c1, c2⟩ := clamp_mirror (k := p.etaCust) (x := x) (m1.trans m2)
  have d1 : splitRatio s p P1 P2 R = .fin η := by
    unfold splitRatio
    simp only [e1]
    have : Fl.div (s 3) (-R 3 - P2 2 * R 1 + P2 1 * R 2) ((P1 2 - P2 2) * R 1 - (P1 1 - P2 1) * R 2) = .fin x := by
      have eA : (P1 2 - P2 2) * R 1 - (P1 1 - P2 1) * R 2 = coefA P1 P2 R 0 := rfl
      have eB : -R 3 - P2 2 * R 1 + P2 1 * R 2 = -coefB P2 R 0 := by simp [coefB]; ring
      rw [eA, eB]
      rw [Fl_div_ne _ hA, ← hx]
    rw [this, c1]
  have d2 : splitRatio s' p P2 P1 R = .fin (1 - η) := by
    unfold splitRatio
    rw [coefA_swap P1 P2, coefB_swap P1 P2]
    simp only [Pi.neg_apply, Pi.add_apply, e2]
    have : Fl.div (s' 3) (-R 3 - P1 2 * R 1 + P1 1 * R 2) ((P2 2 - P1 2) * R 1 - (P2 1 - P1 1) * R 2) = .fin (1 - x) := by
      have eA : (P2 2 - P1 2) * R 1 - (P2 1 - P1 1) * R 2 = -coefA P1 P2 R 0 := by simp [coefA]; ring
      have eB : -R 3 - P1 2 * R 1 + P1 1 * R 2 = -(coefB P2 R 0 + coefA P1 P2 R 0) := by simp [coefA, coefB]; ring
      rw [eA, eB]
      have : -(coefB P2 R 0 + coefA P1 P2 R 0) / -coefA P1 P2 R 0 = 1 - x := by
        rw [hx, neg_div_neg_eq, add_div, div_self hA, neg_div]; ring
      rw [Fl_div_ne _ (neg_ne_zero.mpr hA), this]
    rw [this, c2]
  refine ⟨η, ?_, ?_⟩
  · unfold contactRedistribute
    rw [← hR, d1]
  · unfold contactRedistribute
    rw [resultant_swap, ← hR, d2]
    simp only
    rw [splitForce_swap]

/-- The feet of `C81_split_differs`, and their loads: all on the second foot. -/
noncomputable def farFoot : Fin 3 → ℝ := ![117 / 100, 1, 0]

noncomputable def twisted : Fin 12 → ℝ := ![0, 0, 0, 0, 0, 0, 1, 0, -1, -1 / 2, 234 / 1000, -17 / 10]

theorem twisted_resultant (P : Fin 3 → ℝ) : resultant P 0 twisted = ![1, 0, -1, -1 / 2, 234 / 1000, -17 / 10] := by
  ext i
  fin_cases i <;> simp [resultant, twisted]

/-- **C81 (negation, split).** No split keeps these feet.  The library returns one for either order, and gives three tenths of
the load to whichever foot was registered first. -/
theorem C81_split_differs (s s' : Fin 4 → Bool) :
    (∃ F', contactRedistribute s dwbcParams farFoot 0 twisted = some (3 / 10, F') ∧ F' 2 = -(3 / 10)) ∧
    (∃ F', contactRedistribute s' dwbcParams 0 farFoot (swap12 twisted) = some (3 / 10, F') ∧ F' 8 = -(7 / 10)) := by
  have hA0 : coefA farFoot 0 ![1, 0, -1, -1 / 2, 234 / 1000, -17 / 10] 0 = 1 := by simp [coefA, farFoot]
  have hA1 : coefA farFoot 0 ![1, 0, -1, -1 / 2, 234 / 1000, -17 / 10] 1 = -(117 / 100) := by simp [coefA, farFoot]
  have hA2 : coefA farFoot 0 ![1, 0, -1, -1 / 2, 234 / 1000, -17 / 10] 2 = 1 := by simp [coefA, farFoot]
  have hB0 : coefB 0 ![1, 0, -1, -1 / 2, 234 / 1000, -17 / 10] 0 = -1 / 2 := by simp [coefB]
  have hB1 : coefB 0 ![1, 0, -1, -1 / 2, 234 / 1000, -17 / 10] 1 = 234 / 1000 := by simp [coefB]
  have hB2 : coefB 0 ![1, 0, -1, -1 / 2, 234 / 1000, -17 / 10] 2 = -17 / 10 := by simp [coefB]
  have hC0 : coefC dwbcParams ![1, 0, -1, -1 / 2, 234 / 1000, -17 / 10] 0 = 45 / 1000 := by
    simp [coefC, dwbcParams]; norm_num
  have hC1 : coefC dwbcParams ![1, 0, -1, -1 / 2, 234 / 1000, -17 / 10] 1 = 117 / 1000 := by
    simp [coefC, dwbcParams]; norm_num
  have hC2 : coefC dwbcParams ![1, 0, -1, -1 / 2, 234 / 1000, -17 / 10] 2 = 1 := by simp [coefC, dwbcParams]
  have hk : dwbcParams.etaCust = 99 / 100 := rfl
  have hC : ∀ i, 0 ≤ coefC dwbcParams ![1, 0, -1, -1 / 2, 234 / 1000, -17 / 10] i := by
    intro i
    fin_cases i
    · exact hC0.ge.trans' (by norm_num)
    · exact hC1.ge.trans' (by norm_num)
    · exact hC2.ge.trans' (by norm_num)
  have b1 : ∀ s : Fin 4 → Bool, tighten (s 2) (coefA farFoot 0 ![1, 0, -1, -1 / 2, 234 / 1000, -17 / 10] 2)
      (coefB 0 ![1, 0, -1, -1 / 2, 234 / 1000, -17 / 10] 2) (coefC dwbcParams ![1, 0, -1, -1 / 2, 234 / 1000, -17 / 10] 2)
      (tighten (s 1) (coefA farFoot 0 ![1, 0, -1, -1 / 2, 234 / 1000, -17 / 10] 1)
        (coefB 0 ![1, 0, -1, -1 / 2, 234 / 1000, -17 / 10] 1) (coefC dwbcParams ![1, 0, -1, -1 / 2, 234 / 1000, -17 / 10] 1)
        (tighten (s 0) (coefA farFoot 0 ![1, 0, -1, -1 / 2, 234 / 1000, -17 / 10] 0)
          (coefB 0 ![1, 0, -1, -1 / 2, 234 / 1000, -17 / 10] 0) (coefC dwbcParams ![1, 0, -1, -1 / 2, 234 / 1000, -17 / 10] 0)
          (.fin (1 - dwbcParams.etaCust), .fin dwbcParams.etaCust))) = (.fin (7 / 10), .fin (3 / 10)) := by
    intro s
    rw [hA0, hA1, hA2, hB0, hB1, hB2, hC0, hC1, hC2, hk, tighten_explicit _ (by norm_num) (by norm_num),
      tighten_explicit _ (by norm_num) (by norm_num), tighten_explicit _ (by norm_num) (by norm_num)]
    rw [abs_neg, abs_of_pos (show (0 : ℝ) < 1 by norm_num), abs_of_pos (show (0 : ℝ) < 117 / 100 by norm_num)]
    norm_num [max_def, min_def]
  obtain ⟨l, u, e1, e2⟩ := bounds_mirror s s' (A := coefA farFoot 0 ![1, 0, -1, -1 / 2, 234 / 1000, -17 / 10])
    (B := coefB 0 ![1, 0, -1, -1 / 2, 234 / 1000, -17 / 10]) hC dwbcParams.etaCust
  obtain ⟨rfl, rfl⟩ : 7 / 10 = l ∧ 3 / 10 = u := by simpa [b1 s] using e1
  have d1 : splitRatio s dwbcParams farFoot 0 ![1, 0, -1, -1 / 2, 234 / 1000, -17 / 10] = .fin (3 / 10) := by
    unfold splitRatio
    simp only [e1]
    have : Fl.div (s 3) (-![(1 : ℝ), 0, -1, -1 / 2, 234 / 1000, -17 / 10] 3 -
          (0 : Fin 3 → ℝ) 2 * ![1, 0, -1, -1 / 2, 234 / 1000, -17 / 10] 1 +
          (0 : Fin 3 → ℝ) 1 * ![1, 0, -1, -1 / 2, 234 / 1000, -17 / 10] 2)
        ((farFoot 2 - (0 : Fin 3 → ℝ) 2) * ![1, 0, -1, -1 / 2, 234 / 1000, -17 / 10] 1 -
          (farFoot 1 - (0 : Fin 3 → ℝ) 1) * ![1, 0, -1, -1 / 2, 234 / 1000, -17 / 10] 2) = .fin (1 / 2) := by
      simp [Fl.div, farFoot]; norm_num
    rw [this, clamp_real, hk]
    norm_num
  have d2 : splitRatio s' dwbcParams 0 farFoot ![1, 0, -1, -1 / 2, 234 / 1000, -17 / 10] = .fin (3 / 10) := by
    unfold splitRatio
    rw [coefA_swap farFoot 0, coefB_swap farFoot 0]
    simp only [Pi.neg_apply, Pi.add_apply, e2]
    have : Fl.div (s' 3) (-![(1 : ℝ), 0, -1, -1 / 2, 234 / 1000, -17 / 10] 3 -
          farFoot 2 * ![1, 0, -1, -1 / 2, 234 / 1000, -17 / 10] 1 +
          farFoot 1 * ![1, 0, -1, -1 / 2, 234 / 1000, -17 / 10] 2)
        (((0 : Fin 3 → ℝ) 2 - farFoot 2) * ![1, 0, -1, -1 / 2, 234 / 1000, -17 / 10] 1 -
          ((0 : Fin 3 → ℝ) 1 - farFoot 1) * ![1, 0, -1, -1 / 2, 234 / 1000, -17 / 10] 2) = .fin (1 / 2) := by
      simp [Fl.div, farFoot]; norm_num
    rw [this, clamp_real, hk]
    norm_num
  constructor
  · refine ⟨splitForce farFoot 0 ![1, 0, -1, -1 / 2, 234 / 1000, -17 / 10] (3 / 10), ?_, ?_⟩
    · unfold contactRedistribute
      rw [twisted_resultant, d1]
    · simp [splitForce]
  · refine ⟨splitForce 0 farFoot ![1, 0, -1, -1 / 2, 234 / 1000, -17 / 10] (3 / 10), ?_, ?_⟩
    · unfold contactRedistribute
      rw [resultant_swap, twisted_resultant, d2]
    · simp [splitForce]; norm_num

section torque
variable {ι : Type*} [Fintype ι] [DecidableEq ι]
variable {A : Matrix (Fin 6 ⊕ ι) (Fin 6 ⊕ ι) ℝ} {J : Matrix (Fin 12) (Fin 6 ⊕ ι) ℝ} {S S' : ContactSpace 12 ι}

theorem rotate12_swap12 (R : Matrix (Fin 3) (Fin 3) ℝ) (F : Fin 12 → ℝ) : rotate12 R (swap12 F) = swap12 (rotate12 R F) := by
  ext i
  fin_cases i <;> rfl

/-- A torque that changes no force changes nothing. -/
theorem torque_unique {G : Fin 6 ⊕ ι → ℝ} {τ τ' : ι → ℝ} {qdd : Fin 6 ⊕ ι → ℝ} {F : Fin 12 → ℝ} (h : Motion A J G τ qdd F)
    (h' : Motion A J G τ' qdd F) : τ = τ' := by
  have e : actuate τ = actuate τ' := h.1.symm.trans h'.1
  ext j
  exact congrFun e (Sum.inr j)

/-- What the two orders have to do with each other at the level of torques: they agree iff the redistributed forces do. -/
theorem closed_order (hA : IsSPD A) (hS : contactSpace J A⁻¹ = some S) (hS' : contactSpace (otherFirst J) A⁻¹ = some S')
    (f : CodNull S.W) (f' : CodNull S'.W) {p₁ p₂ : Vec3} (hJ : RigidBase J p₁ p₂) {s s' : Fin 4 → Bool} {rest rest' : List Vec3}
    {com : Vec3} {yaw : ℝ} {G : Fin 6 ⊕ ι → ℝ} {τ : ι → ℝ} {qdd : Fin 6 ⊕ ι → ℝ} {F F₁ F₂ : Fin 12 → ℝ}
    (h : Motion A J G τ qdd F) (h1 : closedFormForce s (p₁ :: p₂ :: rest) com yaw F = some F₁)
    (h2 : closedFormForce s' (p₂ :: p₁ :: rest') com yaw (swap12 F) = some F₂) :
    ∃ τ₁ τ₂, closedFormTorque S f (gravityForce S G) s (p₁ :: p₂ :: rest) com yaw τ = some τ₁ ∧
      closedFormTorque S' f' (gravityForce S' G) s' (p₂ :: p₁ :: rest') com yaw τ = some τ₂ ∧ (τ₁ = τ₂ ↔ F₂ = swap12 F₁) := by
  have hF : F = contactForce S (gravityForce S G) τ := (C01_contact_force_exact hA hS G τ).2.1 _ _ h
  have hF' : swap12 F = contactForce S' (gravityForce S' G) τ :=
    (C01_contact_force_exact hA hS' G τ).2.1 _ _ (otherFirst_motion h)
  obtain ⟨τ₁, e₁⟩ := Option.isSome_iff_exists.mp
    ((C49_defined hA hS f hJ (s := s) (pos := p₁ :: p₂ :: rest) (com := com) (yaw := yaw) (G := G) (τ := τ)).mpr
      (by rw [← hF, h1]; rfl))
  obtain ⟨τ₂, e₂⟩ := Option.isSome_iff_exists.mp
    ((C49_defined hA hS' f' (otherFirst_rigid hJ) (s := s') (pos := p₂ :: p₁ :: rest') (com := com) (yaw := yaw) (G := G)
      (τ := τ)).mpr (by rw [← hF', h2]; rfl))
  refine ⟨τ₁, τ₂, e₁, e₂, ?_⟩
  obtain ⟨q1, m1⟩ := (C01_contact_force_exact hA hS G (τ + τ₁)).1
  obtain ⟨q2, m2⟩ := (C01_contact_force_exact hA hS G (τ + τ₂)).1
  obtain ⟨rfl, c1, -⟩ := C49_closed_form_partial hA hS f hJ e₁ h m1
  obtain ⟨rfl, c2, -⟩ := C49_closed_form_partial hA hS' f' (otherFirst_rigid hJ) e₂ (otherFirst_motion h) (otherFirst_motion m2)
  rw [h1] at c1
  rw [h2] at c2
  simp only [Option.some.injEq] at c1 c2
  rw [← c1] at m1
  constructor
  · rintro rfl
    rw [c2, c1]
  · intro hh
    have : contactForce S (gravityForce S G) (τ + τ₂) = F₁ := by
      rw [← swap12_swap12 (contactForce _ _ _), ← c2, hh, swap12_swap12]
    rw [this] at m2
    exact add_left_cancel (torque_unique m1 m2)

/-- **C81 (redistribution without a QP).** If some split of the contact forces keeps both feet, and the ratio asked for is
determined, the contact torque is the same whichever foot was registered first. -/
theorem C81_closed_form_partial (hA : IsSPD A) (hS : contactSpace J A⁻¹ = some S)
    (hS' : contactSpace (otherFirst J) A⁻¹ = some S') (f : CodNull S.W) (f' : CodNull S'.W) {p₁ p₂ : Vec3}
    (hJ : RigidBase J p₁ p₂) (s s' : Fin 4 → Bool) (rest rest' : List Vec3) {com : Vec3} {yaw : ℝ} {G : Fin 6 ⊕ ι → ℝ} {τ : ι → ℝ}
    {qdd : Fin 6 ⊕ ι → ℝ} {F : Fin 12 → ℝ} (h : Motion A J G τ qdd F) {P₁ P₂ : Vec3} {R : Fin 6 → ℝ}
    (hP₁ : P₁ = rotateWithZ (-yaw) *ᵥ (p₁ - com)) (hP₂ : P₂ = rotateWithZ (-yaw) *ᵥ (p₂ - com))
    (hR : R = resultant P₁ P₂ (rotate12 (rotateWithZ (-yaw)) F)) (hpress : R 2 < 0) {η₀ : ℝ}
    (hη : 1 - dwbcParams.etaCust ≤ η₀ ∧ η₀ ≤ dwbcParams.etaCust) (h₀ : BothFeetHold dwbcParams (splitForce P₁ P₂ R η₀))
    (hd : coefA P₁ P₂ R 0 ≠ 0) :
    ∃ τc, closedFormTorque S f (gravityForce S G) s (p₁ :: p₂ :: rest) com yaw τ = some τc ∧
      closedFormTorque S' f' (gravityForce S' G) s' (p₂ :: p₁ :: rest') com yaw τ = some τc := by
  subst hR hP₁ hP₂
  obtain ⟨η, g1, g2⟩ := C81_split (by constructor <;> norm_num [dwbcParams]) s s' hpress hη h₀ hd
  generalize splitForce _ _ _ η = X at g1 g2
  have h1 : closedFormForce s (p₁ :: p₂ :: rest) com yaw F = some (rotate12 (rotateWithZ (-yaw))ᵀ X) := by
    simp only [closedFormForce, List.getElem?_cons_zero, List.getElem?_cons_succ, Option.bind_eq_bind, Option.bind_some,
      g1, Option.pure_def]
  have h2 : closedFormForce s' (p₂ :: p₁ :: rest') com yaw (swap12 F) = some (rotate12 (rotateWithZ (-yaw))ᵀ (swap12 X)) := by
    simp only [closedFormForce, List.getElem?_cons_zero, List.getElem?_cons_succ, Option.bind_eq_bind, Option.bind_some,
      rotate12_swap12 _ F, g2, Option.pure_def]
  obtain ⟨τ₁, τ₂, e1, e2, hiff⟩ := closed_order hA hS hS' f f' hJ h h1 h2
  exact ⟨τ₁, e1, by rw [e2, hiff.mpr (rotate12_swap12 _ _)]⟩

end torque

theorem rotateWithZ_zero' : rotateWithZ (-0) = 1 := by
  ext i j
  fin_cases i <;> fin_cases j <;> simp [rotateWithZ]

theorem rotate12_one (F : Fin 12 → ℝ) : rotate12 1 F = F := by
  ext i
  fin_cases i <;> simp [rotate12]

/-- **C81 (negation, redistribution without a QP).** A robot whose feet no split keeps: the contact torque depends on which
foot was registered first. -/
theorem C81_closed_form_differs (s s' : Fin 4 → Bool) (rest rest' : List Vec3) :
    ∃ (S S' : ContactSpace 12 (Fin 6)) (G : Fin 6 ⊕ Fin 6 → ℝ), IsSPD (1 : Matrix (Fin 6 ⊕ Fin 6) (Fin 6 ⊕ Fin 6) ℝ) ∧
      contactSpace (rigidJ farFoot 0) (1 : Matrix _ _ ℝ)⁻¹ = some S ∧
      contactSpace (otherFirst (rigidJ farFoot 0)) (1 : Matrix _ _ ℝ)⁻¹ = some S' ∧ RigidBase (rigidJ farFoot 0) farFoot 0 ∧
      ∀ (f : CodNull S.W) (f' : CodNull S'.W), ∃ τ₁ τ₂,
        closedFormTorque S f (gravityForce S G) s (farFoot :: 0 :: rest) 0 0 0 = some τ₁ ∧
        closedFormTorque S' f' (gravityForce S' G) s' (0 :: farFoot :: rest') 0 0 0 = some τ₂ ∧ τ₁ ≠ τ₂ := by
  have hA : IsSPD (1 : Matrix (Fin 6 ⊕ Fin 6) (Fin 6 ⊕ Fin 6) ℝ) := isSPD_one
  obtain ⟨S, hS⟩ := Option.isSome_iff_exists.mp ((C02_finite_iff_independent hA).mpr (rigidJ_ind farFoot 0))
  obtain ⟨S', hS'⟩ := Option.isSome_iff_exists.mp
    ((C02_finite_iff_independent hA).mpr (otherFirst_ind (rigidJ_ind farFoot 0)))
  set G : Fin 6 ⊕ Fin 6 → ℝ := -((rigidJ farFoot 0)ᵀ *ᵥ twisted) with hG
  have hm : Motion 1 (rigidJ farFoot 0) G 0 0 twisted := by
    refine ⟨?_, by simp [ContactsFixed]⟩
    unfold Dynamics
    rw [hG]
    ext i
    rcases i with i | i <;> simp [actuate]
  refine ⟨S, S', G, hA, hS, hS', rigidJ_rigid _ _, fun f f' => ?_⟩
  obtain ⟨⟨F1, g1, l1⟩, F2, g2, l2⟩ := C81_split_differs s s'
  have h1 : closedFormForce s (farFoot :: 0 :: rest) 0 0 twisted = some F1 := by
    simp only [closedFormForce, List.getElem?_cons_zero, List.getElem?_cons_succ, Option.bind_eq_bind, Option.bind_some,
      rotateWithZ_zero', rotate12_one, one_mulVec, sub_zero, g1, transpose_one, Option.pure_def]
  have h2 : closedFormForce s' (0 :: farFoot :: rest') 0 0 (swap12 twisted) = some F2 := by
    simp only [closedFormForce, List.getElem?_cons_zero, List.getElem?_cons_succ, Option.bind_eq_bind, Option.bind_some,
      rotateWithZ_zero', rotate12_one, one_mulVec, sub_zero, g2, transpose_one, Option.pure_def]
  obtain ⟨τ₁, τ₂, e1, e2, hiff⟩ := closed_order hA hS hS' f f' (rigidJ_rigid _ _) hm h1 h2
  refine ⟨τ₁, τ₂, e1, e2, fun h => ?_⟩
  have := congrFun (hiff.mp h) 8
  rw [l2] at this
  have e : swap12 F1 8 = F1 2 := rfl
  rw [e, l1] at this
  norm_num at this

/-- A robot standing straight on two feet meets the hypotheses of `C81_split` and `C81_closed_form_partial`. -/
theorem C81_closed_form_met : ∃ (S S' : ContactSpace 12 (Fin 6)) (F : Fin 12 → ℝ),
    let P₁ : Vec3 := ![0, 1 / 10, -1]
    let P₂ : Vec3 := ![0, -1 / 10, -1]
    IsSPD (1 : Matrix (Fin 6 ⊕ Fin 6) (Fin 6 ⊕ Fin 6) ℝ) ∧
      contactSpace (rigidJ P₁ P₂) (1 : Matrix _ _ ℝ)⁻¹ = some S ∧
      contactSpace (otherFirst (rigidJ P₁ P₂)) (1 : Matrix _ _ ℝ)⁻¹ = some S' ∧ RigidBase (rigidJ P₁ P₂) P₁ P₂ ∧
      Motion 1 (rigidJ P₁ P₂) (-((rigidJ P₁ P₂)ᵀ *ᵥ F)) 0 0 F ∧
      P₁ = rotateWithZ (-0) *ᵥ (P₁ - 0) ∧ P₂ = rotateWithZ (-0) *ᵥ (P₂ - 0) ∧ rotate12 (rotateWithZ (-0)) F = F ∧
      resultant P₁ P₂ F 2 < 0 ∧
      BothFeetHold dwbcParams (splitForce P₁ P₂ (resultant P₁ P₂ F) (1 / 2)) ∧ coefA P₁ P₂ (resultant P₁ P₂ F) 0 ≠ 0 := by
  have hA : IsSPD (1 : Matrix (Fin 6 ⊕ Fin 6) (Fin 6 ⊕ Fin 6) ℝ) := isSPD_one
  obtain ⟨S, hS⟩ := Option.isSome_iff_exists.mp
    ((C02_finite_iff_independent hA).mpr (rigidJ_ind ![0, 1 / 10, -1] ![0, -1 / 10, -1]))
  obtain ⟨S', hS'⟩ := Option.isSome_iff_exists.mp
    ((C02_finite_iff_independent hA).mpr (otherFirst_ind (rigidJ_ind ![0, 1 / 10, -1] ![0, -1 / 10, -1])))
  refine ⟨S, S', ![0, 0, -1, 0, 0, 0, 0, 0, -1, 0, 0, 0], ?_⟩
  intro P₁ P₂
  set F : Fin 12 → ℝ := ![0, 0, -1, 0, 0, 0, 0, 0, -1, 0, 0, 0] with hF
  refine ⟨hA, hS, hS', rigidJ_rigid _ _, ⟨?_, by simp [ContactsFixed]⟩, ?_, ?_, ?_, by simp [resultant, F], ?_, ?_⟩
  · unfold Dynamics
    ext i
    rcases i with i | i <;> simp [actuate]
  · rw [rotateWithZ_zero', one_mulVec, sub_zero]
  · rw [rotateWithZ_zero', one_mulVec, sub_zero]
  · rw [rotateWithZ_zero', rotate12_one]
  · have e : splitForce P₁ P₂ (resultant P₁ P₂ F) (1 / 2) = F := by
      ext i
      fin_cases i <;> simp [splitForce, resultant, coefA, coefB, P₁, P₂, F] <;> norm_num
    rw [e]
    intro w hw
    have : w = ![0, 0, -1, 0, 0, 0] := by
      simp only [List.mem_cons, List.not_mem_nil, or_false] at hw
      rcases hw with rfl | rfl <;> (ext i; fin_cases i <;> simp [foot1, foot2, F])
    subst this
    rw [noTip_iff (by norm_num [dwbcParams]) (by norm_num [dwbcParams])]
    simp [press, dwbcParams]
    norm_num
  · simp [coefA, resultant, P₁, P₂, F]
    norm_num

end Verif.Props
