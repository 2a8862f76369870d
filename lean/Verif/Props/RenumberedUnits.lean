import Verif.Props.Renumbered

/-!
# C84: on two feet the units of the joint coordinates matter
-/

set_option linter.unusedSectionVars false

namespace Verif.Props
open Matrix Verif Verif.Spec Verif.Model

/-! A body on two legs; every leg moves its foot in all six directions.  The coordinates of the first leg are measured in a unit `u`
times as large as those of the second. -/

namespace Legs

abbrev Joint := Fin 6 ⊕ Fin 6

/-- The units: `u` for the first leg. -/
def unit (u : ℝ) : Joint → ℝ := Sum.elim (fun _ => u) fun _ => 1

/-- Unit inertias. -/
def A : Matrix (Fin 6 ⊕ Joint) (Fin 6 ⊕ Joint) ℝ := diagonal fun _ => 1

/-- Two feet: the velocity of a foot is that of the body and that of its leg. -/
def J : Matrix (Fin 12) (Fin 6 ⊕ Joint) ℝ := Matrix.of fun i =>
  Sum.elim (fun j => if i.val % 6 = j.val then 1 else 0)
    (Sum.elim (fun j => if i.val = j.val then 1 else 0) fun j => if i.val = j.val + 6 then 1 else 0)

/-- The body weighs `1`, the legs nothing. -/
def G : Fin 6 ⊕ Joint → ℝ := Sum.elim (fun j => if j = 2 then 1 else 0) fun _ => 0

/-- The number of the direction. -/
def dir : Joint → Fin 6 := Sum.elim id id

/-- How the legs share the load. -/
noncomputable def share (u : ℝ) : Joint → ℝ := Sum.elim (fun _ => u⁻¹) fun _ => 1

/-- `α v vᵀ` in every direction. -/
noncomputable def K (u α : ℝ) : Matrix Joint Joint ℝ := Matrix.of fun x y => if dir x = dir y then α * share u x * share u y else 0

theorem K_mulVec (u α : ℝ) (τ : Joint → ℝ) (x : Joint) :
    (K u α *ᵥ τ) x = α * share u x * (u⁻¹ * τ (Sum.inl (dir x)) + τ (Sum.inr (dir x))) := by
  have h : ∀ (i : Fin 6) (g : Fin 6 → ℝ) (a : ℝ), ∑ j, (if i = j then a else 0) * g j = a * g i := by
    intro i g a
    simp
  have e1 : ∀ j : Fin 6, K u α x (Sum.inl j) = if dir x = j then α * share u x * u⁻¹ else 0 := fun j => rfl
  have e2 : ∀ j : Fin 6, K u α x (Sum.inr j) = if dir x = j then α * share u x * 1 else 0 := fun j => rfl
  simp only [mulVec, dotProduct, Fintype.sum_sum_type, e1, e2, h]
  ring

theorem K_mul (u α β : ℝ) : K u α * K u β = K u (α * β * (u⁻¹ * u⁻¹ + 1)) := by
  ext x y
  have h := K_mulVec u α (fun z => K u β z y) x
  refine h.trans ?_
  have e1 : K u β (Sum.inl (dir x)) y = if dir x = dir y then β * u⁻¹ * share u y else 0 := rfl
  have e2 : K u β (Sum.inr (dir x)) y = if dir x = dir y then β * 1 * share u y else 0 := rfl
  have e3 : K u (α * β * (u⁻¹ * u⁻¹ + 1)) x y = if dir x = dir y then α * β * (u⁻¹ * u⁻¹ + 1) * share u x * share u y else 0 := rfl
  rw [e1, e2, e3]
  by_cases hd : dir x = dir y
  · rw [if_pos hd, if_pos hd, if_pos hd]; ring
  · rw [if_neg hd, if_neg hd, if_neg hd]; ring

theorem K_symm (u α : ℝ) : (K u α)ᵀ = K u α := by
  ext x y
  simp only [transpose_apply, K, Matrix.of_apply, eq_comm]
  by_cases h : dir x = dir y
  · rw [if_pos h, if_pos h]; ring
  · rw [if_neg h, if_neg h]

theorem K_pinv {u α : ℝ} (hα : α ≠ 0) : pinv (K u α) = K u (α⁻¹ * ((u⁻¹ * u⁻¹ + 1)⁻¹ * (u⁻¹ * u⁻¹ + 1)⁻¹)) := by
  have hp : u⁻¹ * u⁻¹ + 1 ≠ 0 := by nlinarith [mul_self_nonneg u⁻¹]
  apply pinv_eq
  constructor
  · rw [K_mul, K_mul]; congr 1; field_simp
  · rw [K_mul, K_mul]; congr 1; field_simp
  · rw [K_mul, K_symm]
  · rw [K_mul, K_symm]

section
variable {u : ℝ} (hu : 0 < u)

theorem mass_eq (u : ℝ) : scaleMass (unit u) A = diagonal (Sum.elim (fun _ => 1) (Sum.elim (fun _ => u * u) fun _ => 1)) := by
  ext r q
  simp only [scaleMass, A, Matrix.of_apply, diagonal_apply]
  by_cases h : r = q
  · subst h
    rcases r with r | r | r <;> simp [unit]
  · rw [if_neg h, if_neg h, mul_zero]

include hu in
theorem hA : IsSPD (scaleMass (unit u) A) := by
  rw [mass_eq]
  exact isSPD_diagonal fun i => by rcases i with i | i | i <;> simp [hu]

theorem JT_inl (F : Fin 12 → ℝ) (j : Fin 6) :
    ((scaleCols (unit u) J)ᵀ *ᵥ F) (Sum.inl j) = F ⟨j, by omega⟩ + F ⟨j + 6, by omega⟩ := by
  fin_cases j <;> simp [J, scaleCols, unit, mulVec, dotProduct, Fin.sum_univ_succ] <;> rfl

theorem JT_left (F : Fin 12 → ℝ) (j : Fin 6) : ((scaleCols (unit u) J)ᵀ *ᵥ F) (Sum.inr (Sum.inl j)) = u * F ⟨j, by omega⟩ := by
  fin_cases j <;> simp [J, scaleCols, unit, mulVec, dotProduct, Fin.sum_univ_succ] <;> rfl

theorem JT_right (F : Fin 12 → ℝ) (j : Fin 6) : ((scaleCols (unit u) J)ᵀ *ᵥ F) (Sum.inr (Sum.inr j)) = F ⟨j + 6, by omega⟩ := by
  fin_cases j <;> simp [J, scaleCols, unit, mulVec, dotProduct, Fin.sum_univ_succ] <;> rfl

theorem J_mulVec_of {q : Fin 6 ⊕ Joint → ℝ} (h1 : ∀ j, q (Sum.inl j) + u * q (Sum.inr (Sum.inl j)) = 0)
    (h2 : ∀ j, q (Sum.inl j) + q (Sum.inr (Sum.inr j)) = 0) : scaleCols (unit u) J *ᵥ q = 0 := by
  ext i
  by_cases hi : i.val < 6
  · have := h1 ⟨i, hi⟩
    obtain ⟨i, h⟩ := i
    simp only at hi
    interval_cases i <;> simp [J, scaleCols, unit, mulVec, dotProduct, Fin.sum_univ_succ] <;> exact this
  · have := h2 ⟨i.val - 6, by omega⟩
    obtain ⟨i, h⟩ := i
    simp only at hi
    interval_cases i <;> simp [J, scaleCols, unit, mulVec, dotProduct, Fin.sum_univ_succ] <;> exact this

include hu in
theorem J_ind : IndependentRows (scaleCols (unit u) J) := by
  intro F h
  have hr : ∀ j : Fin 6, F ⟨j + 6, by omega⟩ = 0 := fun j => (JT_right (u := u) F j).symm.trans (by rw [h]; rfl)
  have hl : ∀ j : Fin 6, F ⟨j, by omega⟩ = 0 := fun j => by
    have := JT_left (u := u) F j
    rw [h] at this
    exact (mul_eq_zero.mp this.symm).resolve_left hu.ne'
  ext i
  by_cases hi : i.val < 6
  · exact hl ⟨i, hi⟩
  · have := hr ⟨i.val - 6, by omega⟩
    have e : (⟨i.val - 6 + 6, by omega⟩ : Fin 12) = i := by ext; simp; omega
    rw [← e]; exact this

/-- The feet fix the body. -/
theorem J_base : BaseDetermined (scaleCols (unit u) J) := by
  intro v h
  ext j
  have := congrFun h ⟨j, by omega⟩
  fin_cases j <;> simpa [J, scaleCols, unit, mulVec, dotProduct, Fin.sum_univ_succ] using this

include hu in
theorem exists_S : ∃ S, contactSpace (scaleCols (unit u) J) (scaleMass (unit u) A)⁻¹ = some S :=
  Option.isSome_iff_exists.mp ((C02_finite_iff_independent (hA hu)).mpr (J_ind hu))

include hu in
theorem W_eq {S : ContactSpace 12 Joint} (hS : contactSpace (scaleCols (unit u) J) (scaleMass (unit u) A)⁻¹ = some S) :
    S.W = K u (1 / 3) := by
  apply Matrix.ext_of_mulVec_single
  intro s
  generalize (Pi.single s 1 : Joint → ℝ) = τ
  set b : Fin 6 → ℝ := fun j => -(u⁻¹ * τ (Sum.inl j) + τ (Sum.inr j)) / 3 with hb
  have h := W_mulVec_of (hA hu) hS (τ := τ) (q := Sum.elim b (Sum.elim (fun j => -b j / u) fun j => -b j))
    (F := fun i => if h : i.val < 6 then τ (Sum.inl ⟨i, h⟩) / u + b ⟨i, h⟩
      else τ (Sum.inr ⟨i.val - 6, by omega⟩) + b ⟨i.val - 6, by omega⟩) (by
      ext a
      rw [Pi.add_apply, mass_eq]
      rcases a with a | a | a
      · rw [JT_inl]
        simp [mulVec_diagonal, actuate, hb]
        field_simp
        ring
      · rw [JT_left]
        simp [mulVec_diagonal, actuate]
        field_simp
        ring
      · rw [JT_right]
        simp [mulVec_diagonal, actuate]) (J_mulVec_of (fun j => by simp; field_simp; ring) fun j => by simp)
  rw [h]
  ext x
  rw [K_mulVec]
  rcases x with x | x
  · simp [share, dir, hb]; field_simp; ring
  · simp [share, dir, hb]; field_simp; ring

include hu in
/-- The legs carry the weight in the ratio of the squares of their units. -/
theorem gravity_eq {S : ContactSpace 12 Joint} (hS : contactSpace (scaleCols (unit u) J) (scaleMass (unit u) A)⁻¹ = some S) :
    gravityTorque S (scaleMass (unit u) A)⁻¹ (scaleAll (unit u) G)
      = fun x => if dir x = 2 then -(share u x / (u⁻¹ * u⁻¹ + 1)) else 0 := by
  have hp : u⁻¹ * u⁻¹ + 1 ≠ 0 := by nlinarith [mul_self_nonneg u⁻¹]
  unfold gravityTorque
  have hG : scaleAll (unit u) G = G := by
    ext r
    rcases r with r | r <;> simp [scaleAll, G]
  rw [hG, cs_Winv hS, W_eq hu hS, K_pinv (by norm_num), ← sel_mul, mulVec_mulVec G]
  have e : ((Sel Joint * (scaleMass (unit u) A)⁻¹) * S.Nc) *ᵥ G = fun x => if dir x = 2 then -(share u x / 3) else 0 := by
    rw [Matrix.mul_assoc, ← cs_P hS, ← mulVec_mulVec]
    have h := P_mulVec_of (hA hu) hS (f := G)
      (q := Sum.elim (fun j => if j = 2 then 1 / 3 else 0) fun x => if dir x = 2 then -(share u x / 3) else 0)
      (F := fun i => if i.val % 6 = 2 then 1 / 3 else 0) (by
        ext a
        rw [Pi.add_apply, mass_eq]
        rcases a with a | a | a
        · rw [JT_inl]
          fin_cases a <;> simp [mulVec_diagonal, G] <;> norm_num
        · rw [JT_left]
          fin_cases a <;> simp [mulVec_diagonal, G, dir, share] <;> field_simp <;> norm_num
        · rw [JT_right]
          fin_cases a <;> simp [mulVec_diagonal, G, dir, share])
      (J_mulVec_of (fun j => by by_cases h : j = 2 <;> simp [dir, share, h]; field_simp; norm_num)
        fun j => by by_cases h : j = 2 <;> simp [dir, share, h])
    rw [h, sel_mulVec]
    rfl
  rw [e]
  ext x
  rw [K_mulVec]
  by_cases h : dir x = 2
  · rw [if_pos h]
    simp only [h]
    simp [dir, share]
    field_simp
    ring
  · rw [if_neg h]
    have h1 : (if dir (Sum.inl (dir x) : Joint) = 2 then -(share u (Sum.inl (dir x)) / 3) else (0 : ℝ)) = 0 := if_neg h
    have h2 : (if dir (Sum.inr (dir x) : Joint) = 2 then -(share u (Sum.inr (dir x)) / 3) else (0 : ℝ)) = 0 := if_neg h
    rw [h1, h2]
    ring

end

theorem one_mass : scaleMass (unit 1) A = A := by
  ext r q
  rcases r with r | r | r <;> rcases q with q | q | q <;> simp [scaleMass, unit]

theorem one_cols : scaleCols (unit 1) J = J := by
  ext a r
  rcases r with r | r | r <;> simp [scaleCols, unit]

theorem one_all : scaleAll (unit 1) G = G := by
  ext r
  rcases r with r | r | r <;> simp [scaleAll, unit]

end Legs

/-- C84 is false for units: a body stands on two equal feet, and both legs carry half its weight.  If the joint coordinates of the
first leg are measured in a unit twice as large, the gravity torque asks the first leg to carry a fifth of the weight and the other
one four fifths: it is another torque, not the same one in other units. -/
theorem C84_units_wrong :
    ∃ (A : Matrix (Fin 6 ⊕ Legs.Joint) (Fin 6 ⊕ Legs.Joint) ℝ) (J : Matrix (Fin 12) (Fin 6 ⊕ Legs.Joint) ℝ) (G : Fin 6 ⊕ Legs.Joint → ℝ)
      (u τ τ' : Legs.Joint → ℝ), IsSPD A ∧ IndependentRows J ∧ BaseDetermined J ∧ (∀ i, 0 < u i) ∧
      gravityCommand J A⁻¹ G = some τ ∧
      gravityCommand (scaleCols u J) (scaleMass u A)⁻¹ (scaleAll u G) = some (scaleTorque u τ') ∧
      τ (Sum.inl 2) = -(1 / 2) ∧ τ (Sum.inr 2) = -(1 / 2) ∧ τ' (Sum.inl 2) = -(1 / 5) ∧ τ' (Sum.inr 2) = -(4 / 5) := by
  obtain ⟨S, hS⟩ := Legs.exists_S (u := 1) one_pos
  obtain ⟨S', hS'⟩ := Legs.exists_S (u := 2) two_pos
  have h := Legs.gravity_eq one_pos hS
  have h' := Legs.gravity_eq two_pos hS'
  have hA := Legs.hA (u := 1) one_pos
  have hI := Legs.J_ind (u := 1) one_pos
  have hB := Legs.J_base (u := 1)
  rw [Legs.one_mass] at h hS hA
  rw [Legs.one_cols] at hS hI hB
  rw [Legs.one_all] at h
  refine ⟨Legs.A, Legs.J, Legs.G, Legs.unit 2, gravityTorque S Legs.A⁻¹ Legs.G,
    fun x => (Legs.unit 2 x)⁻¹ * gravityTorque S' (scaleMass (Legs.unit 2) Legs.A)⁻¹ (scaleAll (Legs.unit 2) Legs.G) x,
    hA, hI, hB, fun i => by rcases i with i | i <;> simp [Legs.unit], ?_, ?_, ?_, ?_, ?_, ?_⟩
  · unfold gravityCommand; rw [hS]; rfl
  · unfold gravityCommand; rw [hS', Option.map_some]
    congr 1
    ext x
    rcases x with x | x <;> simp [scaleTorque, Legs.unit]
  · rw [h]; simp [Legs.dir, Legs.share]; norm_num
  · rw [h]; simp [Legs.dir, Legs.share]; norm_num
  · rw [h']; simp [Legs.dir, Legs.share, Legs.unit]; norm_num
  · rw [h']; simp [Legs.dir, Legs.share, Legs.unit]; norm_num

/-! ### The hypotheses are met -/

/-- Two joints exchanged, the axis of the second turned round. -/
theorem exchanged_signs : Signs (![1, -1] : Fin 2 → ℝ) := by
  intro i
  fin_cases i <;> simp

/-- The robot with two arms of different inertia: the torques are exchanged, one of them with the other sign, and are not zero. -/
example : ∃ τ : Fin 2 → ℝ, gravityCommand (Held.J (Fin 2)) (Held.A ![1, 2])⁻¹ (Sum.elim (fun _ => 0) ![3, 5]) = some τ ∧
    gravityCommand (recountCols (Equiv.swap 0 1) ![1, -1] (Held.J (Fin 2))) (recountMass (Equiv.swap 0 1) ![1, -1] (Held.A ![1, 2]))⁻¹
      (recountAll (Equiv.swap 0 1) ![1, -1] (Sum.elim (fun _ => 0) ![3, 5])) = some (recount (Equiv.swap 0 1) ![1, -1] τ) := by
  obtain ⟨S, hS⟩ := Held.exists_S (ι := Fin 2) (d := ![1, 2]) (by intro i; fin_cases i <;> simp)
  refine ⟨gravityTorque S (Held.A ![1, 2])⁻¹ (Sum.elim (fun _ => 0) ![3, 5]), ?_, ?_⟩
  · unfold gravityCommand; rw [hS]; rfl
  · rw [C84_gravity exchanged_signs]
    unfold gravityCommand; rw [hS]; rfl

/-- Exact solvers that answer every solvable problem exist, for both kinds of QP. -/
example : ∃ (solve : Solver) (r : RSolver), solve.Exact ∧ solve.Complete ∧ r.Exact ∧ r.Complete := by
  classical
  refine ⟨fun _ t k d => if h : ∃ x, d.IsSolution x then some h.choose else none,
    fun k d => if h : ∃ x, d.IsSolution x then some h.choose else none, ?_, ?_, ?_, ?_⟩
  · intro i t k d x hx
    simp only at hx
    by_cases h : ∃ x, d.IsSolution x
    · rw [dif_pos h, Option.some.injEq] at hx; rw [← hx]; exact h.choose_spec
    · rw [dif_neg h] at hx; cases hx
  · intro i t k d h
    simp only
    rw [dif_pos h]; rfl
  · intro k d x hx
    simp only at hx
    by_cases h : ∃ x, d.IsSolution x
    · rw [dif_pos h, Option.some.injEq] at hx; rw [← hx]; exact h.choose_spec
    · rw [dif_neg h] at hx; cases hx
  · intro k d h
    simp only
    rw [dif_pos h]; rfl

/-- One foot: the hypotheses of `C84_units_partial`. -/
example : IsSPD (Held.A ![1, 2]) ∧ BaseDetermined (Held.J (Fin 2)) ∧ (∀ i, (![10, 1] : Fin 2 → ℝ) i ≠ 0) :=
  ⟨Held.hA (by intro i; fin_cases i <;> simp), Held.J_base, by intro i; fin_cases i <;> simp⟩

/-- Two feet: the hypotheses of `C84_redistribute_closed`, with a null space of six directions. -/
example : ∃ (S S' : ContactSpace 12 Legs.Joint) (f : CodNull S.W) (_ : CodNull S'.W),
    contactSpace Legs.J Legs.A⁻¹ = some S ∧
    contactSpace (recountCols (Equiv.sumComm _ _) (fun _ => -1) Legs.J) (recountMass (Equiv.sumComm _ _) (fun _ => -1) Legs.A)⁻¹ = some S' ∧
    f.k = 6 := by
  obtain ⟨S, hS⟩ := Legs.exists_S (u := 1) one_pos
  have hA := Legs.hA (u := 1) one_pos
  have hB := Legs.J_base (u := 1)
  rw [Legs.one_mass] at hS hA
  rw [Legs.one_cols] at hS hB
  have hs : Signs (fun _ : Legs.Joint => (-1 : ℝ)) := fun _ => Or.inr rfl
  have h := contactSpace_counted (e := (Equiv.sumComm _ _ : Equiv.Perm Legs.Joint)) hs Legs.A Legs.J
  rw [hS, Option.map_some] at h
  obtain ⟨f⟩ := exists_codNull S.W
  obtain ⟨f'⟩ := exists_codNull (jointSpace (countMatrix (Equiv.sumComm _ _ : Equiv.Perm Legs.Joint) fun _ => -1)
    (countMatrix (Equiv.sumComm _ _ : Equiv.Perm Legs.Joint) fun _ => -1)ᵀ S).W
  refine ⟨S, _, f, f', hS, h, ?_⟩
  have hk := finrank_ker_W hA hS
  rw [(baseDetermined_iff_rank _).mp hB] at hk
  rw [cod_k hA hS f]
  omega

end Verif.Props
