import Verif.Lemmas.TurnRows

set_option linter.unusedSectionVars false

namespace Verif
open Matrix Verif.Spec Verif.Model

section
variable {ι : Type*} [Fintype ι] [DecidableEq ι] {c : ℕ}
variable {U V : Matrix (Fin 6) (Fin 6) ℝ} {R : Matrix (Fin c) (Fin c) ℝ}
  {A A' : Matrix (Fin 6 ⊕ ι) (Fin 6 ⊕ ι) ℝ} {J J' : Matrix (Fin c) (Fin 6 ⊕ ι) ℝ} {G G' : Fin 6 ⊕ ι → ℝ}

/-- The torques `NwJw z` are those of the null space found for `W`. -/
theorem ccc_internal {B : Matrix (Fin 6 ⊕ ι) (Fin 6 ⊕ ι) ℝ} {cod : (W : Matrix ι ι ℝ) → CodNull W} {S : ContactSpace c ι}
    {v k : ℕ} {V2 : Matrix (Fin k) ι ℝ} {N : Matrix ι (Fin (c - 6)) ℝ}
    (h : calculateContactConstraint J B cod = .ret v S (some ⟨k, V2, N⟩)) (δ : ι → ℝ) :
    (∃ z, δ = N *ᵥ z) ↔ ∃ y, δ = (cod S.W).V2ᵀ *ᵥ y := by
  unfold calculateContactConstraint at h
  rcases hS : contactSpace J B with _ | S'
  · rw [hS] at h; simp at h
  rw [hS] at h
  simp only at h
  split_ifs at h with hc hk
  · split at h
    · cases h
    · rename_i X hX
      simp only [ContactResult.ret.injEq, Option.some.injEq, Sigma.mk.injEq] at h
      obtain ⟨-, rfl, rfl, h2⟩ := h
      simp only [heq_eq_eq, Prod.mk.injEq] at h2
      obtain ⟨-, rfl⟩ := h2
      obtain ⟨hu, rfl⟩ := eigenInverse_eq_some.mp hX
      set M := (topRight S'.JcInvT * (cod S'.W).V2ᵀ).submatrix id (Fin.cast hk) with hM
      have hcast : ∀ y : Fin (cod S'.W).k → ℝ,
          (cod S'.W).V2ᵀ.submatrix id (Fin.cast hk) *ᵥ (y ∘ Fin.cast hk) = (cod S'.W).V2ᵀ *ᵥ y := by
        intro y
        ext i
        simp only [mulVec, dotProduct, submatrix_apply, id, Function.comp]
        exact (finCongr hk).sum_comp (fun j => (cod S'.W).V2ᵀ i j * y j)
      constructor
      · rintro ⟨z, rfl⟩
        refine ⟨(M⁻¹ *ᵥ z) ∘ Fin.cast hk.symm, ?_⟩
        rw [← hcast, ← mulVec_mulVec]
        rfl
      · rintro ⟨y, rfl⟩
        refine ⟨M *ᵥ (y ∘ Fin.cast hk), ?_⟩
        rw [← mulVec_mulVec, mulVec_mulVec (y ∘ Fin.cast hk) M⁻¹ M, nonsing_inv_mul _ hu, one_mulVec, hcast]
  · simp at h

/-- The first rows of `R`. -/
def topBlock (R : Matrix (Fin c) (Fin c) ℝ) : Matrix (Fin (c - 6)) (Fin (c - 6)) ℝ :=
  R.submatrix (Fin.castLE (Nat.sub_le c 6)) (Fin.castLE (Nat.sub_le c 6))

/-- `R` does not mix the last six rows into the first ones. -/
def KeepsTop (R : Matrix (Fin c) (Fin c) ℝ) : Prop :=
  ∀ (i : Fin (c - 6)) (j : Fin c), c - 6 ≤ j.val → R (Fin.castLE (Nat.sub_le c 6) i) j = 0

theorem keepsTop_sum (hT : KeepsTop R) (i : Fin (c - 6)) (x : Fin c → ℝ) :
    ∑ j, R (Fin.castLE (Nat.sub_le c 6) i) j * x j
      = ∑ j : Fin (c - 6), topBlock R i j * x (Fin.castLE (Nat.sub_le c 6) j) := by
  symm
  refine Finset.sum_of_injOn (Fin.castLE (Nat.sub_le c 6)) ?_ ?_ ?_ ?_
  · intro a _ b _ h; exact Fin.castLE_injective _ h
  · intro a _; exact Finset.mem_coe.mpr (Finset.mem_univ _)
  · intro j _ hj
    have : c - 6 ≤ j.val := by
      by_contra hlt
      exact hj ⟨⟨j.val, by omega⟩, Finset.mem_coe.mpr (Finset.mem_univ _), Fin.ext rfl⟩
    rw [hT i j this, zero_mul]
  · intro a _; rfl

theorem topBlock_orth (hT : KeepsTop R) (hR : Rᵀ * R = 1) : (topBlock R)ᵀ * topBlock R = 1 := by
  have hR' : R * Rᵀ = 1 := mul_eq_one_comm.mp hR
  apply mul_eq_one_comm.mp
  ext i j
  rw [Matrix.mul_apply]
  simp only [transpose_apply]
  have e := keepsTop_sum hT i (fun l => R (Fin.castLE (Nat.sub_le c 6) j) l)
  have h := congrFun (congrFun hR' (Fin.castLE (Nat.sub_le c 6) i)) (Fin.castLE (Nat.sub_le c 6) j)
  rw [Matrix.mul_apply] at h
  simp only [transpose_apply] at h
  have e' : ∑ l, topBlock R i l * topBlock R j l = _ := e.symm
  rw [e', h, Matrix.one_apply, Matrix.one_apply]
  by_cases hij : i = j
  · rw [hij, if_pos rfl, if_pos rfl]
  · rw [if_neg hij, if_neg (fun h => hij (Fin.castLE_injective _ h))]

theorem topRight_mul (hT : KeepsTop R) (M : Matrix (Fin c) (Fin 6 ⊕ ι) ℝ) : topRight (R * M) = topBlock R * topRight M := by
  ext i j
  simp only [topRight, submatrix_apply, Matrix.mul_apply]
  exact keepsTop_sum hT i (fun l => M l (Sum.inr j))

theorem topRight_VT (M : Matrix (Fin c) (Fin 6 ⊕ ι) ℝ) : topRight (M * (baseChange (ι := ι) V)ᵀ) = topRight M := by
  ext i j
  have h := congrFun (congrFun (mul_selT (M * (baseChange (ι := ι) V)ᵀ)) (Fin.castLE (Nat.sub_le c 6) i)) j
  have h' := congrFun (congrFun (mul_selT M) (Fin.castLE (Nat.sub_le c 6) i)) j
  rw [Matrix.mul_assoc, baseChangeT_selT] at h
  exact h.symm.trans h'

/-- The answer of `CalculateContactConstraint` for the robot seen otherwise. -/
def seenResult (U V : Matrix (Fin 6) (Fin 6) ℝ) (R : Matrix (Fin c) (Fin c) ℝ) : ContactResult c ι → ContactResult c ι
  | .nonFinite => .nonFinite
  | .nonSquareInverse => .nonSquareInverse
  | .ret v S o => .ret v (seenSpace U V R S) (o.map fun x => ⟨x.1, x.2.1, x.2.2 * (topBlock R)ᵀ⟩)

theorem ccc_seen (hU : U * V = 1) (hR : Rᵀ * R = 1) (hT : KeepsTop R) (h : SeenAs U R A J G A' J' G')
    (cod : (W : Matrix ι ι ℝ) → CodNull W) :
    calculateContactConstraint J' A'⁻¹ cod = seenResult U V R (calculateContactConstraint J A⁻¹ cod) := by
  unfold calculateContactConstraint
  rw [contactSpace_seen hU hR h]
  rcases contactSpace J A⁻¹ with _ | S
  · rfl
  simp only [Option.map_some]
  have hW : (seenSpace U V R S).W = S.W := rfl
  have ht := topBlock_orth hT hR
  by_cases hc : c > 6
  · rw [if_pos hc, if_pos hc]
    by_cases hk : c - 6 = (cod S.W).k
    · rw [dif_pos (c := c - 6 = (cod (seenSpace U V R S).W).k) hk, dif_pos hk]
      have e : (topRight (seenSpace U V R S).JcInvT * (cod (seenSpace U V R S).W).V2ᵀ).submatrix id (Fin.cast hk)
          = topBlock R * (topRight S.JcInvT * (cod S.W).V2ᵀ).submatrix id (Fin.cast hk) := by
        have : topRight (seenSpace U V R S).JcInvT = topBlock R * topRight S.JcInvT := by
          simp only [seenSpace]; rw [topRight_VT, topRight_mul hT]
        rw [this, Matrix.mul_assoc]
        rfl
      rw [e]
      generalize (topRight S.JcInvT * (cod S.W).V2ᵀ).submatrix id (Fin.cast hk) = M
      have hdet : (topBlock R).det * (topBlock R).det = 1 := by
        have := congrArg det ht
        rwa [det_mul, det_transpose, det_one] at this
      have hut : IsUnit (topBlock R).det := IsUnit.of_mul_eq_one _ hdet
      have hti : (topBlock R)⁻¹ = (topBlock R)ᵀ := inv_eq_left_inv ht
      unfold eigenInverse
      by_cases hu : IsUnit M.det
      · rw [if_pos hu, if_pos (by rw [det_mul]; exact hut.mul hu)]
        simp only [seenResult, Option.map_some]
        rw [Matrix.mul_inv_rev, hti, Matrix.mul_assoc]
        rfl
      · rw [if_neg hu, if_neg (by rw [det_mul]; exact fun hc => hu (isUnit_of_mul_isUnit_right hc))]
        rfl
    · rw [dif_neg (c := c - 6 = (cod (seenSpace U V R S).W).k) hk, dif_neg hk]; rfl
  · rw [if_neg hc, if_neg hc]; rfl

end

/-! ### contacts -/

/-- The contact of the turned robot. -/
def turnContact (Q : Matrix (Fin 3) (Fin 3) ℝ) (l : ContactLink) : ContactLink := { l with rotm := Q * l.rotm }

theorem active_turn (Q : Matrix (Fin 3) (Fin 3) ℝ) (cs : List ContactLink) :
    active (cs.map (turnContact Q)) = (active cs).map (turnContact Q) := by
  unfold active
  rw [List.filter_map]
  rfl

/-- A stacked force is turned wrench by wrench, and looks the same in the turned contact frame. -/
theorem inFrame_turn {Q : Matrix (Fin 3) (Fin 3) ℝ} (hQ : Qᵀ * Q = 1) (M : Matrix (Fin 3) (Fin 3) ℝ) {k : ℕ} (F : Fin (6 * k) → ℝ)
    (i : Fin k) : inFrame (Q * M) (wrenchOf (turnRows Q (6 * k) *ᵥ F) i) = inFrame M (wrenchOf F i) := by
  have h3 : 3 ∣ 6 * k := ⟨2 * k, by ring⟩
  have e : ∀ j : Fin 6, wrenchOf (turnRows Q (6 * k) *ᵥ F) i j
      = ∑ l : Fin 3, Q ⟨j % 3, Nat.mod_lt _ (by norm_num)⟩ l * F ⟨6 * i + (3 * (j / 3) + l), by omega⟩ := by
    intro j
    unfold wrenchOf
    rw [turnRows_mulVec _ h3]
    refine Finset.sum_congr rfl fun l _ => ?_
    congr 2
    · apply Fin.ext; simp only; omega
    · apply Fin.ext; simp only; omega
  have e1 : ![wrenchOf (turnRows Q (6 * k) *ᵥ F) i 0, wrenchOf (turnRows Q (6 * k) *ᵥ F) i 1, wrenchOf (turnRows Q (6 * k) *ᵥ F) i 2]
      = Q *ᵥ ![wrenchOf F i 0, wrenchOf F i 1, wrenchOf F i 2] := by
    ext a
    fin_cases a <;> refine (e _).trans ?_ <;> simp [mulVec, dotProduct, Fin.sum_univ_three, wrenchOf]
  have e2 : ![wrenchOf (turnRows Q (6 * k) *ᵥ F) i 3, wrenchOf (turnRows Q (6 * k) *ᵥ F) i 4, wrenchOf (turnRows Q (6 * k) *ᵥ F) i 5]
      = Q *ᵥ ![wrenchOf F i 3, wrenchOf F i 4, wrenchOf F i 5] := by
    ext a
    fin_cases a <;> refine (e _).trans ?_ <;> simp [mulVec, dotProduct, Fin.sum_univ_three, wrenchOf]
  unfold inFrame
  rw [e1, e2, mulVec_mulVec, mulVec_mulVec, transpose_mul, Matrix.mul_assoc, hQ, Matrix.mul_one]

theorem keepsTop_turn (Q : Matrix (Fin 3) (Fin 3) ℝ) {c : ℕ} (h3 : 3 ∣ c) : KeepsTop (turnRows Q c) := by
  intro i j hj
  simp only [turnRows, Matrix.of_apply, Fin.val_castLE]
  rw [if_neg]
  omega

end Verif
