import Verif.Lemmas.Biped
import Verif.Lemmas.Points

/-!
# C01-C05: contact-constrained dynamics
-/
set_option linter.unusedSectionVars false

namespace Verif.Props
open Matrix Verif Verif.Spec Verif.Model

variable {ι : Type*} [Fintype ι] [DecidableEq ι] {c : ℕ}
variable {A : Matrix (Fin 6 ⊕ ι) (Fin 6 ⊕ ι) ℝ} {J : Matrix (Fin c) (Fin 6 ⊕ ι) ℝ}
  {S : ContactSpace c ι}

/-- C01.  For every torque there is exactly one acceleration and contact force satisfying the equation of
motion with fixed contacts, and that force is the value `getContactForce` returns. -/
theorem C01_contact_force_exact (hA : IsSPD A) (hS : contactSpace J A⁻¹ = some S)
    (G : Fin 6 ⊕ ι → ℝ) (τ : ι → ℝ) :
    (∃ qdd, Motion A J G τ qdd (contactForce S (gravityForce S G) τ)) ∧
    (∀ qdd F, Motion A J G τ qdd F → F = contactForce S (gravityForce S G) τ) ∧
    (∀ qdd qdd' F F', Motion A J G τ qdd F → Motion A J G τ qdd' F' → qdd = qdd') := by
  have hF : contactForce S (gravityForce S G) τ = S.JcInvT *ᵥ (actuate τ - G) := by
    unfold contactForce gravityForce
    rw [mulVec_sub, actuate_eq, mulVec_mulVec, mul_selT]
  refine ⟨⟨S.AinvNc *ᵥ (actuate τ - G), ?_⟩, ?_, ?_⟩
  · rw [motion_iff hA hS]; exact ⟨rfl, hF⟩
  · intro qdd F h; rw [motion_iff hA hS] at h; rw [h.2, hF]
  · intro q q' F F' h h'
    rw [motion_iff hA hS] at h h'; rw [h.1, h'.1]

/-- C02 (finiteness).  The contact computation is finite exactly when the contact rows are independent. -/
theorem C02_finite_iff_independent (hA : IsSPD A) :
    (contactSpace J A⁻¹).isSome ↔ IndependentRows J := by
  rw [← show IsUnit (J * A⁻¹ * Jᵀ).det ↔ IndependentRows J from hA.inv.conj_isUnit_iff]
  rw [Option.isSome_iff_exists]
  constructor
  · rintro ⟨S, hS⟩; exact cs_unit hS
  · intro h; exact ⟨_, contactSpace_eq_some.mpr ⟨h, rfl⟩⟩

/-- C02.  Projector algebra of the contact-consistent dynamics. -/
theorem C02_projector (hA : IsSPD A) (hS : contactSpace J A⁻¹ = some S) :
    S.Nc * S.Nc = S.Nc ∧                                   -- idempotent
    (∀ F, S.Nc *ᵥ (Jᵀ *ᵥ F) = 0) ∧                         -- annihilates contact forces
    (∀ f, J *ᵥ (S.AinvNc *ᵥ f) = 0) ∧                      -- never moves a contact
    S.JcInvT * Jᵀ = 1 ∧
    S.AinvNcᵀ = S.AinvNc ∧ (∀ f, 0 ≤ f ⬝ᵥ (S.AinvNc *ᵥ f)) ∧
    (∀ f, S.AinvNc *ᵥ f = 0 ↔ ∃ F, Jᵀ *ᵥ F = f) ∧          -- only contact forces are absorbed
    S.Wᵀ = S.W ∧ (∀ t, 0 ≤ t ⬝ᵥ (S.W *ᵥ t)) := by
  have hpos : ∀ f, 0 ≤ f ⬝ᵥ (S.AinvNc *ᵥ f) := by
    intro f
    have h1 : f ⬝ᵥ (S.AinvNc *ᵥ f) = (S.AinvNc *ᵥ f) ⬝ᵥ (A *ᵥ (S.AinvNc *ᵥ f)) := by
      conv_lhs => rw [← cs_PAP hA hS, Matrix.mul_assoc, ← mulVec_mulVec, ← mulVec_mulVec,
        dot_transpose_mulVec, cs_P_symm hA hS]
    rw [h1]
    by_cases h : S.AinvNc *ᵥ f = 0
    · rw [h]; simp
    · exact (hA.pos _ h).le
  refine ⟨cs_Nc_idem hS, ?_, ?_, cs_JcInvT_JT hS, cs_P_symm hA hS, hpos, ?_, cs_W_symm hA hS, ?_⟩
  · intro F; rw [mulVec_mulVec, cs_Nc_JT hS, zero_mulVec]
  · intro f; rw [mulVec_mulVec, cs_J_P hS, zero_mulVec]
  · intro f
    constructor
    · intro h
      have h2 : S.Nc *ᵥ f = 0 := by
        rw [← cs_A_P hA hS, ← mulVec_mulVec, h, mulVec_zero]
      rw [cs_Nc hS, sub_mulVec, one_mulVec, sub_eq_zero] at h2
      exact ⟨S.JcInvT *ᵥ f, by rw [mulVec_mulVec]; exact h2.symm⟩
    · rintro ⟨F, rfl⟩; rw [mulVec_mulVec, cs_P_JT hS, zero_mulVec]
  · intro t
    rw [cs_W hS, ← mulVec_mulVec, ← mulVec_mulVec, dot_transpose_mulVec]
    exact hpos _

/-- C03.  Under the gravity torque no joint accelerates; and nothing at all accelerates when the contacts
determine the base. -/
theorem C03_gravity_compensation (hA : IsSPD A) (hS : contactSpace J A⁻¹ = some S)
    (G : Fin 6 ⊕ ι → ℝ) {qdd : Fin 6 ⊕ ι → ℝ} {F : Fin c → ℝ}
    (h : Motion A J G (gravityTorque S A⁻¹ G) qdd F) :
    (∀ i : ι, qdd (Sum.inr i) = 0) ∧ (BaseDetermined J → qdd = 0) := by
  have hj : ∀ i : ι, qdd (Sum.inr i) = 0 := by
    rw [motion_iff hA hS] at h
    have : Sel ι *ᵥ qdd = 0 := by
      have e : gravityTorque S A⁻¹ G = (S.Winv * (Sel ι * S.AinvNc)) *ᵥ G := by
        unfold gravityTorque
        rw [← sel_mul, mulVec_mulVec, mulVec_mulVec, cs_P hS]
        simp only [Matrix.mul_assoc]
      rw [h.1, actuate_eq, e, mulVec_sub, mulVec_sub, mulVec_mulVec, mulVec_mulVec, mulVec_mulVec,
        mulVec_mulVec, ← sub_mulVec]
      rw [← cs_W hS, ← Matrix.mul_assoc, cs_range hA hS, sub_self, zero_mulVec]
    intro i
    have := congrFun this i
    rwa [sel_mulVec] at this
  refine ⟨hj, fun hB => ?_⟩
  have e : qdd = Sum.elim (fun i => qdd (Sum.inl i)) 0 := by
    ext i; rcases i with i | i
    · rfl
    · exact hj i
  have hc : J *ᵥ qdd = 0 := h.2
  rw [e] at hc
  have := hB _ hc
  rw [e, this]
  ext i; rcases i with i | i <;> rfl

/-- C04.  When the computation returns the redistribution matrix `NwJw`, adding `NwJw x` to any torque leaves
every acceleration unchanged and changes the first `c - 6` contact force components by exactly `x`. -/
theorem C04_internal_force (hA : IsSPD A) (hc : 6 < c) (cod : (W : Matrix ι ι ℝ) → CodNull W)
    {v k : ℕ} {V2 : Matrix (Fin k) ι ℝ} {NwJw : Matrix ι (Fin (c - 6)) ℝ}
    (hR : calculateContactConstraint J A⁻¹ cod = .ret v S (some ⟨k, V2, NwJw⟩))
    (G : Fin 6 ⊕ ι → ℝ) (τ : ι → ℝ) (x : Fin (c - 6) → ℝ) {qdd qdd' : Fin 6 ⊕ ι → ℝ} {F F' : Fin c → ℝ}
    (h : Motion A J G τ qdd F) (h' : Motion A J G (τ + NwJw *ᵥ x) qdd' F') :
    qdd' = qdd ∧ ∀ i : Fin (c - 6),
      F' (Fin.castLE (Nat.sub_le c 6) i) = F (Fin.castLE (Nat.sub_le c 6) i) + x i := by
  unfold calculateContactConstraint at hR
  split at hR
  · cases hR
  rename_i S' hS
  simp only [gt_iff_lt, hc, if_true] at hR
  split at hR
  · rename_i hk
    split at hR
    · cases hR
    rename_i X hX
    simp only [ContactResult.ret.injEq, Option.some.injEq] at hR
    obtain ⟨-, rfl, hR⟩ := hR
    obtain ⟨rfl, hR⟩ := Sigma.mk.inj_iff.mp hR
    have hR := eq_of_heq hR
    rw [Prod.mk.injEq] at hR
    obtain ⟨rfl, rfl⟩ := hR
    obtain ⟨hu, rfl⟩ := eigenInverse_eq_some.mp hX
    rw [motion_iff hA hS] at h h'
    set f := cod S'.W with hf
    set M : Matrix (Fin (c - 6)) (Fin (c - 6)) ℝ :=
      (topRight S'.JcInvT * f.V2ᵀ).submatrix id (Fin.cast hk) with hM
    constructor
    · rw [h'.1, h.1, actuate_eq, actuate_eq, mulVec_add]
      have : S'.AinvNc *ᵥ ((Sel ι)ᵀ *ᵥ ((f.V2ᵀ.submatrix id (Fin.cast hk) * M⁻¹) *ᵥ x)) = 0 := by
        rw [mulVec_mulVec, mulVec_mulVec]
        have e : S'.AinvNc * (Sel ι)ᵀ * (f.V2ᵀ.submatrix id (Fin.cast hk))
            = (S'.AinvNc * (Sel ι)ᵀ * f.V2ᵀ).submatrix id (Fin.cast hk) := rfl
        rw [← Matrix.mul_assoc, e, P_V2T hA hS f]
        simp
      rw [add_sub_right_comm, mulVec_add, this, add_zero]
    · intro i
      rw [h'.2, h.2, actuate_eq, actuate_eq, mulVec_add, add_sub_right_comm, mulVec_add, Pi.add_apply]
      congr 1
      have e1 : topRight S'.JcInvT *ᵥ ((f.V2ᵀ.submatrix id (Fin.cast hk) * M⁻¹) *ᵥ x) = x := by
        rw [mulVec_mulVec, ← Matrix.mul_assoc]
        have e : topRight S'.JcInvT * (f.V2ᵀ.submatrix id (Fin.cast hk)) = M := rfl
        rw [e, mul_nonsing_inv _ hu, one_mulVec]
      have e2 : S'.JcInvT *ᵥ ((Sel ι)ᵀ *ᵥ ((f.V2ᵀ.submatrix id (Fin.cast hk) * M⁻¹) *ᵥ x))
          = (S'.JcInvT.submatrix id Sum.inr) *ᵥ ((f.V2ᵀ.submatrix id (Fin.cast hk) * M⁻¹) *ᵥ x) := by
        rw [mulVec_mulVec, mul_selT]
      rw [e2]
      exact congrFun e1 i
  · cases hR

/-- C05.  For independent contact rows (more than six) the outcome of `CalculateContactConstraint` is exactly:
success (return value 1, with a redistribution matrix) iff the contacts determine the base and the base columns
of the last six contact rows are nonsingular; an ill-formed (non-square) inversion iff the contacts leave the
base free.  The documented error return 0 never happens. -/
theorem C05_outcome (hA : IsSPD A) (hind : IndependentRows J) (hc : 6 < c)
    (cod : (W : Matrix ι ι ℝ) → CodNull W) :
    ((∃ S out, calculateContactConstraint J A⁻¹ cod = .ret 1 S (some out)) ↔
      BaseDetermined J ∧ IsUnit (lastSixBase hc J).det) ∧
    (calculateContactConstraint J A⁻¹ cod = .nonSquareInverse ↔ ¬ BaseDetermined J) ∧
    (∀ v S out, calculateContactConstraint J A⁻¹ cod = .ret v S out → v = 1) := by
  obtain ⟨S, hS⟩ := Option.isSome_iff_exists.mp ((C02_finite_iff_independent hA).mpr hind)
  have hk : (cod S.W).k = c - 6 ↔ BaseDetermined J := by
    rw [cod_k hA hS, baseDetermined_iff_rank]
    have h1 := finrank_ker_W hA hS
    have h2 : (baseCols J).rank ≤ 6 := by
      simpa using (baseCols J).rank_le_card_width
    omega
  unfold calculateContactConstraint
  rw [hS]
  simp only [gt_iff_lt, hc, if_true]
  by_cases h : c - 6 = (cod S.W).k
  · have hu := nullInverse_isUnit_iff hA hS hc (cod S.W) h
    simp only [h, dite_true]
    have hB := hk.mp h.symm
    unfold eigenInverse
    by_cases hd : IsUnit (lastSixBase hc J).det
    · rw [if_pos (hu.mpr hd)]
      simp_all
    · rw [if_neg (fun hh => hd (hu.mp hh))]
      simp_all
  · have hB : ¬ BaseDetermined J := fun hb => h (hk.mpr hb).symm
    simp [h, hB]

/-- C04, converse.  Every torque change that alters no acceleration is `NwJw x`, `x` being the change of the first
`c - 6` contact force components: redistribution reaches every internal force. -/
theorem C04_every_internal_force (hA : IsSPD A) (hc : 6 < c) (cod : (W : Matrix ι ι ℝ) → CodNull W)
    {v k : ℕ} {V2 : Matrix (Fin k) ι ℝ} {NwJw : Matrix ι (Fin (c - 6)) ℝ}
    (hR : calculateContactConstraint J A⁻¹ cod = .ret v S (some ⟨k, V2, NwJw⟩))
    (G : Fin 6 ⊕ ι → ℝ) (τ δ : ι → ℝ) {qdd : Fin 6 ⊕ ι → ℝ} {F F' : Fin c → ℝ}
    (h : Motion A J G τ qdd F) (h' : Motion A J G (τ + δ) qdd F') :
    δ = NwJw *ᵥ fun i => F' (Fin.castLE (Nat.sub_le c 6) i) - F (Fin.castLE (Nat.sub_le c 6) i) := by
  have hS : contactSpace J A⁻¹ = some S := by
    unfold calculateContactConstraint at hR
    split at hR
    · cases hR
    rename_i S' hS
    simp only [gt_iff_lt, hc, if_true] at hR
    split at hR
    · split at hR
      · cases hR
      · simp only [ContactResult.ret.injEq] at hR
        rw [hS, hR.2.1]
    · cases hR
  have hind : IndependentRows J := (C02_finite_iff_independent hA).mp (by rw [hS]; rfl)
  have h3 := (C05_outcome hA hind hc cod).2.2 _ _ _ hR
  subst h3
  obtain ⟨-, hu⟩ := (C05_outcome hA hind hc cod).1.mp ⟨S, _, hR⟩
  set x : Fin (c - 6) → ℝ := fun i => F' (Fin.castLE (Nat.sub_le c 6) i) - F (Fin.castLE (Nat.sub_le c 6) i) with hx
  obtain ⟨qdd2, hM2⟩ := (C01_contact_force_exact hA hS G (τ + NwJw *ᵥ x)).1
  generalize contactForce S (gravityForce S G) (τ + NwJw *ᵥ x) = F2 at hM2
  obtain ⟨rfl, hf⟩ := C04_internal_force hA hc cod hR G τ x h hM2
  have d1 := h'.1
  have d2 := hM2.1
  unfold Dynamics at d1 d2
  have hJ : Jᵀ *ᵥ (F' - F2) = actuate δ - actuate (NwJw *ᵥ x) := by
    have a1 : actuate (τ + δ) = actuate τ + actuate δ := by
      ext s; rcases s with s | s <;> simp [actuate]
    have a2 : actuate (τ + NwJw *ᵥ x) = actuate τ + actuate (NwJw *ᵥ x) := by
      ext s; rcases s with s | s <;> simp [actuate]
    rw [mulVec_sub]
    rw [a1] at d1
    rw [a2] at d2
    linear_combination (exp := 1) d1 - d2
  have hz : ∀ i : Fin (c - 6), (F' - F2) (Fin.castLE (Nat.sub_le c 6) i) = 0 := by
    intro i
    rw [Pi.sub_apply, hf i, hx]; ring
  have hlast : (lastSixBase hc J)ᵀ *ᵥ (fun i => (F' - F2) ⟨c - 6 + i, by omega⟩) = 0 := by
    ext b
    have e := congrFun hJ (Sum.inl b)
    rw [Pi.sub_apply, show actuate δ (Sum.inl b) = 0 from rfl, show actuate (NwJw *ᵥ x) (Sum.inl b) = 0 from rfl,
      sub_zero] at e
    rw [Pi.zero_apply, ← e]
    simp only [mulVec, dotProduct, transpose_apply, lastSixBase, submatrix_apply]
    obtain ⟨d, rfl⟩ : ∃ d, c = d + 6 := ⟨c - 6, by omega⟩
    rw [Fin.sum_univ_add]
    have z : ∑ i : Fin d, J (Fin.castAdd 6 i) (Sum.inl b) * (F' - F2) (Fin.castAdd 6 i) = 0 := by
      refine Finset.sum_eq_zero fun i _ => ?_
      have := hz ⟨i, by omega⟩
      rw [show Fin.castAdd 6 i = Fin.castLE (Nat.sub_le (d + 6) 6) ⟨i, by omega⟩ from rfl, this, mul_zero]
    rw [z, zero_add]
    refine Finset.sum_congr rfl fun i _ => ?_
    have : (⟨d + 6 - 6 + i, by omega⟩ : Fin (d + 6)) = Fin.natAdd d i := by ext; simp
    rw [this]
  have hzero : (fun i : Fin 6 => (F' - F2) ⟨c - 6 + i, by omega⟩) = 0 := by
    have hu' : IsUnit ((lastSixBase hc J)ᵀ).det := by rwa [det_transpose]
    have := congrArg (fun w => ((lastSixBase hc J)ᵀ)⁻¹ *ᵥ w) hlast
    simpa [mulVec_mulVec, nonsing_inv_mul _ hu'] using this
  have hFF : F' - F2 = 0 := by
    ext r
    by_cases hr : r.val < c - 6
    · exact hz ⟨r, hr⟩
    · have := congrFun hzero ⟨r - (c - 6), by omega⟩
      refine (congrArg (F' - F2) ?_).trans this
      ext; simp only; omega
  rw [hFF, mulVec_zero] at hJ
  ext j
  have := congrFun hJ (Sum.inr j)
  have e : (0 : ℝ) = δ j - (NwJw *ᵥ x) j := this
  linarith

/-- With at most six contact rows the computation always succeeds when the rows are independent, and leaves the
redistribution matrices of an earlier call in place. -/
theorem C05_few_rows (hA : IsSPD A) (hind : IndependentRows J) (hc : c ≤ 6)
    (cod : (W : Matrix ι ι ℝ) → CodNull W) :
    ∃ S, calculateContactConstraint J A⁻¹ cod = .ret 1 S none := by
  obtain ⟨S, hS⟩ := Option.isSome_iff_exists.mp ((C02_finite_iff_independent hA).mpr hind)
  refine ⟨S, ?_⟩
  unfold calculateContactConstraint
  rw [hS]
  simp [Nat.not_lt.mpr hc]

/-- C05 (negation).  Standing on a 6-D foot and, registered after it, two point contacts at any positions, the
contact rows are independent and determine the base, yet the result is not finite. -/
theorem C05_points_last_not_finite (p q : Fin 3 → ℝ) (cod : (W : Matrix (Fin 6) (Fin 6) ℝ) → CodNull W) :
    IsSPD Points.A ∧ IndependentRows (Points.J p q) ∧ BaseDetermined (Points.J p q) ∧
    calculateContactConstraint (Points.J p q) Points.A⁻¹ cod = .nonFinite := by
  refine ⟨Points.hA, Points.J_ind p q, Points.J_base p q, ?_⟩
  obtain ⟨h1, h2, h3⟩ := C05_outcome Points.hA (Points.J_ind p q) (by norm_num) cod
  have hn : ¬ IsUnit (lastSixBase (by norm_num) (Points.J p q)).det := by
    rw [Points.last]; exact Points.twoPoints_singular p q
  match hr : calculateContactConstraint (Points.J p q) Points.A⁻¹ cod with
  | .nonFinite => rfl
  | .nonSquareInverse => exact absurd (Points.J_base p q) (h2.mp hr)
  | .ret v S out =>
    have hv := h3 v S out hr
    subst hv
    match out, hr with
    | some o, hr => exact absurd (h1.mp ⟨S, o, hr⟩).2 hn
    | none, hr =>
      exfalso
      unfold calculateContactConstraint at hr
      split at hr
      · cases hr
      · rw [if_pos (by norm_num)] at hr
        simp only at hr
        split_ifs at hr
        split at hr <;> simp at hr

/-! ### The hypotheses are met by a concrete two-legged robot -/

example : ∃ S, IsSPD Ex.A ∧ contactSpace Ex.J Ex.A⁻¹ = some S ∧ BaseDetermined Ex.J := by
  obtain ⟨S, hS⟩ := Option.isSome_iff_exists.mp ((C02_finite_iff_independent Ex.hA).mpr Ex.J_ind)
  exact ⟨S, Ex.hA, hS, Ex.J_base⟩

/-- every `cod` gives a successful result with redistribution matrix on the example robot -/
example : ∃ (cod : (W : Matrix (Fin 6) (Fin 6) ℝ) → CodNull W) (S : _) (out : _),
    IsSPD Ex.A ∧ IndependentRows Ex.J ∧ calculateContactConstraint Ex.J Ex.A⁻¹ cod = .ret 1 S (some out) := by
  classical
  let cod : (W : Matrix (Fin 6) (Fin 6) ℝ) → CodNull W := fun W => (exists_codNull W).some
  obtain ⟨S, out, h⟩ := (C05_outcome Ex.hA Ex.J_ind (by norm_num) cod).1.mpr
    ⟨Ex.J_base, by
      have : lastSixBase (by norm_num) Ex.J = 1 := by
        ext i j; fin_cases i <;> fin_cases j <;> simp [lastSixBase, Ex.J]
      rw [this]; simp⟩
  exact ⟨cod, S, out, Ex.hA, Ex.J_ind, h⟩

/-- a motion under gravity torque exists on the example robot (hypothesis of C03) -/
example (G : Fin 6 ⊕ Fin 6 → ℝ) : ∃ S qdd F, contactSpace Ex.J Ex.A⁻¹ = some S ∧
    Motion Ex.A Ex.J G (gravityTorque S Ex.A⁻¹ G) qdd F := by
  obtain ⟨S, hS⟩ := Option.isSome_iff_exists.mp ((C02_finite_iff_independent Ex.hA).mpr Ex.J_ind)
  obtain ⟨qdd, h⟩ := (C01_contact_force_exact Ex.hA hS G (gravityTorque S Ex.A⁻¹ G)).1
  exact ⟨S, qdd, _, hS, h⟩

end Verif.Props
