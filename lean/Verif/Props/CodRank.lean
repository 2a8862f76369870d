import Verif.Lemmas.Held
import Verif.Props.Task
import Mathlib.Tactic.NormNum

/-!
# C77: the rank threshold `1e-6` of the pseudo-inverse

`order` lists the columns as they are stored; every theorem holds for each order that names all columns.
-/

set_option linter.unusedSectionVars false

namespace Verif
open Matrix Verif.Spec Verif.Model

variable {m n ι : Type*} [Fintype m] [DecidableEq m] [Fintype n] [DecidableEq n] [Fintype ι] [DecidableEq ι] {c : ℕ}

theorem contactSpaceT_eq_some {order : List ι} {J : Matrix (Fin c) (Fin 6 ⊕ ι) ℝ} {Ainv : Matrix (Fin 6 ⊕ ι) (Fin 6 ⊕ ι) ℝ}
    {S : ContactSpace c ι} : contactSpaceT order J Ainv = some S ↔
      ∃ S0, contactSpace J Ainv = some S0 ∧ S = { S0 with Winv := codPinv order S0.W } := by
  unfold contactSpaceT
  rw [Option.map_eq_some_iff]
  constructor
  · rintro ⟨S0, h, rfl⟩; exact ⟨S0, h, rfl⟩
  · rintro ⟨S0, h, rfl⟩; exact ⟨S0, h, rfl⟩

/-- What the code multiplies by its pseudo-inverse is the projector on the columns it keeps. -/
theorem codProj_mul_codPinv {order : List n} (ho : ∀ j, j ∈ order) (A : Matrix m n ℝ) :
    codProj order A * A * codPinv order A = codProj order A := by
  obtain ⟨hP, ⟨B, hB⟩, -, -⟩ := codProj_spec ho A
  set Pr := codProj order A with hPr
  have h := pinv_spec (Pr * A)
  have hX : codPinv order A = pinv (Pr * A) := rfl
  rw [hX]
  have hPP : Pr * A * B = Pr := by rw [Matrix.mul_assoc, ← hB, hP.idem]
  have h1 : Pr * A * pinv (Pr * A) * Pr = Pr := by
    have : Pr * A * pinv (Pr * A) * (Pr * A * B) = Pr * A * B := by rw [← Matrix.mul_assoc _ (Pr * A) B, h.aba]
    rwa [hPP] at this
  have h2 : Pr * (Pr * A * pinv (Pr * A)) = Pr * A * pinv (Pr * A) := by
    rw [← Matrix.mul_assoc, ← Matrix.mul_assoc, hP.idem]
  have h3 := congrArg transpose h2
  rw [transpose_mul, h.symL, hP.symm, h1] at h3
  exact h3.symm

/-- Joint accelerations under the gravity torque. -/
theorem grav_joint {A : Matrix (Fin 6 ⊕ ι) (Fin 6 ⊕ ι) ℝ} {J : Matrix (Fin c) (Fin 6 ⊕ ι) ℝ} {S0 : ContactSpace c ι}
    (hA : IsSPD A) (hS : contactSpace J A⁻¹ = some S0) (X : Matrix ι ι ℝ) {G qdd : Fin 6 ⊕ ι → ℝ} {F : Fin c → ℝ}
    (h : Motion A J G (gravityTorque { S0 with Winv := X } A⁻¹ G) qdd F) :
    (fun i => qdd (Sum.inr i)) = (S0.W * X * (Sel ι * S0.AinvNc) - Sel ι * S0.AinvNc) *ᵥ G := by
  have e : gravityTorque { S0 with Winv := X } A⁻¹ G = (X * (Sel ι * S0.AinvNc)) *ᵥ G := by
    unfold gravityTorque
    rw [← sel_mul, mulVec_mulVec, mulVec_mulVec, cs_P hS]
    simp only [Matrix.mul_assoc]
  rw [motion_iff hA hS] at h
  rw [← sel_mulVec, h.1, actuate_eq, e, mulVec_sub, mulVec_sub, mulVec_mulVec, mulVec_mulVec, mulVec_mulVec,
    mulVec_mulVec, ← sub_mulVec, ← cs_W hS]
  simp only [Matrix.mul_assoc]

namespace Props

/-- C77.  What the code returns is the exact pseudo-inverse of a matrix of the rank it found, each column of which differs from the
given one by at most `1e-6` times the largest column. -/
theorem C77_backward_error {order : List n} (ho : ∀ j, j ∈ order) (A : Matrix m n ℝ) :
    ∃ A' : Matrix m n ℝ, IsMoorePenrose A' (codPinv order A) ∧ A'.rank = codRank order A ∧
      ∀ j, ∃ k, sqNorm (A.col j - A'.col j) ≤ (1 / 10 ^ 6) ^ 2 * sqNorm (A.col k) := by
  obtain ⟨hP, ⟨B, hB⟩, hr, -⟩ := codProj_spec ho A
  refine ⟨codProj order A * A, pinv_spec _, ?_, ?_⟩
  · rw [← codProj_rank ho A]
    refine le_antisymm (rank_mul_le_left _ _) ?_
    have : codProj order A = codProj order A * A * B := by rw [Matrix.mul_assoc, ← hB, hP.idem]
    conv_lhs => rw [this]
    exact rank_mul_le_left _ _
  · intro j
    haveI : Nonempty n := ⟨j⟩
    obtain ⟨k, hk⟩ := maxPivot_eq ho A
    refine ⟨k, ?_⟩
    have := hr j
    rw [hk] at this
    exact this

/-- C77.  The result is exact precisely when the rank found is the rank; it is never larger. -/
theorem C77_exact_iff {order : List n} (ho : ∀ j, j ∈ order) (A : Matrix m n ℝ) :
    (IsMoorePenrose A (codPinv order A) ↔ codRank order A = A.rank) ∧ codRank order A ≤ A.rank := by
  refine ⟨?_, codRank_le ho A⟩
  rw [← codPinv_eq_iff ho A]
  exact ⟨fun h => (pinv_eq h).symm, fun h => h ▸ pinv_spec A⟩

/-- C77.  Scaling the whole matrix (a change of unit) changes neither the rank found nor the columns kept. -/
theorem C77_unit_free {a : ℝ} (ha : a ≠ 0) (order : List n) (A : Matrix m n ℝ) :
    codRank order (a • A) = codRank order A ∧ codPinv order (a • A) = a⁻¹ • codPinv order A := by
  refine ⟨codRank_smul ha order A, ?_⟩
  unfold codPinv
  rw [codProj_smul ha, Matrix.mul_smul, pinv_smul]

/-- C77.  Enough for an exact result: every singular value that is not zero is larger than `1e-6 √n` times the largest column. -/
theorem C77_gap_partial {order : List n} (ho : ∀ j, j ∈ order) {A : Matrix m n ℝ} {s : ℝ}
    (hs : ∀ x : n → ℝ, s ^ 2 * sqNorm (A *ᵥ x) ≤ sqNorm (Aᵀ *ᵥ (A *ᵥ x)))
    (hgap : ∀ j, (1 / 10 ^ 6) ^ 2 * (Fintype.card n * sqNorm (A.col j)) < s ^ 2) :
    IsMoorePenrose A (codPinv order A) :=
  (C77_exact_iff ho A).1.mpr (codRank_of_gap ho hs hgap)

example : IsMoorePenrose (diagonal ![(3 : ℝ), 2]) (codPinv [0, 1] (diagonal ![(3 : ℝ), 2])) := by
  refine C77_gap_partial (s := 2) (by simp [Fin.forall_fin_two]) ?_ ?_
  · intro x
    simp [sqNorm, dotProduct, mulVec_diagonal, diagonal_transpose]
    nlinarith [sq_nonneg (x 0), sq_nonneg (x 1)]
  · intro j
    fin_cases j <;> simp [sqNorm, dotProduct, col] <;> norm_num

section
variable {order : List ι} (ho : ∀ j, j ∈ order) {A : Matrix (Fin 6 ⊕ ι) (Fin 6 ⊕ ι) ℝ} {J : Matrix (Fin c) (Fin 6 ⊕ ι) ℝ}
  {S : ContactSpace c ι}

include ho in
/-- C77.  The gravity torque holds every joint still under every load exactly when the rank of `W` found is its rank. -/
theorem C77_gravity_iff (hA : IsSPD A) (hT : contactSpaceT order J A⁻¹ = some S) :
    (∀ G qdd F, Motion A J G (gravityTorque S A⁻¹ G) qdd F → ∀ i : ι, qdd (Sum.inr i) = 0) ↔
      codRank order S.W = S.W.rank := by
  obtain ⟨S0, hS, rfl⟩ := contactSpaceT_eq_some.mp hT
  constructor
  · intro h
    apply codRank_of_aba ho
    have h0 : S0.W * codPinv order S0.W * (Sel ι * S0.AinvNc) - Sel ι * S0.AinvNc = 0 := by
      apply Matrix.ext_of_mulVec_single
      intro s
      obtain ⟨⟨q, hq⟩, -, -⟩ := C01_contact_force_exact hA hS (Pi.single s 1)
        (gravityTorque { S0 with Winv := codPinv order S0.W } A⁻¹ (Pi.single s 1))
      have h1 := grav_joint hA hS _ hq
      rw [← h1, zero_mulVec]
      ext i
      exact h _ _ _ hq i
    have h2 := congrArg (· * (Sel ι)ᵀ) h0
    simp only [Matrix.sub_mul, Matrix.zero_mul] at h2
    rw [Matrix.mul_assoc _ (Sel ι * S0.AinvNc) (Sel ι)ᵀ, ← cs_W hS, sub_eq_zero] at h2
    exact h2
  · intro h G qdd F hM
    have e : codPinv order S0.W = S0.Winv := by rw [cs_Winv hS]; exact (codPinv_eq_iff ho _).mpr h
    rw [e] at hM
    exact (C03_gravity_compensation hA hS G hM).1

include ho in
/-- C77.  Whatever rank is found: the accelerations gravity compensation leaves are orthogonal to the columns of `W` kept. -/
theorem C77_gravity_kept_partial (hA : IsSPD A) (hT : contactSpaceT order J A⁻¹ = some S) {G qdd : Fin 6 ⊕ ι → ℝ} {F : Fin c → ℝ}
    (h : Motion A J G (gravityTorque S A⁻¹ G) qdd F) : codProj order S.W *ᵥ (fun i => qdd (Sum.inr i)) = 0 := by
  obtain ⟨S0, hS, rfl⟩ := contactSpaceT_eq_some.mp hT
  have e : codProj order S0.W * (S0.W * codPinv order S0.W * (Sel ι * S0.AinvNc) - Sel ι * S0.AinvNc) = 0 := by
    have := congrArg (· * (Sel ι * S0.AinvNc)) (codProj_mul_codPinv ho S0.W)
    simp only [Matrix.mul_assoc] at this
    rw [Matrix.mul_sub]
    simp only [Matrix.mul_assoc]
    rw [this, sub_self]
  rw [grav_joint hA hS _ h, mulVec_mulVec]
  exact (congrArg (· *ᵥ G) e).trans (zero_mulVec _)

/-- C77.  Base held by a 6-D contact, joints with inertias `d`: a joint `10⁶` times heavier than another one gets no gravity torque at
all and falls freely. -/
theorem C77_heavy_joint_falls {d : ι → ℝ} (hd : ∀ i, 0 < d i) {order : List ι} (ho : ∀ j, j ∈ order) {S : ContactSpace 6 ι}
    (hT : contactSpaceT order (Held.J ι) (Held.A d)⁻¹ = some S) {j k : ι} (hjk : 10 ^ 6 * d k ≤ d j) (G : Fin 6 ⊕ ι → ℝ) :
    gravityTorque S (Held.A d)⁻¹ G j = 0 ∧
    ∀ qdd F, Motion (Held.A d) (Held.J ι) G (gravityTorque S (Held.A d)⁻¹ G) qdd F → qdd (Sum.inr j) = -G (Sum.inr j) / d j := by
  classical
  obtain ⟨S0, hS, rfl⟩ := contactSpaceT_eq_some.mp hT
  have hW := Held.W_eq hd hS
  have hdrop : ∃ k, (d j)⁻¹ ^ 2 ≤ codThreshold ^ 2 * (d k)⁻¹ ^ 2 := by
    refine ⟨k, ?_⟩
    have hj := hd j
    have hk := hd k
    rw [← mul_pow]
    refine pow_le_pow_left₀ (inv_nonneg.mpr hj.le) ?_ 2
    unfold codThreshold
    rw [one_div, ← mul_inv]
    exact inv_anti₀ (by positivity) hjk
  have hcol : ∀ v : ι → ℝ, (codPinv order S0.W *ᵥ v) j = 0 := by
    intro v
    rw [hW, codPinv_diag ho, mulVec_diagonal, if_pos hdrop, zero_mul]
  refine ⟨hcol _, fun qdd F hM => ?_⟩
  have h1 := (motion_iff (Held.hA hd) hS _ _ _ _).mp hM
  rw [h1.1, Held.P_mulVec hd hS]
  have h2 : gravityTorque { S0 with Winv := codPinv order S0.W } (Held.A d)⁻¹ G j = 0 := hcol _
  simp only [Sum.elim_inr, Pi.sub_apply, actuate]
  rw [h2, zero_sub]

/-- C77 (negation).  There is a robot with two joints, independent contact rows and a determined base on which gravity compensation lets a
joint fall. -/
theorem C77_gravity_violated : ∃ (A : Matrix (Fin 6 ⊕ Fin 2) (Fin 6 ⊕ Fin 2) ℝ) (J : Matrix (Fin 6) (Fin 6 ⊕ Fin 2) ℝ)
    (S : ContactSpace 6 (Fin 2)), IsSPD A ∧ IndependentRows J ∧ BaseDetermined J ∧ contactSpaceT [0, 1] J A⁻¹ = some S ∧
    ∃ G qdd F, Motion A J G (gravityTorque S A⁻¹ G) qdd F ∧ qdd (Sum.inr 1) ≠ 0 := by
  have hd : ∀ i, 0 < (![1, 10 ^ 6] : Fin 2 → ℝ) i := by intro i; fin_cases i <;> simp
  obtain ⟨S0, hS⟩ := Held.exists_S hd
  have hT : contactSpaceT [0, 1] (Held.J (Fin 2)) (Held.A ![1, 10 ^ 6])⁻¹ = some { S0 with Winv := codPinv [0, 1] S0.W } :=
    contactSpaceT_eq_some.mpr ⟨S0, hS, rfl⟩
  refine ⟨_, _, _, Held.hA hd, Held.J_ind, Held.J_base, hT, fun _ => 1, ?_⟩
  obtain ⟨⟨q, hq⟩, -, -⟩ := C01_contact_force_exact (Held.hA hd) hS (fun _ => 1)
    (gravityTorque { S0 with Winv := codPinv [0, 1] S0.W } (Held.A ![1, 10 ^ 6])⁻¹ fun _ => 1)
  refine ⟨q, _, hq, ?_⟩
  have := (C77_heavy_joint_falls hd (by simp [Fin.forall_fin_two]) hT (j := 1) (k := 0) (by simp) fun _ => 1).2 q _ hq
  rw [this]
  norm_num

/-- C77.  One task, contacts determining the base: the acceleration is `Λ⁺ Λ f*` with the pseudo-inverse the code computes; `Λ` is the task
inertia. -/
theorem C77_task_accel (hA : IsSPD A) (hS : contactSpace J A⁻¹ = some S) (hB : BaseDetermined J)
    {T : TaskIn ι} {R : TaskReady ι} (hR : calculateJKTT S A⁻¹ T = some R) {G qdd : Fin 6 ⊕ ι → ℝ} {F : Fin c → ℝ}
    (h : Motion A J G (gravityTorque S A⁻¹ G + taskTorque S [R]) qdd F) :
    T.J *ᵥ qdd = codPinv (List.finRange T.t) (T.J * S.AinvNc * T.Jᵀ)⁻¹ *ᵥ ((T.J * S.AinvNc * T.Jᵀ)⁻¹ *ᵥ T.f) := by
  have e : T.J * A⁻¹ * S.Nc * T.Jᵀ = T.J * S.AinvNc * T.Jᵀ := by
    rw [cs_P hS]; simp only [Matrix.mul_assoc]
  unfold calculateJKTT at hR
  rw [Option.map_eq_some_iff, e] at hR
  obtain ⟨Λ, h1, h2⟩ := hR
  obtain ⟨hu, rfl⟩ := eigenInverse_eq_some.mp h1
  obtain ⟨-, hTWT, -⟩ := Km_eq hA hS hB ((jkt_eq_some (T := T) hS).mpr ⟨hu, rfl⟩)
  simp only at hTWT
  set L := T.J * S.AinvNc * T.Jᵀ with hL
  have hQ : (L⁻¹ * T.J * A⁻¹ * S.Nc).submatrix id Sum.inr = L⁻¹ * Tm S T.J := by
    rw [← mul_selT, Tm, cs_P hS]; simp only [Matrix.mul_assoc]
  have hLs : Lᵀ = L := by
    rw [hL]; simp [transpose_mul, cs_P_symm hA hS, Matrix.mul_assoc]
  have hLis : (L⁻¹)ᵀ = L⁻¹ := by rw [transpose_nonsing_inv, hLs]
  have hM : L⁻¹ * Tm S T.J * S.Winv * (L⁻¹ * Tm S T.J)ᵀ = L⁻¹ := by
    calc L⁻¹ * Tm S T.J * S.Winv * (L⁻¹ * Tm S T.J)ᵀ
        = L⁻¹ * (Tm S T.J * S.Winv * (Tm S T.J)ᵀ) * L⁻¹ := by
          simp only [transpose_mul, hLis, Matrix.mul_assoc]
      _ = L⁻¹ := by rw [hTWT, nonsing_inv_mul _ hu, Matrix.one_mul]
  simp only at h2
  rw [hQ, hM] at h2
  subst h2
  have := task_accel hA hS hB h T.J
  rw [this, taskTorque_cons, taskTorque_nil, mulVec_zero, add_zero]
  change Tm S T.J *ᵥ ((S.Winv * (L⁻¹ * Tm S T.J)ᵀ * codPinv (List.finRange T.t) L⁻¹ * L⁻¹) *ᵥ T.f) = _
  rw [mulVec_mulVec, mulVec_mulVec]
  congr 1
  calc Tm S T.J * (S.Winv * (L⁻¹ * Tm S T.J)ᵀ * codPinv (List.finRange T.t) L⁻¹ * L⁻¹)
      = (Tm S T.J * S.Winv * (Tm S T.J)ᵀ) * L⁻¹ * codPinv (List.finRange T.t) L⁻¹ * L⁻¹ := by
        simp only [transpose_mul, hLis, Matrix.mul_assoc]
    _ = _ := by rw [hTWT, mul_nonsing_inv _ hu, Matrix.one_mul]

/-- C77.  One task: every command is followed exactly when the rank of the task inertia found is its size. -/
theorem C77_task_iff (hA : IsSPD A) (hS : contactSpace J A⁻¹ = some S) (hB : BaseDetermined J) {t : ℕ}
    {Jt : Matrix (Fin t) (Fin 6 ⊕ ι) ℝ} (hfin : IsUnit (Jt * S.AinvNc * Jtᵀ).det) :
    (∀ f R G qdd F, calculateJKTT S A⁻¹ { t := t, J := Jt, f := f } = some R →
      Motion A J G (gravityTorque S A⁻¹ G + taskTorque S [R]) qdd F → Jt *ᵥ qdd = f) ↔
      codRank (List.finRange t) (Jt * S.AinvNc * Jtᵀ)⁻¹ = t := by
  set L := Jt * S.AinvNc * Jtᵀ with hL
  have hu := isUnit_nonsing_inv_det L hfin
  have hrank : (L⁻¹).rank = t := by
    have := rank_of_isUnit _ ((Matrix.isUnit_iff_isUnit_det _).mpr hu)
    rwa [Fintype.card_fin] at this
  have ho : ∀ j : Fin t, j ∈ List.finRange t := List.mem_finRange
  constructor
  · intro h
    have h1 : codPinv (List.finRange t) L⁻¹ * L⁻¹ = 1 := by
      apply Matrix.ext_of_mulVec_single
      intro i
      have hR : ∃ R, calculateJKTT S A⁻¹ { t := t, J := Jt, f := Pi.single i 1 } = some R := by
        have e : Jt * A⁻¹ * S.Nc * Jtᵀ = L := by
          rw [hL, cs_P hS]; simp only [Matrix.mul_assoc]
        have h0 : eigenInverse (Jt * A⁻¹ * S.Nc * Jtᵀ) = some L⁻¹ := by
          rw [e]; exact eigenInverse_eq_some.mpr ⟨hfin, rfl⟩
        unfold calculateJKTT
        simp only
        rw [h0]
        exact ⟨_, rfl⟩
      obtain ⟨R, hR⟩ := hR
      obtain ⟨⟨q, hq⟩, -, -⟩ := C01_contact_force_exact hA hS 0 (gravityTorque S A⁻¹ 0 + taskTorque S [R])
      have h2 := C77_task_accel hA hS hB hR hq
      rw [h _ R 0 q _ hR hq] at h2
      rw [one_mulVec, ← mulVec_mulVec]
      exact h2.symm
    have h2 := codRank_of_aba ho (A := L⁻¹) (by rw [Matrix.mul_assoc, h1, Matrix.mul_one])
    rw [h2, hrank]
  · intro h f R G qdd F hR hM
    have h2 := C77_task_accel hA hS hB hR hM
    refine h2.trans ?_
    change codPinv (List.finRange t) L⁻¹ *ᵥ (L⁻¹ *ᵥ f) = f
    rw [(codPinv_eq_iff ho _).mpr (h.trans hrank.symm), pinv_of_isUnit hu, mulVec_mulVec, nonsing_inv_mul _ hu, one_mulVec]

end

/-- Task with one row per joint, row `i` being `a i` times joint `i`. -/
def scaledRows {t : ℕ} (a : Fin t → ℝ) : Matrix (Fin t) (Fin 6 ⊕ Fin t) ℝ :=
  Matrix.of fun i => Sum.elim (fun _ => 0) (Pi.single i (a i))

theorem scaledRows_mulVec {t : ℕ} (a : Fin t → ℝ) (q : Fin 6 ⊕ Fin t → ℝ) :
    scaledRows a *ᵥ q = fun i => a i * q (Sum.inr i) := by
  ext i
  simp [scaledRows, mulVec, dotProduct, Pi.single_apply]

theorem scaledRows_inertia {t : ℕ} (a : Fin t → ℝ) {S : ContactSpace 6 (Fin t)}
    (hS : contactSpace (Held.J (Fin t)) (Held.A fun _ => 1)⁻¹ = some S) :
    scaledRows a * S.AinvNc * (scaledRows a)ᵀ = diagonal fun i => a i ^ 2 := by
  apply Matrix.ext_of_mulVec_single
  intro k
  rw [← mulVec_mulVec, ← mulVec_mulVec, Held.P_mulVec (fun _ => one_pos) hS, scaledRows_mulVec]
  ext i
  by_cases h : i = k
  · subst h; simp [scaledRows, mulVec_diagonal, sq]
  · have h' : k ≠ i := fun e => h e.symm
    simp [scaledRows, mulVec_diagonal, h, h']

open Classical in
/-- C77.  Base held by a 6-D contact, unit joint inertias, one task row per joint scaled by `a i`: as soon as some row is `10³` times
smaller than row `i`, row `i` is ignored, whatever is commanded.  It is the small row, the nearly singular one, that is followed. -/
theorem C77_task_row_ignored {t : ℕ} {a : Fin t → ℝ} (ha : ∀ i, a i ≠ 0) {S : ContactSpace 6 (Fin t)}
    (hS : contactSpace (Held.J (Fin t)) (Held.A fun _ => 1)⁻¹ = some S) {f : Fin t → ℝ} {R : TaskReady (Fin t)}
    (hR : calculateJKTT S (Held.A fun _ => 1)⁻¹ { t := t, J := scaledRows a, f := f } = some R)
    {G qdd : Fin 6 ⊕ Fin t → ℝ} {F : Fin 6 → ℝ}
    (h : Motion (Held.A fun _ => 1) (Held.J (Fin t)) G (gravityTorque S (Held.A fun _ => 1)⁻¹ G + taskTorque S [R]) qdd F) (i : Fin t) :
    (scaledRows a *ᵥ qdd) i = if ∃ k, 10 ^ 3 * |a k| ≤ |a i| then 0 else f i := by
  have h1 := C77_task_accel (Held.hA fun _ => one_pos) hS Held.J_base hR h
  simp only at h1
  rw [h1, scaledRows_inertia a hS]
  have hinv : (diagonal fun i => a i ^ 2)⁻¹ = diagonal fun i => (a i ^ 2)⁻¹ := by
    apply inv_eq_right_inv
    rw [diagonal_mul_diagonal]
    rw [← diagonal_one]
    congr 1
    ext i
    exact mul_inv_cancel₀ (pow_ne_zero 2 (ha i))
  rw [hinv, codPinv_diag List.mem_finRange, mulVec_diagonal, mulVec_diagonal]
  have hiff : (∃ k, (a i ^ 2)⁻¹ ^ 2 ≤ codThreshold ^ 2 * (a k ^ 2)⁻¹ ^ 2) ↔ ∃ k, 10 ^ 3 * |a k| ≤ |a i| := by
    refine exists_congr fun k => ?_
    have hi : 0 < a i ^ 2 := by have := ha i; positivity
    have hk : 0 < a k ^ 2 := by have := ha k; positivity
    have ht : codThreshold = (10 ^ 6)⁻¹ := by unfold codThreshold; norm_num
    rw [← mul_pow, ht, ← mul_inv, pow_le_pow_iff_left₀ (inv_nonneg.mpr hi.le) (by positivity) (by norm_num),
      inv_le_inv₀ hi (by positivity)]
    rw [show (10 : ℝ) ^ 6 * a k ^ 2 = (10 ^ 3 * |a k|) ^ 2 by rw [mul_pow, sq_abs]; ring, ← sq_abs (a i),
      pow_le_pow_iff_left₀ (by positivity) (abs_nonneg _) (by norm_num)]
  by_cases hd : ∃ k, 10 ^ 3 * |a k| ≤ |a i|
  · rw [if_pos (hiff.mpr hd), if_pos hd, zero_mul]
  · rw [if_neg fun h => hd (hiff.mp h), if_neg hd, inv_inv, mul_inv_cancel_left₀ (pow_ne_zero 2 (ha i))]

/-- C77 (negation).  A robot and a task of two rows, computed without any singular matrix, where the first row does not get the
acceleration commanded. -/
theorem C77_task_violated : ∃ (A : Matrix (Fin 6 ⊕ Fin 2) (Fin 6 ⊕ Fin 2) ℝ) (J : Matrix (Fin 6) (Fin 6 ⊕ Fin 2) ℝ)
    (S : ContactSpace 6 (Fin 2)) (T : TaskIn (Fin 2)) (R : TaskReady (Fin 2)), IsSPD A ∧ IndependentRows J ∧ BaseDetermined J ∧
    contactSpaceT [0, 1] J A⁻¹ = some S ∧ calculateJKTT S A⁻¹ T = some R ∧
    ∃ G qdd F, Motion A J G (gravityTorque S A⁻¹ G + taskTorque S [R]) qdd F ∧ T.J *ᵥ qdd ≠ T.f := by
  obtain ⟨S, hS⟩ := Held.exists_S (d := fun _ : Fin 2 => (1 : ℝ)) fun _ => one_pos
  have hT : contactSpaceT [0, 1] (Held.J (Fin 2)) (Held.A fun _ => 1)⁻¹ = some S := by
    refine contactSpaceT_eq_some.mpr ⟨S, hS, ?_⟩
    have : codPinv [0, 1] S.W = S.Winv := by
      have ho : ∀ j : Fin 2, j ∈ [(0 : Fin 2), 1] := by simp [Fin.forall_fin_two]
      rw [cs_Winv hS, Held.W_eq (fun _ => one_pos) hS, codPinv_diag ho, pinv_diagonal]
      congr 1
      ext i
      rw [if_neg]
      unfold codThreshold
      norm_num
    rw [this]
  have ha : ∀ i, (![1, 1 / 10 ^ 3] : Fin 2 → ℝ) i ≠ 0 := by intro i; fin_cases i <;> simp
  obtain ⟨R, hR⟩ : ∃ R, calculateJKTT S (Held.A fun _ => 1)⁻¹ { t := 2, J := scaledRows ![1, 1 / 10 ^ 3], f := fun _ => 1 } = some R := by
    have e : scaledRows ![1, 1 / 10 ^ 3] * (Held.A fun _ : Fin 2 => 1)⁻¹ * S.Nc * (scaledRows ![1, 1 / 10 ^ 3])ᵀ
        = diagonal fun i => (![1, 1 / 10 ^ 3] : Fin 2 → ℝ) i ^ 2 := by
      rw [← scaledRows_inertia _ hS, cs_P hS]; simp only [Matrix.mul_assoc]
    have hu : IsUnit (diagonal fun i => (![1, 1 / 10 ^ 3] : Fin 2 → ℝ) i ^ 2).det := by
      rw [det_diagonal, isUnit_iff_ne_zero, Finset.prod_ne_zero_iff]
      exact fun i _ => pow_ne_zero 2 (ha i)
    unfold calculateJKTT
    simp only
    rw [e, eigenInverse_eq_some.mpr ⟨hu, rfl⟩]
    exact ⟨_, rfl⟩
  obtain ⟨⟨q, hq⟩, -, -⟩ := C01_contact_force_exact (Held.hA fun _ => one_pos) hS 0
    (gravityTorque S (Held.A fun _ => 1)⁻¹ 0 + taskTorque S [R])
  refine ⟨_, _, S, _, R, Held.hA fun _ => one_pos, Held.J_ind, Held.J_base, hT, hR, 0, q, _, hq, ?_⟩
  intro h
  have h1 := C77_task_row_ignored ha hS hR hq 0
  rw [if_pos ⟨1, by simp⟩] at h1
  have h2 := congrFun h 0
  simp only at h2
  rw [h1] at h2
  exact zero_ne_one h2

/-- Nothing dropped: the computation is an exact one. -/
theorem constraintT_eq {order : List ι} (ho : ∀ j, j ∈ order) {A : Matrix (Fin 6 ⊕ ι) (Fin 6 ⊕ ι) ℝ}
    {J : Matrix (Fin c) (Fin 6 ⊕ ι) ℝ} (cod : (W : Matrix ι ι ℝ) → CodRows order W) {S : ContactSpace c ι}
    (hS : contactSpace J A⁻¹ = some S) (hrank : codRank order S.W = S.W.rank) :
    ∃ cod' : (W : Matrix ι ι ℝ) → CodNull W, calculateContactConstraintT order J A⁻¹ cod = calculateContactConstraint J A⁻¹ cod' := by
  classical
  have hPW := (codRank_eq_iff ho S.W).mp hrank
  have hW : codPinv order S.W = S.Winv := by rw [cs_Winv hS]; exact (codPinv_eq_iff ho _).mpr hrank
  have hT : contactSpaceT order J A⁻¹ = some S := contactSpaceT_eq_some.mpr ⟨S, hS, by rw [hW]⟩
  let g : CodNull S.W := ⟨(cod S.W).k, (cod S.W).V2, (cod S.W).orth, by
    have h := congrArg (· * S.W) (cod S.W).ann
    simp only [Matrix.zero_mul, Matrix.mul_assoc, hPW] at h
    exact h, by rw [← hrank]; exact (cod S.W).rank⟩
  let cod' : (W : Matrix ι ι ℝ) → CodNull W := fun W =>
    if h : W = S.W then h ▸ g else Classical.choice (exists_codNull W)
  have hg : cod' S.W = g := by simp [cod']
  refine ⟨cod', ?_⟩
  unfold calculateContactConstraint calculateContactConstraintT
  rw [hS, hT]
  simp only
  rw [hg]
  rfl

/-- C77 (more than six contact rows).  When the contact computation returns at all, nothing was dropped: the result is one the exact
computation gives, so C04 and the rest apply to it. -/
theorem C77_returned_exact {order : List ι} (ho : ∀ j, j ∈ order) {A : Matrix (Fin 6 ⊕ ι) (Fin 6 ⊕ ι) ℝ}
    {J : Matrix (Fin c) (Fin 6 ⊕ ι) ℝ} (hA : IsSPD A) (hc : 6 < c) (cod : (W : Matrix ι ι ℝ) → CodRows order W) {v : ℕ}
    {S : ContactSpace c ι} {out} (hR : calculateContactConstraintT order J A⁻¹ cod = .ret v S out) :
    codRank order S.W = S.W.rank ∧
    ∃ cod' : (W : Matrix ι ι ℝ) → CodNull W, calculateContactConstraint J A⁻¹ cod' = .ret v S out := by
  have hR0 := hR
  unfold calculateContactConstraintT at hR
  split at hR
  · cases hR
  rename_i S' hT
  simp only [gt_iff_lt, hc, if_true] at hR
  obtain ⟨S0, hS, rfl⟩ := contactSpaceT_eq_some.mp hT
  simp only at hR
  split at hR
  swap
  · cases hR
  rename_i hk
  have h1 := finrank_ker_W hA hS
  have h2 : (baseCols J).rank ≤ 6 := by simpa using (baseCols J).rank_le_card_width
  have h3 := LinearMap.finrank_range_add_finrank_ker S0.W.mulVecLin
  rw [Module.finrank_fintype_fun_eq_card] at h3
  have h4 : S0.W.rank = Module.finrank ℝ (LinearMap.range S0.W.mulVecLin) := rfl
  have h5 := (cod S0.W).rank
  have h6 := codRank_le ho S0.W
  have hrank : codRank order S0.W = S0.W.rank := by omega
  obtain ⟨cod', hc'⟩ := constraintT_eq ho cod hS hrank
  refine ⟨?_, cod', hc' ▸ hR0⟩
  split at hR
  · cases hR
  · simp only [ContactResult.ret.injEq] at hR
    rw [← hR.2.1]; exact hrank

/-- C77 (more than six independent contact rows).  The contact computation returns exactly when the contacts determine the base, the last
six rows do, and no column of `W` is dropped. -/
theorem C77_outcome {order : List ι} (ho : ∀ j, j ∈ order) {A : Matrix (Fin 6 ⊕ ι) (Fin 6 ⊕ ι) ℝ}
    {J : Matrix (Fin c) (Fin 6 ⊕ ι) ℝ} (hA : IsSPD A) (hc : 6 < c) (cod : (W : Matrix ι ι ℝ) → CodRows order W)
    {S : ContactSpace c ι} (hS : contactSpace J A⁻¹ = some S) :
    (∃ S out, calculateContactConstraintT order J A⁻¹ cod = .ret 1 S (some out)) ↔
      BaseDetermined J ∧ IsUnit (lastSixBase hc J).det ∧ codRank order S.W = S.W.rank := by
  have hind := independent_of_some hA hS
  constructor
  · rintro ⟨S', out, hR⟩
    obtain ⟨hr, cod', h'⟩ := C77_returned_exact ho hA hc cod hR
    obtain ⟨h1, h2⟩ := (C05_outcome hA hind hc cod').1.mp ⟨S', out, h'⟩
    refine ⟨h1, h2, ?_⟩
    have : S'.W = S.W := by
      unfold calculateContactConstraint at h'
      rw [hS] at h'
      simp only [gt_iff_lt, hc, if_true] at h'
      split at h'
      · split at h'
        · cases h'
        · simp only [ContactResult.ret.injEq] at h'
          rw [h'.2.1]
      · cases h'
    rw [← this]; exact hr
  · rintro ⟨h1, h2, h3⟩
    obtain ⟨cod', hc'⟩ := constraintT_eq ho cod hS h3
    rw [hc']
    exact (C05_outcome hA hind hc cod').1.mpr ⟨h1, h2⟩

/-- C77 (negation, more than six contact rows).  Standing on the base and a leg, further joints with inertias `d`, one `10⁶` times heavier
than another: the contact computation ends in an ill-formed inverse, although the exact one succeeds. -/
theorem C77_two_contacts_undefined {d : ι → ℝ} (hd : ∀ i, 0 < d i) {order : List (Fin 6 ⊕ ι)} (ho : ∀ j, j ∈ order)
    (cod : (W : Matrix (Fin 6 ⊕ ι) (Fin 6 ⊕ ι) ℝ) → CodRows order W) (exact : (W : Matrix (Fin 6 ⊕ ι) (Fin 6 ⊕ ι) ℝ) → CodNull W)
    {j k : ι} (hjk : 10 ^ 6 * d k ≤ d j) :
    calculateContactConstraintT order (TwoHeld.J ι) (TwoHeld.A d)⁻¹ cod = .nonSquareInverse ∧
    ∃ S out, calculateContactConstraint (TwoHeld.J ι) (TwoHeld.A d)⁻¹ exact = .ret 1 S (some out) := by
  classical
  have hA := TwoHeld.hA hd
  constructor
  · obtain ⟨S0, hS⟩ := Option.isSome_iff_exists.mp ((C02_finite_iff_independent hA).mpr (TwoHeld.J_ind (ι := ι)))
    have hT := contactSpaceT_eq_some (order := order) |>.mpr ⟨S0, hS, rfl⟩
    unfold calculateContactConstraintT
    rw [hT]
    simp only [show (12 : ℕ) > 6 by norm_num, if_true]
    rw [dif_neg]
    intro hk
    have h1 := finrank_ker_W hA hS
    have h2 := (baseDetermined_iff_rank _).mp (TwoHeld.J_base (ι := ι))
    have h3 := LinearMap.finrank_range_add_finrank_ker S0.W.mulVecLin
    rw [Module.finrank_fintype_fun_eq_card] at h3
    have h4 : S0.W.rank = Module.finrank ℝ (LinearMap.range S0.W.mulVecLin) := rfl
    have h5 := (cod S0.W).rank
    have hrank : codRank order S0.W = S0.W.rank := by omega
    have hPW := (codRank_eq_iff ho S0.W).mp hrank
    rw [TwoHeld.W_eq hd hS, codProj_diag ho, diagonal_mul_diagonal] at hPW
    have h6 := congrFun (congrFun hPW (Sum.inr j)) (Sum.inr j)
    rw [diagonal_apply_eq, diagonal_apply_eq, if_pos, zero_mul] at h6
    · simp only [Sum.elim_inr] at h6
      exact (inv_pos.mpr (hd j)).ne h6
    · refine ⟨Sum.inr k, ?_⟩
      have hj := hd j
      have hk := hd k
      simp only [Sum.elim_inr]
      rw [← mul_pow]
      refine pow_le_pow_left₀ (inv_nonneg.mpr hj.le) ?_ 2
      unfold codThreshold
      rw [one_div, ← mul_inv]
      exact inv_anti₀ (by positivity) hjk
  · refine (C05_outcome hA TwoHeld.J_ind (by norm_num) exact).1.mpr ⟨TwoHeld.J_base, ?_⟩
    have : lastSixBase (by norm_num : 6 < 12) (TwoHeld.J ι) = 1 := by
      ext i j
      fin_cases i <;> fin_cases j <;> simp [lastSixBase, TwoHeld.J]
    rw [this]; simp

/-- The hypotheses of `C77_outcome` and `C77_returned_exact` are met: equal joints, nothing is dropped. -/
example (cod : (W : Matrix (Fin 6 ⊕ Fin 2) (Fin 6 ⊕ Fin 2) ℝ) → CodRows Finset.univ.toList W) :
    ∃ S out, calculateContactConstraintT Finset.univ.toList (TwoHeld.J (Fin 2)) (TwoHeld.A fun _ => 1)⁻¹ cod = .ret 1 S (some out) := by
  classical
  have hd : ∀ i : Fin 2, (0 : ℝ) < 1 := fun _ => one_pos
  have ho : ∀ j : Fin 6 ⊕ Fin 2, j ∈ (Finset.univ.toList : List (Fin 6 ⊕ Fin 2)) := fun j => by simp
  have hA := TwoHeld.hA (d := fun _ : Fin 2 => (1 : ℝ)) hd
  obtain ⟨S, hS⟩ := Option.isSome_iff_exists.mp ((C02_finite_iff_independent hA).mpr (TwoHeld.J_ind (ι := Fin 2)))
  refine (C77_outcome ho hA (by norm_num) cod hS).mpr ⟨TwoHeld.J_base, ?_, ?_⟩
  · have : lastSixBase (by norm_num : 6 < 12) (TwoHeld.J (Fin 2)) = 1 := by
      ext i j
      fin_cases i <;> fin_cases j <;> simp [lastSixBase, TwoHeld.J]
    rw [this]; simp
  · rw [codRank_eq_iff ho, TwoHeld.W_eq hd hS, codProj_diag ho, diagonal_mul_diagonal]
    congr 1
    ext s
    rcases s with s | s
    · simp
    · rw [if_neg, one_mul]
      rintro ⟨k, hk⟩
      rcases k with k | k
      · norm_num [codThreshold] at hk
      · norm_num [codThreshold] at hk

/-- The hypotheses of `C77_heavy_joint_falls` and `C77_two_contacts_undefined` are met. -/
example : (∀ i, 0 < (![1, 10 ^ 6] : Fin 2 → ℝ) i) ∧ 10 ^ 6 * (![1, 10 ^ 6] : Fin 2 → ℝ) 0 ≤ (![1, 10 ^ 6] : Fin 2 → ℝ) 1 ∧
    (∃ S, contactSpaceT [0, 1] (Held.J (Fin 2)) (Held.A ![1, 10 ^ 6])⁻¹ = some S) ∧
    Nonempty ((W : Matrix (Fin 6 ⊕ Fin 2) (Fin 6 ⊕ Fin 2) ℝ) → CodRows Finset.univ.toList W) := by
  have hd : ∀ i, 0 < (![1, 10 ^ 6] : Fin 2 → ℝ) i := by intro i; fin_cases i <;> simp
  refine ⟨hd, by simp, ?_, ⟨fun W => Classical.choice (exists_codRows (fun j => by simp) W)⟩⟩
  obtain ⟨S0, hS⟩ := Held.exists_S hd
  exact ⟨_, contactSpaceT_eq_some.mpr ⟨S0, hS, rfl⟩⟩

end Props
end Verif
