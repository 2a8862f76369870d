import Verif.Model.ReducedJaccNC
import Verif.Lemmas.ReducedJacc

/-!
# The joint-acceleration QP for the joints outside the contact chains: helper lemmas
-/
set_option linter.unusedSectionVars false

namespace Verif
open Matrix Verif.Spec Verif.Model Verif.Props

section QP
variable {ν : Type} [Fintype ν] [DecidableEq ν]

theorem jaccNCQP_feasible (R : NCRobot ν) (t : ℕ) (J : Matrix (Fin t) ν ℝ) (g : Fin 6 → ℝ) (f : Fin t → ℝ) (x : NCVar ν t → ℝ) :
    let a := fun i => x (.inl i)
    let τ := fun i => x (.inr (.inl i))
    let d := fun s => x (.inr (.inr (.inl s)))
    let e := fun s => x (.inr (.inr (.inr s)))
    (jaccNCQP R t J g f).Feasible x ↔ R.A *ᵥ a + R.G = τ ∧ R.J *ᵥ a = g + d ∧ J *ᵥ a = f + e := by
  intro a τ d e
  have r1 : ∀ i, (jaccNCQP R t J g f).A (.inl i) ⬝ᵥ x = (R.A *ᵥ a) i - τ i := fun i => by
    simp [jaccNCQP, dotProduct, Fintype.sum_sum_type, mulVec, Matrix.one_apply, a, τ, sub_eq_add_neg]
  have r2 : ∀ s, (jaccNCQP R t J g f).A (.inr (.inl s)) ⬝ᵥ x = (R.J *ᵥ a) s - d s := fun s => by
    simp [jaccNCQP, dotProduct, Fintype.sum_sum_type, mulVec, Matrix.one_apply, a, d, sub_eq_add_neg]
  have r3 : ∀ s, (jaccNCQP R t J g f).A (.inr (.inr s)) ⬝ᵥ x = (J *ᵥ a) s - e s := fun s => by
    simp [jaccNCQP, dotProduct, Fintype.sum_sum_type, mulVec, Matrix.one_apply, a, e, sub_eq_add_neg]
  unfold BoxQP.Feasible
  simp only [Sum.forall, r1, r2, r3]
  simp only [jaccNCQP, Option.mem_def, Option.some.injEq, forall_eq', Sum.elim_inl, Sum.elim_inr, reduceCtorEq, false_implies,
    implies_true, and_true]
  rw [funext_iff, funext_iff, funext_iff]
  refine and_congr (forall_congr' fun i => ?_) (and_congr (forall_congr' fun i => ?_) (forall_congr' fun i => ?_))
  all_goals
    simp only [Pi.add_apply]
    constructor
    · rintro ⟨h1, h2⟩; linarith
    · intro h; constructor <;> linarith

theorem jaccNCQP_cost (R : NCRobot ν) (t : ℕ) (J : Matrix (Fin t) ν ℝ) (g : Fin 6 → ℝ) (f : Fin t → ℝ) (x : NCVar ν t → ℝ) :
    (jaccNCQP R t J g f).cost x = (1 / 2) * ∑ s, x (.inr (.inr (.inl s))) ^ 2 + (5 / 2) * ∑ s, x (.inr (.inr (.inr s))) ^ 2 := by
  unfold BoxQP.cost
  have hg : (jaccNCQP R t J g f).g = 0 := rfl
  rw [hg, zero_dotProduct, add_zero]
  have : x ⬝ᵥ ((jaccNCQP R t J g f).H *ᵥ x) = ∑ s, x (.inr (.inr (.inl s))) ^ 2 + 5 * ∑ s, x (.inr (.inr (.inr s))) ^ 2 := by
    simp only [dotProduct, mulVec, Fintype.sum_sum_type, jaccNCQP, Matrix.of_apply, zero_mul, Finset.sum_const_zero, ite_mul,
      Finset.sum_ite_eq, Finset.mem_univ, if_true, zero_add, add_zero, mul_zero, one_mul]
    rw [Finset.mul_sum]
    congr 1
    · exact Finset.sum_congr rfl fun s _ => by ring
    · exact Finset.sum_congr rfl fun s _ => by ring
  rw [this]
  ring

/-- A zero-cost answer is the only kind of exact answer when one exists. -/
theorem jaccNCQP_exact {R : NCRobot ν} {t : ℕ} {J : Matrix (Fin t) ν ℝ} {g : Fin 6 → ℝ} {f : Fin t → ℝ} {x : NCVar ν t → ℝ}
    (hx : (jaccNCQP R t J g f).IsSolution x) (q : ν → ℝ) (h1 : R.J *ᵥ q = g) (h2 : J *ᵥ q = f) :
    (fun s => x (.inr (.inr (.inl s)))) = 0 ∧ (fun s => x (.inr (.inr (.inr s)))) = 0 := by
  have hf : (jaccNCQP R t J g f).Feasible (Sum.elim q (Sum.elim (R.A *ᵥ q + R.G) (Sum.elim 0 0))) := by
    refine (jaccNCQP_feasible _ _ _ _ _ _).mpr ⟨rfl, ?_, ?_⟩
    · rw [show (fun i => Sum.elim q (Sum.elim (R.A *ᵥ q + R.G) (Sum.elim (0 : Fin 6 → ℝ) (0 : Fin t → ℝ))) (.inl i)) = q from rfl, h1]
      ext s; simp
    · rw [show (fun i => Sum.elim q (Sum.elim (R.A *ᵥ q + R.G) (Sum.elim (0 : Fin 6 → ℝ) (0 : Fin t → ℝ))) (.inl i)) = q from rfl, h2]
      ext s; simp
  have hle := hx.2 _ hf
  rw [jaccNCQP_cost, jaccNCQP_cost] at hle
  simp only [Sum.elim_inr, Sum.elim_inl, Pi.zero_apply, ne_eq, OfNat.ofNat_ne_zero, not_false_eq_true, zero_pow,
    Finset.sum_const_zero, mul_zero, add_zero] at hle
  have p1 : 0 ≤ ∑ s, x (.inr (.inr (.inl s))) ^ 2 := Finset.sum_nonneg fun _ _ => sq_nonneg _
  have p2 : 0 ≤ ∑ s, x (.inr (.inr (.inr s))) ^ 2 := Finset.sum_nonneg fun _ _ => sq_nonneg _
  have z1 : ∑ s, x (.inr (.inr (.inl s))) ^ 2 = 0 := by linarith
  have z2 : ∑ s, x (.inr (.inr (.inr s))) ^ 2 = 0 := by linarith
  rw [Finset.sum_eq_zero_iff_of_nonneg fun _ _ => sq_nonneg _] at z1 z2
  exact ⟨funext fun s => by simpa using z1 s (Finset.mem_univ _), funext fun s => by simpa using z2 s (Finset.mem_univ _)⟩

/-- First-order condition: the two deviations balance at every joint. -/
theorem jaccNCQP_balance {R : NCRobot ν} {t : ℕ} {J : Matrix (Fin t) ν ℝ} {g : Fin 6 → ℝ} {f : Fin t → ℝ} {x : NCVar ν t → ℝ}
    (hx : (jaccNCQP R t J g f).IsSolution x) :
    R.Jᵀ *ᵥ (fun s => x (.inr (.inr (.inl s)))) + (5 : ℝ) • (Jᵀ *ᵥ fun s => x (.inr (.inr (.inr s)))) = 0 := by
  ext i
  set d : Fin 6 → ℝ := fun s => x (.inr (.inr (.inl s))) with hd
  set e : Fin t → ℝ := fun s => x (.inr (.inr (.inr s))) with he
  obtain ⟨f1, f2, f3⟩ := (jaccNCQP_feasible _ _ _ _ _ _).mp hx.1
  set b : ℝ := (R.Jᵀ *ᵥ d + (5 : ℝ) • (Jᵀ *ᵥ e)) i with hb
  set cc : ℝ := (1 / 2) * ∑ s, R.J s i ^ 2 + (5 / 2) * ∑ s, J s i ^ 2 with hcc
  have key : ∀ u : ℝ, 0 ≤ u * b + u ^ 2 * cc := fun u => by
    let y : NCVar ν t → ℝ := Sum.elim ((fun i => x (.inl i)) + u • Pi.single i 1)
      (Sum.elim (R.A *ᵥ ((fun i => x (.inl i)) + u • Pi.single i 1) + R.G) (Sum.elim (d + u • R.J.col i) (e + u • J.col i)))
    have hy : (jaccNCQP R t J g f).Feasible y := by
      refine (jaccNCQP_feasible _ _ _ _ _ _).mpr ⟨rfl, ?_, ?_⟩
      · show R.J *ᵥ ((fun i => x (.inl i)) + u • Pi.single i 1) = g + (d + u • R.J.col i)
        rw [mulVec_add, mulVec_smul, mulVec_single_one, f2, add_assoc]
      · show J *ᵥ ((fun i => x (.inl i)) + u • Pi.single i 1) = f + (e + u • J.col i)
        rw [mulVec_add, mulVec_smul, mulVec_single_one, f3, add_assoc]
    have hle := hx.2 _ hy
    rw [jaccNCQP_cost, jaccNCQP_cost] at hle
    have s1 : ∑ s, y (.inr (.inr (.inl s))) ^ 2 = ∑ s, d s ^ 2 + 2 * u * (R.Jᵀ *ᵥ d) i + u ^ 2 * ∑ s, R.J s i ^ 2 := by
      show ∑ s, (d s + u * R.J s i) ^ 2 = _
      simp only [mulVec, dotProduct, transpose_apply, Finset.mul_sum]
      rw [← Finset.sum_add_distrib, ← Finset.sum_add_distrib]
      exact Finset.sum_congr rfl fun s _ => by ring
    have s2 : ∑ s, y (.inr (.inr (.inr s))) ^ 2 = ∑ s, e s ^ 2 + 2 * u * (Jᵀ *ᵥ e) i + u ^ 2 * ∑ s, J s i ^ 2 := by
      show ∑ s, (e s + u * J s i) ^ 2 = _
      simp only [mulVec, dotProduct, transpose_apply, Finset.mul_sum]
      rw [← Finset.sum_add_distrib, ← Finset.sum_add_distrib]
      exact Finset.sum_congr rfl fun s _ => by ring
    rw [s1, s2] at hle
    have hb' : b = (R.Jᵀ *ᵥ d) i + 5 * (Jᵀ *ᵥ e) i := rfl
    rw [hb', hcc]
    have q1 : ∑ s, x (.inr (.inr (.inl s))) ^ 2 = ∑ s, d s ^ 2 := rfl
    have q2 : ∑ s, x (.inr (.inr (.inr s))) ^ 2 = ∑ s, e s ^ 2 := rfl
    rw [q1, q2] at hle
    linarith
  have hc : 0 ≤ cc := by
    have p1 : 0 ≤ ∑ s, R.J s i ^ 2 := Finset.sum_nonneg fun _ _ => sq_nonneg _
    have p2 : 0 ≤ ∑ s, J s i ^ 2 := Finset.sum_nonneg fun _ _ => sq_nonneg _
    rw [hcc]; positivity
  have h1 := key (-b / (cc + 1))
  have h2 : -b / (cc + 1) * b + (-b / (cc + 1)) ^ 2 * cc = -(b ^ 2 / (cc + 1) ^ 2) := by
    have : cc + 1 ≠ 0 := by positivity
    field_simp
    ring
  rw [h2] at h1
  have h3 : 0 ≤ b ^ 2 / (cc + 1) ^ 2 := by positivity
  have h4 : b ^ 2 / (cc + 1) ^ 2 = 0 := by linarith
  have h5 : b ^ 2 = 0 := by
    rcases div_eq_zero_iff.mp h4 with h | h
    · exact h
    · exfalso; have : 0 < (cc + 1) ^ 2 := by positivity
      linarith
  simpa using h5

end QP

section Motion
variable {κ ν : Type*} [Fintype κ] [DecidableEq κ] [Fintype ν] [DecidableEq ν] {c : ℕ}
variable {A : Matrix (RSys κ ν) (RSys κ ν) ℝ} {J : Matrix (Fin 6) ν ℝ} {G : RSys κ ν → ℝ} {D : Reduced κ ν}
  {Jc : Matrix (Fin c) (RSys κ ν) ℝ} {SI : Mat6} {R : Mat3}

/-- Joint accelerations planned in two parts: base and contact chains by the reduced model, the other joints by themselves. -/
def joined (a : RSys κ (Fin 6) → ℝ) (q : ν → ℝ) : RSys κ ν → ℝ :=
  Sum.elim (fun b => a (.inl b)) (Sum.elim (fun i => a (.inr (.inl i))) q)

/-- Joint torques planned in two parts. -/
def joinedTorque (τR : κ ⊕ Fin 6 → ℝ) (τN : ν → ℝ) : κ ⊕ ν → ℝ := Sum.elim (fun i => τR (.inl i)) τN

theorem jInc_right {B : Matrix (Fin 3 ⊕ Fin 3) ν ℝ} (h : jInc SI R B = some J) :
    ∃ L : Matrix (Fin 6) (Fin 3 ⊕ Fin 3) ℝ, J = L * B := by
  unfold jInc at h
  split at h
  · cases h
  rename_i b hb
  simp only at h
  split at h
  · cases h
  rename_i X hX
  obtain rfl := (Option.some.inj h).symm
  refine ⟨(X * (fromBlocks 1 0 (skew b.com)ᵀ 1 * fromBlocks Rᵀ 0 0 (1 : Mat3))).submatrix six.symm id, ?_⟩
  have e : ∀ P : Mat6, (P * B).submatrix six.symm id = P.submatrix six.symm id * B := fun P => rfl
  rw [← e, Matrix.mul_assoc, Matrix.mul_assoc]

theorem J_mul_JinvT (hA : IsSPD A) (hR : R * Rᵀ = 1) (hJ : jInc SI R (baseNc A) = some J)
    (hcpl : ∀ (i : κ) (j : ν), A (.inr (.inl i)) (.inr (.inr j)) = 0) (h : reduce vcOf ncOf A⁻¹ J G = some D) :
    D.J * D.JinvTᵀ = 1 := by
  obtain ⟨-, e1, -, e3, -, -, e6, -, -, hN⟩ := reduce_eq_some h
  have hr := (C40_consistent_inverse hA hR hJ hcpl h).2.1
  rw [e6, e1, jR_eq, blk_transpose, blk_mul, ← blk_one] at hr
  obtain ⟨-, -, -, h4⟩ := blk_inj hr
  have h5 : D.JinvT * D.Jᵀ = 1 := by rw [e3]; simpa using h4
  have := congrArg transpose h5
  rwa [transpose_mul, transpose_transpose, transpose_one] at this

/-- The base rows of the mass matrix at the free joints are an invertible matrix times `J_I_nc_`. -/
theorem base_coupling (hA : IsSPD A) (hR : R * Rᵀ = 1) (hJ : jInc SI R (baseNc A) = some J)
    (hcpl : ∀ (i : κ) (j : ν), A (.inr (.inl i)) (.inr (.inr j)) = 0) (h : reduce vcOf ncOf A⁻¹ J G = some D) :
    ∃ K L : Matrix (Fin 6) (Fin 6) ℝ, A.submatrix Sum.inl ncOf = K * D.J ∧ L * K = 1 ∧ K * L = 1 := by
  have hJJ := J_mul_JinvT hA hR hJ hcpl h
  obtain ⟨-, -, -, e3, -⟩ := reduce_eq_some h
  obtain ⟨K, hK⟩ := jInc_factor hR hJ
  obtain ⟨L, hL⟩ := jInc_right hJ
  have hK' : A.submatrix Sum.inl ncOf = (K.submatrix six.symm id) * D.J := by
    ext a j
    have := congrFun (congrFun hK (six.symm a)) j
    rw [e3]
    simpa [baseNc, Matrix.mul_apply] using this
  have hLK : L * K = 1 := by
    have : J = L * K * J := by rw [Matrix.mul_assoc, ← hK, ← hL]
    have h2 : J * D.JinvTᵀ = L * K * J * D.JinvTᵀ := congrArg (· * D.JinvTᵀ) this
    rw [Matrix.mul_assoc, ← e3, hJJ, Matrix.mul_one] at h2
    exact h2.symm
  have h1 : (L.submatrix id six.symm) * (K.submatrix six.symm id) = 1 := by
    rw [← hLK]
    ext a b
    simp only [Matrix.mul_apply, submatrix_apply, id]
    exact Equiv.sum_comp six.symm fun x => L a x * K x b
  exact ⟨_, _, hK', h1, mul_eq_one_comm.mp h1⟩

theorem AR_blocks (hA : IsSPD A) (hR : R * Rᵀ = 1) (hJ : jInc SI R (baseNc A) = some J)
    (hcpl : ∀ (i : κ) (j : ν), A (.inr (.inl i)) (.inr (.inr j)) = 0) (h : reduce vcOf ncOf A⁻¹ J G = some D) :
    D.AR.submatrix vcOf vcOf = A.submatrix vcOf vcOf ∧ D.AR.submatrix vcOf ncOf * D.J = A.submatrix vcOf ncOf := by
  obtain ⟨-, e1, -, e3, -, -, e6, -⟩ := reduce_eq_some h
  have := AR_mul_JR hA hR hJ hcpl h
  rw [e1, e6, jR_eq, eq_blk D.AR, eq_blk A, blk_mul, blk_mul] at this
  obtain ⟨a, b, -, -⟩ := blk_inj this
  simp only [Matrix.mul_one, Matrix.one_mul, Matrix.mul_zero, Matrix.zero_mul, add_zero, zero_add] at a b
  exact ⟨a, by rw [e3]; exact b⟩

/-- rows of a product, base and chains against the rest -/
theorem mulVec_split {σ : Type*} [Fintype σ] (M : Matrix (RSys κ σ) (RSys κ σ) ℝ) (x : RSys κ σ → ℝ) (r : RSys κ σ) :
    (M *ᵥ x) r = ∑ v, M r (vcOf v) * x (vcOf v) + ∑ s, M r (ncOf s) * x (ncOf s) := by
  simp only [mulVec, dotProduct, Fintype.sum_sum_type, vcOf, ncOf]
  ring

/-- rows of the free joints -/
theorem joined_free_rows (hA : IsSPD A) (hcpl : ∀ (i : κ) (j : ν), A (.inr (.inl i)) (.inr (.inr j)) = 0)
    {K : Matrix (Fin 6) (Fin 6) ℝ} {DJ : Matrix (Fin 6) ν ℝ} (hK : A.submatrix Sum.inl ncOf = K * DJ) (a : RSys κ (Fin 6) → ℝ)
    (q : ν → ℝ) (s : ν) :
    (A *ᵥ joined a q) (ncOf s) = ((K * DJ)ᵀ *ᵥ fun b => a (.inl b)) s + (A.submatrix (ncOf (κ := κ)) ncOf *ᵥ q) s := by
  have hjv : ∀ v, joined a q (vcOf v) = a (vcOf v) := fun v => by rcases v with v | v <;> rfl
  have hjn : ∀ s, joined a q (ncOf s) = q s := fun s => rfl
  rw [mulVec_split]
  simp only [hjv, hjn]
  congr 1
  rw [Fintype.sum_sum_type]
  have z : ∑ i : κ, A (ncOf s) (vcOf (.inr i)) * a (vcOf (.inr i)) = 0 := by
    refine Finset.sum_eq_zero fun i _ => ?_
    have : A (ncOf s) (vcOf (.inr i)) = 0 := by
      rw [← hA.symm]
      exact hcpl i s
    rw [this, zero_mul]
  rw [z, add_zero, ← hK]
  show ∑ b, A (ncOf s) (vcOf (.inl b)) * a (vcOf (.inl b)) = ∑ b, A (.inl b) (ncOf s) * a (.inl b)
  refine Finset.sum_congr rfl fun b _ => ?_
  have : A (ncOf s) (vcOf (.inl b)) = A (.inl b) (ncOf s) := by
    conv_lhs => rw [← hA.symm]
    rfl
  rw [this]
  rfl

/-- A base that is to accelerate pulls at the free joints, whatever the contact force. -/
theorem joined_base (hA : IsSPD A) (hR : R * Rᵀ = 1) (hJ : jInc SI R (baseNc A) = some J)
    (hcpl : ∀ (i : κ) (j : ν), A (.inr (.inl i)) (.inr (.inr j)) = 0) (h : reduce vcOf ncOf A⁻¹ J G = some D)
    (h0 : ∀ r j, Jc r (ncOf j) = 0) {τ : κ ⊕ ν → ℝ} {a : RSys κ (Fin 6) → ℝ} {q : ν → ℝ} {F : Fin c → ℝ}
    (hτ : A.submatrix (ncOf (κ := κ)) ncOf *ᵥ q + (fun j => G (ncOf j)) = fun j => τ (.inr j))
    (hm : Motion A Jc G τ (joined a q) F) (b : Fin 6) : a (.inl b) = 0 := by
  obtain ⟨K, L, hK, hLK, hKL⟩ := base_coupling hA hR hJ hcpl h
  have hJJ := J_mul_JinvT hA hR hJ hcpl h
  have hn := joined_free_rows hA hcpl hK a q
  have h2 : (K * D.J)ᵀ *ᵥ (fun b => a (.inl b)) = 0 := by
    ext s
    have := congrFun hm.1 (ncOf s)
    simp only [Pi.add_apply] at this
    have hFn : (Jcᵀ *ᵥ F) (ncOf s) = 0 := by simp [mulVec, dotProduct, h0]
    have e : actuate τ (ncOf s) = τ (.inr s) := rfl
    have e2 := congrFun hτ s
    simp only [Pi.add_apply] at e2
    rw [hn, hFn, e, ← e2] at this
    simp only [Pi.zero_apply]
    linarith
  have h3 : D.Jᵀ *ᵥ (Kᵀ *ᵥ fun b => a (.inl b)) = 0 := by
    rw [mulVec_mulVec, ← transpose_mul]
    exact h2
  have h4 : D.JinvT * D.Jᵀ = 1 := by
    have := congrArg transpose hJJ
    rwa [transpose_mul, transpose_transpose, transpose_one] at this
  have h5 : Kᵀ *ᵥ (fun b => a (.inl b)) = 0 := by
    have := congrArg (D.JinvT *ᵥ ·) h3
    simp only [mulVec_zero] at this
    rwa [mulVec_mulVec, h4, one_mulVec] at this
  have h6 : Lᵀ * Kᵀ = 1 := by rw [← transpose_mul, hKL, transpose_one]
  have h7 := congrArg (Lᵀ *ᵥ ·) h5
  simp only [mulVec_zero] at h7
  rw [mulVec_mulVec, h6, one_mulVec] at h7
  exact congrFun h7 b

/-- The planned motion happens exactly when the base is not to accelerate and the reduced acceleration is met. -/
theorem joined_motion_iff (hA : IsSPD A) (hR : R * Rᵀ = 1) (hJ : jInc SI R (baseNc A) = some J)
    (hcpl : ∀ (i : κ) (j : ν), A (.inr (.inl i)) (.inr (.inr j)) = 0) (h : reduce vcOf ncOf A⁻¹ J G = some D)
    (h0 : ∀ r j, Jc r (ncOf j) = 0) {τR : κ ⊕ Fin 6 → ℝ} {a : RSys κ (Fin 6) → ℝ} {F : Fin c → ℝ}
    (hm : Motion D.AR (jCR Jc) D.GR τR a F) {q τN : ν → ℝ} {d : Fin 6 → ℝ}
    (hτ : A.submatrix (ncOf (κ := κ)) ncOf *ᵥ q + (fun j => G (ncOf j)) = τN) (hg : D.J *ᵥ q = (fun s => a (ncOf s)) + d) :
    Motion A Jc G (joinedTorque τR τN) (joined a q) F ↔ (∀ b, a (.inl b) = 0) ∧ d = 0 := by
  obtain ⟨K, L, hK, hLK, hKL⟩ := base_coupling hA hR hJ hcpl h
  obtain ⟨b1, b2⟩ := AR_blocks hA hR hJ hcpl h
  have hJJ := J_mul_JinvT hA hR hJ hcpl h
  have hGR : ∀ v, D.GR (vcOf v) = G (vcOf v) := fun v => by
    rw [(reduce_eq_some h).2.2.2.2.2.2.2.1]
    rcases v with v | v <;> rfl
  have hjv : ∀ v, joined a q (vcOf v) = a (vcOf v) := fun v => by rcases v with v | v <;> rfl
  have hjn : ∀ s, joined a q (ncOf s) = q s := fun s => rfl
  -- rows of base and chains
  have hv : ∀ v, (A *ᵥ joined a q) (vcOf v) = (D.AR *ᵥ a) (vcOf v) + (D.AR.submatrix vcOf ncOf *ᵥ d) v := fun v => by
    rw [mulVec_split, mulVec_split]
    simp only [hjv, hjn]
    have e1 : ∀ w, A (vcOf v) (vcOf w) = D.AR (vcOf v) (vcOf w) := fun w => (congrFun (congrFun b1 v) w).symm
    have e2 : ∑ s, A (vcOf v) (ncOf s) * q s = (A.submatrix vcOf ncOf *ᵥ q) v := rfl
    rw [e2, ← b2, ← mulVec_mulVec, hg, mulVec_add, Pi.add_apply]
    simp only [e1]
    have e3 : (D.AR.submatrix vcOf ncOf *ᵥ fun s => a (ncOf s)) v = ∑ s, D.AR (vcOf v) (ncOf s) * a (ncOf s) := rfl
    rw [e3]
    ring
  have hF : ∀ v, (Jcᵀ *ᵥ F) (vcOf v) = ((jCR Jc)ᵀ *ᵥ F) (vcOf v) := fun v => by rcases v with v | v <;> rfl
  have hFn : ∀ s, (Jcᵀ *ᵥ F) (ncOf s) = 0 := fun s => by simp [mulVec, dotProduct, h0]
  have hact : ∀ v : Fin 6 ⊕ κ, actuate (joinedTorque τR τN) (vcOf v) = actuate τR (vcOf v) := fun v => by
    rcases v with v | v <;> rfl
  have hred : ∀ v : Fin 6 ⊕ κ, (D.AR *ᵥ a) (vcOf v) + (Jcᵀ *ᵥ F) (vcOf v) + G (vcOf v) = actuate τR (vcOf v) := fun v => by
    have := congrFun hm.1 (vcOf v)
    simp only [Pi.add_apply] at this
    rw [hF, ← hGR]
    exact this
  -- rows of the free joints
  have hn := joined_free_rows hA hcpl hK a q
  have hcon : Jc *ᵥ joined a q = 0 := by
    have := hm.2
    unfold ContactsFixed at this
    rw [← this]
    ext r
    simp only [mulVec, dotProduct, Fintype.sum_sum_type, jCR, joined]
    have z : (∑ x : ν, Jc r (.inr (.inr x)) * q x : ℝ) = 0 := Finset.sum_eq_zero fun x _ => by
      have := h0 r x
      simp only [ncOf] at this
      rw [this, zero_mul]
    simp [z, vcOf]
  have key : Motion A Jc G (joinedTorque τR τN) (joined a q) F ↔
      (∀ v, (D.AR.submatrix vcOf ncOf *ᵥ d) v = 0) ∧ ∀ s, ((K * D.J)ᵀ *ᵥ fun b => a (.inl b)) s = 0 := by
    unfold Motion
    rw [and_iff_left (show ContactsFixed Jc (joined a q) from hcon)]
    unfold Dynamics
    constructor
    · intro hd
      constructor
      · intro v
        have := congrFun hd (vcOf v)
        simp only [Pi.add_apply] at this
        rw [hv, hact, ← hred] at this
        linarith
      · intro s
        have := congrFun hd (ncOf s)
        simp only [Pi.add_apply] at this
        rw [hn, hFn] at this
        have e : actuate (joinedTorque τR τN) (ncOf s) = τN s := rfl
        rw [e, ← hτ] at this
        simp only [Pi.add_apply] at this
        linarith
    · rintro ⟨h1, h2⟩
      have hvv : ∀ v, (A *ᵥ joined a q + Jcᵀ *ᵥ F + G) (vcOf v) = actuate (joinedTorque τR τN) (vcOf v) := fun v => by
        simp only [Pi.add_apply]
        rw [hv, hact, ← hred, h1]
        ring
      ext r
      rcases r with r | r | r
      · exact hvv (.inl r)
      · exact hvv (.inr r)
      · show (A *ᵥ joined a q) (ncOf r) + (Jcᵀ *ᵥ F) (ncOf r) + G (ncOf r) = τN r
        rw [hn, hFn, h2, ← hτ]
        simp only [Pi.add_apply]
        ring
  rw [key]
  constructor
  · rintro ⟨h1, h2⟩
    constructor
    · have h3 : D.Jᵀ *ᵥ (Kᵀ *ᵥ fun b => a (.inl b)) = 0 := by
        rw [mulVec_mulVec, ← transpose_mul]
        exact funext h2
      have h4 : D.JinvT * D.Jᵀ = 1 := by
        have := congrArg transpose hJJ
        rwa [transpose_mul, transpose_transpose, transpose_one] at this
      have h5 : Kᵀ *ᵥ (fun b => a (.inl b)) = 0 := by
        have := congrArg (D.JinvT *ᵥ ·) h3
        simp only [mulVec_zero] at this
        rwa [mulVec_mulVec, h4, one_mulVec] at this
      have h6 : Lᵀ * Kᵀ = 1 := by rw [← transpose_mul, hKL, transpose_one]
      have h7 := congrArg (Lᵀ *ᵥ ·) h5
      simp only [mulVec_zero] at h7
      rw [mulVec_mulVec, h6, one_mulVec] at h7
      exact fun b => congrFun h7 b
    · -- base rows of the coupling block
      have hb : (D.AR.submatrix vcOf ncOf).submatrix Sum.inl id = K := by
        have e : (D.AR.submatrix vcOf ncOf).submatrix Sum.inl id * D.J = K * D.J := by
          rw [← hK]
          ext r s
          exact congrFun (congrFun b2 (.inl r)) s
        have : (D.AR.submatrix vcOf ncOf).submatrix Sum.inl id * D.J * D.JinvTᵀ = K * D.J * D.JinvTᵀ := congrArg (· * D.JinvTᵀ) e
        rwa [Matrix.mul_assoc, Matrix.mul_assoc, hJJ, Matrix.mul_one, Matrix.mul_one] at this
      have h3 : K *ᵥ d = 0 := by
        rw [← hb]
        exact funext fun b => h1 (.inl b)
      have h4 := congrArg (L *ᵥ ·) h3
      simp only [mulVec_zero] at h4
      rwa [mulVec_mulVec, hLK, one_mulVec] at h4
  · rintro ⟨h1, rfl⟩
    refine ⟨fun v => by rw [mulVec_zero]; rfl, fun s => ?_⟩
    have : (fun b => a (.inl b)) = 0 := funext h1
    rw [this, mulVec_zero]
    rfl

end Motion

end Verif
