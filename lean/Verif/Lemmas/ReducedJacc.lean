import Verif.Model.ReducedJacc
import Verif.Lemmas.JaccStack
import Verif.Lemmas.ReducedTask
import Verif.Props.Reduced

/-!
# The joint-acceleration QP of the reduced model: motions of the reduced system and of the robot
-/
set_option linter.unusedSectionVars false

namespace Verif
open Matrix Verif.Spec Verif.Model Verif.Props

section Pass
variable {κ ν : Type} [Fintype κ] [DecidableEq κ] [Fintype ν] [DecidableEq ν] {c : ℕ}
  {D : Reduced κ ν} {Jc : Matrix (Fin c) (RSys κ ν) ℝ} {cs : List ContactLink} {solve : JSolver}

theorem rjaccCall_low (ts : List (RJTask κ ν c)) (j : ℕ) :
    (rjaccCall D Jc cs solve ts j).map (fun x => (x.1, x.2.map (RJTask.low D))) =
      jaccCallWith rjBound (rjRows cs c) (rjRobot D Jc cs) solve (ts.map (RJTask.low D)) j := by
  unfold rjaccCall jaccCallWith
  rw [List.getElem?_map]
  rcases hT : ts[j]? with _ | T
  · rfl
  simp only [Option.map_some]
  rw [← List.map_take]
  rcases jPrevs ((ts.take j).map (RJTask.low D)) with _ | prev
  · rfl
  rcases rjRows cs c with _ | ⟨m, M⟩
  · rfl
  simp only
  rcases hx : solve j _ _ (jaccQP rjBound (rjRobot D Jc cs) M prev T.t (T.J * D.JRinvTᵀ) T.f) with _ | x
  · have hx' : solve j _ _ (jaccQP rjBound (rjRobot D Jc cs) M prev (T.low D).t (T.low D).J (T.low D).f) = none := hx
    simp only [hx', Option.map_some]
  · have hx' : solve j _ _ (jaccQP rjBound (rjRobot D Jc cs) M prev (T.low D).t (T.low D).J (T.low D).f) = some x := hx
    simp only [hx', Option.map_some, List.map_set]
    rfl

theorem rjaccPass_low (ts : List (RJTask κ ν c)) : ∀ k : ℕ,
    (rjaccPass D Jc cs solve ts k).map (fun x => (x.1, x.2.map (RJTask.low D))) =
      jaccPassWith (jaccCallWith rjBound (rjRows cs c) (rjRobot D Jc cs) solve) (ts.map (RJTask.low D)) k
  | 0 => rfl
  | k + 1 => by
    unfold rjaccPass jaccPassWith
    rw [← rjaccPass_low ts k]
    rcases rjaccPass D Jc cs solve ts k with _ | ⟨ok, ts'⟩
    · rfl
    simp only [Option.map_some]
    rw [← rjaccCall_low]
    rcases rjaccCall D Jc cs solve ts' k with _ | ⟨ok', ts''⟩ <;> rfl

/-- A call changes nothing but the answer of the task solved. -/
theorem rjaccCall_keeps {ts ts' : List (RJTask κ ν c)} {j : ℕ} {ok : Bool} (h : rjaccCall D Jc cs solve ts j = some (ok, ts')) :
    ∀ (i : ℕ) (T' : RJTask κ ν c), ts'[i]? = some T' → ∃ T q o, ts[i]? = some T ∧ T' = { T with fqp := q, out := o } := by
  unfold rjaccCall at h
  split at h
  · cases h
  rename_i T hT
  split at h
  · split at h
    · simp only [Option.some.injEq, Prod.mk.injEq] at h
      obtain ⟨-, rfl⟩ := h
      exact fun i T' h => ⟨T', T'.fqp, T'.out, h, rfl⟩
    · rename_i x _
      simp only [Option.some.injEq, Prod.mk.injEq] at h
      obtain ⟨-, rfl⟩ := h
      obtain ⟨hk, -⟩ := List.getElem?_eq_some_iff.mp hT
      intro i T' h
      by_cases hi : i = j
      · subst hi
        rw [List.getElem?_set_self hk] at h
        simp only [Option.some.injEq] at h
        subst h
        exact ⟨T, _, _, hT, rfl⟩
      · rw [List.getElem?_set_ne (Ne.symm hi)] at h
        exact ⟨T', T'.fqp, T'.out, h, rfl⟩
  · cases h

theorem rjaccPass_keeps (ts : List (RJTask κ ν c)) : ∀ (k : ℕ) (ok : Bool) (ts' : List (RJTask κ ν c)),
    rjaccPass D Jc cs solve ts k = some (ok, ts') → ∀ (i : ℕ) (T' : RJTask κ ν c), ts'[i]? = some T' →
      ∃ T q o, ts[i]? = some T ∧ T' = { T with fqp := q, out := o }
  | 0, ok, ts', h => by
    simp only [rjaccPass, Option.some.injEq, Prod.mk.injEq] at h
    obtain ⟨-, rfl⟩ := h
    exact fun i T' h => ⟨T', T'.fqp, T'.out, h, rfl⟩
  | k + 1, ok, ts', h => by
    unfold rjaccPass at h
    split at h
    · cases h
    rename_i ok1 ts1 h1
    split at h
    · cases h
    rename_i ok2 ts2 h2
    simp only [Option.some.injEq, Prod.mk.injEq] at h
    obtain ⟨-, rfl⟩ := h
    intro i T' hT'
    obtain ⟨T1, q1, o1, hT1, rfl⟩ := rjaccCall_keeps h2 i T' hT'
    obtain ⟨T, q, o, hT, rfl⟩ := rjaccPass_keeps ts k _ _ h1 i T1 hT1
    exact ⟨T, q1, o1, hT, rfl⟩

end Pass

section Motion
variable {κ ν : Type*} [Fintype κ] [DecidableEq κ] [Fintype ν] [DecidableEq ν] {c : ℕ}
variable {A : Matrix (RSys κ ν) (RSys κ ν) ℝ} {J : Matrix (Fin 6) ν ℝ} {G : RSys κ ν → ℝ} {D : Reduced κ ν}
  {Jc : Matrix (Fin c) (RSys κ ν) ℝ} {SI : Mat6} {R : Mat3}

/-- the torque of the reduced system a torque of the robot amounts to -/
def lowTorque (D : Reduced κ ν) (τ : κ ⊕ ν → ℝ) : κ ⊕ Fin 6 → ℝ :=
  Sum.elim (fun i => τ (.inl i)) (D.JinvT *ᵥ fun j => τ (.inr j))

theorem JRinvT_actuate (h : reduce vcOf ncOf A⁻¹ J G = some D) (τ : κ ⊕ ν → ℝ) :
    D.JRinvT *ᵥ actuate τ = actuate (lowTorque D τ) := by
  obtain ⟨-, -, -, -, -, -, e6, -⟩ := reduce_eq_some h
  rw [e6, blk_mulVec]
  ext a
  rcases a with a | a | a <;> rfl

theorem JRinvT_contact (h : reduce vcOf ncOf A⁻¹ J G = some D) (h0 : ∀ r j, Jc r (ncOf j) = 0) (F : Fin c → ℝ) :
    D.JRinvT *ᵥ (Jcᵀ *ᵥ F) = (jCR Jc)ᵀ *ᵥ F := by
  obtain ⟨-, -, -, -, -, -, e6, -⟩ := reduce_eq_some h
  rw [e6, blk_mulVec]
  have hz : (fun j => (Jcᵀ *ᵥ F) (ncOf j)) = 0 := by
    ext j
    simp [mulVec, dotProduct, h0]
  rw [hz, mulVec_zero]
  ext a
  rcases a with a | a | a
  · rfl
  · rfl
  · simp [mulVec, dotProduct, jCR]

theorem JRinvT_gravity (h : reduce vcOf ncOf A⁻¹ J G = some D) : D.JRinvT *ᵥ G = D.GR := by
  obtain ⟨-, -, -, -, -, -, e6, e7, -⟩ := reduce_eq_some h
  rw [e6, blk_mulVec, e7]

/-- inertia of the reduced system and of the robot -/
theorem AR_mul_JR (hA : IsSPD A) (hR : R * Rᵀ = 1) (hJ : jInc SI R (baseNc A) = some J)
    (hcpl : ∀ (i : κ) (j : ν), A (.inr (.inl i)) (.inr (.inr j)) = 0) (h : reduce vcOf ncOf A⁻¹ J G = some D) :
    D.AR * D.JR = D.JRinvT * A := by
  rw [(C40_consistent_inverse hA hR hJ hcpl h).1, Matrix.mul_assoc _ A⁻¹, hA.inv_mul, Matrix.mul_one]

/-- Every motion of the robot is one of the reduced system. -/
theorem motion_low (hA : IsSPD A) (hR : R * Rᵀ = 1) (hJ : jInc SI R (baseNc A) = some J)
    (hcpl : ∀ (i : κ) (j : ν), A (.inr (.inl i)) (.inr (.inr j)) = 0) (h : reduce vcOf ncOf A⁻¹ J G = some D)
    (h0 : ∀ r j, Jc r (ncOf j) = 0) {τ : κ ⊕ ν → ℝ} {qdd : RSys κ ν → ℝ} {F : Fin c → ℝ} (hm : Motion A Jc G τ qdd F) :
    Motion D.AR (jCR Jc) D.GR (lowTorque D τ) (D.JR *ᵥ qdd) F := by
  constructor
  · have e := congrArg (D.JRinvT *ᵥ ·) hm.1
    simp only [mulVec_add] at e
    rw [JRinvT_actuate h, JRinvT_contact h h0, JRinvT_gravity h, mulVec_mulVec, ← AR_mul_JR hA hR hJ hcpl h, ← mulVec_mulVec] at e
    exact e
  · unfold ContactsFixed
    rw [mulVec_mulVec, (reduce_eq_some h).2.1, jCR_mul_jR h0]
    exact hm.2

/-- Conversely, a torque that amounts to the torque of a motion of the reduced system moves the robot that way. -/
theorem motion_lift (hA : IsSPD A) (hR : R * Rᵀ = 1) (hJ : jInc SI R (baseNc A) = some J)
    (hcpl : ∀ (i : κ) (j : ν), A (.inr (.inl i)) (.inr (.inr j)) = 0) (h : reduce vcOf ncOf A⁻¹ J G = some D)
    (h0 : ∀ r j, Jc r (ncOf j) = 0) {τ : κ ⊕ ν → ℝ} {a : RSys κ (Fin 6) → ℝ} {F : Fin c → ℝ}
    (hm : Motion D.AR (jCR Jc) D.GR (lowTorque D τ) a F) :
    ∃ qdd, Motion A Jc G τ qdd F ∧ D.JR *ᵥ qdd = a := by
  have hd : A *ᵥ (A⁻¹ *ᵥ (actuate τ - Jcᵀ *ᵥ F - G)) = actuate τ - Jcᵀ *ᵥ F - G := by
    rw [mulVec_mulVec, hA.mul_inv, one_mulVec]
  have hAR := (C40_projection hA h).2.2
  have ha : D.JR *ᵥ (A⁻¹ *ᵥ (actuate τ - Jcᵀ *ᵥ F - G)) = a := by
    have e : D.AR *ᵥ (D.JR *ᵥ (A⁻¹ *ᵥ (actuate τ - Jcᵀ *ᵥ F - G))) = D.AR *ᵥ a := by
      rw [mulVec_mulVec, AR_mul_JR hA hR hJ hcpl h, ← mulVec_mulVec, hd, mulVec_sub, mulVec_sub, JRinvT_actuate h,
        JRinvT_contact h h0, JRinvT_gravity h, ← hm.1]
      abel
    have inj : ∀ v, D.AR⁻¹ *ᵥ (D.AR *ᵥ v) = v := fun v => by rw [mulVec_mulVec, hAR.inv_mul, one_mulVec]
    rw [← inj (D.JR *ᵥ _), e, inj]
  refine ⟨_, ⟨?_, ?_⟩, ha⟩
  · unfold Dynamics
    rw [hd]; abel
  · unfold ContactsFixed
    have := hm.2
    unfold ContactsFixed at this
    rw [← ha, mulVec_mulVec, (reduce_eq_some h).2.1, jCR_mul_jR h0] at this
    exact this

/-- The acceleration of a contact-chain task is a function of the acceleration of the reduced system. -/
theorem chain_task_acc (h : reduce vcOf ncOf A⁻¹ J G = some D) {t : ℕ} {T : Matrix (Fin t) (RSys κ ν) ℝ}
    (hT : ∀ r j, T r (ncOf j) = 0) (qdd : RSys κ ν → ℝ) : T *ᵥ qdd = (T * D.JRinvTᵀ) *ᵥ (D.JR *ᵥ qdd) := by
  obtain ⟨-, e1, -, -, -, -, e6, -⟩ := reduce_eq_some h
  have e : T * D.JRinvTᵀ = jCR T := by
    rw [e6, blk_transpose]
    ext r a
    rw [Matrix.mul_apply]
    rcases a with a | a | a
    · simp [blk, Fintype.sum_sum_type, jCR, vcOf, Matrix.one_apply]
    · simp [blk, Fintype.sum_sum_type, jCR, vcOf, Matrix.one_apply]
    · have := hT r
      simp only [ncOf] at this
      simp [blk, Fintype.sum_sum_type, jCR, this]
  rw [e, e1, mulVec_mulVec, jCR_mul_jR hT]

theorem lowTorque_assemble (hA : IsSPD A) (hR : R * Rᵀ = 1) (hJ : jInc SI R (baseNc A) = some J)
    (hcpl : ∀ (i : κ) (j : ν), A (.inr (.inl i)) (.inr (.inr j)) = 0) (h : reduce vcOf ncOf A⁻¹ J G = some D)
    (τR : κ ⊕ Fin 6 → ℝ) (τN : ν → ℝ) : lowTorque D (assembleTorque D τR τN) = τR := by
  obtain ⟨-, e1, -, e3, -, -, e6, -, -, hN⟩ := reduce_eq_some h
  have hr := (C40_consistent_inverse hA hR hJ hcpl h).2.1
  rw [e6, e1, jR_eq, blk_transpose, blk_mul, ← blk_one] at hr
  obtain ⟨-, -, -, h4⟩ := blk_inj hr
  have h5 : D.JinvT * D.Jᵀ = 1 := by rw [e3]; simpa using h4
  ext j
  rcases j with j | s
  · rfl
  · have : (fun j => assembleTorque D τR τN (.inr j)) = D.Jᵀ *ᵥ (fun s => τR (.inr s)) + D.N *ᵥ τN := rfl
    simp only [lowTorque, Sum.elim_inr]
    rw [this, mulVec_add, mulVec_mulVec, h5, one_mulVec, mulVec_mulVec, hN, ← e3, Matrix.mul_sub, Matrix.mul_one,
      ← Matrix.mul_assoc, h5, Matrix.one_mul, sub_self, zero_mulVec, add_zero]

theorem motion_unique {ι : Type*} [Fintype ι] {A : Matrix (Fin 6 ⊕ ι) (Fin 6 ⊕ ι) ℝ} (hA : IsSPD A)
    {Jc : Matrix (Fin c) (Fin 6 ⊕ ι) ℝ} {G : Fin 6 ⊕ ι → ℝ} {τ : ι → ℝ} {q q' : Fin 6 ⊕ ι → ℝ} {F F' : Fin c → ℝ}
    (h : Motion A Jc G τ q F) (h' : Motion A Jc G τ q' F') : q = q' ∧ Jcᵀ *ᵥ F = Jcᵀ *ᵥ F' := by
  have e : A *ᵥ (q - q') + Jcᵀ *ᵥ (F - F') = 0 := by
    have h1 := h.1
    have h2 := h'.1
    unfold Dynamics at h1 h2
    rw [mulVec_sub, mulVec_sub]
    have := h1.trans h2.symm
    have e3 : A *ᵥ q - A *ᵥ q' + (Jcᵀ *ᵥ F - Jcᵀ *ᵥ F') = (A *ᵥ q + Jcᵀ *ᵥ F + G) - (A *ᵥ q' + Jcᵀ *ᵥ F' + G) := by abel
    rw [e3, this, sub_self]
  have hz : (q - q') ⬝ᵥ (Jcᵀ *ᵥ (F - F')) = 0 := by
    have h1 : Jc *ᵥ (q - q') = 0 := by
      rw [mulVec_sub, h.2, h'.2, sub_self]
    rw [dotProduct_mulVec, vecMul_transpose, h1, zero_dotProduct]
  have hq : q - q' = 0 := by
    by_contra hne
    have hp := hA.pos _ hne
    have := congrArg ((q - q') ⬝ᵥ ·) e
    simp only [dotProduct_add, hz, add_zero, dotProduct_zero] at this
    linarith
  refine ⟨sub_eq_zero.mp hq, ?_⟩
  rw [hq, mulVec_zero, zero_add, mulVec_sub, sub_eq_zero] at e
  exact e

/-- With the weight of the free joints carried in the null space, the robot moves as the reduced system says. -/
theorem motion_free (hA : IsSPD A) (hR : R * Rᵀ = 1) (hJ : jInc SI R (baseNc A) = some J)
    (hcpl : ∀ (i : κ) (j : ν), A (.inr (.inl i)) (.inr (.inr j)) = 0) (h : reduce vcOf ncOf A⁻¹ J G = some D)
    (h0 : ∀ r j, Jc r (ncOf j) = 0) {τR : κ ⊕ Fin 6 → ℝ} {a : RSys κ (Fin 6) → ℝ} {F : Fin c → ℝ}
    (hm : Motion D.AR (jCR Jc) D.GR τR a F) :
    Motion A Jc G (assembleTorque D τR D.GNC) (D.JRinvTᵀ *ᵥ a) F := by
  obtain ⟨hs, e1, e2, e3, e4, e5, e6, e7, e8, hN⟩ := reduce_eq_some h
  obtain ⟨hc, hr, -, -⟩ := C40_consistent_inverse hA hR hJ hcpl h
  have hAR := (C40_projection hA h).2.2
  have hjr : D.JR = blk 1 0 0 D.J := by rw [e1, jR_eq, e3]
  have hcr : jCR Jc * D.JR = Jc := by rw [e1]; exact jCR_mul_jR h0 J
  have hkeep : D.JR *ᵥ (D.JRinvTᵀ *ᵥ a) = a := by
    have := congrArg transpose hr
    rw [transpose_mul, transpose_transpose, transpose_one] at this
    rw [mulVec_mulVec, this, one_mulVec]
  have hAq : A *ᵥ (D.JRinvTᵀ *ᵥ a) = D.JRᵀ *ᵥ (D.AR *ᵥ a) := by
    have : A * D.JRinvTᵀ = D.JRᵀ * D.AR := by
      have := congrArg transpose (AR_mul_JR hA hR hJ hcpl h)
      rw [transpose_mul, transpose_mul, hA.symm, hAR.symm] at this
      exact this.symm
    rw [mulVec_mulVec, this, ← mulVec_mulVec]
  have hac : D.AR *ᵥ a = actuate τR - (jCR Jc)ᵀ *ᵥ F - D.GR := by
    have := hm.1
    unfold Dynamics at this
    rw [← this]; abel
  constructor
  · unfold Dynamics
    have hF : D.JRᵀ *ᵥ ((jCR Jc)ᵀ *ᵥ F) = Jcᵀ *ᵥ F := by rw [mulVec_mulVec, ← transpose_mul, hcr]
    rw [hAq, hac, mulVec_sub, mulVec_sub, hF]
    have key : D.JRᵀ *ᵥ actuate τR - D.JRᵀ *ᵥ D.GR + G = actuate (assembleTorque D τR D.GNC) := by
      rw [hjr, blk_transpose, transpose_one, transpose_zero, transpose_zero, blk_mulVec, blk_mulVec]
      ext x
      rcases x with x | x | x
      · simp [e7, actuate, vcOf]
      · simp [e7, actuate, vcOf, assembleTorque]
      · have eg : (fun j => D.GR (ncOf j)) = D.JinvT *ᵥ fun j => G (ncOf j) := by rw [e7]; rfl
        have eN : D.GNC = fun j => G (ncOf j) := funext e8
        have : (D.N *ᵥ D.GNC) x = G (ncOf x) - (D.Jᵀ *ᵥ (D.JinvT *ᵥ fun j => G (ncOf j))) x := by
          rw [hN, ← e3, eN, sub_mulVec, one_mulVec, mulVec_mulVec]; rfl
        simp only [Pi.add_apply, Pi.sub_apply, Function.comp_apply, Equiv.sumAssoc_symm_apply_inr_inr, Sum.elim_inr, eg, actuate,
          assembleTorque, this]
        simp only [ncOf, Sum.elim_inr]
        ring
    rw [← key]; abel
  · unfold ContactsFixed
    rw [← hcr, ← mulVec_mulVec, hkeep]
    exact hm.2

/-- The reduced system needs at most the effort of the robot. -/
theorem effort_low (hA : IsSPD A) (hR : R * Rᵀ = 1) (hJ : jInc SI R (baseNc A) = some J)
    (hcpl : ∀ (i : κ) (j : ν), A (.inr (.inl i)) (.inr (.inr j)) = 0) (h : reduce vcOf ncOf A⁻¹ J G = some D)
    (q : RSys κ ν → ℝ) : (D.JR *ᵥ q) ⬝ᵥ (D.AR *ᵥ (D.JR *ᵥ q)) ≤ q ⬝ᵥ (A *ᵥ q) ∧
      ∀ a, (D.JRinvTᵀ *ᵥ a) ⬝ᵥ (A *ᵥ (D.JRinvTᵀ *ᵥ a)) = a ⬝ᵥ (D.AR *ᵥ a) := by
  obtain ⟨hc, hr, -, -⟩ := C40_consistent_inverse hA hR hJ hcpl h
  have hAR := (C40_projection hA h).2.2
  have hkeep : ∀ a, D.JR *ᵥ (D.JRinvTᵀ *ᵥ a) = a := fun a => by
    have := congrArg transpose hr
    rw [transpose_mul, transpose_transpose, transpose_one] at this
    rw [mulVec_mulVec, this, one_mulVec]
  have hAq : ∀ a, A *ᵥ (D.JRinvTᵀ *ᵥ a) = D.JRᵀ *ᵥ (D.AR *ᵥ a) := fun a => by
    have : A * D.JRinvTᵀ = D.JRᵀ * D.AR := by
      have := congrArg transpose (AR_mul_JR hA hR hJ hcpl h)
      rw [transpose_mul, transpose_mul, hA.symm, hAR.symm] at this
      exact this.symm
    rw [mulVec_mulVec, this, ← mulVec_mulVec]
  have hsq : ∀ a, (D.JRinvTᵀ *ᵥ a) ⬝ᵥ (A *ᵥ (D.JRinvTᵀ *ᵥ a)) = a ⬝ᵥ (D.AR *ᵥ a) := fun a => by
    rw [hAq, dotProduct_mulVec, vecMul_transpose, hkeep]
  refine ⟨?_, hsq⟩
  set a := D.JR *ᵥ q with ha
  set z := q - D.JRinvTᵀ *ᵥ a with hz
  have hz0 : D.JR *ᵥ z = 0 := by rw [hz, mulVec_sub, hkeep, sub_self]
  have hq : q = D.JRinvTᵀ *ᵥ a + z := by rw [hz]; abel
  have hx : z ⬝ᵥ (A *ᵥ (D.JRinvTᵀ *ᵥ a)) = 0 := by
    rw [hAq, dotProduct_mulVec, vecMul_transpose, hz0, zero_dotProduct]
  have hx' : (D.JRinvTᵀ *ᵥ a) ⬝ᵥ (A *ᵥ z) = 0 := by
    rw [dotProduct_mulVec, ← mulVec_transpose, hA.symm, dotProduct_comm, hx]
  have hp : 0 ≤ z ⬝ᵥ (A *ᵥ z) := by
    by_cases hz : z = 0
    · simp [hz]
    · exact (hA.pos z hz).le
  rw [hq, mulVec_add, dotProduct_add, add_dotProduct, add_dotProduct, hsq, hx, hx']
  linarith

end Motion

end Verif
