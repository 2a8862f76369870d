import Verif.Spec.Continuity
import Verif.Lemmas.CodRank
import Verif.Lemmas.Task
import Verif.Lemmas.ContactRank
import Verif.Model.Command

/-!
# Continuity of inverses and pseudo-inverses
-/

set_option linter.unusedSectionVars false

namespace Verif
open Matrix Topology Spec Model Filter

variable {X : Type*} [TopologicalSpace X] {x₀ : X}
variable {k m n : Type*} [Fintype k] [Fintype m] [Fintype n] [DecidableEq k] [DecidableEq m] [DecidableEq n]

theorem variesContinuously_of {V : Type*} [TopologicalSpace V] {f : X → Option V} {g : X → V} (hg : ContinuousAt g x₀)
    (h : ∀ᶠ x in 𝓝 x₀, f x = some (g x)) : VariesContinuously f x₀ := by
  refine ⟨g x₀, h.self_of_nhds, fun U hU => ?_⟩
  filter_upwards [h, hg hU] with x h1 h2
  exact ⟨g x, h2, h1⟩

theorem VariesContinuously.continuousAt {V : Type*} [TopologicalSpace V] {f : X → Option V} {g : X → V}
    (h : VariesContinuously f x₀) (hg : ∀ᶠ x in 𝓝 x₀, f x = some (g x)) : ContinuousAt g x₀ := by
  obtain ⟨v, hv, hU⟩ := h
  obtain rfl : v = g x₀ := Option.some.inj (hv.symm.trans hg.self_of_nhds)
  intro U hUn
  rw [mem_map]
  filter_upwards [hU U hUn, hg] with x ⟨w, hw, h1⟩ h2
  rw [h1] at h2
  obtain rfl := Option.some.inj h2
  exact hw

theorem cAt_mul {A : X → Matrix k m ℝ} {B : X → Matrix m n ℝ} (hA : ContinuousAt A x₀) (hB : ContinuousAt B x₀) :
    ContinuousAt (fun x => A x * B x) x₀ := by
  have : Continuous fun p : Matrix k m ℝ × Matrix m n ℝ => p.1 * p.2 := continuous_fst.matrix_mul continuous_snd
  exact this.continuousAt.comp (hA.prodMk hB)

theorem cAt_mulVec {A : X → Matrix k m ℝ} {v : X → m → ℝ} (hA : ContinuousAt A x₀) (hv : ContinuousAt v x₀) :
    ContinuousAt (fun x => A x *ᵥ v x) x₀ := by
  have : Continuous fun p : Matrix k m ℝ × (m → ℝ) => p.1 *ᵥ p.2 := continuous_fst.matrix_mulVec continuous_snd
  exact this.continuousAt.comp (hA.prodMk hv)

theorem cAt_transpose {A : X → Matrix k m ℝ} (hA : ContinuousAt A x₀) : ContinuousAt (fun x => (A x)ᵀ) x₀ := by
  have : Continuous fun M : Matrix k m ℝ => Mᵀ := continuous_id.matrix_transpose
  exact this.continuousAt.comp hA

theorem cAt_submatrix {k' m' : Type*} {A : X → Matrix k m ℝ} (hA : ContinuousAt A x₀) (f : k' → k) (g : m' → m) :
    ContinuousAt (fun x => (A x).submatrix f g) x₀ := by
  have : Continuous fun M : Matrix k m ℝ => M.submatrix f g := continuous_id.matrix_submatrix f g
  exact this.continuousAt.comp hA

theorem cAt_isUnit {A : X → Matrix n n ℝ} (hA : ContinuousAt A x₀) (hu : IsUnit (A x₀).det) :
    ∀ᶠ x in 𝓝 x₀, IsUnit (A x).det := by
  have hd : ContinuousAt (fun x => (A x).det) x₀ := by
    have : Continuous fun M : Matrix n n ℝ => M.det := continuous_id.matrix_det
    exact this.continuousAt.comp hA
  filter_upwards [hd.eventually_ne hu.ne_zero] with x hx
  exact isUnit_iff_ne_zero.mpr hx

theorem cAt_inv {A : X → Matrix n n ℝ} (hA : ContinuousAt A x₀) (hu : IsUnit (A x₀).det) :
    ContinuousAt (fun x => (A x)⁻¹) x₀ := by
  have hd : ContinuousAt (fun x => (A x).det) x₀ := by
    have : Continuous fun M : Matrix n n ℝ => M.det := continuous_id.matrix_det
    exact this.continuousAt.comp hA
  have ha : ContinuousAt (fun x => (A x).adjugate) x₀ := by
    have : Continuous fun M : Matrix n n ℝ => M.adjugate := continuous_id.matrix_adjugate
    exact this.continuousAt.comp hA
  have e : (fun x => (A x)⁻¹) = fun x => ((A x).det)⁻¹ • (A x).adjugate := by
    funext x
    rw [inv_def, Ring.inverse_eq_inv']
  rw [e]
  exact (hd.inv₀ hu.ne_zero).smul ha

/-! ### Pseudo-inverses -/

/-- `W W⁺` is the orthogonal projector on the range. -/
theorem isOProj_mul_pinv (W : Matrix n n ℝ) : IsOProj (W * pinv W) :=
  ⟨(pinv_spec W).symL, by rw [← Matrix.mul_assoc, (pinv_spec W).aba]⟩

theorem rank_mul_pinv (W : Matrix n n ℝ) : (W * pinv W).rank = W.rank := by
  refine le_antisymm (rank_mul_le_left _ _) ?_
  conv_lhs => rw [← (pinv_spec W).aba]
  exact rank_mul_le_left _ _

/-- An orthogonal projector has its rank as trace. -/
theorem IsOProj.trace_eq {P : Matrix n n ℝ} (h : IsOProj P) : P.trace = P.rank := by
  have hp : LinearMap.IsProj (LinearMap.range (Matrix.toLin' P)) (Matrix.toLin' P) := by
    refine ⟨fun x => ⟨x, rfl⟩, ?_⟩
    rintro _ ⟨y, rfl⟩
    simp only [Matrix.toLin'_apply, mulVec_mulVec, h.idem]
  have h1 := hp.trace
  rw [Matrix.trace_toLin'_eq] at h1
  rw [h1, Matrix.rank, Matrix.toLin'_apply']

/-- If a square matrix factors through its product, ranks bound each other. -/
theorem oproj_eq_of {P Q : Matrix n n ℝ} (hP : IsOProj P) (hQ : IsOProj Q) (h : Q * P = P) (hr : P.rank = Q.rank) : P = Q := by
  have h' : P * Q = P := by
    have := congrArg transpose h
    rwa [transpose_mul, hP.symm, hQ.symm] at this
  have hD : IsOProj (Q - P) := by
    refine ⟨by rw [transpose_sub, hP.symm, hQ.symm], ?_⟩
    rw [Matrix.sub_mul, Matrix.mul_sub, Matrix.mul_sub, hQ.idem, hP.idem, h, h', sub_self, sub_zero]
  have ht : (Q - P).trace = 0 := by rw [trace_sub, hP.trace_eq, hQ.trace_eq, hr, sub_self]
  have hz : Q - P = 0 := by
    have hE : IsOProj (1 - (Q - P)) := by
      refine ⟨by rw [transpose_sub, transpose_one, hD.symm], ?_⟩
      have := hD.idem
      generalize Q - P = D at this ⊢
      rw [Matrix.sub_mul, Matrix.mul_sub, Matrix.mul_sub, this]
      simp
    have := hE.eq_one (by rw [trace_sub, trace_one, ht, sub_zero])
    rwa [sub_eq_self] at this
  exact (sub_eq_zero.mp hz).symm

theorem pinv_comm {W : Matrix n n ℝ} (hs : Wᵀ = W) : pinv W * W = W * pinv W := by
  have := (pinv_spec W).symL
  rw [transpose_mul, hs, pinv_symm hs] at this
  exact this

/-- The pseudo-inverse of a symmetric matrix from the projector on its range. -/
theorem pinv_eq_inv {W : Matrix n n ℝ} (hs : Wᵀ = W) :
    IsUnit (W + (1 - W * pinv W)).det ∧ pinv W = (W + (1 - W * pinv W))⁻¹ - (1 - W * pinv W) := by
  have hc := pinv_comm hs
  have e : (W + (1 - W * pinv W)) * (pinv W + (1 - W * pinv W)) = 1 := by
    have h1 : W * (W * pinv W) = W := by rw [← hc, ← Matrix.mul_assoc, (pinv_spec W).aba]
    have h2 : W * pinv W * pinv W = pinv W := by rw [← hc, (pinv_spec W).bab]
    have h3 := (isOProj_mul_pinv W).idem
    rw [Matrix.add_mul, Matrix.mul_add, Matrix.mul_add, Matrix.mul_sub, Matrix.mul_one, h1, Matrix.sub_mul, Matrix.one_mul, h2,
      Matrix.mul_sub, Matrix.mul_one, Matrix.sub_mul, Matrix.one_mul, h3]
    abel
  refine ⟨isUnit_det_of_right_inverse e, ?_⟩
  rw [inv_eq_right_inv e]
  abel

/-- The pseudo-inverse of symmetric matrices is continuous where the rank does not change. -/
theorem cAt_pinv {W : X → Matrix n n ℝ} (hW : ContinuousAt W x₀) (hs : ∀ᶠ x in 𝓝 x₀, (W x)ᵀ = W x)
    (hr : ∀ᶠ x in 𝓝 x₀, (W x).rank = (W x₀).rank) : ContinuousAt (fun x => pinv (W x)) x₀ := by
  set W0 := W x₀ with hW0
  have hs0 : W0ᵀ = W0 := hs.self_of_nhds
  set N := 1 - W0 * pinv W0 with hN
  have hNW : N * W0 = 0 := by rw [hN, Matrix.sub_mul, (pinv_spec W0).aba, Matrix.one_mul, sub_self]
  have hWN : W0 * N = 0 := by
    rw [hN, Matrix.mul_sub, Matrix.mul_one, ← pinv_comm hs0, ← Matrix.mul_assoc, (pinv_spec W0).aba, sub_self]
  have hNN : N * N = N := by
    have h3 := (isOProj_mul_pinv W0).idem
    rw [hN, Matrix.sub_mul, Matrix.mul_sub, Matrix.mul_sub, h3]
    simp
  have hNs : Nᵀ = N := by rw [hN, transpose_sub, transpose_one, (isOProj_mul_pinv W0).symm]
  let M : X → Matrix n n ℝ := fun x => W0 * (W x * W x) * W0 + N
  have hMc : ContinuousAt M x₀ :=
    (cAt_mul (cAt_mul continuousAt_const (cAt_mul hW hW)) continuousAt_const).add continuousAt_const
  have hM0 : IsUnit (M x₀).det := by
    have hP : W0 * pinv W0 = 1 - N := by rw [hN]; abel
    have hNX : N * pinv W0 = 0 := by
      rw [hN, Matrix.sub_mul, ← pinv_comm hs0, (pinv_spec W0).bab, Matrix.one_mul, sub_self]
    have h2 : W0 * (W0 * pinv W0) = W0 := by rw [hP, Matrix.mul_sub, hWN, Matrix.mul_one, sub_zero]
    have h3 : ∀ Y, W0 * (pinv W0 * (pinv W0 * Y)) = pinv W0 * Y := by
      intro Y
      rw [← Matrix.mul_assoc, hP, Matrix.sub_mul, Matrix.one_mul, ← Matrix.mul_assoc N, hNX, Matrix.zero_mul, sub_zero]
    have h4 : W0 * (pinv W0 * pinv W0) = pinv W0 := by
      rw [← Matrix.mul_assoc, hP, Matrix.sub_mul, Matrix.one_mul, hNX, sub_zero]
    refine isUnit_det_of_right_inverse (B := pinv W0 * (pinv W0 * (pinv W0 * pinv W0)) + N) ?_
    show (W0 * (W0 * W0) * W0 + N) * _ = 1
    rw [Matrix.add_mul, Matrix.mul_add, Matrix.mul_add, hNN, ← Matrix.mul_assoc N, hNX, Matrix.zero_mul, zero_add]
    simp only [Matrix.mul_assoc]
    rw [h3, h3, h4, hP, hWN]
    simp
  have hMu := cAt_isUnit hMc hM0
  let P : X → Matrix n n ℝ := fun x => W x * W0 * (M x)⁻¹ * (W0 * W x)
  have hPc : ContinuousAt P x₀ :=
    cAt_mul (cAt_mul (cAt_mul hW continuousAt_const) (cAt_inv hMc hM0)) (cAt_mul continuousAt_const hW)
  have hPQ : ∀ᶠ x in 𝓝 x₀, P x = W x * pinv (W x) := by
    filter_upwards [hs, hr, hMu] with x hsx hrx hux
    have hMs : (M x)ᵀ = M x := by
      simp only [M, transpose_add, transpose_mul, hs0, hsx, hNs, Matrix.mul_assoc]
    have e1 : M x - N = W0 * (W x * W x) * W0 := by simp [M]
    have hNM : N * (M x) = N := by
      simp only [M, Matrix.mul_add, hNN, ← Matrix.mul_assoc, hNW, Matrix.zero_mul, zero_add]
    have hMN : (M x) * N = N := by
      simp only [M, Matrix.add_mul, hNN, Matrix.mul_assoc, hWN, Matrix.mul_zero, zero_add]
    have e2 : (M x)⁻¹ * N = N := by
      conv_lhs => rw [← hMN, ← Matrix.mul_assoc, nonsing_inv_mul _ hux, Matrix.one_mul]
    have e3 : (M x)⁻¹ * (W0 * (W x * W x) * W0) = 1 - N := by
      rw [← e1, Matrix.mul_sub, e2, nonsing_inv_mul _ hux]
    have e4 : (W x * W0) * (1 - N) = W x * W0 := by
      rw [Matrix.mul_sub, Matrix.mul_one, Matrix.mul_assoc, hWN, Matrix.mul_zero, sub_zero]
    have hPW : P x * (W x * W0) = W x * W0 := by
      calc P x * (W x * W0) = W x * W0 * ((M x)⁻¹ * (W0 * (W x * W x) * W0)) := by
            simp only [P, Matrix.mul_assoc]
        _ = W x * W0 := by rw [e3, e4]
    have hP : IsOProj (P x) := by
      refine ⟨?_, ?_⟩
      · simp only [P, transpose_mul, transpose_nonsing_inv, hMs, hs0, hsx, Matrix.mul_assoc]
      · calc P x * P x = P x * (W x * W0) * ((M x)⁻¹ * (W0 * W x)) := by
              conv_lhs => rhs; simp only [P]
              simp only [Matrix.mul_assoc]
          _ = P x := by rw [hPW]; simp only [P, Matrix.mul_assoc]
    refine oproj_eq_of hP (isOProj_mul_pinv _) ?_ ?_
    · simp only [P, ← Matrix.mul_assoc, (pinv_spec (W x)).aba]
    · rw [rank_mul_pinv]
      refine le_antisymm ?_ ?_
      · simp only [P, Matrix.mul_assoc]
        exact rank_mul_le_left _ _
      · rw [hrx]
        calc W0.rank = (W0 * pinv W0).rank := (rank_mul_pinv _).symm
          _ = ((M x)⁻¹ * (W0 * W x) * (W x * W0)).rank := by
            have : W0 * pinv W0 = 1 - N := by rw [hN]; abel
            rw [this, ← e3]
            simp only [Matrix.mul_assoc]
          _ ≤ (W x * W0).rank := rank_mul_le_right _ _
          _ = (P x * (W x * W0)).rank := by rw [hPW]
          _ ≤ (P x).rank := rank_mul_le_left _ _
  have hev : (fun x => (W x + (1 - P x))⁻¹ - (1 - P x)) =ᶠ[𝓝 x₀] fun x => pinv (W x) := by
    filter_upwards [hPQ, hs] with x h1 h2
    rw [h1]
    exact (pinv_eq_inv h2).2.symm
  refine ContinuousAt.congr ?_ hev
  have h1 : ContinuousAt (fun x => 1 - P x) x₀ := continuousAt_const.sub hPc
  refine (cAt_inv (hW.add h1) ?_).sub h1
  show IsUnit (W x₀ + (1 - P x₀)).det
  rw [hPQ.self_of_nhds]
  exact (pinv_eq_inv hs0).1

/-- Where the projectors on the range of symmetric matrices are continuous, the rank does not change. -/
theorem rank_const_of_cAt {W : X → Matrix n n ℝ} (h : ContinuousAt (fun x => W x * pinv (W x)) x₀) :
    ∀ᶠ x in 𝓝 x₀, (W x).rank = (W x₀).rank := by
  have ht : ContinuousAt (fun x => (W x * pinv (W x)).trace) x₀ := by
    have : Continuous fun M : Matrix n n ℝ => M.trace := continuous_id.matrix_trace
    exact this.continuousAt.comp h
  have e : (fun x => (W x * pinv (W x)).trace) = fun x => ((W x).rank : ℝ) := by
    funext x
    rw [(isOProj_mul_pinv _).trace_eq, rank_mul_pinv]
  rw [e] at ht
  have := ht (Metric.ball_mem_nhds _ one_pos)
  rw [mem_map] at this
  filter_upwards [this] with x hx
  have hx' : |((W x).rank : ℝ) - (W x₀).rank| < 1 := hx
  rw [abs_lt] at hx'
  have h1 : ((W x).rank : ℝ) < (W x₀).rank + 1 := by linarith
  have h2 : ((W x₀).rank : ℝ) < (W x).rank + 1 := by linarith
  norm_cast at h1 h2
  omega

end Verif
