import Verif.Lemmas.Continuity

/-!
# Continuity of the contact space and of the torques without QP
-/

set_option linter.unusedSectionVars false

namespace Verif
open Matrix Topology Spec Model Filter

variable {X : Type*} [TopologicalSpace X] {x₀ : X}
variable {ι : Type*} [Fintype ι] [DecidableEq ι] {c : ℕ}
variable {A : X → Matrix (Fin 6 ⊕ ι) (Fin 6 ⊕ ι) ℝ} {J : X → Matrix (Fin c) (Fin 6 ⊕ ι) ℝ} {G : X → Fin 6 ⊕ ι → ℝ}

/-- The contact space of state `x`, meaningful where the inverse exists. -/
noncomputable def csAt (A : X → Matrix (Fin 6 ⊕ ι) (Fin 6 ⊕ ι) ℝ) (J : X → Matrix (Fin c) (Fin 6 ⊕ ι) ℝ) (x : X) :
    ContactSpace c ι :=
  contactSpaceOf (J x) (A x)⁻¹ (J x * (A x)⁻¹ * (J x)ᵀ)⁻¹

section
variable (hA : ∀ x, IsSPD (A x)) (hAc : ContinuousAt A x₀) (hJc : ContinuousAt J x₀)
  (hu : IsUnit (J x₀ * (A x₀)⁻¹ * (J x₀)ᵀ).det)
include hA hAc hJc hu

theorem cAt_Ainv : ContinuousAt (fun x => (A x)⁻¹) x₀ := cAt_inv hAc (hA x₀).isUnit

theorem csAt_eventually : ∀ᶠ x in 𝓝 x₀, contactSpace (J x) (A x)⁻¹ = some (csAt A J x) := by
  have h := cAt_isUnit (cAt_mul (cAt_mul hJc (cAt_Ainv hA hAc hJc hu)) (cAt_transpose hJc)) hu
  filter_upwards [h] with x hx
  exact contactSpace_eq_some.mpr ⟨hx, rfl⟩

theorem cAt_lambda : ContinuousAt (fun x => (J x * (A x)⁻¹ * (J x)ᵀ)⁻¹) x₀ :=
  cAt_inv (cAt_mul (cAt_mul hJc (cAt_Ainv hA hAc hJc hu)) (cAt_transpose hJc)) hu

theorem cAt_Nc : ContinuousAt (fun x => (csAt A J x).Nc) x₀ :=
  continuousAt_const.sub (cAt_mul (cAt_transpose hJc)
    (cAt_mul (cAt_mul (cAt_lambda hA hAc hJc hu) hJc) (cAt_Ainv hA hAc hJc hu)))

theorem cAt_P : ContinuousAt (fun x => (csAt A J x).AinvNc) x₀ :=
  cAt_mul (cAt_Ainv hA hAc hJc hu) (cAt_Nc hA hAc hJc hu)

theorem cAt_W : ContinuousAt (fun x => (csAt A J x).W) x₀ :=
  cAt_submatrix (cAt_P hA hAc hJc hu) _ _

theorem rank_W_eventually : ∀ᶠ x in 𝓝 x₀, ((csAt A J x).W.rank + c = Fintype.card ι + (baseCols (J x)).rank) := by
  filter_upwards [csAt_eventually hA hAc hJc hu] with x hx
  have h1 := finrank_ker_W (hA x) hx
  have h2 := LinearMap.finrank_range_add_finrank_ker (csAt A J x).W.mulVecLin
  rw [Module.finrank_fintype_fun_eq_card] at h2
  have h3 : (csAt A J x).W.rank = Module.finrank ℝ (LinearMap.range (csAt A J x).W.mulVecLin) := rfl
  omega

theorem cAt_Winv (hr : ∀ᶠ x in 𝓝 x₀, (baseCols (J x)).rank = (baseCols (J x₀)).rank) :
    ContinuousAt (fun x => (csAt A J x).Winv) x₀ := by
  have h0 := (rank_W_eventually hA hAc hJc hu).self_of_nhds
  refine cAt_pinv (W := fun x => (csAt A J x).W) (cAt_W hA hAc hJc hu) ?_ ?_
  · filter_upwards [csAt_eventually hA hAc hJc hu] with x hx
    exact cs_W_symm (hA x) hx
  · filter_upwards [rank_W_eventually hA hAc hJc hu, hr] with x h1 h2
    omega

theorem cAt_gravity (hr : ∀ᶠ x in 𝓝 x₀, (baseCols (J x)).rank = (baseCols (J x₀)).rank) (hG : ContinuousAt G x₀) :
    ContinuousAt (fun x => gravityTorque (csAt A J x) (A x)⁻¹ (G x)) x₀ :=
  cAt_mulVec (cAt_Winv hA hAc hJc hu hr) (cAt_mulVec (cAt_submatrix (cAt_Ainv hA hAc hJc hu) _ _)
    (cAt_mulVec (cAt_Nc hA hAc hJc hu) hG))

theorem cAt_Tm {t : ℕ} {K : X → Matrix (Fin t) (Fin 6 ⊕ ι) ℝ} (hK : ContinuousAt K x₀) :
    ContinuousAt (fun x => Tm (csAt A J x) (K x)) x₀ :=
  cAt_mul (cAt_mul hK (cAt_P hA hAc hJc hu)) continuousAt_const

end

/-- Determining the base is an open condition. -/
theorem baseDetermined_eventually (hJc : ContinuousAt J x₀) (hB : BaseDetermined (J x₀)) :
    ∀ᶠ x in 𝓝 x₀, BaseDetermined (J x) := by
  have key : ∀ K : Matrix (Fin c) (Fin 6 ⊕ ι) ℝ, BaseDetermined K ↔ IsUnit ((baseCols K)ᵀ * baseCols K).det := by
    intro K
    unfold BaseDetermined
    simp only [mulVec_elim_zero]
    constructor
    · intro h
      refine mulVec_injective_det fun v hv => h v ?_
      rw [← mulVec_mulVec] at hv
      have : (baseCols K *ᵥ v) ⬝ᵥ (baseCols K *ᵥ v) = 0 := by
        rw [dot_transpose_mulVec, hv, zero_dotProduct]
      exact dotProduct_self_eq_zero.mp this
    · intro h v hv
      refine mulVec_eq_zero_of_isUnit h ?_
      rw [← mulVec_mulVec, hv, mulVec_zero]
  have hc : ContinuousAt (fun x => baseCols (J x)) x₀ := cAt_submatrix hJc _ _
  filter_upwards [cAt_isUnit (cAt_mul (cAt_transpose hc) hc) ((key _).mp hB)] with x hx
  exact (key _).mpr hx

/-- The torque of a stack of tasks varies continuously where the contacts determine the base and every task is finite. -/
theorem cAt_taskTorque (hA : ∀ x, IsSPD (A x)) (hAc : ContinuousAt A x₀) (hJc : ContinuousAt J x₀)
    (hu : IsUnit (J x₀ * (A x₀)⁻¹ * (J x₀)ᵀ).det) (hB : BaseDetermined (J x₀)) :
    ∀ (ts : List (TaskFam X ι)), (∀ T ∈ ts, ContinuousAt T.J x₀ ∧ ContinuousAt T.f x₀) →
      (calcTaskSpace (csAt A J x₀) (A x₀)⁻¹ (ts.map (·.at x₀))).isSome →
      ∃ g : X → ι → ℝ, ContinuousAt g x₀ ∧ ∀ᶠ x in 𝓝 x₀, ∃ rs,
        calcTaskSpace (csAt A J x) (A x)⁻¹ (ts.map (·.at x)) = some rs ∧ taskTorque (csAt A J x) rs = g x := by
  have hBe := baseDetermined_eventually hJc hB
  have hr : ∀ᶠ x in 𝓝 x₀, (baseCols (J x)).rank = (baseCols (J x₀)).rank := by
    filter_upwards [hBe] with x hx
    rw [(baseDetermined_iff_rank _).mp hx, (baseDetermined_iff_rank _).mp hB]
  have hSe := csAt_eventually hA hAc hJc hu
  intro ts
  induction ts with
  | nil =>
    intro _ _
    exact ⟨fun _ => 0, continuousAt_const, Eventually.of_forall fun x => ⟨[], rfl, rfl⟩⟩
  | cons T ts ih =>
    intro hc hdef
    obtain ⟨hTJ, hTf⟩ := hc T (by simp)
    obtain ⟨rs0, hrs0⟩ := Option.isSome_iff_exists.mp hdef
    simp only [calcTaskSpace, List.map_cons, List.mapM_cons, Option.pure_def, Option.bind_eq_bind,
      Option.bind_eq_some_iff, Option.some.injEq] at hrs0
    obtain ⟨R0, hR0, rs', hrs', rfl⟩ := hrs0
    obtain ⟨g, hg, hge⟩ := ih (fun T hT => hc T (by simp [hT])) (Option.isSome_iff_exists.mpr ⟨rs', hrs'⟩)
    have hS0 := hSe.self_of_nhds
    have hL0 : IsUnit (T.J x₀ * (csAt A J x₀).AinvNc * (T.J x₀)ᵀ).det := ((jkt_eq_some hS0).mp hR0).1
    have hLc : ContinuousAt (fun x => T.J x * (csAt A J x).AinvNc * (T.J x)ᵀ) x₀ :=
      cAt_mul (cAt_mul hTJ (cAt_P hA hAc hJc hu)) (cAt_transpose hTJ)
    have hTm := cAt_Tm hA hAc hJc hu hTJ
    let K : X → Matrix ι (Fin T.t) ℝ := fun x =>
      (csAt A J x).Winv * (Tm (csAt A J x) (T.J x))ᵀ * (T.J x * (csAt A J x).AinvNc * (T.J x)ᵀ)⁻¹
    have hK : ContinuousAt K x₀ :=
      cAt_mul (cAt_mul (cAt_Winv hA hAc hJc hu hr) (cAt_transpose hTm)) (cAt_inv hLc hL0)
    refine ⟨fun x => K x *ᵥ T.f x + (1 - K x * Tm (csAt A J x) (T.J x)) *ᵥ g x,
      (cAt_mulVec hK hTf).add (cAt_mulVec (continuousAt_const.sub (cAt_mul hK hTm)) hg), ?_⟩
    filter_upwards [hSe, hBe, hge, cAt_isUnit hLc hL0] with x hS hBx ⟨rs, hrs, hgx⟩ hL
    obtain ⟨R, hR⟩ : ∃ R, calculateJKT (csAt A J x) (A x)⁻¹ (T.at x) = some R := ⟨_, (jkt_eq_some hS).mpr ⟨hL, rfl⟩⟩
    have hRT : R.toTaskIn = T.at x := by rw [((jkt_eq_some hS).mp hR).2]
    refine ⟨R :: rs, ?_, ?_⟩
    · simp only [calcTaskSpace, List.map_cons, List.mapM_cons, Option.pure_def, Option.bind_eq_bind]
      rw [hR]
      have : List.mapM (calculateJKT (csAt A J x) (A x)⁻¹) (ts.map (·.at x)) = some rs := hrs
      rw [Option.bind_some, this]
      rfl
    · rw [taskTorque_cons, hgx, (Km_eq (hA x) hS hBx hR).1]
      obtain ⟨⟨t, RJ, Rf⟩, RΛ, RK⟩ := R
      simp only at hRT
      unfold TaskFam.at at hRT
      obtain ⟨rfl, h2, h3⟩ := TaskIn.mk.inj hRT
      obtain rfl := eq_of_heq h2
      obtain rfl := eq_of_heq h3
      rfl

end Verif
