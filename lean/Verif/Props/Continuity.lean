import Verif.Lemmas.ContinuityContact
import Verif.Model.Command
import Verif.Model.Redistribute
import Verif.Lemmas.Redistribute
import Verif.Props.Contact
import Verif.Props.QPFail

/-!
# C78: the torque command varies continuously with the state
-/

set_option linter.unusedSectionVars false

namespace Verif.Props
open Matrix Topology Filter Verif Verif.Spec Verif.Model

section General
variable {X : Type*} [TopologicalSpace X] {x₀ : X} {ι : Type*} [Fintype ι] [DecidableEq ι] {c : ℕ}
variable {A : X → Matrix (Fin 6 ⊕ ι) (Fin 6 ⊕ ι) ℝ} {J : X → Matrix (Fin c) (Fin 6 ⊕ ι) ℝ}

/-- gravity compensation of a load on the joints alone is the projection of the load -/
theorem gravity_actuate {A : Matrix (Fin 6 ⊕ ι) (Fin 6 ⊕ ι) ℝ} {J : Matrix (Fin c) (Fin 6 ⊕ ι) ℝ} {S : ContactSpace c ι}
    (hS : contactSpace J A⁻¹ = some S) (g : ι → ℝ) :
    gravityTorque S A⁻¹ (actuate g) = (pinv S.W * S.W) *ᵥ g := by
  rw [gravityTorque, actuate_eq, ← sel_mul, cs_Winv hS, mulVec_mulVec, mulVec_mulVec, mulVec_mulVec]
  have e : Sel ι * (A⁻¹ * (S.Nc * (Sel ι)ᵀ)) = S.W := by
    rw [cs_W hS, cs_P hS]
    simp only [Matrix.mul_assoc]
  simp only [Matrix.mul_assoc]
  rw [e]

/-- C78 (gravity compensation, exactly).  Where mass matrix and contact Jacobian vary continuously and the contacts are
independent, gravity compensation varies continuously for every load that does so if and only if the number of base motions
the contacts allow does not change. -/
theorem C78_gravity_iff (hA : ∀ x, IsSPD (A x)) (hAc : ContinuousAt A x₀) (hJc : ContinuousAt J x₀)
    (hI : IndependentRows (J x₀)) :
    (∀ G : X → Fin 6 ⊕ ι → ℝ, ContinuousAt G x₀ → VariesContinuously (fun x => gravityCommand (J x) (A x)⁻¹ (G x)) x₀) ↔
      ∀ᶠ x in 𝓝 x₀, (baseCols (J x)).rank = (baseCols (J x₀)).rank := by
  have hu : IsUnit (J x₀ * (A x₀)⁻¹ * (J x₀)ᵀ).det := (hA x₀).inv.conj_isUnit_iff.mpr hI
  have hev := csAt_eventually hA hAc hJc hu
  constructor
  · intro h
    have key : ContinuousAt (fun x => (csAt A J x).W * pinv (csAt A J x).W) x₀ := by
      refine continuousAt_pi.mpr fun i => continuousAt_pi.mpr fun j => ?_
      have h1 := Verif.VariesContinuously.continuousAt (h (fun _ => actuate (Pi.single j 1)) continuousAt_const)
        (g := fun x => gravityTorque (csAt A J x) (A x)⁻¹ (actuate (Pi.single j 1))) (by
          filter_upwards [hev] with x hx
          rw [gravityCommand, hx]; rfl)
      have h2 := (continuousAt_pi.mp h1) i
      refine h2.congr ?_
      filter_upwards [hev] with x hx
      rw [gravity_actuate hx, pinv_comm (cs_W_symm (hA x) hx)]
      simp
    have hW := rank_const_of_cAt key
    have h0 := (rank_W_eventually hA hAc hJc hu).self_of_nhds
    filter_upwards [hW, rank_W_eventually hA hAc hJc hu] with x h1 h2
    omega
  · intro hr G hG
    refine variesContinuously_of (cAt_gravity hA hAc hJc hu hr hG) ?_
    filter_upwards [hev] with x hx
    rw [gravityCommand, hx]; rfl

/-- C78 (control without QP).  Where the contacts are independent and hold the base, and all tasks can be computed, gravity
compensation with a task stack of any height varies continuously. -/
theorem C78_command_partial (hA : ∀ x, IsSPD (A x)) (hAc : ContinuousAt A x₀) (hJc : ContinuousAt J x₀)
    (hB : BaseDetermined (J x₀)) {G : X → Fin 6 ⊕ ι → ℝ} (hG : ContinuousAt G x₀) (ts : List (TaskFam X ι))
    (hts : ∀ T ∈ ts, ContinuousAt T.J x₀ ∧ ContinuousAt T.f x₀)
    (h0 : (closedCommand (J x₀) (A x₀)⁻¹ (G x₀) (ts.map (·.at x₀))).isSome) :
    VariesContinuously (fun x => closedCommand (J x) (A x)⁻¹ (G x) (ts.map (·.at x))) x₀ := by
  obtain ⟨S, hS⟩ : ∃ S, contactSpace (J x₀) (A x₀)⁻¹ = some S := by
    rcases h : contactSpace (J x₀) (A x₀)⁻¹ with _ | S
    · rw [closedCommand, h] at h0; simp at h0
    · exact ⟨S, rfl⟩
  have hu := cs_unit hS
  have hev := csAt_eventually hA hAc hJc hu
  have hS0 : S = csAt A J x₀ := Option.some.inj (hS.symm.trans hev.self_of_nhds)
  subst hS0
  obtain ⟨g, hg, hge⟩ := cAt_taskTorque hA hAc hJc hu hB ts hts (by
    rw [closedCommand, hS] at h0
    simpa using h0)
  have hr : ∀ᶠ x in 𝓝 x₀, (baseCols (J x)).rank = (baseCols (J x₀)).rank := by
    filter_upwards [baseDetermined_eventually hJc hB] with x hx
    rw [(baseDetermined_iff_rank _).mp hx, (baseDetermined_iff_rank _).mp hB]
  refine variesContinuously_of (g := fun x => gravityTorque (csAt A J x) (A x)⁻¹ (G x) + g x)
    ((cAt_gravity hA hAc hJc hu hr hG).add hg) ?_
  filter_upwards [hev, hge] with x hx ⟨rs, h1, h2⟩
  rw [closedCommand, hx]
  simp only [h1, Option.map_some, h2]

end General

/-! ### Three point feet that come into line -/

namespace Tripod

/-- base columns: feet at `(-1, 0, 0)`, `(1, 0, 0)` and `(0, x, 0)` -/
def B (x : ℝ) : Matrix (Fin 9) (Fin 6) ℝ :=
  !![1, 0, 0, 0, 0, 0;
     0, 1, 0, 0, 0, -1;
     0, 0, 1, 0, 1, 0;
     1, 0, 0, 0, 0, 0;
     0, 1, 0, 0, 0, 1;
     0, 0, 1, 0, -1, 0;
     1, 0, 0, 0, 0, -x;
     0, 1, 0, 0, 0, 0;
     0, 0, 1, x, 0, 0]

/-- every foot hangs on a leg with three sliding joints -/
def J (x : ℝ) : Matrix (Fin 9) (Fin 6 ⊕ Fin 9) ℝ := Matrix.of fun i => Sum.elim (B x i) ((1 : Matrix (Fin 9) (Fin 9) ℝ) i)

/-- a load on the vertical joint of the third leg -/
def load : Fin 6 ⊕ Fin 9 → ℝ := actuate (Pi.single 8 1)

theorem J_ind (x : ℝ) : IndependentRows (J x) := by
  intro F h
  ext i
  have := congrFun h (Sum.inr i)
  simpa [J, mulVec, dotProduct, Matrix.one_apply] using this

theorem J_cont : Continuous J := by
  refine continuous_pi fun i => continuous_pi fun s => ?_
  rcases s with s | s
  · fin_cases i <;> fin_cases s <;> simp [J, B] <;> fun_prop
  · simp only [J, of_apply, Sum.elim_inr]; exact continuous_const

theorem JT_mulVec (x : ℝ) (y : Fin 9 → ℝ) : (J x)ᵀ *ᵥ y = Sum.elim ((B x)ᵀ *ᵥ y) y := by
  ext s
  rcases s with s | s
  · simp [J, mulVec, dotProduct]
  · simp [J, mulVec, dotProduct, Matrix.one_apply]

end Tripod

/-- C78 (negation).  Three point feet that come into line: the torque of gravity compensation jumps, although the contacts stay
independent and the load is constant.  Off the line the vertical joint of the third leg carries its whole load; on the line
gravity compensation gives it less. -/
theorem C78_gravity_jump :
    (∀ x ≠ 0, gravityCommand (Tripod.J x) (1 : Matrix (Fin 6 ⊕ Fin 9) (Fin 6 ⊕ Fin 9) ℝ)⁻¹ Tripod.load
        = some (Pi.single 8 1)) ∧
      (∃ τ, gravityCommand (Tripod.J 0) (1 : Matrix (Fin 6 ⊕ Fin 9) (Fin 6 ⊕ Fin 9) ℝ)⁻¹ Tripod.load = some τ ∧
        2 * τ 8 = τ 2 + τ 5) ∧
      ¬ VariesContinuously (fun x => gravityCommand (Tripod.J x) (1 : Matrix (Fin 6 ⊕ Fin 9) (Fin 6 ⊕ Fin 9) ℝ)⁻¹ Tripod.load) 0 := by
  have hA : IsSPD (1 : Matrix (Fin 6 ⊕ Fin 9) (Fin 6 ⊕ Fin 9) ℝ) := isSPD_one
  have hS : ∀ x, ∃ S, contactSpace (Tripod.J x) (1 : Matrix (Fin 6 ⊕ Fin 9) (Fin 6 ⊕ Fin 9) ℝ)⁻¹ = some S := fun x =>
    Option.isSome_iff_exists.mp ((C02_finite_iff_independent hA).mpr (Tripod.J_ind x))
  have h1 : ∀ x ≠ 0, gravityCommand (Tripod.J x) (1 : Matrix (Fin 6 ⊕ Fin 9) (Fin 6 ⊕ Fin 9) ℝ)⁻¹ Tripod.load
      = some (Pi.single 8 1) := by
    intro x hx
    obtain ⟨S, hS⟩ := hS x
    rw [gravityCommand, hS, Option.map_some, Tripod.load, gravity_actuate hS]
    congr 1
    set D := (pinv S.W * S.W) *ᵥ (Pi.single 8 1 : Fin 9 → ℝ) - Pi.single 8 1 with hD
    suffices hz : D = 0 from sub_eq_zero.mp hz
    have hk : S.W *ᵥ D = 0 := by
      rw [hD, mulVec_sub, mulVec_mulVec, ← Matrix.mul_assoc, (pinv_spec _).aba, sub_self]
    have hpr : (pinv S.W * S.W) *ᵥ D = 0 := by rw [← mulVec_mulVec, hk, mulVec_zero]
    obtain ⟨y, hy⟩ := (W_mulVec_eq_zero_iff hA hS D).mp hk
    rw [Tripod.JT_mulVec] at hy
    have hyD : y = D := by ext i; exact congrFun hy (Sum.inr i)
    rw [hyD] at hy
    have h8 : D 8 = 0 := by
      have := congrFun hy (Sum.inl 3)
      simp [Tripod.B, mulVec, dotProduct, Fin.sum_univ_succ, actuate] at this
      exact this.resolve_left hx
    have hyy : D ⬝ᵥ D = 0 := by
      have e : D ⬝ᵥ D = D ⬝ᵥ ((pinv S.W * S.W) *ᵥ (Pi.single 8 1 : Fin 9 → ℝ)) - D 8 := by
        conv_lhs => arg 2; rw [hD]
        rw [dotProduct_sub, dotProduct_single, mul_one]
      rw [e, dot_transpose_mulVec, (pinv_spec S.W).symR, hpr, zero_dotProduct, h8, sub_zero]
    exact dotProduct_self_eq_zero.mp hyy
  have h2 : ∃ τ, gravityCommand (Tripod.J 0) (1 : Matrix (Fin 6 ⊕ Fin 9) (Fin 6 ⊕ Fin 9) ℝ)⁻¹ Tripod.load = some τ ∧
        2 * τ 8 = τ 2 + τ 5 := by
    obtain ⟨S, hS⟩ := hS 0
    refine ⟨_, by rw [gravityCommand, hS, Option.map_some, Tripod.load, gravity_actuate hS], ?_⟩
    have hk : S.W *ᵥ (![0, 0, 1, 0, 0, 1, 0, 0, -2] : Fin 9 → ℝ) = 0 := by
      refine (W_mulVec_eq_zero_iff hA hS _).mpr ⟨![0, 0, 1, 0, 0, 1, 0, 0, -2], ?_⟩
      rw [Tripod.JT_mulVec]
      ext s
      rcases s with s | s
      · fin_cases s <;> simp [Tripod.B, mulVec, dotProduct, Fin.sum_univ_succ, actuate] <;> norm_num
      · rfl
    have : (![0, 0, 1, 0, 0, 1, 0, 0, -2] : Fin 9 → ℝ) ⬝ᵥ ((pinv S.W * S.W) *ᵥ (Pi.single 8 1 : Fin 9 → ℝ)) = 0 := by
      rw [dot_transpose_mulVec, (pinv_spec S.W).symR, ← mulVec_mulVec, hk, mulVec_zero, zero_dotProduct]
    generalize (pinv S.W * S.W) *ᵥ (Pi.single 8 1 : Fin 9 → ℝ) = τ at this
    simp [dotProduct, Fin.sum_univ_succ] at this
    have e2 : τ 2 + (τ 5 + -(2 * τ 8)) = 0 := this
    linarith
  refine ⟨h1, h2, ?_⟩
  rintro ⟨v, hv, hU⟩
  obtain ⟨τ, hτ, h3⟩ := h2
  obtain rfl : τ = v := Option.some.inj (hτ.symm.trans hv)
  have hlim : ∀ i, τ i = (Pi.single 8 1 : Fin 9 → ℝ) i := by
    intro i
    by_contra hne
    have hop : {w : Fin 9 → ℝ | w i ≠ (Pi.single 8 1 : Fin 9 → ℝ) i} ∈ 𝓝 τ :=
      (isOpen_ne.preimage (continuous_apply i)).mem_nhds hne
    have hev := hU _ hop
    have hev' : ∀ᶠ x in 𝓝[≠] (0 : ℝ), ∃ w ∈ {w : Fin 9 → ℝ | w i ≠ (Pi.single 8 1 : Fin 9 → ℝ) i},
        gravityCommand (Tripod.J x) (1 : Matrix (Fin 6 ⊕ Fin 9) (Fin 6 ⊕ Fin 9) ℝ)⁻¹ Tripod.load = some w :=
      hev.filter_mono nhdsWithin_le_nhds
    obtain ⟨x, ⟨w, hw, e⟩, hx⟩ := (hev'.and self_mem_nhdsWithin).exists
    rw [h1 x hx] at e
    exact hw (congrFun (Option.some.inj e) i).symm
  have a := hlim 8
  have b := hlim 2
  have d := hlim 5
  rw [a, b, d] at h3
  simp at h3

/-! ### Two feet that come into line with the direction of walking -/

namespace Tandem

noncomputable def params : RedistParams :=
  { etaCust := 9 / 10, footLength := 3 / 10, footWidth := 15 / 100, mu := 1 / 10, ratioX := 1, ratioY := 1 }

/-- front foot, `y` to the left of the line through the rear foot -/
noncomputable def P1 (y : ℝ) : Fin 3 → ℝ := ![1 / 10, y, 0]
noncomputable def P2 : Fin 3 → ℝ := ![-1 / 10, 0, 0]

/-- each foot carries half the weight and a small rolling moment -/
noncomputable def F : Fin 12 → ℝ := ![0, 0, -1 / 2, 1 / 200, 0, 0, 0, 0, -1 / 2, 1 / 200, 0, 0]

theorem resultant_eq (y : ℝ) : resultant (P1 y) P2 F = ![0, 0, -1, 1 / 100 - y / 2, 0, 0] := by
  ext i
  fin_cases i <;> simp [resultant, P1, P2, F] <;> ring

theorem clamp_above {k lb ub x : ℝ} (h1 : 1 - k ≤ ub) (h2 : ub ≤ k) (h : ub < x) :
    clampRatio k (.fin lb, .fin ub) (.fin x) = .fin ub := by
  unfold clampRatio
  simp only
  rw [if_pos (show Fl.Lt (.fin ub) (.fin x) from h)]
  rw [if_neg]
  rintro (h3 | h3)
  · exact absurd h3 (not_lt.mpr h2)
  · exact absurd h3 (not_lt.mpr h1)

theorem clamp_below {k lb ub x : ℝ} (h1 : 1 - k ≤ lb) (h2 : lb ≤ k) (h' : x ≤ ub) (h : x < lb) :
    clampRatio k (.fin lb, .fin ub) (.fin x) = .fin lb := by
  unfold clampRatio
  simp only
  rw [if_neg (show ¬ Fl.Lt (.fin ub) (.fin x) from not_lt.mpr h'), if_pos (show Fl.Lt (.fin x) (.fin lb) from h)]
  rw [if_neg]
  rintro (h3 | h3)
  · exact absurd h3 (not_lt.mpr h2)
  · exact absurd h3 (not_lt.mpr h1)

theorem ratio (s : Fin 4 → Bool) {y : ℝ} (hy : y ≠ 0) (h : |y| < 1 / 50) :
    splitRatio s params (P1 y) P2 (resultant (P1 y) P2 F) = .fin (if 0 < y then 1 / 10 else 9 / 10) := by
  rw [resultant_eq]
  set R : Fin 6 → ℝ := ![0, 0, -1, 1 / 100 - y / 2, 0, 0] with hR
  have hA : coefA (P1 y) P2 R = ![y, -(1 / 5), 0] := by
    ext i; fin_cases i <;> simp [coefA, P1, P2, hR] <;> norm_num
  have hB : coefB P2 R = ![1 / 100 - y / 2, 1 / 10, 0] := by
    ext i; fin_cases i <;> simp [coefB, P2, hR] <;> norm_num
  have hC : coefC params R = ![75 / 1000, 15 / 100, 1 / 10] := by
    ext i; fin_cases i <;> simp [coefC, params, hR] <;> norm_num
  obtain ⟨lb, ub, e, h1, h2, h3⟩ := bounds_spec s (A := coefA (P1 y) P2 R) (B := coefB P2 R) (C := coefC params R)
    (by rw [hC]; intro i; fin_cases i <;> simp <;> norm_num) (1 - params.etaCust) params.etaCust
  have hy' := abs_lt.mp h
  have hin : ∀ η : ℝ, 1 / 10 ≤ η → η ≤ 9 / 10 → lb ≤ η ∧ η ≤ ub := by
    intro η a b
    refine (h3 η).mpr ⟨⟨by norm_num [params]; linarith, by norm_num [params]; linarith⟩, ?_⟩
    rw [hA, hB, hC]
    intro i
    fin_cases i
    · intro _
      simp only [Fin.zero_eta, cons_val_zero]
      rw [abs_le]
      constructor <;> nlinarith
    · intro _
      simp only [Fin.mk_one, cons_val_one]
      rw [abs_le]
      constructor <;> norm_num <;> linarith
    · intro hne
      simp at hne
  have hlb : lb = 1 / 10 := by
    have a : (1 : ℝ) / 10 ≤ lb := by norm_num [params] at h1; linarith
    exact le_antisymm (hin (1 / 10) le_rfl (by norm_num)).1 a
  have hub : ub = 9 / 10 := by
    have a : ub ≤ (9 : ℝ) / 10 := by norm_num [params] at h2; linarith
    exact le_antisymm a (hin (9 / 10) (by norm_num) le_rfl).2
  subst hlb hub
  have hs : Fl.div (s 3) (-R 3 - P2 2 * R 1 + P2 1 * R 2) ((P1 y 2 - P2 2) * R 1 - (P1 y 1 - P2 1) * R 2)
      = .fin (1 / 2 - 1 / 100 / y) := by
    have e1 : -R 3 - P2 2 * R 1 + P2 1 * R 2 = y / 2 - 1 / 100 := by simp [hR, P2]
    have e2 : (P1 y 2 - P2 2) * R 1 - (P1 y 1 - P2 1) * R 2 = y := by simp [hR, P1, P2]
    rw [e1, e2, Fl.div, if_pos hy]
    congr 1
    field_simp
  unfold splitRatio
  simp only
  rw [e, hs]
  rcases lt_or_gt_of_ne hy with hneg | hpos
  · have hq : (9 : ℝ) / 10 < 1 / 2 - 1 / 100 / y := by
      have : 1 / 100 / y < -(1 / 2) := by rw [div_lt_iff_of_neg hneg]; linarith
      linarith
    rw [if_neg (not_lt.mpr hneg.le)]
    exact clamp_above (by norm_num [params]) (by norm_num [params]) hq
  · have hq : 1 / 2 - 1 / 100 / y < (1 : ℝ) / 10 := by
      have : 1 / 2 < 1 / 100 / y := by rw [lt_div_iff₀ hpos]; linarith
      linarith
    rw [if_pos hpos]
    exact clamp_below (by norm_num [params]) (by norm_num [params]) (by linarith) hq

end Tandem

/-- C78 (negation).  Closed-form redistribution with one foot before the other: as the front foot passes from the left of the
rear foot's line to the right, with the same wrenches on both feet, the front foot's load jumps from a tenth of the weight to nine
tenths. -/
theorem C78_redistribute_jump (s : Fin 4 → Bool) :
    (∀ y, 0 < y → y < 1 / 50 → ∃ F', contactRedistribute s Tandem.params (Tandem.P1 y) Tandem.P2 Tandem.F = some (1 / 10, F') ∧
        F' 2 = -(1 / 10)) ∧
      (∀ y, y < 0 → -(1 / 50) < y → ∃ F', contactRedistribute s Tandem.params (Tandem.P1 y) Tandem.P2 Tandem.F = some (9 / 10, F') ∧
        F' 2 = -(9 / 10)) ∧
      ¬ VariesContinuously (fun y => (contactRedistribute s Tandem.params (Tandem.P1 y) Tandem.P2 Tandem.F).map Prod.snd) 0 := by
  have hp : ∀ y, 0 < y → y < 1 / 50 → ∃ F', contactRedistribute s Tandem.params (Tandem.P1 y) Tandem.P2 Tandem.F = some (1 / 10, F') ∧
      F' 2 = -(1 / 10) := by
    intro y h1 h2
    refine ⟨_, by rw [contactRedistribute, Tandem.ratio s h1.ne' (by rw [abs_of_pos h1]; exact h2), if_pos h1], ?_⟩
    simp [splitForce, Tandem.resultant_eq]
  have hn : ∀ y, y < 0 → -(1 / 50) < y → ∃ F', contactRedistribute s Tandem.params (Tandem.P1 y) Tandem.P2 Tandem.F = some (9 / 10, F') ∧
      F' 2 = -(9 / 10) := by
    intro y h1 h2
    refine ⟨_, by rw [contactRedistribute, Tandem.ratio s h1.ne (by rw [abs_of_neg h1]; linarith), if_neg (not_lt.mpr h1.le)], ?_⟩
    simp [splitForce, Tandem.resultant_eq]
  refine ⟨hp, hn, ?_⟩
  rintro ⟨v, -, hU⟩
  have far : ∀ r : ℝ, v 2 ≠ r → ∀ᶠ y in 𝓝 (0 : ℝ), ∀ e F', contactRedistribute s Tandem.params (Tandem.P1 y) Tandem.P2 Tandem.F = some (e, F') →
      F' 2 ≠ r := by
    intro r hr
    have hop : {w : Fin 12 → ℝ | w 2 ≠ r} ∈ 𝓝 v := (isOpen_ne.preimage (continuous_apply 2)).mem_nhds hr
    filter_upwards [hU _ hop] with y ⟨w, hw, e⟩ e' F' h
    rw [h] at e
    obtain rfl : F' = w := Option.some.inj e
    exact hw
  by_cases hv : v 2 = -(1 / 10)
  · have h9 := far (-(9 / 10)) (by rw [hv]; norm_num)
    have h9' : ∀ᶠ y in 𝓝[<] (0 : ℝ), -(1 / 50) < y := by
      filter_upwards [Ioo_mem_nhdsLT (by norm_num : (-(1 / 50) : ℝ) < 0)] with y hy using hy.1
    obtain ⟨y, ⟨h1, h2⟩, h3⟩ := (((h9.filter_mono nhdsWithin_le_nhds).and h9').and self_mem_nhdsWithin).exists
    obtain ⟨F', hF, hz⟩ := hn y h3 h2
    exact h1 _ _ hF hz
  · have h1' := far (-(1 / 10)) hv
    have h9' : ∀ᶠ y in 𝓝[>] (0 : ℝ), y < 1 / 50 := by
      filter_upwards [Ioo_mem_nhdsGT (by norm_num : (0 : ℝ) < 1 / 50)] with y hy using hy.2
    obtain ⟨y, ⟨h1, h2⟩, h3⟩ := (((h1'.filter_mono nhdsWithin_le_nhds).and h9').and self_mem_nhdsWithin).exists
    obtain ⟨F', hF, hz⟩ := hp y h3 h2
    exact h1 _ _ hF hz

/-! ### A biped pushed sideways until its feet would slip -/

namespace Push

/-- both feet press with unit force and are pushed sideways, at `x = 0` with the largest force friction can take -/
noncomputable def F (x : ℝ) : Fin 12 → ℝ := fun i => if i.val % 6 = 2 then -1 else if i.val % 6 = 0 then 2 / 10 + x else 0

/-- load of the biped with an arm -/
noncomputable def G (x : ℝ) : Fin 6 ⊕ Fin 7 → ℝ := -(Reach.Jᵀ *ᵥ F x)

/-- torque limit one half on every joint -/
noncomputable def robot (S : ContactSpace 12 (Fin 7)) (N : Matrix (Fin 7) (Fin 6) ℝ) (x : ℝ) : QPRobot 7 12 :=
  { S := S, NwJw := N, P := gravityForce S (G x), τg := gravityTorque S Reach.A⁻¹ (G x), limit := some fun _ => 1 / 2, cs := Stand.cs }

/-- only the arm can move -/
theorem still {q : Fin 6 ⊕ Fin 7 → ℝ} (h : Reach.J *ᵥ q = 0) : ∀ s, s ≠ Sum.inr 6 → q s = 0 := by
  have hq : ∀ i, (Reach.J *ᵥ q) i = 0 := fun i => by rw [h]; rfl
  have q0 := hq 0; have q1 := hq 1; have q2 := hq 2; have q3 := hq 3; have q4 := hq 4; have q5 := hq 5
  have q6 := hq 6; have q7 := hq 7; have q8 := hq 8; have q9 := hq 9; have q10 := hq 10; have q11 := hq 11
  simp [Reach.J, mulVec, dotProduct, Fin.sum_univ_succ] at q0 q1 q2 q3 q4 q5 q6 q7 q8 q9 q10 q11
  intro s hs
  rcases s with s | s
  · fin_cases s <;> simp_all
  · fin_cases s <;> simp_all

theorem arm {x : ℝ} {τ : Fin 7 → ℝ} {q : Fin 6 ⊕ Fin 7 → ℝ} {f : Fin 12 → ℝ} (h : Motion Reach.A Reach.J (G x) τ q f) :
    q (Sum.inr 6) = τ 6 := by
  have := congrFun h.1 (Sum.inr 6)
  simpa [Reach.A, Reach.J, G, actuate, mulVec, dotProduct, Fin.sum_univ_succ] using this

theorem task {U : TaskIn (Fin 7)} (h : U = Reach.T) (q : Fin 6 ⊕ Fin 7 → ℝ) (c : ℝ) :
    ∑ i, ((U.J *ᵥ q) i - U.f i) ^ 2 = (q (Sum.inr 6) - 1) ^ 2 ∧ ∑ i, (c - U.f i) ^ 2 = (c - 1) ^ 2 ∧
      (U.J *ᵥ q = (fun _ => c) → q (Sum.inr 6) = c) := by
  subst h
  have e : ∀ i : Fin 1, (Reach.T.J *ᵥ q) i = q (Sum.inr 6) := by
    intro i
    simp [Reach.T, mulVec]
  refine ⟨?_, ?_, fun h => ?_⟩
  · exact (Fin.sum_univ_one _).trans (by rw [e]; rfl)
  · exact (Fin.sum_univ_one _).trans rfl
  · rw [← e 0, h]

theorem tau_zero {S : ContactSpace 12 (Fin 7)} (hS : contactSpace Reach.J Reach.A⁻¹ = some S) (x : ℝ) :
    gravityTorque S Reach.A⁻¹ (G x) = 0 := by
  rw [gravityTorque, G, mulVec_neg, mulVec_mulVec (F x) S.Nc, cs_Nc_JT hS, zero_mulVec, neg_zero, mulVec_zero, mulVec_zero]

/-- with a stronger push no torque keeps both feet from slipping -/
theorem slips {x : ℝ} (hx : 0 < x) {τ : Fin 7 → ℝ} {q : Fin 6 ⊕ Fin 7 → ℝ} {f : Fin 12 → ℝ}
    (h : Motion Reach.A Reach.J (G x) τ q f) : ¬ ContactsHold Stand.cs (f ∘ Fin.cast Stand.dof.symm) := by
  intro hH
  have hd : ∀ j : Fin 6, (Reach.A *ᵥ q + Reach.Jᵀ *ᵥ f + G x) (Sum.inl j) = 0 := fun j => by rw [h.1]; rfl
  have d0 := hd 0
  have d2 := hd 2
  have s0 := still h.2 (Sum.inl 0) (by simp)
  have s2 := still h.2 (Sum.inl 2) (by simp)
  simp [Reach.A, Reach.J, G, mulVec, dotProduct, Fin.sum_univ_succ, F, s0, s2] at d0 d2
  have hf : ∀ i : Fin 2, |f ⟨6 * i, by omega⟩| ≤ 2 / 10 * -f ⟨6 * i + 2, by omega⟩ := by
    intro i
    have := (hH ⟨i, by have := Stand.dof; omega⟩).2.1
    have hl : (active Stand.cs)[(⟨i, by have := Stand.dof; omega⟩ : Fin (active Stand.cs).length)] = exContact true := by
      have hl' : ∀ l ∈ active Stand.cs, l = exContact true := by
        rw [Stand.cs_active]; simp [Stand.cs]
      exact hl' _ (List.getElem_mem _)
    rw [hl, show (exContact true).rotm = 1 from rfl, Stand.inFrame_one, press] at this
    exact this
  have f0 := hf 0
  have f1 := hf 1
  have e0 : |f 0| ≤ 2 / 10 * -f 2 := f0
  have e1 : |f 6| ≤ 2 / 10 * -f 8 := f1
  have a0 := le_abs_self (f 0)
  have a1 := le_abs_self (f 6)
  linarith

end Push

/-- C78 (negation).  A biped is pushed sideways while its arm accelerates with the torque limit.  Up to the push that friction can
just take, QP task control gives the arm its limit torque; with any larger push the QP has no solution and the arm gets no torque at
all.  So the command jumps. -/
theorem C78_qp_jump (cod : (W : Matrix (Fin 7) (Fin 7) ℝ) → CodNull W) {S : ContactSpace 12 (Fin 7)} {v k : ℕ}
    {V2 : Matrix (Fin k) (Fin 7) ℝ} {N : Matrix (Fin 7) (Fin (12 - 6)) ℝ} (hS : contactSpace Reach.J Reach.A⁻¹ = some S)
    (hR : calculateContactConstraint Reach.J Reach.A⁻¹ cod = .ret v S (some ⟨k, V2, N⟩)) {T : TaskReady (Fin 7)}
    (hT : calculateJKT S Reach.A⁻¹ Reach.T = some T) {solve : Solver} (hs : solve.Exact) (hcomp : solve.Complete) :
    (∃ τ, qpCommand (Push.robot S N 0) solve [T] = some τ ∧ τ 6 = 1 / 2) ∧
      (∀ x, 0 < x → qpCommand (Push.robot S N x) solve [T] = some 0) ∧
      ¬ VariesContinuously (fun x => qpCommand (Push.robot S N x) solve [T]) 0 := by
  have hsound : solve.Sound := fun i t k d x h => (hs i t k d x h).1
  have hT0 : T.toTaskIn = Reach.T := by rw [((jkt_eq_some hS).mp hT).2]
  have hT' : calculateJKT S Reach.A⁻¹ T.toTaskIn = some T := by rw [hT0]; exact hT
  have hpos : ∀ x, 0 < x → qpCommand (Push.robot S N x) solve [T] = some 0 := by
    intro x hx
    obtain ⟨τt, τc, h⟩ := (C60_fails_iff Reach.hA (R := Push.robot S N x) hS (G := Push.G x) rfl Stand.six Stand.plane
      Stand.dof (by norm_num) cod hR hsound hcomp T []).mpr (by
        rintro ⟨a, δ, -, -, hh⟩
        obtain ⟨q, hM⟩ := (C01_contact_force_exact Reach.hA hS (Push.G x)
          ((Push.robot S N x).τg + taskTorque (Push.robot S N x).S [withCommand T a] + δ)).1
        exact Push.slips hx hM (hh _ _ hM))
    obtain ⟨i, hi, e⟩ := C60_failure_keeps h
    have hi0 : i = 0 := by simp only [List.length_cons, List.length_nil] at hi; omega
    subst hi0
    simp only [List.take_zero, calcTaskControlTorqueQP, qpLoop, CtrlResult.ret.injEq, true_and] at e
    rw [qpCommand, h]
    simp only
    rw [← e.1, ← e.2, show (Push.robot S N x).τg = 0 from Push.tau_zero hS x]
    simp
  have hzero : ∃ τ, qpCommand (Push.robot S N 0) solve [T] = some τ ∧ τ 6 = 1 / 2 := by
    -- a safe torque: the arm alone
    have hg : (Push.robot S N 0).τg = 0 := Push.tau_zero hS 0
    set e6 : Fin 7 → ℝ := Pi.single 6 (1 / 2) with he6
    set a : Fin T.t → ℝ := fun _ => 1 / 2 with ha
    have hK : (taskTorque S [withCommand T a]) 6 = 1 / 2 := by
      obtain ⟨q, hM⟩ := (C01_contact_force_exact Reach.hA hS (Push.G 0) (gravityTorque S Reach.A⁻¹ (Push.G 0) + taskTorque S [withCommand T a])).1
      have h1 := C07_top_priority_partial Reach.hA hS Reach.J_base (jkt_withCommand hT' a) [] hM
      have h2 := Push.arm hM
      rw [Push.tau_zero hS, zero_add] at h2
      rw [← h2]
      exact (Push.task hT0 q (1 / 2)).2.2 h1
    have hδ : MovesNothing Reach.A Reach.J (Push.G 0) (e6 - taskTorque S [withCommand T a]) := by
      intro τ q q' f f' h1 h2
      ext s
      by_cases hs : s = Sum.inr 6
      · subst hs
        rw [Push.arm h1, Push.arm h2]
        simp [he6, hK]
      · rw [Push.still h1.2 s hs, Push.still h2.2 s hs]
    have hmot : Motion Reach.A Reach.J (Push.G 0) e6 (actuate e6) (Push.F 0) := by
      constructor
      · unfold Dynamics Push.G; simp [Reach.A]
      · unfold ContactsFixed
        ext i
        fin_cases i <;> simp [Reach.J, mulVec, dotProduct, Fin.sum_univ_succ, actuate, he6]
    have hsafe : SafeTorque Reach.A Reach.J (Push.G 0) (Push.robot S N 0).limit (Push.robot S N 0).cs Stand.dof
        ((Push.robot S N 0).τg + taskTorque (Push.robot S N 0).S [withCommand T a] + (e6 - taskTorque S [withCommand T a])) := by
      rw [hg, zero_add, show (Push.robot S N 0).S = S from rfl, add_sub_cancel]
      constructor
      · intro L hL j
        obtain rfl := Option.some.inj hL
        rw [he6]
        by_cases hj : j = 6
        · subst hj; norm_num
        · rw [Pi.single_eq_of_ne hj]; norm_num
      · intro q f hM
        rw [(C01_contact_force_exact Reach.hA hS _ _).2.1 _ _ hM, ← (C01_contact_force_exact Reach.hA hS _ _).2.1 _ _ hmot]
        apply Stand.hold_of
        intro i
        fin_cases i <;> simp [Push.F] <;> norm_num
    have hcall : ∃ τt τc, calcTaskControlTorqueQP (Push.robot S N 0) solve [T] = .ret 1 τt τc := by
      by_contra hno
      have hnf := (C60_fails_iff Reach.hA (R := Push.robot S N 0) hS (G := Push.G 0) rfl Stand.six Stand.plane
        Stand.dof (by norm_num) cod hR hsound hcomp T []).not.mpr (not_not.mpr ⟨a, _, hδ, hsafe⟩)
      obtain ⟨C, e, -⟩ := stackC_holds Stand.six Stand.plane Stand.dof
      have hC : (Push.robot S N 0).C = some ⟨_, C⟩ := e
      rw [calcTaskControlTorqueQP, qpLoop, hC] at hno hnf
      simp only at hno hnf
      rcases hx : solve 0 T.t (12 - 6) (taskQP (Push.robot S N 0) C T 1 ((Push.robot S N 0).τg + 0)) with _ | z
      · rw [hx] at hnf; exact hnf ⟨_, _, rfl⟩
      · rw [hx] at hno
        simp only at hno
        rw [if_neg (by norm_num)] at hno
        exact hno ⟨_, _, rfl⟩
    obtain ⟨τt, τc, h⟩ := hcall
    refine ⟨_, by rw [qpCommand, h], ?_⟩
    obtain ⟨q, hM⟩ := (C01_contact_force_exact Reach.hA hS (Push.G 0) ((Push.robot S N 0).τg + τt + τc)).1
    have hbest := C60_first_task_best (R := Push.robot S N 0) Reach.hA hS Reach.J_base rfl rfl Stand.six Stand.plane Stand.dof
      (by norm_num) cod hR hs hT' h hM hδ hsafe
    have hlim := C08_torque_limit (Push.robot S N 0) hsound (List.cons_ne_nil _ _) rfl h 6
    have harm := Push.arm hM
    have hb : ((((Push.robot S N 0).τg + τt + τc) 6) - 1) ^ 2 ≤ (1 / 2 - 1 : ℝ) ^ 2 := by
      rw [← harm, ← (Push.task hT0 q (1 / 2)).1, ← (Push.task hT0 q (1 / 2)).2.1]
      exact hbest
    have := abs_le.mp hlim
    nlinarith
  refine ⟨hzero, hpos, ?_⟩
  rintro ⟨w, hw, hU⟩
  obtain ⟨τ, hτ, h6⟩ := hzero
  obtain rfl : τ = w := Option.some.inj (hτ.symm.trans hw)
  have hop : {u : Fin 7 → ℝ | u 6 ≠ 0} ∈ 𝓝 τ :=
    (isOpen_ne.preimage (continuous_apply 6)).mem_nhds (by show τ 6 ≠ 0; rw [h6]; norm_num)
  have hev := (hU _ hop).filter_mono (nhdsWithin_le_nhds (s := Set.Ioi 0))
  obtain ⟨x, ⟨u, hu, e⟩, hx⟩ := (hev.and self_mem_nhdsWithin).exists
  exact hu (congrFun (Option.some.inj ((hpos x hx).symm.trans e)) 6).symm

/-! ### The hypotheses are met -/

/-- the biped with an arm gives all that `C78_qp_jump` asks for -/
example (cod : (W : Matrix (Fin 7) (Fin 7) ℝ) → CodNull W) :
    ∃ S v k V2 N T, contactSpace Reach.J Reach.A⁻¹ = some S ∧
      calculateContactConstraint Reach.J Reach.A⁻¹ cod = .ret v S (some ⟨k, V2, N⟩) ∧ calculateJKT S Reach.A⁻¹ Reach.T = some T ∧
      Stand.solver.Exact ∧ Stand.solver.Complete := by
  obtain ⟨S, ⟨k, V2, N⟩, hR⟩ := (C05_outcome Reach.hA Reach.J_ind (by norm_num) cod).1.mpr
    ⟨Reach.J_base, by
      have : lastSixBase (by norm_num) Reach.J = 1 := by
        ext i j; fin_cases i <;> fin_cases j <;> simp [lastSixBase, Reach.J]
      rw [this]; simp⟩
  have hS : contactSpace Reach.J Reach.A⁻¹ = some S := by
    obtain ⟨S', hS'⟩ := Option.isSome_iff_exists.mp ((C02_finite_iff_independent Reach.hA).mpr Reach.J_ind)
    have := hR
    unfold calculateContactConstraint at this
    rw [hS'] at this
    simp only [gt_iff_lt] at this
    rw [if_pos (by norm_num)] at this
    split_ifs at this
    split at this
    · cases this
    · simp only [ContactResult.ret.injEq] at this
      rw [hS', this.2.1]
  obtain ⟨T, hT⟩ := Option.isSome_iff_exists.mp ((C06_finite_iff Reach.hA hS Reach.T).mpr (by
    rintro y ⟨F, hF⟩
    have := congrFun hF (Sum.inr 6)
    ext i
    simp [Reach.T, Reach.J, mulVec, dotProduct, Fin.sum_univ_succ] at this
    fin_cases i
    exact (Fin.sum_univ_one (fun i => y i)).symm.trans this.symm))
  exact ⟨S, _, k, V2, N, T, hS, hR, hT, Stand.solver_exact, Stand.solver_complete⟩

/-- a biped with an arm whose inertia, load and task command change with the state -/
example : VariesContinuously (fun x : ℝ => closedCommand Reach.J (Matrix.diagonal fun _ : Fin 6 ⊕ Fin 7 => 1 + x ^ 2)⁻¹ (x • Reach.G)
    ([⟨1, fun _ => Reach.T.J, fun x _ => Real.sqrt |x|⟩].map (TaskFam.at (X := ℝ) · x))) 0 := by
  have hA : ∀ x : ℝ, IsSPD (Matrix.diagonal fun _ : Fin 6 ⊕ Fin 7 => 1 + x ^ 2) := fun x => isSPD_diagonal fun _ => by positivity
  refine C78_command_partial (J := fun _ => Reach.J) (A := fun x => Matrix.diagonal fun _ => 1 + x ^ 2) (G := fun x => x • Reach.G) hA
    ?_ continuousAt_const Reach.J_base ?_ _ ?_ ?_
  · have : Continuous fun x : ℝ => Matrix.diagonal fun _ : Fin 6 ⊕ Fin 7 => 1 + x ^ 2 :=
      Continuous.matrix_diagonal (by fun_prop)
    exact this.continuousAt
  · exact (continuous_id.smul continuous_const).continuousAt
  · intro T hT
    obtain rfl := List.mem_singleton.mp hT
    refine ⟨continuousAt_const, ?_⟩
    have : Continuous fun (x : ℝ) (_ : Fin 1) => Real.sqrt |x| := by fun_prop
    exact this.continuousAt
  · obtain ⟨S, hS⟩ := Option.isSome_iff_exists.mp ((C02_finite_iff_independent (hA 0)).mpr Reach.J_ind)
    rw [closedCommand, hS]
    have := (C06_finite_iff (hA 0) hS ⟨1, Reach.T.J, fun _ => Real.sqrt |0|⟩).mpr (by
      rintro y ⟨F, hF⟩
      have := congrFun hF (Sum.inr 6)
      ext i
      simp [Reach.T, Reach.J, mulVec, dotProduct, Fin.sum_univ_succ] at this
      fin_cases i
      exact this.symm)
    obtain ⟨R, hR⟩ := Option.isSome_iff_exists.mp this
    have e : calcTaskSpace S (Matrix.diagonal fun _ : Fin 6 ⊕ Fin 7 => (1 : ℝ) + 0 ^ 2)⁻¹
        ([⟨1, fun _ => Reach.T.J, fun x _ => Real.sqrt |x|⟩].map (TaskFam.at (X := ℝ) · 0)) = some [R] := by
      simp only [List.map_cons, List.map_nil, TaskFam.at, calcTaskSpace, List.mapM_cons, List.mapM_nil]
      rw [hR]; rfl
    simp only
    rw [e]; rfl

/-- both sides of `C78_gravity_iff` occur: with the feet in line the rank changes, off the line it does not -/
example : ¬ (∀ᶠ x in 𝓝 (0 : ℝ), (baseCols (Tripod.J x)).rank = (baseCols (Tripod.J 0)).rank) ∧
    ∀ᶠ x in 𝓝 (1 : ℝ), (baseCols (Tripod.J x)).rank = (baseCols (Tripod.J 1)).rank := by
  constructor
  · intro h
    exact C78_gravity_jump.2.2 ((C78_gravity_iff (A := fun _ => 1) (fun _ => isSPD_one) continuousAt_const Tripod.J_cont.continuousAt
      (Tripod.J_ind 0)).mpr h _ continuousAt_const)
  · have hB : ∀ x ≠ 0, (baseCols (Tripod.J x)).rank = 6 := by
      intro x hx
      refine (baseDetermined_iff_rank _).mp fun v hv => ?_
      have hr : ∀ i, (Tripod.J x *ᵥ Sum.elim v 0) i = 0 := fun i => by rw [hv]; rfl
      have r0 := hr 0; have r1 := hr 1; have r2 := hr 2; have r4 := hr 4; have r5 := hr 5; have r6 := hr 6; have r8 := hr 8
      simp [Tripod.J, Tripod.B, mulVec, dotProduct, Fin.sum_univ_succ] at r0 r1 r2 r4 r5 r6 r8
      have v5 : v 5 = 0 := by linarith
      have v4 : v 4 = 0 := by linarith
      have v2 : v 2 = 0 := by linarith
      have v1 : v 1 = 0 := by linarith
      have v3 : v 3 = 0 := by
        rw [v2, zero_add] at r8
        exact (mul_eq_zero.mp r8).resolve_left hx
      ext i
      fin_cases i <;> simp_all
    filter_upwards [isOpen_ne.mem_nhds (one_ne_zero : (1 : ℝ) ≠ 0)] with x hx
    rw [hB x hx, hB 1 one_ne_zero]

end Verif.Props
