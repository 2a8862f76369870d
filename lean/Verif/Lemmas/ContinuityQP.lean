import Verif.Lemmas.ContinuityContact
import Mathlib.Topology.Order.Basic
import Mathlib.Topology.UniformSpace.Real
import Mathlib.Topology.Order.Compact
import Mathlib.Topology.MetricSpace.ProperSpace.Real
import Mathlib.Tactic.Linarith

/-!
# Continuity of the answer of a least-distance problem whose data vary continuously
-/

set_option linter.unusedSectionVars false

namespace Verif
open Matrix Topology Filter

variable {X : Type*} [TopologicalSpace X] {x₀ : X} {n t : ℕ} {κ : Type*} [Finite κ]

theorem sq_dist_expand (u v : Fin t → ℝ) (ε : ℝ) (f : Fin t → ℝ) :
    ∑ i, (((1 - ε) * u i + ε * v i) - f i) ^ 2
      = (1 - ε) * ∑ i, (u i - f i) ^ 2 + ε * ∑ i, (v i - f i) ^ 2 - ε * (1 - ε) * ∑ i, (u i - v i) ^ 2 := by
  rw [Finset.mul_sum, Finset.mul_sum, Finset.mul_sum, ← Finset.sum_add_distrib, ← Finset.sum_sub_distrib]
  refine Finset.sum_congr rfl fun i _ => ?_
  ring

/-- The torques `τg + K a + D δ` that satisfy the rows `M τ ≤ b`, as accelerations `a`. -/
def Adm (M : κ → Fin n → ℝ) (b : κ → ℝ) (τg : Fin n → ℝ) (K : Matrix (Fin n) (Fin t) ℝ) (D : Matrix (Fin n) (Fin n) ℝ)
    (a : Fin t → ℝ) : Prop :=
  ∃ δ, ∀ r, M r ⬝ᵥ (τg + K *ᵥ a + D *ᵥ δ) ≤ b r

/-- An acceleration that is strictly admissible stays admissible nearby. -/
theorem adm_near {M : X → κ → Fin n → ℝ} {b : X → κ → ℝ} {τg : X → Fin n → ℝ} {K : X → Matrix (Fin n) (Fin t) ℝ}
    {D : X → Matrix (Fin n) (Fin n) ℝ}
    (hM : ContinuousAt M x₀) (hb : ContinuousAt b x₀) (hg : ContinuousAt τg x₀) (hK : ContinuousAt K x₀) (hD : ContinuousAt D x₀)
    {a₁ : Fin t → ℝ} {δ₁ : Fin n → ℝ}
    (hs : ∀ r, M x₀ r ⬝ᵥ (τg x₀ + K x₀ *ᵥ a₁ + D x₀ *ᵥ δ₁) < b x₀ r ∨ ∀ᶠ x in 𝓝 x₀, ∀ τ, M x r ⬝ᵥ τ ≤ b x r) :
    ∀ᶠ x in 𝓝 x₀, Adm (M x) (b x) (τg x) (K x) (D x) a₁ := by
  have hcmd : ContinuousAt (fun x => τg x + K x *ᵥ a₁ + D x *ᵥ δ₁) x₀ :=
    (hg.add (cAt_mulVec hK continuousAt_const)).add (cAt_mulVec hD continuousAt_const)
  have hall : ∀ r, ∀ᶠ x in 𝓝 x₀, M x r ⬝ᵥ (τg x + K x *ᵥ a₁ + D x *ᵥ δ₁) ≤ b x r := by
    intro r
    rcases hs r with hr | hr
    · have h1 : ContinuousAt (fun x => M x r ⬝ᵥ (τg x + K x *ᵥ a₁ + D x *ᵥ δ₁)) x₀ := by
        have h2 : Continuous fun p : (Fin n → ℝ) × (Fin n → ℝ) => p.1 ⬝ᵥ p.2 := continuous_fst.dotProduct continuous_snd
        exact h2.continuousAt.comp ((continuousAt_pi.mp hM r).prodMk hcmd)
      exact (h1.tendsto.eventually_lt (continuousAt_pi.mp hb r).tendsto hr).mono fun x hx => hx.le
    · exact hr.mono fun x hx => hx _
  filter_upwards [eventually_all.mpr hall] with x hx
  exact ⟨δ₁, hx⟩

/-- The admissible acceleration nearest to the wanted one varies continuously, if the admissible torques are bounded and one of
them satisfies all rows strictly. -/
theorem cAt_nearest {M : X → κ → Fin n → ℝ} {b : X → κ → ℝ} {τg : X → Fin n → ℝ} {K : X → Matrix (Fin n) (Fin t) ℝ}
    {D : X → Matrix (Fin n) (Fin n) ℝ} {Tm : X → Matrix (Fin t) (Fin n) ℝ} {f a : X → Fin t → ℝ} {L : Fin n → ℝ}
    (hM : ContinuousAt M x₀) (hb : ContinuousAt b x₀) (hg : ContinuousAt τg x₀) (hK : ContinuousAt K x₀) (hD : ContinuousAt D x₀)
    (hT : ContinuousAt Tm x₀) (hf : ContinuousAt f x₀)
    (hTK : ∀ᶠ x in 𝓝 x₀, Tm x * K x = 1) (hTD : ∀ᶠ x in 𝓝 x₀, Tm x * D x = 0) (hDD : ∀ᶠ x in 𝓝 x₀, D x * D x = D x)
    (hL : ∀ᶠ x in 𝓝 x₀, ∀ τ, (∀ r, M x r ⬝ᵥ τ ≤ b x r) → ∀ j, |τ j| ≤ L j)
    (ha : ∀ᶠ x in 𝓝 x₀, Adm (M x) (b x) (τg x) (K x) (D x) (a x))
    (hopt : ∀ᶠ x in 𝓝 x₀, ∀ a', Adm (M x) (b x) (τg x) (K x) (D x) a' → ∑ i, (a x i - f x i) ^ 2 ≤ ∑ i, (a' i - f x i) ^ 2)
    {a₁ : Fin t → ℝ} {δ₁ : Fin n → ℝ}
    (hs : ∀ r, M x₀ r ⬝ᵥ (τg x₀ + K x₀ *ᵥ a₁ + D x₀ *ᵥ δ₁) < b x₀ r ∨ ∀ᶠ x in 𝓝 x₀, ∀ τ, M x r ⬝ᵥ τ ≤ b x r) :
    ContinuousAt a x₀ := by
  -- continuity of a row
  have hrow : ∀ r {τ : X → Fin n → ℝ} {l : Filter X} {τ₀ : Fin n → ℝ}, l ≤ 𝓝 x₀ → Tendsto τ l (𝓝 τ₀) →
      Tendsto (fun x => M x r ⬝ᵥ τ x) l (𝓝 (M x₀ r ⬝ᵥ τ₀)) := by
    intro r τ l τ₀ hl hτ
    have h1 : Tendsto (fun x => M x r) l (𝓝 (M x₀ r)) := ((continuousAt_pi.mp hM r).tendsto).mono_left hl
    have h2 : Continuous fun p : (Fin n → ℝ) × (Fin n → ℝ) => p.1 ⬝ᵥ p.2 := continuous_fst.dotProduct continuous_snd
    exact (h2.tendsto _).comp (h1.prodMk_nhds hτ)
  have hbr : ∀ r, Tendsto (fun x => b x r) (𝓝 x₀) (𝓝 (b x₀ r)) := fun r => (continuousAt_pi.mp hb r).tendsto
  obtain ⟨δ₀, hδ₀⟩ := ha.self_of_nhds
  have hopt0 := hopt.self_of_nhds
  -- points between the best and the strict one are admissible nearby
  have hnear : ∀ ε : ℝ, 0 < ε → ε ≤ 1 → ∀ᶠ x in 𝓝 x₀,
      Adm (M x) (b x) (τg x) (K x) (D x) (fun i => (1 - ε) * a x₀ i + ε * a₁ i) := by
    intro ε h0 h1
    refine adm_near hM hb hg hK hD (δ₁ := (1 - ε) • δ₀ + ε • δ₁) fun r => ?_
    rcases hs r with hr | hr
    · left
      have e : τg x₀ + K x₀ *ᵥ (fun i => (1 - ε) * a x₀ i + ε * a₁ i) + D x₀ *ᵥ ((1 - ε) • δ₀ + ε • δ₁)
          = (1 - ε) • (τg x₀ + K x₀ *ᵥ a x₀ + D x₀ *ᵥ δ₀) + ε • (τg x₀ + K x₀ *ᵥ a₁ + D x₀ *ᵥ δ₁) := by
        have e1 : (fun i => (1 - ε) * a x₀ i + ε * a₁ i) = (1 - ε) • a x₀ + ε • a₁ := by ext i; simp
        rw [e1, mulVec_add, mulVec_add, mulVec_smul, mulVec_smul, mulVec_smul, mulVec_smul]
        module
      rw [e, dotProduct_add, dotProduct_smul, dotProduct_smul, smul_eq_mul, smul_eq_mul]
      have h2 := hδ₀ r
      nlinarith
    · exact Or.inr hr
  -- along every ultrafilter the answer tends to the answer at `x₀`
  rw [ContinuousAt, tendsto_iff_ultrafilter]
  intro g hgl
  have hgl' : (g : Filter X) ≤ 𝓝 x₀ := hgl
  -- chosen torques
  have hex : ∀ x, ∃ δ : Fin n → ℝ, Adm (M x) (b x) (τg x) (K x) (D x) (a x) → ∀ r, M x r ⬝ᵥ (τg x + K x *ᵥ a x + D x *ᵥ δ) ≤ b x r := by
    intro x
    by_cases h : Adm (M x) (b x) (τg x) (K x) (D x) (a x)
    · obtain ⟨δ, hδ⟩ := h
      exact ⟨δ, fun _ => hδ⟩
    · exact ⟨0, fun h' => absurd h' h⟩
  choose δ hδ using hex
  set τ : X → Fin n → ℝ := fun x => τg x + K x *ᵥ a x + D x *ᵥ δ x with hτ
  have hτr : ∀ᶠ x in 𝓝 x₀, ∀ r, M x r ⬝ᵥ τ x ≤ b x r := ha.mono fun x hx => hδ x hx
  have hbox : ∀ᶠ x in (g : Filter X), τ x ∈ Set.pi Set.univ fun j => Set.Icc (-L j) (L j) := by
    refine hgl' ?_
    filter_upwards [hL, hτr] with x h1 h2 j _
    exact abs_le.mp (h1 _ h2 j)
  have hcomp : IsCompact (Set.pi Set.univ fun j : Fin n => Set.Icc (-L j) (L j)) := isCompact_univ_pi fun j => isCompact_Icc
  obtain ⟨τs, -, hτs⟩ := hcomp.ultrafilter_le_nhds (g.map τ) (by
    rw [Ultrafilter.coe_map, le_principal_iff]; exact hbox)
  have hτs' : Tendsto τ g (𝓝 τs) := by rwa [Ultrafilter.coe_map] at hτs
  -- the acceleration converges with the torque
  have hTg : Tendsto Tm (g : Filter X) (𝓝 (Tm x₀)) := hT.tendsto.mono_left hgl'
  have hdiff : Tendsto (fun x => τ x - τg x) (g : Filter X) (𝓝 (τs - τg x₀)) := hτs'.sub (hg.tendsto.mono_left hgl')
  have hmv : Continuous fun p : Matrix (Fin t) (Fin n) ℝ × (Fin n → ℝ) => p.1 *ᵥ p.2 := continuous_fst.matrix_mulVec continuous_snd
  have hmv2 : Continuous fun p : Matrix (Fin n) (Fin t) ℝ × (Fin t → ℝ) => p.1 *ᵥ p.2 := continuous_fst.matrix_mulVec continuous_snd
  have hmv3 : Continuous fun p : Matrix (Fin n) (Fin n) ℝ × (Fin n → ℝ) => p.1 *ᵥ p.2 := continuous_fst.matrix_mulVec continuous_snd
  have hae : ∀ᶠ x in 𝓝 x₀, Tm x *ᵥ (τ x - τg x) = a x := by
    filter_upwards [hTK, hTD] with x h1 h2
    have : τ x - τg x = K x *ᵥ a x + D x *ᵥ δ x := by rw [hτ]; simp only; abel
    rw [this, mulVec_add, mulVec_mulVec, mulVec_mulVec, h1, h2, one_mulVec, zero_mulVec, add_zero]
  set as := Tm x₀ *ᵥ (τs - τg x₀) with has
  have hlim : Tendsto a (g : Filter X) (𝓝 as) :=
    ((hmv.tendsto _).comp (hTg.prodMk_nhds hdiff)).congr' (hgl' hae)
  -- the limit is admissible
  have hadm : Adm (M x₀) (b x₀) (τg x₀) (K x₀) (D x₀) as := by
    have hd : Tendsto (fun x => τ x - τg x - K x *ᵥ a x) (g : Filter X) (𝓝 (τs - τg x₀ - K x₀ *ᵥ as)) :=
      hdiff.sub ((hmv2.tendsto _).comp ((hK.tendsto.mono_left hgl').prodMk_nhds hlim))
    have hDd : Tendsto (fun x => D x *ᵥ (τ x - τg x - K x *ᵥ a x)) (g : Filter X) (𝓝 (D x₀ *ᵥ (τs - τg x₀ - K x₀ *ᵥ as))) :=
      (hmv3.tendsto _).comp ((hD.tendsto.mono_left hgl').prodMk_nhds hd)
    have heq : ∀ᶠ x in 𝓝 x₀, D x *ᵥ (τ x - τg x - K x *ᵥ a x) = τ x - τg x - K x *ᵥ a x := by
      filter_upwards [hDD] with x h1
      have : τ x - τg x - K x *ᵥ a x = D x *ᵥ δ x := by rw [hτ]; simp only; abel
      rw [this, mulVec_mulVec, h1]
    have hfix : D x₀ *ᵥ (τs - τg x₀ - K x₀ *ᵥ as) = τs - τg x₀ - K x₀ *ᵥ as :=
      tendsto_nhds_unique (hDd.congr' (hgl' heq)) hd
    refine ⟨τs - τg x₀ - K x₀ *ᵥ as, fun r => ?_⟩
    rw [hfix, show τg x₀ + K x₀ *ᵥ as + (τs - τg x₀ - K x₀ *ᵥ as) = τs by abel]
    exact le_of_tendsto_of_tendsto (hrow r hgl' hτs') ((hbr r).mono_left hgl') (hgl' (hτr.mono fun x hx => hx r))
  -- and as near to the wanted acceleration as the best
  have hcost : ∀ {u : X → Fin t → ℝ} {u₀ : Fin t → ℝ}, Tendsto u (g : Filter X) (𝓝 u₀) →
      Tendsto (fun x => ∑ i, (u x i - f x i) ^ 2) (g : Filter X) (𝓝 (∑ i, (u₀ i - f x₀ i) ^ 2)) := by
    intro u u₀ hu
    refine tendsto_finsetSum _ fun i _ => ?_
    exact (((tendsto_pi_nhds.mp hu) i).sub ((tendsto_pi_nhds.mp (hf.tendsto.mono_left hgl')) i)).pow 2
  have hle : ∀ ε : ℝ, 0 < ε → ε ≤ 1 → ∑ i, (as i - f x₀ i) ^ 2 ≤ ∑ i, (((1 - ε) * a x₀ i + ε * a₁ i) - f x₀ i) ^ 2 := by
    intro ε h0 h1
    refine le_of_tendsto_of_tendsto (hcost hlim) (hcost tendsto_const_nhds) (hgl' ?_)
    filter_upwards [hopt, hnear ε h0 h1] with x h2 h3
    exact h2 _ h3
  have hbest : ∑ i, (as i - f x₀ i) ^ 2 ≤ ∑ i, (a x₀ i - f x₀ i) ^ 2 := by
    have hc : Tendsto (fun ε : ℝ => ∑ i, (((1 - ε) * a x₀ i + ε * a₁ i) - f x₀ i) ^ 2) (𝓝[>] 0) (𝓝 (∑ i, (a x₀ i - f x₀ i) ^ 2)) := by
      have : Continuous fun ε : ℝ => ∑ i, (((1 - ε) * a x₀ i + ε * a₁ i) - f x₀ i) ^ 2 := by fun_prop
      have h2 := this.tendsto 0
      simp only [sub_zero, one_mul, zero_mul, add_zero] at h2
      exact h2.mono_left nhdsWithin_le_nhds
    refine ge_of_tendsto hc ?_
    filter_upwards [Ioc_mem_nhdsGT (zero_lt_one' ℝ)] with ε hε
    exact hle ε hε.1 hε.2
  -- the nearest point is unique
  have huniq : as = a x₀ := by
    have hmid : Adm (M x₀) (b x₀) (τg x₀) (K x₀) (D x₀) (fun i => (1 - 1 / 2) * a x₀ i + 1 / 2 * as i) := by
      obtain ⟨δs, hδs⟩ := hadm
      refine ⟨(1 / 2 : ℝ) • δ₀ + (1 / 2 : ℝ) • δs, fun r => ?_⟩
      have e : τg x₀ + K x₀ *ᵥ (fun i => (1 - 1 / 2) * a x₀ i + 1 / 2 * as i) + D x₀ *ᵥ ((1 / 2 : ℝ) • δ₀ + (1 / 2 : ℝ) • δs)
          = (1 / 2 : ℝ) • (τg x₀ + K x₀ *ᵥ a x₀ + D x₀ *ᵥ δ₀) + (1 / 2 : ℝ) • (τg x₀ + K x₀ *ᵥ as + D x₀ *ᵥ δs) := by
        have e1 : (fun i => (1 - 1 / 2) * a x₀ i + 1 / 2 * as i) = (1 / 2 : ℝ) • a x₀ + (1 / 2 : ℝ) • as := by
          ext i; simp only [Pi.add_apply, Pi.smul_apply, smul_eq_mul]; ring
        rw [e1, mulVec_add, mulVec_add, mulVec_smul, mulVec_smul, mulVec_smul, mulVec_smul]
        module
      rw [e, dotProduct_add, dotProduct_smul, dotProduct_smul, smul_eq_mul, smul_eq_mul]
      linarith [hδ₀ r, hδs r]
    have h1 := hopt0 _ hmid
    rw [sq_dist_expand] at h1
    have h2 : ∑ i, (a x₀ i - as i) ^ 2 ≤ 0 := by nlinarith
    have h3 : ∑ i, (a x₀ i - as i) ^ 2 = 0 := le_antisymm h2 (Finset.sum_nonneg fun i _ => sq_nonneg _)
    ext i
    have := (Finset.sum_eq_zero_iff_of_nonneg fun i _ => sq_nonneg _).mp h3 i (Finset.mem_univ i)
    have := pow_eq_zero_iff (two_ne_zero) |>.mp this
    linarith
  rw [huniq] at hlim
  exact hlim

end Verif
