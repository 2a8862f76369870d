import Mathlib.Analysis.ODE.ExistUnique
import Mathlib.Analysis.Calculus.Deriv.Prod
import Mathlib.Analysis.SpecialFunctions.Trigonometric.Bounds
import Mathlib.Analysis.Calculus.MeanValue
import Mathlib.Tactic.Linarith
import Mathlib.Tactic.Positivity

/-!
# The damped pendulum: existence of its motions
-/

set_option linter.unusedSectionVars false

namespace Verif
open Set Metric Filter Topology
open scoped NNReal

/-- A bounded Lipschitz vector field has a solution for all times. -/
theorem exists_global {E : Type*} [NormedAddCommGroup E] [NormedSpace ℝ E] [CompleteSpace E] {f : E → E} {K L : ℝ≥0}
    (hf : LipschitzWith K f) (hL : ∀ x, ‖f x‖ ≤ L) (t0 : ℝ) (x0 : E) :
    ∃ γ : ℝ → E, γ t0 = x0 ∧ ∀ t, HasDerivAt γ (f (γ t)) t := by
  have hex : ∀ n : ℕ, ∃ α : ℝ → E, α t0 = x0 ∧
      ∀ t ∈ Icc (t0 - (n + 1)) (t0 + (n + 1)), HasDerivWithinAt α (f (α t)) (Icc (t0 - (n + 1)) (t0 + (n + 1))) t := by
    intro n
    have hn : (0 : ℝ) ≤ n + 1 := by positivity
    have hp : IsPicardLindelof (fun _ => f) (tmin := t0 - (n + 1)) (tmax := t0 + (n + 1)) ⟨t0, by constructor <;> linarith⟩ x0
        (L * ((n : ℝ≥0) + 1)) 0 L K := by
      refine IsPicardLindelof.of_time_independent (fun x _ => hL x) hf.lipschitzOnWith ?_
      simp
    exact hp.exists_eq_forall_mem_Icc_hasDerivWithinAt₀
  choose α h0 hα using hex
  have hd : ∀ n : ℕ, ∀ t ∈ Ioo (t0 - (n + 1)) (t0 + (n + 1)), HasDerivAt (α n) (f (α n t)) t := fun n t ht =>
    (hα n t (Ioo_subset_Icc_self ht)).hasDerivAt (Icc_mem_nhds ht.1 ht.2)
  have hagree : ∀ n m : ℕ, n ≤ m → EqOn (α n) (α m) (Ioo (t0 - (n + 1)) (t0 + (n + 1))) := by
    intro n m hnm
    have hnm' : (n : ℝ) ≤ m := by exact_mod_cast hnm
    have hn : (0 : ℝ) < n + 1 := by positivity
    refine ODE_solution_unique_of_mem_Ioo (v := fun _ => f) (s := fun _ => univ) (K := K) (t₀ := t0) (fun t _ => hf.lipschitzOnWith)
      ⟨by linarith, by linarith⟩ (fun t ht => ⟨hd n t ht, mem_univ _⟩) (fun t ht => ⟨hd m t ⟨by linarith [ht.1], by linarith [ht.2]⟩, mem_univ _⟩)
      ((h0 n).trans (h0 m).symm)
  set N : ℝ → ℕ := fun t => ⌈|t - t0|⌉₊ with hN
  have hmem : ∀ t s : ℝ, |s - t0| < |t - t0| + 1 → s ∈ Ioo (t0 - ((N t : ℕ) + 1 : ℝ)) (t0 + ((N t : ℕ) + 1 : ℝ)) := by
    intro t s hs
    have h1 : |t - t0| ≤ N t := Nat.le_ceil _
    have h2 := abs_lt.mp (lt_of_lt_of_le hs (add_le_add_left h1 1))
    constructor <;> linarith [h2.1, h2.2]
  have hself : ∀ t : ℝ, t ∈ Ioo (t0 - ((N t : ℕ) + 1 : ℝ)) (t0 + ((N t : ℕ) + 1 : ℝ)) := fun t => hmem t t (by linarith)
  refine ⟨fun t => α (N t) t, h0 _, fun t => ?_⟩
  refine (hd (N t) t (hself t)).congr_of_eventuallyEq ?_
  have hopen : ∀ᶠ s in 𝓝 t, s ∈ Ioo (t0 - ((N t : ℕ) + 1 : ℝ)) (t0 + ((N t : ℕ) + 1 : ℝ)) := Ioo_mem_nhds (hself t).1 (hself t).2
  filter_upwards [hopen] with s hs
  rcases le_total (N s) (N t) with h | h
  · exact hagree _ _ h (hself s)
  · exact (hagree _ _ h hs).symm

/-- A pendulum with friction, released at rest at any angle. -/
theorem pendulum {kp kd : ℝ} (hp : 0 < kp) (hd : 0 < kd) (t0 θ0 : ℝ) :
    ∃ θ v : ℝ → ℝ, θ t0 = θ0 ∧ v t0 = 0 ∧ ∀ t ≥ t0, HasDerivAt θ (v t) t ∧ HasDerivAt v (-kp * Real.sin (θ t) - kd * v t) t := by
  set M : ℝ := kp / kd + 1 with hM
  have hM0 : 0 < M := by positivity
  have hkM : kp < kd * M := by rw [hM, mul_add, mul_div_cancel₀ _ hd.ne']; linarith
  set cl : ℝ → ℝ := fun v => max (-M) (min v M) with hcl
  have hclL : LipschitzWith 1 cl := (LipschitzWith.id.min_const M).const_max (-M)
  have hclb : ∀ v, |cl v| ≤ M := fun v => by
    rw [abs_le]
    exact ⟨le_max_left _ _, max_le (by linarith) (min_le_right _ _)⟩
  have hclid : ∀ v, |v| ≤ M → cl v = v := fun v hv => by
    have := abs_le.mp hv
    simp only [hcl]
    rw [min_eq_left this.2, max_eq_right this.1]
  set f : ℝ × ℝ → ℝ × ℝ := fun x => (cl x.2, -kp * Real.sin x.1 - kd * cl x.2) with hf
  have h1 : LipschitzWith (1 * 1) fun x : ℝ × ℝ => cl x.2 := hclL.comp LipschitzWith.prod_snd
  have hsin : LipschitzWith 1 Real.sin := LipschitzWith.of_dist_le_mul fun x y => by
    rw [NNReal.coe_one, one_mul, Real.dist_eq, Real.dist_eq]
    exact Real.abs_sin_sub_sin_le x y
  have h2 : LipschitzWith (1 * 1) fun x : ℝ × ℝ => Real.sin x.1 := hsin.comp LipschitzWith.prod_fst
  have h3 : LipschitzWith (‖-kp‖₊ * (1 * 1) + ‖kd‖₊ * (1 * 1)) fun x : ℝ × ℝ => -kp * Real.sin x.1 - kd * cl x.2 :=
    ((lipschitzWith_smul (-kp)).comp h2).sub ((lipschitzWith_smul kd).comp h1)
  have hfL := h1.prodMk h3
  have hfb : ∀ x, ‖f x‖ ≤ (⟨max M (kp + kd * M), by positivity⟩ : ℝ≥0) := by
    intro x
    change ‖f x‖ ≤ max M (kp + kd * M)
    rw [Prod.norm_def]
    refine max_le_max (hclb _) ?_
    simp only [hf, Real.norm_eq_abs]
    have := abs_le.mp (Real.abs_sin_le_one x.1)
    have := abs_le.mp (hclb x.2)
    rw [abs_le]
    constructor <;> nlinarith
  obtain ⟨γ, hγ0, hγ⟩ := exists_global hfL hfb t0 (θ0, 0)
  have hθ : ∀ t, HasDerivAt (fun s => (γ s).1) (cl (γ t).2) t := fun t => (hγ t).fst
  have hv : ∀ t, HasDerivAt (fun s => (γ s).2) (-kp * Real.sin (γ t).1 - kd * cl (γ t).2) t := fun t => (hγ t).snd
  have hup : ∀ t ≥ t0, (γ t).2 ≤ M := by
    intro t ht
    refine image_le_of_deriv_right_lt_deriv_boundary (a := t0) (b := t) (f := fun s => (γ s).2) (B := fun _ => M) (B' := fun _ => 0)
      (fun s _ => (hv s).continuousAt.continuousWithinAt) (fun s _ => (hv s).hasDerivWithinAt) (by simp [hγ0, hM0.le])
      (fun s => hasDerivAt_const s M) (fun s _ he => ?_) (right_mem_Icc.mpr ht)
    rw [he, hclid M (by rw [abs_of_pos hM0])]
    have := abs_le.mp (Real.abs_sin_le_one (γ s).1)
    nlinarith
  have hlo : ∀ t ≥ t0, -M ≤ (γ t).2 := by
    intro t ht
    have := image_le_of_deriv_right_lt_deriv_boundary (a := t0) (b := t) (f := fun s => -(γ s).2) (B := fun _ => M) (B' := fun _ => 0)
      (fun s _ => (hv s).neg.continuousAt.continuousWithinAt) (fun s _ => (hv s).neg.hasDerivWithinAt) (by simp [hγ0, hM0.le])
      (fun s => hasDerivAt_const s M) (fun s _ he => ?_) (right_mem_Icc.mpr ht)
    · linarith
    · have he' : (γ s).2 = -M := by linarith
      rw [he', hclid (-M) (by rw [abs_neg, abs_of_pos hM0])]
      have := abs_le.mp (Real.abs_sin_le_one (γ s).1)
      nlinarith
  refine ⟨fun t => (γ t).1, fun t => (γ t).2, by simp [hγ0], by simp [hγ0], fun t ht => ?_⟩
  have hid := hclid (γ t).2 (abs_le.mpr ⟨hlo t ht, hup t ht⟩)
  have a := hθ t
  have b := hv t
  rw [hid] at a b
  exact ⟨a, b⟩

end Verif
