import Mathlib.Topology.Order.Compact
import Mathlib.Topology.Instances.Real.Lemmas
import Mathlib.Topology.Algebra.Monoid
import Mathlib.Topology.Algebra.Module.FiniteDimension
import Mathlib.LinearAlgebra.Matrix.ToLin
import Mathlib.LinearAlgebra.Pi
import Mathlib.Tactic.Linarith
import Mathlib.Tactic.FieldSimp

/-!
# Least squares over a polyhedron has a solution

Fourier-Motzkin elimination shows that a linear image of a polyhedron is a polyhedron, hence closed; so `‖G x + c‖` has a
minimum over every nonempty polyhedron.
-/

namespace Verif
open Matrix

/-- The solution set of finitely many linear inequalities. -/
def IsPoly {E : Type*} [AddCommGroup E] [Module ℝ E] (S : Set E) : Prop :=
  ∃ (ι : Type) (_ : Finite ι) (a : ι → E →ₗ[ℝ] ℝ) (b : ι → ℝ), S = {x | ∀ i, a i x ≤ b i}

section
variable {E F : Type*} [AddCommGroup E] [Module ℝ E] [AddCommGroup F] [Module ℝ F]

theorem IsPoly.preimage {S : Set E} (h : IsPoly S) (f : F →ₗ[ℝ] E) : IsPoly {x | f x ∈ S} := by
  obtain ⟨ι, hι, a, b, rfl⟩ := h
  exact ⟨ι, hι, fun i => (a i).comp f, b, rfl⟩

theorem IsPoly.inter {S T : Set E} (h : IsPoly S) (h' : IsPoly T) : IsPoly (S ∩ T) := by
  obtain ⟨ι, hι, a, b, rfl⟩ := h
  obtain ⟨κ, hκ, c, d, rfl⟩ := h'
  refine ⟨ι ⊕ κ, inferInstance, Sum.elim a c, Sum.elim b d, ?_⟩
  ext x
  simp [Sum.forall]

theorem isPoly_zero {M : Type} [Finite M] (f : E →ₗ[ℝ] (M → ℝ)) : IsPoly {x | f x = 0} := by
  refine ⟨M ⊕ M, inferInstance, Sum.elim (fun m => (LinearMap.proj m).comp f) (fun m => -(LinearMap.proj m).comp f),
    fun _ => 0, ?_⟩
  ext x
  constructor
  · intro h i
    have h : f x = 0 := h
    rcases i with m | m <;> simp [h]
  · intro h
    show f x = 0
    funext m
    have h1 := h (.inl m)
    have h2 := h (.inr m)
    simp at h1 h2
    exact le_antisymm h1 h2

theorem exists_between {I J : Type} [Finite I] [Finite J] {U : I → ℝ} {L : J → ℝ} (h : ∀ i j, L j ≤ U i) :
    ∃ t, (∀ i, t ≤ U i) ∧ ∀ j, L j ≤ t := by
  rcases isEmpty_or_nonempty J with hJ | hJ
  · rcases isEmpty_or_nonempty I with hI | hI
    · exact ⟨0, fun i => (hI.false i).elim, fun j => (hJ.false j).elim⟩
    · obtain ⟨i, hi⟩ := Finite.exists_min U
      exact ⟨U i, hi, fun j => (hJ.false j).elim⟩
  · obtain ⟨j, hj⟩ := Finite.exists_max L
    exact ⟨L j, fun i => h i j, hj⟩

/-- One step of the elimination. -/
theorem IsPoly.elim {S : Set (E × ℝ)} (h : IsPoly S) : IsPoly {x : E | ∃ t, (x, t) ∈ S} := by
  obtain ⟨ι, hι, a, b, rfl⟩ := h
  set c : ι → ℝ := fun i => a i (0, 1) with hc
  set p : ι → E →ₗ[ℝ] ℝ := fun i => (a i).comp (LinearMap.inl ℝ E ℝ) with hp
  have ha : ∀ i x t, a i (x, t) = p i x + c i * t := by
    intro i x t
    have : (x, t) = (x, (0 : ℝ)) + t • ((0 : E), (1 : ℝ)) := by simp
    rw [this, map_add, map_smul]
    simp [hp, hc, mul_comm]
  refine ⟨{i // c i = 0} ⊕ ({i // 0 < c i} × {j // c j < 0}), inferInstance,
    Sum.elim (fun i => p i.1) (fun q => (1 / c q.1.1) • p q.1.1 - (1 / c q.2.1) • p q.2.1),
    Sum.elim (fun i => b i.1) (fun q => b q.1.1 / c q.1.1 - b q.2.1 / c q.2.1), ?_⟩
  ext x
  have up : ∀ i, 0 < c i → ∀ t, (a i (x, t) ≤ b i ↔ t ≤ (b i - p i x) / c i) := by
    intro i hi t
    rw [ha, le_div_iff₀ hi]
    constructor <;> intro h <;> linarith
  have lo : ∀ i, c i < 0 → ∀ t, (a i (x, t) ≤ b i ↔ (b i - p i x) / c i ≤ t) := by
    intro i hi t
    rw [ha, div_le_iff_of_neg hi]
    constructor <;> intro h <;> linarith
  have ze : ∀ i, c i = 0 → ∀ t, (a i (x, t) ≤ b i ↔ p i x ≤ b i) := by
    intro i hi t
    rw [ha, hi, zero_mul, add_zero]
  have pair : ∀ i j, (((1 / c i) • p i - (1 / c j) • p j) x ≤ b i / c i - b j / c j ↔
      (b j - p j x) / c j ≤ (b i - p i x) / c i) := by
    intro i j
    simp only [LinearMap.sub_apply, LinearMap.smul_apply, smul_eq_mul, sub_div]
    rw [one_div_mul_eq_div, one_div_mul_eq_div]
    constructor <;> intro h <;> linarith
  constructor
  · rintro ⟨t, ht⟩ (i | q)
    · exact (ze i.1 i.2 t).mp (ht i.1)
    · exact (pair _ _).mpr (((lo q.2.1 q.2.2 t).mp (ht _)).trans ((up q.1.1 q.1.2 t).mp (ht _)))
  · intro h
    obtain ⟨t, h1, h2⟩ := exists_between (I := {i // 0 < c i}) (J := {j // c j < 0})
      (U := fun i => (b i.1 - p i.1 x) / c i.1) (L := fun j => (b j.1 - p j.1 x) / c j.1)
      (fun i j => (pair _ _).mp (h (.inr (i, j))))
    refine ⟨t, fun i => ?_⟩
    rcases lt_trichotomy (c i) 0 with hi | hi | hi
    · exact (lo i hi t).mpr (h2 ⟨i, hi⟩)
    · exact (ze i hi t).mpr (h (.inl ⟨i, hi⟩))
    · exact (up i hi t).mpr (h1 ⟨i, hi⟩)

end

theorem IsPoly.elimFin (k : ℕ) : ∀ {E : Type} [AddCommGroup E] [Module ℝ E] {S : Set (E × (Fin k → ℝ))}, IsPoly S →
    IsPoly {x : E | ∃ y, (x, y) ∈ S} := by
  induction k with
  | zero =>
    intro E _ _ S h
    have := h.preimage (LinearMap.inl ℝ E (Fin 0 → ℝ))
    convert this using 1
    ext x
    constructor
    · rintro ⟨y, hy⟩
      show (x, (0 : Fin 0 → ℝ)) ∈ S
      rwa [Subsingleton.elim (0 : Fin 0 → ℝ) y]
    · intro hx
      exact ⟨0, hx⟩
  | succ k ih =>
    intro E _ _ S h
    let f : ((E × ℝ) × (Fin k → ℝ)) →ₗ[ℝ] (E × (Fin (k + 1) → ℝ)) :=
      { toFun := fun z => (z.1.1, Fin.cons z.1.2 z.2)
        map_add' := by
          intro z w
          refine Prod.ext rfl ?_
          funext i
          refine Fin.cases ?_ (fun j => ?_) i <;> simp
        map_smul' := by
          intro r z
          refine Prod.ext rfl ?_
          funext i
          refine Fin.cases ?_ (fun j => ?_) i <;> simp }
    have := (ih (h.preimage f)).elim
    convert this using 1
    ext x
    constructor
    · rintro ⟨y, hy⟩
      refine ⟨y 0, Fin.tail y, ?_⟩
      show (x, Fin.cons (y 0) (Fin.tail y)) ∈ S
      rwa [Fin.cons_self_tail]
    · rintro ⟨t, y, hy⟩
      exact ⟨Fin.cons t y, hy⟩

/-- A linear image of a polyhedron is a polyhedron. -/
theorem IsPoly.image {X M : Type} [Fintype X] [Finite M] {P : Set (X → ℝ)} (h : IsPoly P) (G : (X → ℝ) →ₗ[ℝ] (M → ℝ)) :
    IsPoly (G '' P) := by
  classical
  let e := Fintype.equivFin X
  let r : ((M → ℝ) × (Fin (Fintype.card X) → ℝ)) →ₗ[ℝ] (X → ℝ) :=
    (LinearMap.funLeft ℝ ℝ e).comp (LinearMap.snd ℝ _ _)
  have hS := ((h.preimage r).inter (isPoly_zero (G.comp r - LinearMap.fst ℝ _ _))).elimFin
  convert hS using 1
  ext z
  constructor
  · rintro ⟨x, hx, rfl⟩
    have e1 : r (G x, x ∘ e.symm) = x := by
      funext i; simp [r, LinearMap.funLeft]
    refine ⟨x ∘ e.symm, ?_, ?_⟩
    · show r _ ∈ P
      rwa [e1]
    · show G (r _) - _ = 0
      rw [e1]; simp
  · rintro ⟨y, hy, hz⟩
    refine ⟨r (z, y), hy, ?_⟩
    have hz : G (r (z, y)) - z = 0 := hz
    exact sub_eq_zero.mp hz

theorem IsPoly.isClosed {M : Type} [Finite M] {P : Set (M → ℝ)} (h : IsPoly P) : IsClosed P := by
  obtain ⟨ι, hι, a, b, rfl⟩ := h
  have : {x | ∀ i, a i x ≤ b i} = ⋂ i, {x : M → ℝ | a i x ≤ b i} := by ext x; simp
  rw [this]
  exact isClosed_iInter fun i => isClosed_le (a i).continuous_of_finiteDimensional continuous_const

/-- `‖z + c‖²` has a minimum over every nonempty closed set. -/
theorem exists_nearest {M : Type} [Fintype M] {S : Set (M → ℝ)} (hS : IsClosed S) (hne : S.Nonempty) (c : M → ℝ) :
    ∃ z ∈ S, ∀ w ∈ S, (z + c) ⬝ᵥ (z + c) ≤ (w + c) ⬝ᵥ (w + c) := by
  obtain ⟨x₀, h0⟩ := hne
  set q : (M → ℝ) → ℝ := fun z => (z + c) ⬝ᵥ (z + c) with hq
  have hcont : Continuous q := by
    simp only [hq, dotProduct, Pi.add_apply]
    exact continuous_finsetSum _ fun i _ =>
      ((continuous_apply i).add continuous_const).mul ((continuous_apply i).add continuous_const)
  have hb : ∀ x i, (x i + c i) ^ 2 ≤ q x := by
    intro x i
    simp only [hq, dotProduct, sq]
    exact Finset.single_le_sum (f := fun i => (x i + c i) * (x i + c i)) (fun j _ => mul_self_nonneg _) (Finset.mem_univ i)
  have hpos : ∀ x, 0 ≤ q x := fun x => Finset.sum_nonneg fun i _ => mul_self_nonneg _
  set B := q x₀ + 1 with hB
  have hin : ∀ x, q x ≤ q x₀ → x ∈ Set.Icc (fun i : M => -B - c i) (fun i => B - c i) := by
    intro x hx
    have hM0 := hpos x₀
    refine ⟨fun i => ?_, fun i => ?_⟩
    · have := hb x i; nlinarith
    · have := hb x i; nlinarith
  have hK : IsCompact (Set.Icc (fun i : M => -B - c i) (fun i => B - c i) ∩ S) := isCompact_Icc.inter_right hS
  obtain ⟨x, hx, hmin⟩ := hK.exists_isMinOn ⟨x₀, hin x₀ le_rfl, h0⟩ hcont.continuousOn
  refine ⟨x, hx.2, fun y hy => ?_⟩
  by_cases hle : q y ≤ q x₀
  · exact hmin ⟨hin y hle, hy⟩
  · have : q x ≤ q x₀ := hmin (show x₀ ∈ _ from ⟨hin x₀ le_rfl, h0⟩)
    exact this.trans (not_le.mp hle).le

/-- `‖G x + c‖²` has a minimum over every nonempty polyhedron. -/
theorem exists_least_squares {X M R : Type} [Fintype X] [Fintype M] [Finite R] (row : R → X → ℝ) (ub : R → ℝ)
    (G : Matrix M X ℝ) (c : M → ℝ) (hne : ∃ x, ∀ r, row r ⬝ᵥ x ≤ ub r) :
    ∃ x, (∀ r, row r ⬝ᵥ x ≤ ub r) ∧ ∀ y, (∀ r, row r ⬝ᵥ y ≤ ub r) →
      (G *ᵥ x + c) ⬝ᵥ (G *ᵥ x + c) ≤ (G *ᵥ y + c) ⬝ᵥ (G *ᵥ y + c) := by
  have hP : IsPoly {x : X → ℝ | ∀ r, row r ⬝ᵥ x ≤ ub r} :=
    ⟨R, inferInstance, fun r => dotProductBilin ℝ ℝ (row r), ub, rfl⟩
  obtain ⟨x₀, h0⟩ := hne
  obtain ⟨z, ⟨x, hx, rfl⟩, hmin⟩ := exists_nearest (hP.image G.mulVecLin).isClosed ⟨_, x₀, h0, rfl⟩ c
  exact ⟨x, hx, fun y hy => hmin _ ⟨y, hy, rfl⟩⟩

end Verif
