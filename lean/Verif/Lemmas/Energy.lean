import Verif.Spec.Energy
import Mathlib.Analysis.Calculus.Deriv.Add
import Mathlib.Tactic.LinearCombination
import Mathlib.Tactic.FieldSimp

/-! # The energy of a moving robot -/

set_option linter.unusedSectionVars false

namespace Verif
open Matrix Verif.Spec

variable {σ : Type*} [Fintype σ]

/-- The energy of one link changes by the power of the force and the moment on it. -/
theorem link_energy {l : ℝ → DrivenLink σ} {qd qdd : ℝ → σ → ℝ} (h : LinkRun l qd qdd) (g : Fin 3 → ℝ) (t : ℝ) :
    HasDerivAt (fun s => 1 / 2 * ((l s).m * (((l s).Jv *ᵥ qd s) ⬝ᵥ ((l s).Jv *ᵥ qd s)))
        + 1 / 2 * (((l s).Jw *ᵥ qd s) ⬝ᵥ ((l s).I *ᵥ ((l s).Jw *ᵥ qd s))))
      (((l t).Jv *ᵥ qd t) ⬝ᵥ (l t).force g (qd t) (qdd t) + ((l t).Jw *ᵥ qd t) ⬝ᵥ (l t).moment (qd t) (qdd t)
        + (l t).m * (g ⬝ᵥ ((l t).Jv *ᵥ qd t))) t := by
  have hm : ∀ s, (l s).m = (l t).m := fun s => h.mass s t
  have hv := h.vel t
  have hw := h.spin t
  have hI := h.turns t
  have hs : ∀ i j, (l t).I i j = (l t).I j i := fun i j => congrFun (congrFun (h.symm t) j) i
  simp only [hm]
  set v : ℝ → Fin 3 → ℝ := fun s => (l s).Jv *ᵥ qd s with hvdef
  set w : ℝ → Fin 3 → ℝ := fun s => (l s).Jw *ᵥ qd s with hwdef
  set I : ℝ → Matrix (Fin 3) (Fin 3) ℝ := fun s => (l s).I with hIdef
  have e1 : (l t).force g (qd t) (qdd t) = (l t).m • (((l t).Jv *ᵥ qdd t + (l t).Hv (qd t)) - g) := rfl
  have e2 : (l t).moment (qd t) (qdd t) = I t *ᵥ ((l t).Jw *ᵥ qdd t + (l t).Hw (qd t)) + crossProduct (w t) (I t *ᵥ w t) := rfl
  rw [e1, e2]
  generalize (l t).Jv *ᵥ qdd t + (l t).Hv (qd t) = a at hv
  generalize (l t).Jw *ᵥ qdd t + (l t).Hw (qd t) = b at hw
  generalize (l t).m = m
  change HasDerivAt (fun s => 1 / 2 * (m * (v s ⬝ᵥ v s)) + 1 / 2 * (w s ⬝ᵥ (I s *ᵥ w s))) (v t ⬝ᵥ (m • (a - g)) + w t ⬝ᵥ (I t *ᵥ b + crossProduct (w t) (I t *ᵥ w t)) + m * (g ⬝ᵥ v t)) t
  have hv' : ∀ i, HasDerivAt (fun s => v s i) (a i) t := hv
  have hw' : ∀ i, HasDerivAt (fun s => w s i) (b i) t := hw
  have hI' : ∀ i j, HasDerivAt (fun s => I s i j) (crossProduct (w t) (I t *ᵥ Pi.single j 1) i - (I t *ᵥ crossProduct (w t) (Pi.single j 1)) i) t := hI
  have hs' : ∀ i j, I t i j = I t j i := hs
  clear_value v w I
  have d1 : HasDerivAt (fun s => v s ⬝ᵥ v s) (∑ i, (a i * v t i + v t i * a i)) t := by
    simp only [dotProduct]
    exact HasDerivAt.fun_sum fun i _ => (hv' i).mul (hv' i)
  have d2 : HasDerivAt (fun s => w s ⬝ᵥ (I s *ᵥ w s))
      (∑ i, (b i * (∑ j, I t i j * w t j) + w t i * ∑ j, ((crossProduct (w t) (I t *ᵥ Pi.single j 1) i - (I t *ᵥ crossProduct (w t) (Pi.single j 1)) i) * w t j + I t i j * b j))) t := by
    simp only [dotProduct, mulVec]
    refine HasDerivAt.fun_sum fun i _ => (hw' i).mul (HasDerivAt.fun_sum fun j _ => ?_)
    exact (hI' i j).fun_mul (hw' j)
  refine (((d1.const_mul m).const_mul (1 / 2)).add (d2.const_mul (1 / 2))).congr_deriv ?_
  have s01 := hs' 0 1; have s02 := hs' 0 2; have s12 := hs' 1 2
  simp [dotProduct, mulVec, Fin.sum_univ_three, crossProduct, Pi.single_apply]
  rw [s01, s02, s12]
  ring

/-- Power of the generalised force. -/
theorem inverseDynamics_power (L : List (DrivenLink σ)) (g : Fin 3 → ℝ) (qd qdd : σ → ℝ) :
    qd ⬝ᵥ inverseDynamics L g qd qdd =
      (L.map fun l => (l.Jv *ᵥ qd) ⬝ᵥ l.force g qd qdd + (l.Jw *ᵥ qd) ⬝ᵥ l.moment qd qdd).sum := by
  unfold inverseDynamics
  induction L with
  | nil => simp
  | cons l L ih =>
    simp only [List.map_cons, List.sum_cons]
    rw [dotProduct_add, ih, dotProduct_add]
    congr 1
    rw [dotProduct_mulVec, vecMul_transpose, dotProduct_mulVec, vecMul_transpose]

/-- The kinetic energy of all links changes by the power of all forces. -/
theorem energy_rate {L : List (ℝ → DrivenLink σ)} {qd qdd : ℝ → σ → ℝ} (h : ∀ l ∈ L, LinkRun l qd qdd) (g : Fin 3 → ℝ) (t : ℝ) :
    HasDerivAt (fun s => kineticEnergy (links (L.map (· s))) (qd s))
      (qd t ⬝ᵥ inverseDynamics (L.map (· t)) g (qd t) (qdd t) + weightPower g (links (L.map (· t))) (qd t)) t := by
  rw [inverseDynamics_power]
  unfold kineticEnergy weightPower links
  induction L with
  | nil => simpa using hasDerivAt_const t (0 : ℝ)
  | cons l L ih =>
    simp only [List.map_cons, List.sum_cons]
    refine ((link_energy (h l List.mem_cons_self) g t).add (ih fun l' hl => h l' (List.mem_cons_of_mem _ hl))).congr_deriv ?_
    ring

theorem weightPower_eq (g : Fin 3 → ℝ) (L : List (MovingLink σ)) (qd : σ → ℝ) : weightPower g L qd = qd ⬝ᵥ gravityForce g L := by
  unfold weightPower gravityForce
  induction L with
  | nil => simp
  | cons l L ih =>
    simp only [List.map_cons, List.sum_cons]
    rw [dotProduct_add, ← ih, dotProduct_mulVec qd, vecMul_transpose, dotProduct_smul, smul_eq_mul, dotProduct_comm g]

theorem jointPower_eq {ι : Type*} [Fintype ι] (τ : ι → ℝ) (qd : Fin 6 ⊕ ι → ℝ) : jointPower τ qd = qd ⬝ᵥ actuate τ := by
  unfold jointPower
  simp only [dotProduct, Fintype.sum_sum_type, actuate, Sum.elim_inl, Sum.elim_inr, Pi.zero_apply, mul_zero, Finset.sum_const_zero, zero_add]
  exact Finset.sum_congr rfl fun i _ => mul_comm _ _

/-- Work and energy: while the contacts stay, the kinetic energy changes by the power of the joints and of the weight. -/
theorem motion_energy {ι κ : Type*} [Fintype ι] [Fintype κ] {L : List (ℝ → DrivenLink (Fin 6 ⊕ ι))} {qd qdd : ℝ → Fin 6 ⊕ ι → ℝ}
    (h : ∀ l ∈ L, LinkRun l qd qdd) {g : Fin 3 → ℝ} {J : Matrix κ (Fin 6 ⊕ ι) ℝ} {γ : (Fin 6 ⊕ ι → ℝ) → κ → ℝ} {τ : ι → ℝ} {F : κ → ℝ} {t : ℝ}
    (hm : MovingMotion (L.map (· t)) g J γ (qd t) τ (qdd t) F) (hJ : J *ᵥ qd t = 0) :
    HasDerivAt (fun s => kineticEnergy (links (L.map (· s))) (qd s)) (jointPower τ (qd t) + weightPower g (links (L.map (· t))) (qd t)) t := by
  have e := energy_rate h g t
  have : qd t ⬝ᵥ inverseDynamics (L.map (· t)) g (qd t) (qdd t) = jointPower τ (qd t) := by
    have h1 := eq_sub_of_add_eq hm.1
    rw [h1, dotProduct_sub, dotProduct_mulVec, vecMul_transpose, hJ, zero_dotProduct, sub_zero, jointPower_eq]
  rwa [this] at e

end Verif
