import Verif.Lemmas.Turned
import Verif.Model.Command
import Mathlib.Tactic.Module

set_option linter.unusedSectionVars false

namespace Verif
open Matrix Verif.Spec Verif.Model

variable {n c : ℕ}

theorem qp_midpoint {V : Type*} [Fintype V] {d : QP V} {x y : V → ℝ} (hx : d.Feasible x) (hy : d.Feasible y) :
    d.Feasible ((1 / 2 : ℝ) • (x + y)) := by
  intro r hr
  obtain ⟨a1, a2⟩ := hx r hr
  obtain ⟨b1, b2⟩ := hy r hr
  rw [dotProduct_smul, dotProduct_add, smul_eq_mul]
  refine ⟨fun b hb => ?_, by linarith⟩
  have := a1 b hb
  have := b1 b hb
  linarith

theorem sum_mid {t : ℕ} (x y : Fin t → ℝ) :
    ∑ a, ((1 / 2) * (x a + y a)) * ((1 / 2) * (x a + y a))
      = (1 / 2) * ∑ a, x a * x a + (1 / 2) * ∑ a, y a * y a - (1 / 4) * ∑ a, (x a - y a) * (x a - y a) := by
  rw [Finset.mul_sum, Finset.mul_sum, Finset.mul_sum, ← Finset.sum_add_distrib, ← Finset.sum_sub_distrib]
  exact Finset.sum_congr rfl fun a _ => by ring

/-- Exact solutions of the QP of a level agree on the correction of the commanded acceleration. -/
theorem taskQP_left_unique (R : QPRobot n c) {m : ℕ} (C : Matrix (Fin m) (Fin c) ℝ) (T : TaskReady (Fin n))
    (N : Matrix (Fin n) (Fin n) ℝ) (τ : Fin n → ℝ) {x y : Fin T.t ⊕ Fin (c - 6) → ℝ} (hx : (taskQP R C T N τ).IsSolution x)
    (hy : (taskQP R C T N τ).IsSolution y) (a : Fin T.t) : x (Sum.inl a) = y (Sum.inl a) := by
  have h1 := hx.2 _ (qp_midpoint hx.1 hy.1)
  have h2 := hy.2 _ hx.1
  have h3 := hx.2 _ hy.1
  rw [taskQP_cost, taskQP_cost] at h1 h2 h3
  have e := sum_mid (fun a => x (Sum.inl a)) (fun a => y (Sum.inl a))
  simp only [Pi.smul_apply, Pi.add_apply, smul_eq_mul] at h1
  rw [e] at h1
  have h0 : ∑ a, (x (Sum.inl a) - y (Sum.inl a)) * (x (Sum.inl a) - y (Sum.inl a)) = 0 := by
    apply le_antisymm
    · linarith
    · exact Finset.sum_nonneg fun a _ => mul_self_nonneg _
  have := (Finset.sum_eq_zero_iff_of_nonneg (fun a _ => mul_self_nonneg _)).mp h0 a (Finset.mem_univ _)
  exact sub_eq_zero.mp (mul_self_eq_zero.mp this)

/-- What QP control reads from the robot seen otherwise. -/
structure SeenRobot (U V : Matrix (Fin 6) (Fin 6) ℝ) (R : Matrix (Fin c) (Fin c) ℝ) (X X' : QPRobot n c) : Prop where
  space : X'.S = seenSpace U V R X.S
  internal : ∀ δ, (∃ z, δ = X'.NwJw *ᵥ z) ↔ ∃ z, δ = X.NwJw *ᵥ z
  force : X'.P = R *ᵥ X.P
  grav : X'.τg = X.τg
  limit : X'.limit = X.limit
  cone : (X.C = none ∧ X'.C = none) ∨ ∃ m m' C C', X.C = some ⟨m, C⟩ ∧ X'.C = some ⟨m', C'⟩ ∧
    ∀ F : Fin c → ℝ, (∀ r, 0 ≤ (C' *ᵥ (R *ᵥ F)) r) ↔ ∀ r, 0 ≤ (C *ᵥ F) r

section
variable {U V : Matrix (Fin 6) (Fin 6) ℝ} {R : Matrix (Fin c) (Fin c) ℝ} {X X' : QPRobot n c}

theorem orth_norm {t : ℕ} {Q : Matrix (Fin t) (Fin t) ℝ} (hQ : Qᵀ * Q = 1) (a : Fin t → ℝ) :
    ∑ i, (Q *ᵥ a) i * (Q *ᵥ a) i = ∑ i, a i * a i := by
  change (Q *ᵥ a) ⬝ᵥ (Q *ᵥ a) = a ⬝ᵥ a
  rw [dotProduct_mulVec, vecMul_mulVec, hQ, vecMul_one]

/-- Feasible answers correspond: the torque is the same, the correction of the command is turned. -/
theorem taskQP_seen_feasible (h : SeenRobot U V R X X') {m m' : ℕ} {C : Matrix (Fin m) (Fin c) ℝ} {C' : Matrix (Fin m') (Fin c) ℝ}
    (hC : ∀ F : Fin c → ℝ, (∀ r, 0 ≤ (C' *ᵥ (R *ᵥ F)) r) ↔ ∀ r, 0 ≤ (C *ᵥ F) r) (T : TaskReady (Fin n))
    {Q : Matrix (Fin T.t) (Fin T.t) ℝ} (hQ : Qᵀ * Q = 1) (N : Matrix (Fin n) (Fin n) ℝ) (τ : Fin n → ℝ) (a : Fin T.t → ℝ) :
    (∃ b, (taskQP X' C' (seenReady U T Q) N τ).Feasible (Sum.elim (Q *ᵥ a) b)) ↔ ∃ b, (taskQP X C T N τ).Feasible (Sum.elim a b) := by
  have key : ∀ δ : Fin n → ℝ,
      ((∀ L, X'.limit = some L → ∀ j, |(τ + N *ᵥ ((T.Jkt * Qᵀ) *ᵥ ((Q * T.Λ * Qᵀ) *ᵥ (Q *ᵥ T.f + Q *ᵥ a))) + δ) j| ≤ L j) ∧
        ∀ r, 0 ≤ (C' *ᵥ contactForce X'.S X'.P (τ + N *ᵥ ((T.Jkt * Qᵀ) *ᵥ ((Q * T.Λ * Qᵀ) *ᵥ (Q *ᵥ T.f + Q *ᵥ a))) + δ)) r) ↔
      ((∀ L, X.limit = some L → ∀ j, |(τ + N *ᵥ (T.Jkt *ᵥ (T.Λ *ᵥ (T.f + a))) + δ) j| ≤ L j) ∧
        ∀ r, 0 ≤ (C *ᵥ contactForce X.S X.P (τ + N *ᵥ (T.Jkt *ᵥ (T.Λ *ᵥ (T.f + a))) + δ)) r) := by
    intro δ
    rw [← mulVec_add, step_seen T hQ, h.limit, h.space, h.force, contactForce_seen, hC]
  constructor
  · rintro ⟨b, hb⟩
    rw [taskQP_feasible] at hb
    obtain ⟨z, hz⟩ := (h.internal (X'.NwJw *ᵥ b)).mp ⟨b, rfl⟩
    refine ⟨z, ?_⟩
    rw [taskQP_feasible]
    have := (key (X'.NwJw *ᵥ b)).mp hb
    rw [hz] at this
    exact this
  · rintro ⟨b, hb⟩
    rw [taskQP_feasible] at hb
    obtain ⟨z, hz⟩ := (h.internal (X.NwJw *ᵥ b)).mpr ⟨b, rfl⟩
    refine ⟨z, ?_⟩
    rw [taskQP_feasible]
    have := (key (X.NwJw *ᵥ b)).mpr hb
    rw [hz] at this
    exact this

theorem elim_split {α β : Type*} (x : α ⊕ β → ℝ) : Sum.elim (fun a => x (Sum.inl a)) (fun b => x (Sum.inr b)) = x := by
  ext i; rcases i with i | i <;> rfl

/-- Exact solutions correspond. -/
theorem taskQP_seen_solution (h : SeenRobot U V R X X') {m m' : ℕ} {C : Matrix (Fin m) (Fin c) ℝ} {C' : Matrix (Fin m') (Fin c) ℝ}
    (hC : ∀ F : Fin c → ℝ, (∀ r, 0 ≤ (C' *ᵥ (R *ᵥ F)) r) ↔ ∀ r, 0 ≤ (C *ᵥ F) r) (T : TaskReady (Fin n))
    {Q : Matrix (Fin T.t) (Fin T.t) ℝ} (hQ : Qᵀ * Q = 1) (N : Matrix (Fin n) (Fin n) ℝ) (τ : Fin n → ℝ) (a : Fin T.t → ℝ) :
    (∃ b, (taskQP X' C' (seenReady U T Q) N τ).IsSolution (Sum.elim (Q *ᵥ a) b)) ↔ ∃ b, (taskQP X C T N τ).IsSolution (Sum.elim a b) := by
  have hQ' : Q * Qᵀ = 1 := mul_eq_one_comm.mp hQ
  constructor
  · rintro ⟨b, hb⟩
    obtain ⟨b', hb'⟩ := (taskQP_seen_feasible h hC T hQ N τ a).mp ⟨b, hb.1⟩
    refine ⟨b', hb', fun y hy => ?_⟩
    rw [← elim_split y] at hy
    obtain ⟨z, hz⟩ := (taskQP_seen_feasible h hC T hQ N τ _).mpr ⟨_, hy⟩
    have := hb.2 _ hz
    rw [taskQP_cost, taskQP_cost] at this ⊢
    have e1 := orth_norm hQ a
    have e2 := orth_norm hQ (fun a => y (Sum.inl a))
    simp only [Sum.elim_inl] at this ⊢
    rw [← e1, ← e2]
    exact this
  · rintro ⟨b, hb⟩
    obtain ⟨b', hb'⟩ := (taskQP_seen_feasible h hC T hQ N τ a).mpr ⟨b, hb.1⟩
    refine ⟨b', hb', fun y hy => ?_⟩
    have e : (fun a => y (Sum.inl a)) = Q *ᵥ (Qᵀ *ᵥ fun a => y (Sum.inl a)) := by
      rw [mulVec_mulVec, hQ', one_mulVec]; rfl
    rw [← elim_split y, e] at hy
    obtain ⟨z, hz⟩ := (taskQP_seen_feasible h hC T hQ N τ _).mp ⟨_, hy⟩
    have := hb.2 _ hz
    rw [taskQP_cost, taskQP_cost] at this ⊢
    have e1 := orth_norm hQ a
    have e2 := orth_norm hQ (Qᵀ *ᵥ fun a => y (Sum.inl a))
    rw [← e] at e2
    simp only [Sum.elim_inl] at this ⊢
    rw [← e1, ← e2] at this
    exact this

/-- Same outcome, same task torque. -/
def SameTask : CtrlResult n → CtrlResult n → Prop
  | .undefined, .undefined => True
  | .ret v τ _, .ret v' τ' _ => v = v' ∧ τ = τ'
  | _, _ => False

theorem qpLoop_seen (hU : U * V = 1) (h : SeenRobot U V R X X') {solve solve' : Solver} (he : solve.Exact) (hc : solve.Complete)
    (he' : solve'.Exact) (hc' : solve'.Complete) {ys ys' : List (TaskReady (Fin n))} (hy : SeenReadies U ys ys') (i : ℕ)
    (N : Matrix (Fin n) (Fin n) ℝ) (τt τc τc' : Fin n → ℝ) :
    SameTask (qpLoop X solve i N τt τc ys) (qpLoop X' solve' i N τt τc' ys') := by
  induction hy generalizing i N τt τc τc' with
  | nil => exact ⟨rfl, rfl⟩
  | @cons T T' l l' hT _ ih =>
    obtain ⟨Q, hQ, rfl⟩ := hT
    simp only [qpLoop]
    rcases h.cone with ⟨h1, h2⟩ | ⟨m, m', C, C', h1, h2, hC⟩
    · rw [h1, h2]; trivial
    rw [h1, h2, h.grav]
    simp only
    have key := taskQP_seen_solution h hC T hQ N (X.τg + τt)
    have hs := he i T.t (c - 6) (taskQP X C T N (X.τg + τt))
    have hs' := he' i (seenReady U T Q).t (c - 6) (taskQP X' C' (seenReady U T Q) N (X.τg + τt))
    have hk := hc i T.t (c - 6) (taskQP X C T N (X.τg + τt))
    have hk' := hc' i (seenReady U T Q).t (c - 6) (taskQP X' C' (seenReady U T Q) N (X.τg + τt))
    have hQ' : Q * Qᵀ = 1 := mul_eq_one_comm.mp hQ
    rcases hx : solve i T.t (c - 6) (taskQP X C T N (X.τg + τt)) with _ | x
    · rcases hx' : solve' i (seenReady U T Q).t (c - 6) (taskQP X' C' (seenReady U T Q) N (X.τg + τt)) with _ | x'
      · exact ⟨rfl, rfl⟩
      · exfalso
        have h3 := hs' x' hx'
        have e : (fun a => x' (Sum.inl a)) = Q *ᵥ (Qᵀ *ᵥ fun a => x' (Sum.inl a)) := by
          rw [mulVec_mulVec, hQ', one_mulVec]; rfl
        rw [← elim_split x', e] at h3
        obtain ⟨b, hb⟩ := (key _).mp ⟨_, h3⟩
        have := hk ⟨_, hb⟩
        rw [hx] at this
        cases this
    · have h3 := hs x hx
      rw [← elim_split x] at h3
      obtain ⟨b, hb⟩ := (key _).mpr ⟨_, h3⟩
      rcases hx' : solve' i (seenReady U T Q).t (c - 6) (taskQP X' C' (seenReady U T Q) N (X.τg + τt)) with _ | x'
      · exfalso
        have := hk' ⟨_, hb⟩
        rw [hx'] at this
        cases this
      · have e : (fun a => x' (Sum.inl a)) = Q *ᵥ fun a => x (Sum.inl a) := by
          ext a
          exact taskQP_left_unique X' C' (seenReady U T Q) N _ (hs' x' hx') hb a
        simp only
        split_ifs with hcn
        · trivial
        · have ef : τt + N *ᵥ ((seenReady U T Q).Jkt *ᵥ ((seenReady U T Q).Λ *ᵥ ((seenReady U T Q).f + fun a => x' (Sum.inl a))))
              = τt + N *ᵥ (T.Jkt *ᵥ (T.Λ *ᵥ (T.f + fun a => x (Sum.inl a)))) := by
            rw [e]
            congr 2
            refine Eq.trans ?_ (step_seen T hQ (T.f + fun a => x (Sum.inl a)))
            rw [mulVec_add]
            rfl
          rw [ef, h.space, taskNull_seen hU T hQ]
          exact ih _ _ _ _ _

end

end Verif
