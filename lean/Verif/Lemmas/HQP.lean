import Verif.Model.HQP
import Verif.Model.Pinv
import Mathlib.Tactic.Linarith
import Mathlib.Tactic.Ring
import Mathlib.Tactic.FieldSimp

set_option linter.unusedSectionVars false

namespace Verif
open Matrix Verif.Spec Verif.Model

variable {V : Type} [Fintype V] [DecidableEq V]

theorem keeps_residual_iff {r : LevelAnswer V} {y : V → ℝ} :
    r.l.residual y = r.l.residual r.y ↔ r.l.B *ᵥ y = r.l.B *ᵥ r.y := by
  simp [Spec.Level.residual]

/-- The rows of the problem at a level, in terms of the candidate `y + Z u`. -/
theorem levelQP_feasible_iff (Z : Basis V) (y : V → ℝ) (done : List (LevelAnswer V)) (l : Level V)
    (x : Fin Z.1 ⊕ l.I → ℝ) :
    (levelQP Z y done l).Feasible x ↔
      (∀ r, l.value (y + Z.2 *ᵥ (x ∘ Sum.inl)) r ≤ x (Sum.inr r)) ∧
      ∀ d ∈ done, ∀ i, d.l.value (y + Z.2 *ᵥ (x ∘ Sum.inl)) i ≤ d.v i := by
  classical
  have e : ∀ (l' : Level V) (i : l'.I), (l'.A * Z.2) i ⬝ᵥ (x ∘ Sum.inl) = (l'.A *ᵥ (Z.2 *ᵥ (x ∘ Sum.inl))) i := by
    intro l' i
    rw [mulVec_mulVec]; rfl
  constructor
  · intro h
    refine ⟨fun r => ?_, fun d hd i => ?_⟩
    · have := h (Sum.inl r)
      simp only [levelQP, Sum.elim_inl] at this
      rw [show x = Sum.elim (x ∘ Sum.inl) (x ∘ Sum.inr) from (Sum.elim_comp_inl_inr x).symm,
        sumElim_dotProduct_sumElim, e] at this
      simp [Spec.Level.value, mulVec_add] at this ⊢
      linarith
    · obtain ⟨k, hk, rfl⟩ := List.getElem_of_mem hd
      have := h (Sum.inr ⟨⟨k, hk⟩, i⟩)
      simp only [levelQP, Sum.elim_inr] at this
      rw [show x = Sum.elim (x ∘ Sum.inl) (x ∘ Sum.inr) from (Sum.elim_comp_inl_inr x).symm,
        sumElim_dotProduct_sumElim, e] at this
      simp [Spec.Level.value, mulVec_add] at this ⊢
      linarith
  · rintro ⟨h1, h2⟩ (r | ⟨k, i⟩)
    · have := h1 r
      simp only [levelQP, Sum.elim_inl]
      rw [show x = Sum.elim (x ∘ Sum.inl) (x ∘ Sum.inr) from (Sum.elim_comp_inl_inr x).symm,
        sumElim_dotProduct_sumElim, e]
      simp [Spec.Level.value, mulVec_add] at this ⊢
      linarith
    · have := h2 (done.get k) (List.get_mem _ _) i
      simp only [levelQP, Sum.elim_inr]
      rw [show x = Sum.elim (x ∘ Sum.inl) (x ∘ Sum.inr) from (Sum.elim_comp_inl_inr x).symm,
        sumElim_dotProduct_sumElim, e]
      simp [Spec.Level.value, mulVec_add] at this ⊢
      linarith

/-- Quadratic part of `B (y + Z u) + b`. -/
theorem sq_residual {E X : Type} [Fintype E] [Fintype X] (T : Matrix E X ℝ) (c : E → ℝ) (u : X → ℝ) :
    (1 / 2) * ((T *ᵥ u + c) ⬝ᵥ (T *ᵥ u + c)) =
      (1 / 2) * (u ⬝ᵥ ((Tᵀ * T) *ᵥ u)) + (Tᵀ *ᵥ c) ⬝ᵥ u + (1 / 2) * (c ⬝ᵥ c) := by
  have h1 : u ⬝ᵥ ((Tᵀ * T) *ᵥ u) = (T *ᵥ u) ⬝ᵥ (T *ᵥ u) := by
    rw [← mulVec_mulVec, dotProduct_mulVec, vecMul_transpose]
  have h2 : (Tᵀ *ᵥ c) ⬝ᵥ u = c ⬝ᵥ (T *ᵥ u) := by
    rw [mulVec_transpose, ← dotProduct_mulVec]
  rw [h1, h2, add_dotProduct, dotProduct_add, dotProduct_add, dotProduct_comm (T *ᵥ u) c]
  ring

theorem sq_cost {X : Type} [Fintype X] {H : Matrix V V ℝ} (hH : Hᵀ = H) (Z : Matrix V X ℝ) (y : V → ℝ) (u : X → ℝ) :
    (1 / 2) * ((y + Z *ᵥ u) ⬝ᵥ (H *ᵥ (y + Z *ᵥ u))) =
      (1 / 2) * (u ⬝ᵥ ((Zᵀ * H * Z) *ᵥ u)) + ((Zᵀ * H) *ᵥ y) ⬝ᵥ u + (1 / 2) * (y ⬝ᵥ (H *ᵥ y)) := by
  have h1 : u ⬝ᵥ ((Zᵀ * H * Z) *ᵥ u) = (Z *ᵥ u) ⬝ᵥ (H *ᵥ (Z *ᵥ u)) := by
    rw [Matrix.mul_assoc, ← mulVec_mulVec, dotProduct_mulVec, vecMul_transpose, ← mulVec_mulVec]
  have h2 : ((Zᵀ * H) *ᵥ y) ⬝ᵥ u = (H *ᵥ y) ⬝ᵥ (Z *ᵥ u) := by
    rw [← mulVec_mulVec, mulVec_transpose, ← dotProduct_mulVec]
  have h3 : y ⬝ᵥ (H *ᵥ (Z *ᵥ u)) = (H *ᵥ y) ⬝ᵥ (Z *ᵥ u) := by
    rw [dotProduct_mulVec]
    conv_lhs => rw [← hH, vecMul_transpose]
  rw [h1, h2, mulVec_add, add_dotProduct, dotProduct_add, dotProduct_add, h3, dotProduct_comm (Z *ᵥ u) (H *ᵥ y)]
  ring

/-- The part of the level's objective that does not depend on the violation. -/
noncomputable def eqPart (l : Level V) (y : V → ℝ) : ℝ :=
  (1 / 2) * (l.residual y ⬝ᵥ l.residual y) + (1 / 2) * ((l.H.elim 0 fun H => y ⬝ᵥ (H *ᵥ y)))

theorem objective_eq (l : Level V) (y : V → ℝ) :
    l.objective y = eqPart l y + (1 / 2) * ∑ r, (max (l.value y r) 0) ^ 2 := by
  simp only [Spec.Level.objective, eqPart]; ring

theorem levelQP_cost (Z : Basis V) (y : V → ℝ) (done : List (LevelAnswer V)) (l : Level V)
    (hH : ∀ H ∈ l.H, Hᵀ = H) (x : Fin Z.1 ⊕ l.I → ℝ) :
    (levelQP Z y done l).cost x =
      eqPart l (y + Z.2 *ᵥ (x ∘ Sum.inl)) + (1 / 2) * (∑ r, x (Sum.inr r) ^ 2) - eqPart l y := by
  classical
  have hres : l.residual (y + Z.2 *ᵥ (x ∘ Sum.inl)) = (l.B * Z.2) *ᵥ (x ∘ Sum.inl) + l.residual y := by
    simp only [Spec.Level.residual, mulVec_add, mulVec_mulVec]; abel
  have hv : (x ∘ Sum.inr) ⬝ᵥ (x ∘ Sum.inr) = ∑ r, x (Sum.inr r) ^ 2 := by
    simp [dotProduct, sq]
  simp only [levelQP, LeQP.cost]
  rw [show x = Sum.elim (x ∘ Sum.inl) (x ∘ Sum.inr) from (Sum.elim_comp_inl_inr x).symm]
  rw [fromBlocks_mulVec, sumElim_dotProduct_sumElim, sumElim_dotProduct_sumElim]
  simp only [Sum.elim_comp_inl, Sum.elim_comp_inr, zero_mulVec, add_zero, zero_add, zero_dotProduct, Sum.elim_inr]
  rw [show ((1 : Matrix l.I l.I ℝ) *ᵥ (x ∘ Sum.inr)) = x ∘ Sum.inr from one_mulVec _]
  have hs := sq_residual (l.B * Z.2) (l.residual y) (x ∘ Sum.inl)
  rw [eqPart, hres, hs]
  have hd : (fun r => x (Sum.inr r)) = x ∘ Sum.inr := rfl
  simp only [Function.comp_apply]
  cases hl : l.H with
  | none => simp [hv, Spec.Level.residual, eqPart, hl]; ring
  | some H =>
    have hc := sq_cost (hH H (by simp [hl])) Z.2 y (x ∘ Sum.inl)
    simp only [eqPart, hl, Option.elim]
    rw [hc]
    simp only [add_mulVec, dotProduct_add, add_dotProduct, hv, Spec.Level.residual]
    ring

/-! ## Invariants of `solveRest` -/

/-- `Z` describes exactly the directions that no level in `done` sees. -/
structure ZInv (Z : Basis V) (done : List (LevelAnswer V)) : Prop where
  ann : ∀ d ∈ done, d.l.B * Z.2 = 0
  span : ∀ x : V → ℝ, (∀ d ∈ done, d.l.B *ᵥ x = 0) → ∃ u, x = Z.2 *ᵥ u

theorem ZInv.first {N : NullSpaceFn} (hN : N.Correct) (r : LevelAnswer V) : ZInv (firstZ N r.l) [r] := by
  refine ⟨?_, ?_⟩
  · intro d hd
    obtain rfl := List.mem_singleton.mp hd
    exact hN.ann _ _ _
  · intro x hx
    exact hN.span _ _ _ x (hx r (by simp))

theorem ZInv.next {N : NullSpaceFn} (hN : N.Correct) {Z : Basis V} {done : List (LevelAnswer V)} (h : ZInv Z done)
    (r : LevelAnswer V) : ZInv (nextZ N Z r.l) (done ++ [r]) := by
  refine ⟨?_, ?_⟩
  · intro d hd
    rcases List.mem_append.mp hd with hd | hd
    · refine (Matrix.mul_assoc _ _ _).symm.trans ?_
      rw [h.ann d hd]
      exact Matrix.zero_mul _
    · obtain rfl := List.mem_singleton.mp hd
      exact (Matrix.mul_assoc _ _ _).symm.trans (hN.ann _ _ _)
  · intro x hx
    obtain ⟨u, rfl⟩ := h.span x fun d hd => hx d (by simp [hd])
    have := hx r (by simp)
    rw [mulVec_mulVec] at this
    obtain ⟨w, rfl⟩ := hN.span _ _ _ u this
    exact ⟨w, mulVec_mulVec _ _ _⟩

/-- `y` has the same equality residuals as the answers in `done` had. -/
def SameResiduals (done : List (LevelAnswer V)) (y : V → ℝ) : Prop :=
  ∀ d ∈ done, d.l.residual y = d.l.residual d.y

/-- `y` violates the inequalities of `done` by no more than recorded. -/
def Within (done : List (LevelAnswer V)) (y : V → ℝ) : Prop := ∀ d ∈ done, ∀ i, d.l.value y i ≤ d.v i

theorem SameResiduals.move {Z : Basis V} {done : List (LevelAnswer V)} (h : ZInv Z done) {y : V → ℝ}
    (hs : SameResiduals done y) (u : Fin Z.1 → ℝ) : SameResiduals done (y + Z.2 *ᵥ u) := by
  intro d hd
  rw [← hs d hd]
  simp [Spec.Level.residual, mulVec_add, mulVec_mulVec, h.ann d hd]

/-- Any vector with the same residuals differs from `y` by a null-space direction. -/
theorem ZInv.reach {Z : Basis V} {done : List (LevelAnswer V)} (h : ZInv Z done) {y y' : V → ℝ}
    (hs : SameResiduals done y) (hs' : SameResiduals done y') : ∃ u, y' = y + Z.2 *ᵥ u := by
  obtain ⟨u, hu⟩ := h.span (y' - y) fun d hd => by
    have := (hs' d hd).trans (hs d hd).symm
    simp only [Spec.Level.residual, add_left_inj] at this
    rw [mulVec_sub, this, sub_self]
  exact ⟨u, by rw [← hu]; abel⟩

/-! Consequences of one exact answer. -/

section Exact
variable {Z : Basis V} {y : V → ℝ} {done : List (LevelAnswer V)} {l : Level V} {x : Fin Z.1 ⊕ l.I → ℝ}

/-- The candidate with decision `u` and the smallest violation that fits. -/
noncomputable def tightAnswer (Z : Basis V) (y : V → ℝ) (l : Level V) (u : Fin Z.1 → ℝ) : Fin Z.1 ⊕ l.I → ℝ :=
  Sum.elim u fun r => max (l.value (y + Z.2 *ᵥ u) r) 0

theorem tightAnswer_feasible (u : Fin Z.1 → ℝ) (hw : Within done (y + Z.2 *ᵥ u)) :
    (levelQP Z y done l).Feasible (tightAnswer Z y l u) := by
  rw [levelQP_feasible_iff]
  refine ⟨fun r => ?_, ?_⟩
  · simp [tightAnswer]
  · simpa [tightAnswer, Within] using hw

/-- An exact answer has no more violation than needed. -/
theorem exact_violation (hH : ∀ H ∈ l.H, Hᵀ = H) (hx : (levelQP Z y done l).IsSolution x) (r : l.I) :
    x (Sum.inr r) = max (l.value (y + Z.2 *ᵥ (x ∘ Sum.inl)) r) 0 := by
  classical
  have hf := (levelQP_feasible_iff ..).mp hx.1
  have ht : (levelQP Z y done l).Feasible (tightAnswer Z y l (x ∘ Sum.inl)) := tightAnswer_feasible _ hf.2
  have hc := hx.2 _ ht
  rw [levelQP_cost _ _ _ _ hH, levelQP_cost _ _ _ _ hH] at hc
  simp only [tightAnswer, Sum.elim_comp_inl, Sum.elim_inr] at hc
  have hsum : ∑ r, x (Sum.inr r) ^ 2 ≤ ∑ r, (max (l.value (y + Z.2 *ᵥ (x ∘ Sum.inl)) r) 0) ^ 2 := by linarith
  have hge : ∀ r ∈ Finset.univ, (max (l.value (y + Z.2 *ᵥ (x ∘ Sum.inl)) r) 0) ^ 2 ≤ x (Sum.inr r) ^ 2 := by
    intro r _
    have h1 := hf.1 r
    rcases le_total (l.value (y + Z.2 *ᵥ (x ∘ Sum.inl)) r) 0 with h0 | h0
    · rw [max_eq_right h0]; nlinarith [sq_nonneg (x (Sum.inr r))]
    · rw [max_eq_left h0]; exact pow_le_pow_left₀ h0 h1 2
  have heq := (Finset.sum_eq_sum_iff_of_le hge).mp (le_antisymm (Finset.sum_le_sum hge) hsum) r (Finset.mem_univ r)
  have h1 := hf.1 r
  rcases le_total (l.value (y + Z.2 *ᵥ (x ∘ Sum.inl)) r) 0 with h0 | h0
  · rw [max_eq_right h0] at heq ⊢
    have : x (Sum.inr r) ^ 2 = 0 := by rw [← heq]; ring
    exact pow_eq_zero_iff (by norm_num) |>.mp this
  · rw [max_eq_left h0] at heq ⊢
    have h2 : 0 ≤ x (Sum.inr r) := h0.trans h1
    exact ((pow_left_inj₀ h0 h2 (by norm_num)).mp heq).symm

/-- If the level can be met completely, a complete answer is an exact one. -/
theorem exact_of_met (hH : l.H = none) (u : Fin Z.1 → ℝ) (hw : Within done (y + Z.2 *ᵥ u))
    (hr : l.residual (y + Z.2 *ᵥ u) = 0) (hv : ∀ i, l.value (y + Z.2 *ᵥ u) i ≤ 0) :
    (levelQP Z y done l).IsSolution (tightAnswer Z y l u) := by
  have hs : ∀ H ∈ l.H, Hᵀ = H := by simp [hH]
  refine ⟨tightAnswer_feasible u hw, fun x _ => ?_⟩
  rw [levelQP_cost _ _ _ _ hs, levelQP_cost _ _ _ _ hs]
  simp only [tightAnswer, Sum.elim_comp_inl, Sum.elim_inr, eqPart, hr, hH, Option.elim]
  have h1 : ∑ r, max (l.value (y + Z.2 *ᵥ u) r) 0 ^ 2 = 0 :=
    Finset.sum_eq_zero fun r _ => by rw [max_eq_right (hv r)]; ring
  have h2 : 0 ≤ ∑ r, x (Sum.inr r) ^ 2 := Finset.sum_nonneg fun r _ => sq_nonneg _
  have h3 : ∀ c : l.E → ℝ, 0 ≤ c ⬝ᵥ c := fun c => by
    simp only [dotProduct]; exact Finset.sum_nonneg fun r _ => mul_self_nonneg _
  have := h3 (l.residual (y + Z.2 *ᵥ (x ∘ Sum.inl)))
  rw [h1]
  simp only [dotProduct_zero]
  linarith

/-- An exact answer minimises the level's objective among the vectors that keep the earlier levels. -/
theorem exact_optimal (hH : ∀ H ∈ l.H, Hᵀ = H) (hZ : ZInv Z done) (hs : SameResiduals done y)
    (hx : (levelQP Z y done l).IsSolution x) {y' : V → ℝ} (hs' : SameResiduals done y') (hw' : Within done y') :
    l.objective (y + Z.2 *ᵥ (x ∘ Sum.inl)) ≤ l.objective y' := by
  obtain ⟨u, rfl⟩ := hZ.reach hs hs'
  have hc := hx.2 _ (tightAnswer_feasible (l := l) u hw')
  rw [levelQP_cost _ _ _ _ hH, levelQP_cost _ _ _ _ hH] at hc
  simp only [tightAnswer, Sum.elim_comp_inl, Sum.elim_inr] at hc
  rw [objective_eq, objective_eq]
  simp only [exact_violation hH hx] at hc
  linarith

end Exact

/-! ## The whole run -/

theorem solveRest_levels (osqp : Osqp) (N : NullSpaceFn) (ls : List (Level V)) :
    ∀ (Z : Basis V) (y : V → ℝ) (done : List (LevelAnswer V)),
      (solveRest osqp N Z y done ls).map (·.l) = done.map (·.l) ++ ls := by
  induction ls with
  | nil => intros; simp [solveRest]
  | cons l ls ih =>
    intro Z y done
    simp [solveRest, ih, solveSingle, levelAnswer]

theorem solveRest_prefix (osqp : Osqp) (N : NullSpaceFn) (ls : List (Level V)) :
    ∀ (Z : Basis V) (y : V → ℝ) (done : List (LevelAnswer V)), done <+: solveRest osqp N Z y done ls := by
  induction ls with
  | nil => intros; simp [solveRest]
  | cons l ls ih =>
    intro Z y done
    exact (List.prefix_append _ _).trans (ih _ _ _)

/-- A relation between an earlier answer and a later one, and a fact about one answer with those before it, hold for
the whole run if every single step establishes them. -/
theorem solveRest_induct (osqp : Osqp) (N : NullSpaceFn) (hN : N.Correct)
    (P : ∀ (X : Type) [Fintype X], LeQP X → (X → ℝ) → Prop)
    (Inv : List (LevelAnswer V) → (V → ℝ) → Prop) (Q : List (LevelAnswer V) → LevelAnswer V → Prop) (L : Level V → Prop)
    (step : ∀ (Z : Basis V) (y : V → ℝ) (done : List (LevelAnswer V)) (l : Level V), L l → ZInv Z done → Inv done y →
      P _ (levelQP Z y done l) (osqp _ (levelQP Z y done l)) →
      Inv (done ++ [solveSingle osqp Z y done l]) (solveSingle osqp Z y done l).y ∧
        Q done (solveSingle osqp Z y done l))
    (ls : List (Level V)) (hL : ∀ l ∈ ls, L l) :
    ∀ (Z : Basis V) (y : V → ℝ) (done : List (LevelAnswer V)), ZInv Z done → Inv done y →
      EveryAnswer P osqp N Z y done ls →
      ∀ pre r post, solveRest osqp N Z y done ls = pre ++ r :: post → done.length ≤ pre.length →
        Q pre r ∧ Inv (pre ++ [r]) r.y := by
  induction ls with
  | nil =>
    intro Z y done _ _ _ pre r post h hlen
    simp only [solveRest] at h
    rw [h] at hlen
    simp at hlen
  | cons l ls ih =>
    intro Z y done hZ hI hE pre r post h hlen
    obtain ⟨hP, hE'⟩ := hE
    have hs := step Z y done l (hL l (by simp)) hZ hI hP
    simp only [solveRest] at h
    have hZ' : ZInv (nextZ N Z l) (done ++ [solveSingle osqp Z y done l]) :=
      hZ.next hN (solveSingle osqp Z y done l)
    rcases Nat.lt_or_ge done.length pre.length with hlt | hge
    · exact ih (fun l hl => hL l (by simp [hl])) _ _ _ hZ' hs.1 hE' pre r post h (by simp; omega)
    · have hlen' : done.length = pre.length := le_antisymm hlen hge
      have hp := solveRest_prefix osqp N ls (nextZ N Z l) (solveSingle osqp Z y done l).y
        (done ++ [solveSingle osqp Z y done l])
      obtain ⟨t, ht⟩ := hp
      rw [h, List.append_assoc] at ht
      obtain ⟨e1, e2⟩ := List.append_inj ht hlen'
      simp only [List.singleton_append, List.cons.injEq] at e2
      rw [← e1, ← e2.1]
      exact ⟨hs.2, hs.1⟩

/-- A sound solver answers every level feasibly, because every level's problem has a feasible point. -/
theorem everyAnswer_feasible {osqp : Osqp} (hs : OsqpSound osqp) (N : NullSpaceFn) (ls : List (Level V)) :
    ∀ (Z : Basis V) (y : V → ℝ) (done : List (LevelAnswer V)), Within done y →
      EveryAnswer (fun X _ d x => d.Feasible x) osqp N Z y done ls := by
  induction ls with
  | nil => intros; trivial
  | cons l ls ih =>
    intro Z y done hw
    have hf : (levelQP Z y done l).Feasible (osqp _ (levelQP Z y done l)) := by
      refine hs _ _ ⟨tightAnswer Z y l 0, tightAnswer_feasible 0 ?_⟩
      simpa using hw
    refine ⟨hf, ih _ _ _ ?_⟩
    have h2 := (levelQP_feasible_iff ..).mp hf
    intro d hd i
    rcases List.mem_append.mp hd with hd | hd
    · exact h2.2 d hd i
    · obtain rfl := List.mem_singleton.mp hd
      exact h2.1 i

theorem everyAnswer_mono {P Q : ∀ (X : Type) [Fintype X], LeQP X → (X → ℝ) → Prop}
    (h : ∀ (X : Type) [Fintype X] (d : LeQP X) x, P X d x → Q X d x) (osqp : Osqp) (N : NullSpaceFn)
    (ls : List (Level V)) :
    ∀ (Z : Basis V) (y : V → ℝ) (done : List (LevelAnswer V)), EveryAnswer P osqp N Z y done ls →
      EveryAnswer Q osqp N Z y done ls := by
  induction ls with
  | nil => intros; trivial
  | cons l ls ih => intro Z y done hE; exact ⟨h _ _ _ hE.1, ih _ _ _ hE.2⟩

theorem everyAnswer_true (osqp : Osqp) (N : NullSpaceFn) (ls : List (Level V)) :
    ∀ (Z : Basis V) (y : V → ℝ) (done : List (LevelAnswer V)),
      EveryAnswer (fun _ _ _ _ => True) osqp N Z y done ls := by
  induction ls with
  | nil => intros; trivial
  | cons l ls ih => intro Z y done; exact ⟨trivial, ih _ _ _⟩

/-! ## Normalisation -/

theorem rowScale_pos (r : V → ℝ) : 0 < rowScale r := by
  unfold rowScale
  split
  · positivity
  · norm_num

theorem normalizeRows_value (l : Level V) (y : V → ℝ) (i : l.I) :
    (normalizeRows l).value y i = rowScale (l.A i) * l.value y i := by
  show (rowScale (l.A i) • l.A i) ⬝ᵥ y + rowScale (l.A i) * l.a i = _ * (l.A i ⬝ᵥ y + l.a i)
  rw [smul_dotProduct, smul_eq_mul]
  ring

theorem normalizeRows_residual (l : Level V) (y : V → ℝ) (i : l.E) :
    (normalizeRows l).residual y i = rowScale (l.B i) * l.residual y i := by
  show (rowScale (l.B i) • l.B i) ⬝ᵥ y + rowScale (l.B i) * l.b i = _ * (l.B i ⬝ᵥ y + l.b i)
  rw [smul_dotProduct, smul_eq_mul]
  ring

theorem normalizeRows_value_nonpos (l : Level V) (y : V → ℝ) (i : l.I) :
    (normalizeRows l).value y i ≤ 0 ↔ l.value y i ≤ 0 := by
  rw [normalizeRows_value]
  have := rowScale_pos (l.A i)
  constructor
  · intro h; by_contra hc; push Not at hc; nlinarith [mul_pos this hc]
  · intro h; nlinarith

theorem normalizeRows_residual_zero (l : Level V) (y : V → ℝ) (i : l.E) :
    (normalizeRows l).residual y i = 0 ↔ l.residual y i = 0 := by
  rw [normalizeRows_residual]
  simp [(rowScale_pos (l.B i)).ne']

/-! ## Existence of the assumed parts -/

open Classical in
/-- A correct null-space function: the columns of the kernel projector. -/
noncomputable def projNull : NullSpaceFn := fun _ W _ _ M =>
  ⟨Fintype.card W, (1 - pinv M * M).submatrix id (Fintype.equivFin W).symm⟩

theorem projNull_correct : projNull.Correct := by
  classical
  refine ⟨?_, ?_⟩
  · intro E W _ _ M
    have h := (pinv_spec M).1
    ext i j
    have : (M * (1 - pinv M * M)) = 0 := by
      rw [Matrix.mul_sub, ← Matrix.mul_assoc, h, Matrix.mul_one, sub_self]
    have := congrFun (congrFun this i) ((Fintype.equivFin W).symm j)
    exact this
  · intro E W _ _ M x hx
    refine ⟨x ∘ (Fintype.equivFin W).symm, ?_⟩
    have h : (1 - pinv M * M) *ᵥ x = x := by
      rw [sub_mulVec, ← mulVec_mulVec, hx]; simp
    funext i
    conv_lhs => rw [← h]
    simp only [projNull, mulVec, dotProduct, submatrix_apply, id]
    exact (Equiv.sum_comp (Fintype.equivFin W).symm fun j => (1 - pinv M * M : Matrix W W ℝ) i j * x j).symm

open Classical in
/-- A sound solver: a feasible point if there is one. -/
noncomputable def chooseFeasible : Osqp := fun _ _ d => if h : ∃ x, d.Feasible x then h.choose else 0

theorem chooseFeasible_sound : OsqpSound chooseFeasible := by
  intro X _ d h
  simp only [chooseFeasible, h, dif_pos]
  exact h.choose_spec

open Classical in
/-- An exact solver: a solution if there is one. -/
noncomputable def chooseSolution : Osqp := fun _ _ d => if h : ∃ x, d.IsSolution x then h.choose else 0

theorem chooseSolution_spec {X : Type} [Fintype X] {d : LeQP X} (h : ∃ x, d.IsSolution x) :
    d.IsSolution (chooseSolution X d) := by
  simp only [chooseSolution, h, dif_pos]
  exact h.choose_spec

/-! ## `solvefirst` -/

theorem firstQP_feasible_iff (l : Level V) (Vw : Matrix l.I l.I ℝ) (Ww : Matrix l.E l.E ℝ) (x : V ⊕ l.I → ℝ) :
    (firstQP l Vw Ww).Feasible x ↔ ∀ r, (Vw *ᵥ l.value (x ∘ Sum.inl)) r ≤ x (Sum.inr r) := by
  classical
  refine forall_congr' fun (r : l.I) => ?_
  show Sum.elim ((Vw * l.A) r) (-(Pi.single r 1)) ⬝ᵥ x ≤ -(Vw *ᵥ l.a) r ↔ _
  rw [show x = Sum.elim (x ∘ Sum.inl) (x ∘ Sum.inr) from (Sum.elim_comp_inl_inr x).symm,
    sumElim_dotProduct_sumElim]
  have e : (Vw * l.A) r ⬝ᵥ (x ∘ Sum.inl) = (Vw *ᵥ (l.A *ᵥ (x ∘ Sum.inl))) r := by rw [mulVec_mulVec]; rfl
  rw [e]
  simp [Spec.Level.value, mulVec_add]
  constructor <;> intro h <;> linarith

theorem firstQP_cost (l : Level V) (Vw : Matrix l.I l.I ℝ) [DecidableEq l.E] (x : V ⊕ l.I → ℝ) :
    (firstQP l Vw 1).cost x =
      eqPart l (x ∘ Sum.inl) + (1 / 2) * (∑ r, x (Sum.inr r) ^ 2) - (1 / 2) * (l.b ⬝ᵥ l.b) := by
  classical
  have hv : (x ∘ Sum.inr) ⬝ᵥ (x ∘ Sum.inr) = ∑ r, x (Sum.inr r) ^ 2 := by
    simp [dotProduct, sq]
  have hs := sq_residual l.B l.b (x ∘ Sum.inl)
  simp only [firstQP, LeQP.cost]
  rw [show x = Sum.elim (x ∘ Sum.inl) (x ∘ Sum.inr) from (Sum.elim_comp_inl_inr x).symm]
  rw [fromBlocks_mulVec, sumElim_dotProduct_sumElim, sumElim_dotProduct_sumElim]
  simp only [Sum.elim_comp_inl, Sum.elim_comp_inr, zero_mulVec, add_zero, zero_add, zero_dotProduct, Sum.elim_inr]
  rw [show ((1 : Matrix l.I l.I ℝ) *ᵥ (x ∘ Sum.inr)) = x ∘ Sum.inr from one_mulVec _]
  simp only [eqPart, Spec.Level.residual, hs, Matrix.one_mul, one_mulVec, Function.comp_apply, hv]
  cases hl : l.H with
  | none => simp; ring
  | some H => simp only [Option.elim, id, add_mulVec, dotProduct_add]; ring

end Verif
