import Verif.Lemmas.HQPExists
import Verif.Lemmas.HQP
import Mathlib.Data.Fin.VecNotation
import Mathlib.LinearAlgebra.Matrix.Notation
import Mathlib.Tactic.FinCases

/-!
# C32, C33, C34: hierarchical QP

`solveSequential` gives the answers of all levels in order, starting with the answer held by level 0.
-/

set_option linter.unusedSectionVars false

namespace Verif.Props
open Matrix Verif Verif.Spec Verif.Model

section
variable {V : Type} [Fintype V] [DecidableEq V]

/-- **C32.** Whatever the solver answers, there is one answer per level, in order; no level changes the equality
residual of an earlier one; and the residual each later level reports is its true residual, then and at the end. -/
theorem C32_residual_kept (osqp : Osqp) (N : NullSpaceFn) (hN : N.Correct) (r₀ : LevelAnswer V) (ls : List (Level V)) :
    (solveSequential osqp N r₀ ls).map (·.l) = r₀.l :: ls ∧
    (solveSequential osqp N r₀ ls).Pairwise (fun rj ri => rj.l.residual ri.y = rj.l.residual rj.y) ∧
    (∀ r ∈ (solveSequential osqp N r₀ ls).tail, r.w = r.l.residual r.y) ∧
    (solveSequential osqp N r₀ ls).head? = some r₀ := by
  have hpre := solveRest_prefix osqp N ls (firstZ N r₀.l) r₀.y [r₀]
  have main := solveRest_induct osqp N hN (fun _ _ _ _ => True) SameResiduals
    (fun done r => SameResiduals done r.y ∧ r.w = r.l.residual r.y) (fun _ => True)
    (by
      intro Z y done l _ hZ hI _
      have hm := SameResiduals.move hZ hI ((osqp _ (levelQP Z y done l)) ∘ Sum.inl)
      refine ⟨?_, hm, rfl⟩
      intro d hd
      rcases List.mem_append.mp hd with hd | hd
      · exact hm d hd
      · obtain rfl := List.mem_singleton.mp hd
        rfl)
    ls (fun _ _ => trivial) (firstZ N r₀.l) r₀.y [r₀] (ZInv.first hN r₀)
    (by intro d hd; obtain rfl := List.mem_singleton.mp hd; rfl) (everyAnswer_true ..)
  obtain ⟨t, ht⟩ := hpre
  refine ⟨?_, ?_, ?_, ?_⟩
  · simpa [solveSequential] using solveRest_levels osqp N ls (firstZ N r₀.l) r₀.y [r₀]
  · rw [List.pairwise_iff_getElem]
    intro i j hi hj hij
    have hsplit : solveSequential osqp N r₀ ls = (solveSequential osqp N r₀ ls).take j ++
        (solveSequential osqp N r₀ ls)[j] :: (solveSequential osqp N r₀ ls).drop (j + 1) := by
      rw [List.getElem_cons_drop, List.take_append_drop]
    have := (main _ _ _ hsplit (by simp; omega)).1.1 (solveSequential osqp N r₀ ls)[i]
      (List.mem_take_iff_getElem.mpr ⟨i, by omega, rfl⟩)
    exact this
  · intro r hr
    obtain ⟨a, b, hab⟩ := List.append_of_mem hr
    have : solveSequential osqp N r₀ ls = (r₀ :: a) ++ r :: b := by
      rw [List.cons_append, ← hab]
      rw [solveSequential, ← ht]; rfl
    exact (main _ _ _ this (by simp)).1.2
  · rw [solveSequential, ← ht]; rfl

/-- **C33 (feasible answers).** If every answer of the solver satisfies the rows of the problem it was given, and level
0 was answered within its recorded violation, then at every later level the inequalities of all earlier levels, and its
own, are violated by no more than the violation recorded when they were solved. -/
theorem C33_inequalities_kept (osqp : Osqp) (N : NullSpaceFn) (hN : N.Correct) (r₀ : LevelAnswer V)
    (ls : List (Level V)) (h₀ : ∀ i, r₀.l.value r₀.y i ≤ r₀.v i)
    (hE : EveryAnswer (fun _ _ d x => d.Feasible x) osqp N (firstZ N r₀.l) r₀.y [r₀] ls) :
    (solveSequential osqp N r₀ ls).Pairwise (fun rj ri => ∀ i, rj.l.value ri.y i ≤ rj.v i) ∧
    ∀ r ∈ solveSequential osqp N r₀ ls, ∀ i, r.l.value r.y i ≤ r.v i := by
  have hpre := solveRest_prefix osqp N ls (firstZ N r₀.l) r₀.y [r₀]
  have main := solveRest_induct osqp N hN (fun _ _ d x => d.Feasible x) Within
    (fun done r => Within done r.y ∧ ∀ i, r.l.value r.y i ≤ r.v i) (fun _ => True)
    (by
      intro Z y done l _ hZ hI hf
      have h2 := (levelQP_feasible_iff ..).mp hf
      refine ⟨?_, h2.2, h2.1⟩
      intro d hd
      rcases List.mem_append.mp hd with hd | hd
      · exact h2.2 d hd
      · obtain rfl := List.mem_singleton.mp hd
        exact h2.1)
    ls (fun _ _ => trivial) (firstZ N r₀.l) r₀.y [r₀] (ZInv.first hN r₀)
    (by intro d hd; obtain rfl := List.mem_singleton.mp hd; exact h₀) hE
  obtain ⟨t, ht⟩ := hpre
  refine ⟨?_, ?_⟩
  · rw [List.pairwise_iff_getElem]
    intro i j hi hj hij
    have hsplit : solveSequential osqp N r₀ ls = (solveSequential osqp N r₀ ls).take j ++
        (solveSequential osqp N r₀ ls)[j] :: (solveSequential osqp N r₀ ls).drop (j + 1) := by
      rw [List.getElem_cons_drop, List.take_append_drop]
    exact (main _ _ _ hsplit (by simp; omega)).1.1 (solveSequential osqp N r₀ ls)[i]
      (List.mem_take_iff_getElem.mpr ⟨i, by omega, rfl⟩)
  · intro r hr
    have e : solveSequential osqp N r₀ ls = r₀ :: t := by rw [solveSequential, ← ht]; rfl
    rw [e] at hr
    rcases List.mem_cons.mp hr with rfl | hr
    · exact h₀
    · obtain ⟨a, b, hab⟩ := List.append_of_mem hr
      have : solveSequential osqp N r₀ ls = (r₀ :: a) ++ r :: b := by rw [e, hab]; rfl
      exact (main _ _ _ this (by simp)).1.2

/-- **C33 (no level is infeasible).** The problems posed always have a feasible point, so a solver that finds one when
there is one gives the hypothesis of `C33_inequalities_kept`. -/
theorem C33_levels_feasible (osqp : Osqp) (hs : OsqpSound osqp) (N : NullSpaceFn) (r₀ : LevelAnswer V)
    (ls : List (Level V)) (h₀ : ∀ i, r₀.l.value r₀.y i ≤ r₀.v i) :
    EveryAnswer (fun _ _ d x => d.Feasible x) osqp N (firstZ N r₀.l) r₀.y [r₀] ls :=
  everyAnswer_feasible hs N ls _ _ _ (by intro d hd; obtain rfl := List.mem_singleton.mp hd; exact h₀)

/-- **C33 (exact answers).** If every answer is an exact solution of the problem posed, then every level after the first
records exactly the positive part of its inequality values, so the recorded violations are nonnegative although no such
bound is handed to the solver; and its answer is best for its own objective among all vectors that keep what every
earlier level achieved. -/
theorem C33_exact (osqp : Osqp) (N : NullSpaceFn) (hN : N.Correct) (r₀ : LevelAnswer V)
    (ls : List (Level V)) (hH : ∀ l ∈ ls, ∀ H ∈ l.H, Hᵀ = H) (h₀ : ∀ i, r₀.l.value r₀.y i ≤ r₀.v i)
    (hE : EveryAnswer (fun _ _ d x => d.IsSolution x) osqp N (firstZ N r₀.l) r₀.y [r₀] ls)
    (pre : List (LevelAnswer V)) (r : LevelAnswer V) (post : List (LevelAnswer V))
    (hsplit : solveSequential osqp N r₀ ls = pre ++ r :: post) (hpre : pre ≠ []) :
    (∀ i, r.v i = max (r.l.value r.y i) 0) ∧ (∀ i, 0 ≤ r.v i) ∧ (∀ d ∈ pre, Keeps d r.y) ∧
    ∀ y', (∀ d ∈ pre, Keeps d y') → r.l.objective r.y ≤ r.l.objective y' := by
  have main := solveRest_induct osqp N hN (fun _ _ d x => d.IsSolution x)
    (fun done y => SameResiduals done y ∧ Within done y)
    (fun done r => (∀ i, r.v i = max (r.l.value r.y i) 0) ∧ (∀ d ∈ done, Keeps d r.y) ∧
      ∀ y', (∀ d ∈ done, Keeps d y') → r.l.objective r.y ≤ r.l.objective y') (fun l => ∀ H ∈ l.H, Hᵀ = H)
    (by
      intro Z y done l hl hZ hI hx
      have h2 := (levelQP_feasible_iff ..).mp hx.1
      have hm := SameResiduals.move hZ hI.1 ((osqp _ (levelQP Z y done l)) ∘ Sum.inl)
      refine ⟨⟨?_, ?_⟩, ?_, ?_, ?_⟩
      · intro d hd
        rcases List.mem_append.mp hd with hd | hd
        · exact hm d hd
        · obtain rfl := List.mem_singleton.mp hd
          rfl
      · intro d hd
        rcases List.mem_append.mp hd with hd | hd
        · exact h2.2 d hd
        · obtain rfl := List.mem_singleton.mp hd
          exact h2.1
      · exact fun i => exact_violation hl hx i
      · exact fun d hd => ⟨hm d hd, h2.2 d hd⟩
      · intro y' hy'
        exact exact_optimal hl hZ hI.1 hx (fun d hd => (hy' d hd).1) (fun d hd => (hy' d hd).2))
    ls hH (firstZ N r₀.l) r₀.y [r₀] (ZInv.first hN r₀)
    ⟨by intro d hd; obtain rfl := List.mem_singleton.mp hd; rfl,
      by intro d hd; obtain rfl := List.mem_singleton.mp hd; exact h₀⟩ hE
  have hlen : [r₀].length ≤ pre.length := by
    exact List.length_pos_iff.mpr hpre
  obtain ⟨h1, h2, h3⟩ := (main pre r post hsplit hlen).1
  exact ⟨h1, fun i => by rw [h1 i]; exact le_max_right _ _, h2, h3⟩

/-- **C33 (first level by `solvefirst`).** With the weights at their initial value (identity), an exact answer records
exactly the positive part of the inequality values, and is best for the level's objective among all vectors. -/
theorem C33_first_level (osqp : Osqp) (l : Level V) [DecidableEq l.I] [DecidableEq l.E]
    (hx : (firstQP l 1 1).IsSolution (osqp _ (firstQP l 1 1))) :
    (∀ i, (solveFirst osqp l 1 1).v i = max (l.value (solveFirst osqp l 1 1).y i) 0) ∧
    ∀ y', l.objective (solveFirst osqp l 1 1).y ≤ l.objective y' := by
  set x := osqp _ (firstQP l 1 1) with hxdef
  have hf := (firstQP_feasible_iff l 1 1 x).mp hx.1
  simp only [one_mulVec] at hf
  have key : ∀ y' : V → ℝ, eqPart l (x ∘ Sum.inl) + (1 / 2) * (∑ r, x (Sum.inr r) ^ 2) ≤
      eqPart l y' + (1 / 2) * ∑ r, (max (l.value y' r) 0) ^ 2 := by
    intro y'
    have h := hx.2 (Sum.elim y' fun r => max (l.value y' r) 0) (by
      rw [firstQP_feasible_iff]; intro r; simp)
    rw [firstQP_cost, firstQP_cost] at h
    simp only [Sum.elim_comp_inl, Sum.elim_inr] at h
    linarith
  have hv : ∀ r, x (Sum.inr r) = max (l.value (x ∘ Sum.inl) r) 0 := by
    intro r
    have hsum : ∑ r, x (Sum.inr r) ^ 2 ≤ ∑ r, (max (l.value (x ∘ Sum.inl) r) 0) ^ 2 := by
      have := key (x ∘ Sum.inl); linarith
    have hge : ∀ r ∈ Finset.univ, (max (l.value (x ∘ Sum.inl) r) 0) ^ 2 ≤ x (Sum.inr r) ^ 2 := by
      intro r _
      rcases le_total (l.value (x ∘ Sum.inl) r) 0 with h0 | h0
      · rw [max_eq_right h0]; nlinarith [sq_nonneg (x (Sum.inr r))]
      · rw [max_eq_left h0]; exact pow_le_pow_left₀ h0 (hf r) 2
    have heq := (Finset.sum_eq_sum_iff_of_le hge).mp (le_antisymm (Finset.sum_le_sum hge) hsum) r (Finset.mem_univ r)
    rcases le_total (l.value (x ∘ Sum.inl) r) 0 with h0 | h0
    · rw [max_eq_right h0] at heq ⊢
      have : x (Sum.inr r) ^ 2 = 0 := by rw [← heq]; ring
      exact pow_eq_zero_iff (by norm_num) |>.mp this
    · rw [max_eq_left h0] at heq ⊢
      exact ((pow_left_inj₀ h0 (h0.trans (hf r)) (by norm_num)).mp heq).symm
  refine ⟨hv, fun y' => ?_⟩
  show l.objective (x ∘ Sum.inl) ≤ _
  have h := key y'
  rw [objective_eq, objective_eq]
  simp only [hv] at h
  linarith

/-- **C33 (exact solver).** If the level costs are symmetric and nowhere negative, every problem posed has an exact
solution; so with a solver that finds it, the conclusions of `C33_exact` hold for every run that starts within bounds. -/
theorem C33_exact_solver (osqp : Osqp) (hs : OsqpExact osqp) (N : NullSpaceFn) (hN : N.Correct) (r₀ : LevelAnswer V)
    (ls : List (Level V)) (hH : ∀ l ∈ ls, ∀ H ∈ l.H, CostOk H) (h₀ : ∀ i, r₀.l.value r₀.y i ≤ r₀.v i)
    (pre : List (LevelAnswer V)) (r : LevelAnswer V) (post : List (LevelAnswer V))
    (hsplit : solveSequential osqp N r₀ ls = pre ++ r :: post) (hpre : pre ≠ []) :
    (∀ i, r.v i = max (r.l.value r.y i) 0) ∧ (∀ i, 0 ≤ r.v i) ∧ (∀ d ∈ pre, Keeps d r.y) ∧
    ∀ y', (∀ d ∈ pre, Keeps d y') → r.l.objective r.y ≤ r.l.objective y' :=
  C33_exact osqp N hN r₀ ls (fun l hl H h => (hH l hl H h).1) h₀
    (everyAnswer_exact hs N ls hH _ _ _ (by intro d hd; obtain rfl := List.mem_singleton.mp hd; exact h₀))
    pre r post hsplit hpre

/-- **C33 (first level by `solvefirst`, any weights).** An exact answer records the positive part of the *weighted*
inequality values, and minimises the squared weighted residual plus squared weighted violation plus cost. -/
theorem C33_first_level_weighted (osqp : Osqp) (l : Level V) (Vw : Matrix l.I l.I ℝ) (Ww : Matrix l.E l.E ℝ)
    (hx : (firstQP l Vw Ww).IsSolution (osqp _ (firstQP l Vw Ww))) :
    (∀ i, (solveFirst osqp l Vw Ww).v i = max ((Vw *ᵥ l.value (solveFirst osqp l Vw Ww).y) i) 0) ∧
    ∀ y', (1 / 2) * ((Ww *ᵥ l.residual (solveFirst osqp l Vw Ww).y) ⬝ᵥ (Ww *ᵥ l.residual (solveFirst osqp l Vw Ww).y))
        + (1 / 2) * (∑ r, (max ((Vw *ᵥ l.value (solveFirst osqp l Vw Ww).y) r) 0) ^ 2)
        + (1 / 2) * (l.H.elim 0 fun H => (solveFirst osqp l Vw Ww).y ⬝ᵥ (H *ᵥ (solveFirst osqp l Vw Ww).y)) ≤
      (1 / 2) * ((Ww *ᵥ l.residual y') ⬝ᵥ (Ww *ᵥ l.residual y'))
        + (1 / 2) * (∑ r, (max ((Vw *ᵥ l.value y') r) 0) ^ 2) + (1 / 2) * (l.H.elim 0 fun H => y' ⬝ᵥ (H *ᵥ y')) := by
  set x := osqp _ (firstQP l Vw Ww) with hxdef
  have hf := (firstQP_feasible_iff l Vw Ww x).mp hx.1
  have key : ∀ y' : V → ℝ, eqPartW l Ww (x ∘ Sum.inl) + (1 / 2) * (∑ r, x (Sum.inr r) ^ 2) ≤
      eqPartW l Ww y' + (1 / 2) * ∑ r, (max ((Vw *ᵥ l.value y') r) 0) ^ 2 := by
    intro y'
    have h := hx.2 (Sum.elim y' fun r => max ((Vw *ᵥ l.value y') r) 0) (by
      rw [firstQP_feasible_iff]; intro r; simp)
    rw [firstQP_costW, firstQP_costW] at h
    simp only [Sum.elim_comp_inl, Sum.elim_inr] at h
    linarith
  have hv : ∀ r, x (Sum.inr r) = max ((Vw *ᵥ l.value (x ∘ Sum.inl)) r) 0 := by
    intro r
    have hsum : ∑ r, x (Sum.inr r) ^ 2 ≤ ∑ r, (max ((Vw *ᵥ l.value (x ∘ Sum.inl)) r) 0) ^ 2 := by
      have := key (x ∘ Sum.inl); linarith
    have hge : ∀ r ∈ Finset.univ, (max ((Vw *ᵥ l.value (x ∘ Sum.inl)) r) 0) ^ 2 ≤ x (Sum.inr r) ^ 2 := by
      intro r _
      rcases le_total ((Vw *ᵥ l.value (x ∘ Sum.inl)) r) 0 with h0 | h0
      · rw [max_eq_right h0]; nlinarith [sq_nonneg (x (Sum.inr r))]
      · rw [max_eq_left h0]; exact pow_le_pow_left₀ h0 (hf r) 2
    have heq := (Finset.sum_eq_sum_iff_of_le hge).mp (le_antisymm (Finset.sum_le_sum hge) hsum) r (Finset.mem_univ r)
    rcases le_total ((Vw *ᵥ l.value (x ∘ Sum.inl)) r) 0 with h0 | h0
    · rw [max_eq_right h0] at heq ⊢
      have : x (Sum.inr r) ^ 2 = 0 := by rw [← heq]; ring
      exact pow_eq_zero_iff (by norm_num) |>.mp this
    · rw [max_eq_left h0] at heq ⊢
      exact ((pow_left_inj₀ h0 (h0.trans (hf r)) (by norm_num)).mp heq).symm
  refine ⟨hv, fun y' => ?_⟩
  have h := key y'
  simp only [hv, eqPartW] at h
  have e : (solveFirst osqp l Vw Ww).y = x ∘ Sum.inl := rfl
  rw [e]
  linarith

end

/-! ## Examples and the effect of the weights -/

/-- Level 0 of the example: `y₀ = 0`, `y₁ ≤ 5`. -/
abbrev exLevel0 : Level (Fin 2) :=
  { I := Fin 1, E := Fin 1, A := !![0, 1], a := ![-5], B := !![1, 0], b := ![0], H := none }

/-- Level 1 of the example: `y₀ + y₁ = 3`, `y₀ ≤ 1`. -/
abbrev exLevel1 : Level (Fin 2) :=
  { I := Fin 1, E := Fin 1, A := !![1, 0], a := ![-1], B := !![1, 1], b := ![-3], H := none }

abbrev exAnswer0 : LevelAnswer (Fin 2) := { l := exLevel0, y := ![0, 4], v := ![0], w := ![0] }

theorem exAnswer0_within : ∀ i, exAnswer0.l.value exAnswer0.y i ≤ exAnswer0.v i := by
  intro i
  change Fin 1 at i
  fin_cases i
  simp [Spec.Level.value, exAnswer0, exLevel0, mulVec, dotProduct, Fin.sum_univ_two]
  norm_num

theorem ex_exact : EveryAnswer (fun _ _ d x => d.IsSolution x) chooseSolution projNull
    (firstZ projNull exAnswer0.l) exAnswer0.y [exAnswer0] [exLevel1] := by
  refine ⟨chooseSolution_spec ?_, trivial⟩
  have hZ := ZInv.first projNull_correct exAnswer0
  obtain ⟨u, hu⟩ := hZ.span ![0, -1] (by
    intro d hd
    obtain rfl := List.mem_singleton.mp hd
    funext i
    change Fin 1 at i
    fin_cases i
    simp [exAnswer0, exLevel0, mulVec, dotProduct, Fin.sum_univ_two])
  refine ⟨_, exact_of_met rfl u ?_ ?_ ?_⟩
  · intro d hd i
    obtain rfl := List.mem_singleton.mp hd
    rw [← hu]
    change Fin 1 at i
    fin_cases i
    simp [Spec.Level.value, exAnswer0, exLevel0, mulVec, dotProduct, Fin.sum_univ_two]
    norm_num
  · rw [← hu]
    funext i
    change Fin 1 at i
    fin_cases i
    simp [Spec.Level.residual, exAnswer0, exLevel1, mulVec, dotProduct, Fin.sum_univ_two]
    norm_num
  · rw [← hu]
    intro i
    change Fin 1 at i
    fin_cases i
    simp [Spec.Level.value, exAnswer0, exLevel1, mulVec, dotProduct, Fin.sum_univ_two]

/-- The example meets the hypotheses of `C32_residual_kept`, `C33_inequalities_kept` and `C33_exact`. -/
example : projNull.Correct ∧ (∀ i, exAnswer0.l.value exAnswer0.y i ≤ exAnswer0.v i) ∧
    EveryAnswer (fun _ _ d x => d.IsSolution x) chooseSolution projNull
      (firstZ projNull exAnswer0.l) exAnswer0.y [exAnswer0] [exLevel1] ∧
    EveryAnswer (fun _ _ d x => d.Feasible x) chooseSolution projNull
      (firstZ projNull exAnswer0.l) exAnswer0.y [exAnswer0] [exLevel1] ∧ OsqpSound chooseFeasible :=
  ⟨projNull_correct, exAnswer0_within, ex_exact, everyAnswer_mono (fun _ _ _ _ h => h.1) _ _ _ _ _ _ ex_exact,
    chooseFeasible_sound⟩

/-- ... and of `C33_exact_solver`, also with a nonzero cost -/
example : OsqpExact chooseSolution ∧ projNull.Correct ∧ CostOk (!![2, 1; 1, 1] : Matrix (Fin 2) (Fin 2) ℝ) ∧
    (∀ i, exAnswer0.l.value exAnswer0.y i ≤ exAnswer0.v i) := by
  refine ⟨chooseSolution_exact, projNull_correct, ⟨?_, fun x => ?_⟩, exAnswer0_within⟩
  · ext i j; fin_cases i <;> fin_cases j <;> rfl
  · simp [mulVec, dotProduct, Fin.sum_univ_two]
    nlinarith [sq_nonneg (x 0 + x 1), sq_nonneg (x 0)]

/-- Two inequalities that cannot both hold: `y + 1 ≤ 0` and `-y + 1 ≤ 0`. -/
abbrev tugLevel : Level (Fin 1) :=
  { I := Fin 2, E := Fin 0, A := !![1; -1], a := ![1, 1], B := 0, b := 0, H := none }

/-- The weight `½` on both inequalities. -/
noncomputable abbrev halfWeight : Matrix tugLevel.I tugLevel.I ℝ := (1 / 2 : ℝ) • (1 : Matrix (Fin 2) (Fin 2) ℝ)

noncomputable def tugQP : LeQP (Fin 1 ⊕ tugLevel.I) := firstQP tugLevel halfWeight (1 : Matrix (Fin 0) (Fin 0) ℝ)

theorem tugQP_feasible_iff (x : Fin 1 ⊕ tugLevel.I → ℝ) :
    tugQP.Feasible x ↔ (1 / 2) * (x (Sum.inl 0) + 1) ≤ x (Sum.inr (0 : Fin 2)) ∧
      (1 / 2) * (-x (Sum.inl 0) + 1) ≤ x (Sum.inr (1 : Fin 2)) := by
  rw [tugQP, firstQP_feasible_iff]
  show (∀ r : Fin 2, (((1 / 2 : ℝ) • (1 : Matrix (Fin 2) (Fin 2) ℝ)) *ᵥ (!![1; -1] *ᵥ (x ∘ Sum.inl) + ![1, 1])) r
    ≤ x (Sum.inr r)) ↔ _
  rw [Fin.forall_fin_two]
  simp [smul_mulVec, mulVec, dotProduct]

theorem tugQP_cost (x : Fin 1 ⊕ tugLevel.I → ℝ) :
    tugQP.cost x = (1 / 2) * (x (Sum.inr (0 : Fin 2)) ^ 2 + x (Sum.inr (1 : Fin 2)) ^ 2) := by
  have h := @firstQP_cost (Fin 1) _ _ tugLevel halfWeight (inferInstanceAs (DecidableEq (Fin 0))) x
  have e : ∑ r, x (Sum.inr r) ^ 2 = x (Sum.inr (0 : Fin 2)) ^ 2 + x (Sum.inr (1 : Fin 2)) ^ 2 :=
    Fin.sum_univ_two (fun r : Fin 2 => x (Sum.inr r) ^ 2)
  have e2 : ∀ c : tugLevel.E → ℝ, c ⬝ᵥ c = 0 := fun c => Finset.sum_eq_zero fun i _ => (i : Fin 0).elim0
  rw [e, eqPart, e2, e2] at h
  have e3 : tugLevel.H = none := rfl
  rw [e3] at h
  simp only [Option.elim] at h
  refine h.trans ?_
  ring

/-- The exact answer of `solvefirst` on `tugLevel` with weight `½`. -/
theorem tugQP_solution (x : Fin 1 ⊕ tugLevel.I → ℝ) :
    tugQP.IsSolution x ↔ x (Sum.inl 0) = 0 ∧ x (Sum.inr (0 : Fin 2)) = 1 / 2 ∧ x (Sum.inr (1 : Fin 2)) = 1 / 2 := by
  constructor
  · rintro ⟨hf, ho⟩
    rw [tugQP_feasible_iff] at hf
    have h := ho (Sum.elim 0 fun _ => 1 / 2) (by rw [tugQP_feasible_iff]; norm_num)
    rw [tugQP_cost, tugQP_cost] at h
    simp only [Sum.elim_inr] at h
    set p := x (Sum.inr (0 : Fin 2))
    set q := x (Sum.inr (1 : Fin 2))
    have hpq : (p - q) ^ 2 ≤ 0 := by nlinarith
    have : p = q := by nlinarith [pow_eq_zero_iff (two_ne_zero) |>.mp (le_antisymm hpq (sq_nonneg (p - q)))]
    have hp : p = 1 / 2 := by nlinarith
    refine ⟨?_, hp, this ▸ hp⟩
    have : q = 1 / 2 := this ▸ hp
    linarith [hf.1, hf.2]
  · rintro ⟨h0, h1, h2⟩
    refine ⟨by rw [tugQP_feasible_iff, h0, h1, h2]; norm_num, fun y hy => ?_⟩
    rw [tugQP_feasible_iff] at hy
    rw [tugQP_cost, tugQP_cost, h1, h2]
    nlinarith [sq_nonneg (y (Sum.inr (0 : Fin 2)) - y (Sum.inr (1 : Fin 2))),
      sq_nonneg (y (Sum.inr (0 : Fin 2)) + y (Sum.inr (1 : Fin 2)))]

/-- **C33 (weights).** `solvefirst` records the *weighted* violation, but later levels compare it with the unweighted
inequality.  With the weight `½` on both inequalities, the exact answer of `solvefirst` is out of its own bound and the
next level's problem has no feasible point at all, whatever that level asks for. -/
theorem C33_first_level_weights (osqp : Osqp) (N : NullSpaceFn) (l : Level (Fin 1))
    (hx : tugQP.IsSolution (osqp _ tugQP)) (r₀ : LevelAnswer (Fin 1))
    (hr : r₀ = solveFirst osqp tugLevel halfWeight (1 : Matrix (Fin 0) (Fin 0) ℝ)) :
    ¬ (∀ i, r₀.l.value r₀.y i ≤ r₀.v i) ∧
    ¬ ∃ x, (levelQP (firstZ N r₀.l) r₀.y [r₀] l).Feasible x := by
  obtain ⟨h0, h1, h2⟩ := (tugQP_solution _).mp hx
  have hval : ∀ y : Fin 1 → ℝ, tugLevel.value y = ![y 0 + 1, -y 0 + 1] := by
    intro y
    funext i
    change Fin 2 at i
    fin_cases i <;> simp [Spec.Level.value, tugLevel, mulVec, dotProduct]
  have hv0 : (solveFirst osqp tugLevel halfWeight (1 : Matrix (Fin 0) (Fin 0) ℝ)).v (0 : Fin 2) = 1 / 2 := h1
  have hv1 : (solveFirst osqp tugLevel halfWeight (1 : Matrix (Fin 0) (Fin 0) ℝ)).v (1 : Fin 2) = 1 / 2 := h2
  have hy : (solveFirst osqp tugLevel halfWeight (1 : Matrix (Fin 0) (Fin 0) ℝ)).y 0 = 0 := h0
  subst hr
  have key : ∀ y : Fin 1 → ℝ, ¬ ∀ i, (solveFirst osqp tugLevel halfWeight
      (1 : Matrix (Fin 0) (Fin 0) ℝ)).l.value y i ≤ (solveFirst osqp tugLevel halfWeight
      (1 : Matrix (Fin 0) (Fin 0) ℝ)).v i := by
    intro y h
    have a0 := h (0 : Fin 2)
    have a1 := h (1 : Fin 2)
    rw [hv0] at a0
    rw [hv1] at a1
    rw [show (solveFirst osqp tugLevel halfWeight (1 : Matrix (Fin 0) (Fin 0) ℝ)).l.value y =
      ![y 0 + 1, -y 0 + 1] from hval y] at a0 a1
    simp at a0 a1
    linarith
  refine ⟨key _, ?_⟩
  rintro ⟨x, hxf⟩
  have := (levelQP_feasible_iff ..).mp hxf
  exact key _ (this.2 _ (by simp))

example : tugQP.IsSolution (chooseSolution _ tugQP) :=
  chooseSolution_spec ⟨Sum.elim 0 fun _ => 1 / 2, (tugQP_solution _).mpr ⟨rfl, rfl, rfl⟩⟩

/-! ## C34: the controller -/

section Lqp
variable {ι : Type} [Fintype ι] [DecidableEq ι] {n c m : ℕ}

/-- Joint accelerations and contact forces of a decision vector. -/
def qddOf (y : LqpVar ι c → ℝ) : Fin 6 ⊕ ι → ℝ := y ∘ Sum.inl
def forceOf (y : LqpVar ι c → ℝ) : Fin c → ℝ := y ∘ Sum.inr

/-- Generalised force needed for the accelerations and forces in `y`: `M q̈ + h + J_Cᵀ F`. -/
def demand (R : LqpConf ι c m) (y : LqpVar ι c → ℝ) : Fin 6 ⊕ ι → ℝ :=
  R.M *ᵥ qddOf y + R.h + R.Jᵀ *ᵥ forceOf y

theorem lqpDynamics_residual (R : LqpConf ι c m) (y : LqpVar ι c → ℝ) (i : Fin 6) :
    (lqpDynamics R).residual y i = demand R y (Sum.inl i) := by
  show Sum.elim (R.M (Sum.inl i)) (R.Jᵀ (Sum.inl i)) ⬝ᵥ y + R.h (Sum.inl i) = _
  rw [show y = Sum.elim (y ∘ Sum.inl) (y ∘ Sum.inr) from (Sum.elim_comp_inl_inr y).symm, sumElim_dotProduct_sumElim]
  simp only [demand, qddOf, forceOf, Pi.add_apply, mulVec, Sum.elim_comp_inl, Sum.elim_comp_inr]
  ring

theorem lqpDynamics_value (R : LqpConf ι c m) (y : LqpVar ι c → ℝ) (i : ι) :
    (lqpDynamics R).value y (Sum.inl i : ι ⊕ ι) = demand R y (Sum.inr i) - R.lim i ∧
    (lqpDynamics R).value y (Sum.inr i : ι ⊕ ι) = -demand R y (Sum.inr i) - R.lim i := by
  constructor
  · show Sum.elim (R.M (Sum.inr i)) (R.Jᵀ (Sum.inr i)) ⬝ᵥ y + (-R.lim i + R.h (Sum.inr i)) = _
    rw [show y = Sum.elim (y ∘ Sum.inl) (y ∘ Sum.inr) from (Sum.elim_comp_inl_inr y).symm, sumElim_dotProduct_sumElim]
    simp only [demand, qddOf, forceOf, Pi.add_apply, mulVec, Sum.elim_comp_inl, Sum.elim_comp_inr]
    ring
  · show Sum.elim (-R.M (Sum.inr i)) (-R.Jᵀ (Sum.inr i)) ⬝ᵥ y + (-R.lim i - R.h (Sum.inr i)) = _
    rw [show y = Sum.elim (y ∘ Sum.inl) (y ∘ Sum.inr) from (Sum.elim_comp_inl_inr y).symm, sumElim_dotProduct_sumElim]
    simp only [demand, qddOf, forceOf, Pi.add_apply, mulVec, Sum.elim_comp_inl, Sum.elim_comp_inr, neg_dotProduct]
    ring

/-- The starting point needs no generalised force at all. -/
theorem lqpStart_demand (R : LqpConf ι c m) (hM : R.M * R.Minv = 1) : demand R (lqpStart R).y = 0 := by
  have : forceOf (lqpStart R).y = 0 := rfl
  have h2 : qddOf (lqpStart R).y = -(R.Minv *ᵥ R.h) := rfl
  rw [demand, this, h2, mulVec_neg, mulVec_mulVec, hM]
  simp

/-- Every answer obeys the floating-base rows and the torque bounds. -/
theorem lqpRun_dynamics (osqp : Osqp) (hs : OsqpSound osqp) (N : NullSpaceFn) (hN : N.Correct)
    (R : LqpConf ι c m) (hM : R.M * R.Minv = 1)
    (hl : ∀ i, 0 ≤ R.lim i) :
    (lqpRun osqp N R).length = R.tasks.length + 2 ∧
    ∀ r ∈ lqpRun osqp N R,
      (∀ i, demand R r.y (Sum.inl i) = 0) ∧ ∀ i, |demand R r.y (Sum.inr i)| ≤ R.lim i := by
  have hd := lqpStart_demand R hM
  have h₀ : ∀ i, (lqpStart R).l.value (lqpStart R).y i ≤ (lqpStart R).v i := by
    intro i
    refine (normalizeRows_value_nonpos (lqpDynamics R) _ i).mpr ?_
    change ι ⊕ ι at i
    rcases i with i | i
    · rw [(lqpDynamics_value R _ i).1, hd]; simpa using hl i
    · rw [(lqpDynamics_value R _ i).2, hd]; simpa using hl i
  obtain ⟨hmap, hres, -, hhead⟩ := C32_residual_kept osqp N hN (lqpStart R) (lqpLevels R)
  obtain ⟨hineq, -⟩ := C33_inequalities_kept osqp N hN (lqpStart R) (lqpLevels R) h₀
    (C33_levels_feasible osqp hs N _ _ h₀)
  refine ⟨?_, ?_⟩
  · have := congrArg List.length hmap
    simpa [lqpRun, lqpLevels] using this
  · intro r hr
    have hcases : r = lqpStart R ∨ ((lqpStart R).l.residual r.y = (lqpStart R).l.residual (lqpStart R).y ∧
        ∀ i, (lqpStart R).l.value r.y i ≤ (lqpStart R).v i) := by
      unfold lqpRun at hr
      generalize solveSequential osqp N (lqpStart R) (lqpLevels R) = L at hr hres hineq hhead
      cases L with
      | nil => simp at hr
      | cons a t =>
        simp only [List.head?_cons, Option.some.injEq] at hhead
        subst hhead
        rcases List.mem_cons.mp hr with rfl | hr
        · exact Or.inl rfl
        · exact Or.inr ⟨(List.pairwise_cons.mp hres).1 r hr, (List.pairwise_cons.mp hineq).1 r hr⟩
    rcases hcases with rfl | ⟨h1, h2⟩
    · rw [hd]; simpa using hl
    · refine ⟨fun i => ?_, fun i => ?_⟩
      · rw [← lqpDynamics_residual]
        refine (normalizeRows_residual_zero (lqpDynamics R) r.y i).mp ?_
        refine (congrFun h1 i).trans ?_
        refine (normalizeRows_residual_zero (lqpDynamics R) _ i).mpr ?_
        rw [lqpDynamics_residual, hd]; rfl
      · have a1 := (normalizeRows_value_nonpos (lqpDynamics R) r.y (Sum.inl i : ι ⊕ ι)).mp (h2 _)
        have a2 := (normalizeRows_value_nonpos (lqpDynamics R) r.y (Sum.inr i : ι ⊕ ι)).mp (h2 _)
        rw [(lqpDynamics_value R r.y i).1] at a1
        rw [(lqpDynamics_value R r.y i).2] at a2
        rw [abs_le]; constructor <;> linarith

/-- **C34.** Let `A_inv_` be the inverse of `A_`, and let the solver return a feasible point whenever there is one.
Then the answer of every level of the controller, in particular the last one, satisfies the six floating-base rows of
`A q̈ + B + J_Cᵀ F = S τ` exactly, and the joint torques they imply are at most 200 in magnitude.  No other assumption
is made: the contact Jacobian, the constraint rows and the tasks are arbitrary. -/
theorem C34_dynamics_and_torque_bound (osqp : Osqp) (hs : OsqpSound osqp) (N : NullSpaceFn) (hN : N.Correct)
    (R : LqpRobot n c m) (hM : R.M * R.Minv = 1) :
    (calcControlTorqueLQP osqp N R).length = R.tasks.length + 2 ∧
    ∀ r ∈ calcControlTorqueLQP osqp N R,
      (∀ i, demand R.conf r.y (Sum.inl i) = 0) ∧ ∀ i, |demand R.conf r.y (Sum.inr i)| ≤ 200 :=
  lqpRun_dynamics osqp hs N hN R.conf hM fun _ => by show (0 : ℝ) ≤ 200; norm_num

/-- A robot with one joint, a nonzero gravity load, one contact row and one task. -/
noncomputable def exLqp : LqpRobot 1 1 1 :=
  { M := (2 : ℝ) • 1, Minv := (1 / 2 : ℝ) • 1, h := fun _ => 3, J := fun _ _ => 1, C := fun _ _ => 1,
    tasks := [⟨1, fun _ _ => 1, fun _ => 4⟩] }

example : exLqp.M * exLqp.Minv = 1 ∧ OsqpSound chooseFeasible ∧ projNull.Correct :=
  ⟨by simp [exLqp, smul_smul], chooseFeasible_sound, projNull_correct⟩

end Lqp

end Verif.Props
