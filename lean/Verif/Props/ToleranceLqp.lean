import Verif.Spec.Tolerance
import Verif.Props.ModerateLqp
import Verif.Props.LoosenLqp

/-!
# C88: the hierarchical controller with a solver that stops at a tolerance
-/

set_option linter.unusedSectionVars false

namespace Verif.Props
open Matrix Verif Verif.Spec Verif.Model

/-- A solver that stops at a tolerance: its answer violates no row by more than `ε` if that is possible, and if the problem has a
solution, its cost is at most `δ` above the least. -/
def OsqpWithin (ε δ : ℝ) (osqp : Osqp) : Prop :=
  ∀ (X : Type) [Fintype X] (d : LeQP X), ((∃ x, d.FeasibleWithin ε x) → d.FeasibleWithin ε (osqp X d)) ∧
    ((∃ x, d.IsSolution x) → ∀ y, d.Feasible y → d.cost (osqp X d) ≤ d.cost y + δ)

section Levels
variable {V : Type} [Fintype V] [DecidableEq V]

theorem levelQP_within_iff (ε : ℝ) (Z : Basis V) (y : V → ℝ) (done : List (LevelAnswer V)) (l : Level V)
    (x : Fin Z.1 ⊕ l.I → ℝ) :
    (levelQP Z y done l).FeasibleWithin ε x ↔
      (∀ r, l.value (y + Z.2 *ᵥ (x ∘ Sum.inl)) r ≤ x (Sum.inr r) + ε) ∧
      ∀ d ∈ done, ∀ i, d.l.value (y + Z.2 *ᵥ (x ∘ Sum.inl)) i ≤ d.v i + ε := by
  classical
  have e : ∀ (l' : Level V) (i : l'.I), (l'.A * Z.2) i ⬝ᵥ (x ∘ Sum.inl) = (l'.A *ᵥ (Z.2 *ᵥ (x ∘ Sum.inl))) i := by
    intro l' i
    rw [mulVec_mulVec]; rfl
  constructor
  · intro h
    refine ⟨fun r => ?_, fun d hd i => ?_⟩
    · have := h (Sum.inl r)
      simp only [levelQP, Sum.elim_inl] at this
      rw [show x = Sum.elim (x ∘ Sum.inl) (x ∘ Sum.inr) from (Sum.elim_comp_inl_inr x).symm,
        sumElim_dotProduct_sumElim, e] at this
      simp [Spec.Level.value, mulVec_add] at this ⊢
      linarith
    · obtain ⟨k, hk, rfl⟩ := List.getElem_of_mem hd
      have := h (Sum.inr ⟨⟨k, hk⟩, i⟩)
      simp only [levelQP, Sum.elim_inr] at this
      rw [show x = Sum.elim (x ∘ Sum.inl) (x ∘ Sum.inr) from (Sum.elim_comp_inl_inr x).symm,
        sumElim_dotProduct_sumElim, e] at this
      simp [Spec.Level.value, mulVec_add] at this ⊢
      linarith
  · rintro ⟨h1, h2⟩ (r | ⟨k, i⟩)
    · have := h1 r
      simp only [levelQP, Sum.elim_inl]
      rw [show x = Sum.elim (x ∘ Sum.inl) (x ∘ Sum.inr) from (Sum.elim_comp_inl_inr x).symm,
        sumElim_dotProduct_sumElim, e]
      simp [Spec.Level.value, mulVec_add] at this ⊢
      linarith
    · have := h2 (done.get k) (List.get_mem _ _) i
      simp only [levelQP, Sum.elim_inr]
      rw [show x = Sum.elim (x ∘ Sum.inl) (x ∘ Sum.inr) from (Sum.elim_comp_inl_inr x).symm,
        sumElim_dotProduct_sumElim, e]
      simp [Spec.Level.value, mulVec_add] at this ⊢
      linarith

/-- `y` violates the inequalities of `done` by at most `ε` more than recorded. -/
def WithinBy (ε : ℝ) (done : List (LevelAnswer V)) (y : V → ℝ) : Prop := ∀ d ∈ done, ∀ i, d.l.value y i ≤ d.v i + ε

/-- staying where the level above ended is always possible within the tolerance -/
theorem everyAnswer_within {ε δ : ℝ} (hε : 0 ≤ ε) {osqp : Osqp} (hs : OsqpWithin ε δ osqp) (N : NullSpaceFn) (ls : List (Level V)) :
    ∀ (Z : Basis V) (y : V → ℝ) (done : List (LevelAnswer V)), WithinBy ε done y →
      EveryAnswer (fun X _ d x => d.FeasibleWithin ε x) osqp N Z y done ls := by
  induction ls with
  | nil => intros; trivial
  | cons l ls ih =>
    intro Z y done hw
    have hf : (levelQP Z y done l).FeasibleWithin ε (osqp _ (levelQP Z y done l)) := by
      refine (hs _ _).1 ⟨tightAnswer Z y l 0, (levelQP_within_iff ..).mpr ⟨fun r => ?_, ?_⟩⟩
      · simp only [tightAnswer, Sum.elim_comp_inl, Sum.elim_inr]
        linarith [le_max_left (l.value (y + Z.2 *ᵥ 0) r) 0]
      · simpa [tightAnswer, WithinBy] using hw
    refine ⟨hf, ih _ _ _ ?_⟩
    have h2 := (levelQP_within_iff ..).mp hf
    intro d hd i
    rcases List.mem_append.mp hd with hd | hd
    · exact h2.2 d hd i
    · obtain rfl := List.mem_singleton.mp hd
      exact h2.1 i

/-- every level's inequalities stay within what was recorded for them, up to the tolerance: no accumulation over the levels -/
theorem run_within {ε δ : ℝ} (hε : 0 ≤ ε) {osqp : Osqp} (hs : OsqpWithin ε δ osqp) (N : NullSpaceFn) (hN : N.Correct) (r₀ : LevelAnswer V)
    (ls : List (Level V)) (h₀ : ∀ i, r₀.l.value r₀.y i ≤ r₀.v i) :
    (solveSequential osqp N r₀ ls).Pairwise (fun rj ri => ∀ i, rj.l.value ri.y i ≤ rj.v i + ε) ∧
    ∀ r ∈ solveSequential osqp N r₀ ls, ∀ i, r.l.value r.y i ≤ r.v i + ε := by
  have h₁ : ∀ i, r₀.l.value r₀.y i ≤ r₀.v i + ε := fun i => by linarith [h₀ i]
  have hpre := solveRest_prefix osqp N ls (firstZ N r₀.l) r₀.y [r₀]
  have hw : WithinBy ε [r₀] r₀.y := by intro d hd; obtain rfl := List.mem_singleton.mp hd; exact h₁
  have main := solveRest_induct osqp N hN (fun _ _ d x => d.FeasibleWithin ε x) (WithinBy ε)
    (fun done r => WithinBy ε done r.y ∧ ∀ i, r.l.value r.y i ≤ r.v i + ε) (fun _ => True)
    (by
      intro Z y done l _ hZ hI hf
      have h2 := (levelQP_within_iff ..).mp hf
      refine ⟨?_, h2.2, h2.1⟩
      intro d hd
      rcases List.mem_append.mp hd with hd | hd
      · exact h2.2 d hd
      · obtain rfl := List.mem_singleton.mp hd
        exact h2.1)
    ls (fun _ _ => trivial) (firstZ N r₀.l) r₀.y [r₀] (ZInv.first hN r₀) hw (everyAnswer_within hε hs N ls _ _ _ hw)
  obtain ⟨t, ht⟩ := hpre
  refine ⟨?_, ?_⟩
  · rw [List.pairwise_iff_getElem]
    intro i j hi hj hij
    have hsplit : solveSequential osqp N r₀ ls = (solveSequential osqp N r₀ ls).take j ++
        (solveSequential osqp N r₀ ls)[j] :: (solveSequential osqp N r₀ ls).drop (j + 1) := by
      rw [List.getElem_cons_drop, List.take_append_drop]
    exact (main _ _ _ hsplit (by simp; omega)).1.1 (solveSequential osqp N r₀ ls)[i]
      (List.mem_take_iff_getElem.mpr ⟨i, by omega, rfl⟩)
  · intro r hr
    have e : solveSequential osqp N r₀ ls = r₀ :: t := by rw [solveSequential, ← ht]; rfl
    rw [e] at hr
    rcases List.mem_cons.mp hr with rfl | hr
    · exact h₁
    · obtain ⟨a, b, hab⟩ := List.append_of_mem hr
      have : solveSequential osqp N r₀ ls = (r₀ :: a) ++ r :: b := by rw [e, hab]; rfl
      exact (main _ _ _ this (by simp)).1.2

end Levels

section Lqp
variable {n c m : ℕ}

/-- C88.  The hierarchical controller with a solver that stops at a tolerance: at every level the floating-base rows hold exactly, and the
torque bounds up to the tolerance times the length of the joint's row, however many levels there are. -/
theorem C88_lqp_dynamics {ε δ : ℝ} (hε : 0 ≤ ε) {osqp : Osqp} (hs : OsqpWithin ε δ osqp) (N : NullSpaceFn) (hN : N.Correct)
    (R : LqpRobot n c m) (hM : R.M * R.Minv = 1) :
    (calcControlTorqueLQP osqp N R).length = R.tasks.length + 2 ∧
    ∀ r ∈ calcControlTorqueLQP osqp N R, (∀ i, demand R.conf r.y (Sum.inl i) = 0) ∧
      ∀ i, |demand R.conf r.y (Sum.inr i)| ≤ 200 + ε * rowLen (Sum.elim (R.M (Sum.inr i)) (R.Jᵀ (Sum.inr i))) := by
  have hd := lqpStart_demand R.conf hM
  have hl : ∀ i, 0 ≤ R.conf.lim i := fun _ => lim_nonneg
  have h₀ := lqp_start_within R.conf hM hl
  obtain ⟨hmap, hres, -, hhead⟩ := C32_residual_kept osqp N hN (lqpStart R.conf) (lqpLevels R.conf)
  obtain ⟨hineq, -⟩ := run_within hε hs N hN (lqpStart R.conf) (lqpLevels R.conf) h₀
  refine ⟨?_, ?_⟩
  · have := congrArg List.length hmap
    simpa [calcControlTorqueLQP, lqpRun, lqpLevels, LqpRobot.conf] using this
  · intro r hr
    have hcases : (lqpStart R.conf).l.residual r.y = (lqpStart R.conf).l.residual (lqpStart R.conf).y ∧
        ∀ i, (lqpStart R.conf).l.value r.y i ≤ (lqpStart R.conf).v i + ε := by
      unfold calcControlTorqueLQP lqpRun at hr
      generalize solveSequential osqp N (lqpStart R.conf) (lqpLevels R.conf) = L at hr hres hineq hhead
      cases L with
      | nil => simp at hr
      | cons a t =>
        simp only [List.head?_cons, Option.some.injEq] at hhead
        subst hhead
        rcases List.mem_cons.mp hr with rfl | hr
        · exact ⟨rfl, fun i => by linarith [h₀ i]⟩
        · exact ⟨(List.pairwise_cons.mp hres).1 r hr, (List.pairwise_cons.mp hineq).1 r hr⟩
    obtain ⟨h1, h2⟩ := hcases
    refine ⟨fun i => ?_, fun i => ?_⟩
    · rw [← lqpDynamics_residual]
      refine (normalizeRows_residual_zero (lqpDynamics R.conf) r.y i).mp ?_
      refine (congrFun h1 i).trans ?_
      refine (normalizeRows_residual_zero (lqpDynamics R.conf) _ i).mpr ?_
      rw [lqpDynamics_residual, hd]; rfl
    · have hp := rowLen_pos (Sum.elim (R.M (Sum.inr i)) (R.Jᵀ (Sum.inr i)))
      have a1 := h2 (Sum.inl i : Fin n ⊕ Fin n)
      have a2 := h2 (Sum.inr i : Fin n ⊕ Fin n)
      have b1 := (normalizeRows_value (lqpDynamics R.conf) r.y (Sum.inl i : Fin n ⊕ Fin n))
      have b2 := (normalizeRows_value (lqpDynamics R.conf) r.y (Sum.inr i : Fin n ⊕ Fin n))
      have s1 : rowScale ((lqpDynamics R.conf).A (Sum.inl i : Fin n ⊕ Fin n)) =
          1 / rowLen (Sum.elim (R.M (Sum.inr i)) (R.Jᵀ (Sum.inr i))) := rowScale_eq _
      have s2 : rowScale ((lqpDynamics R.conf).A (Sum.inr i : Fin n ⊕ Fin n)) =
          1 / rowLen (Sum.elim (R.M (Sum.inr i)) (R.Jᵀ (Sum.inr i))) := by
        refine (rowScale_eq _).trans ?_
        have e : (Sum.elim (-R.M (Sum.inr i)) (-R.Jᵀ (Sum.inr i)) : LqpVar (Fin n) c → ℝ) =
            -Sum.elim (R.M (Sum.inr i)) (R.Jᵀ (Sum.inr i)) := by
          funext v; rcases v with v | v <;> rfl
        change 1 / rowLen (Sum.elim (-R.M (Sum.inr i)) (-R.Jᵀ (Sum.inr i)) : LqpVar (Fin n) c → ℝ) = _
        rw [e]
        simp [rowLen]
      rw [s1, (lqpDynamics_value R.conf r.y i).1] at b1
      rw [s2, (lqpDynamics_value R.conf r.y i).2] at b2
      have c1 : 1 / rowLen (Sum.elim (R.M (Sum.inr i)) (R.Jᵀ (Sum.inr i))) * (demand R.conf r.y (Sum.inr i) - 200) ≤ 0 + ε :=
        b1.symm.trans_le a1
      have c2 : 1 / rowLen (Sum.elim (R.M (Sum.inr i)) (R.Jᵀ (Sum.inr i))) * (-demand R.conf r.y (Sum.inr i) - 200) ≤ 0 + ε :=
        b2.symm.trans_le a2
      rw [one_div, inv_mul_le_iff₀ hp] at c1 c2
      rw [abs_le]
      constructor <;> linarith

/-- the answer of the contact level is the one to the problem posed after level 0 -/
theorem lqp_second (osqp : Osqp) (N : NullSpaceFn) (R : LqpConf (Fin n) c m) :
    ∃ rs, lqpRun osqp N R = lqpStart R ::
      solveSingle osqp (firstZ N (lqpStart R).l) (lqpStart R).y [lqpStart R] (normalizeRows (lqpContact R)) :: rs := by
  obtain ⟨t, ht⟩ := solveRest_prefix osqp N (R.tasks.map fun t => normalizeRows (lqpTask R t))
    (nextZ N (firstZ N (lqpStart R).l) (normalizeRows (lqpContact R)))
    (solveSingle osqp (firstZ N (lqpStart R).l) (lqpStart R).y [lqpStart R] (normalizeRows (lqpContact R))).y
    ([lqpStart R] ++ [solveSingle osqp (firstZ N (lqpStart R).l) (lqpStart R).y [lqpStart R] (normalizeRows (lqpContact R))])
  exact ⟨t, ht.symm⟩

/-- C88.  If the robot could stand still, then at every level from the contacts on the contacts accelerate by at most √(2δ), the contact
conditions are violated by at most √(2δ) + ε and joint accelerations exceed 5 by at most as much (contact rows relative to their length),
however many levels there are. -/
theorem C88_lqp_contacts {ε δ : ℝ} (hε : 0 ≤ ε) (hδ : 0 ≤ δ) {osqp : Osqp} (hs : OsqpWithin ε δ osqp) (N : NullSpaceFn) (hN : N.Correct)
    (R : LqpRobot n c m) (hA : IsSPD R.M) (hM : R.M * R.Minv = 1) (hst : CanStand R.conf) :
    ∃ a b rs, calcControlTorqueLQP osqp N R = a :: b :: rs ∧ rs.length = R.tasks.length ∧ ∀ r ∈ b :: rs,
      (∑ k, ((R.J *ᵥ qddOf r.y) k / rowLen (R.J k)) ^ 2 ≤ 2 * δ) ∧
      (∀ k, (R.C *ᵥ forceOf r.y) k ≤ (√(2 * δ) + ε) * rowLen (R.C k)) ∧
      ∀ i, |qddOf r.y (Sum.inr i)| ≤ 5 + √(2 * δ) + ε := by
  have hl : ∀ i, 0 ≤ R.conf.lim i := fun _ => lim_nonneg
  have h₀ := lqp_start_within R.conf hM hl
  have hw : Within [lqpStart R.conf] (lqpStart R.conf).y := by intro d hd; obtain rfl := List.mem_singleton.mp hd; exact h₀
  obtain ⟨hmap, hres, -, -⟩ := C32_residual_kept osqp N hN (lqpStart R.conf) (lqpLevels R.conf)
  obtain ⟨hineq, hown⟩ := run_within hε hs N hN (lqpStart R.conf) (lqpLevels R.conf) h₀
  obtain ⟨rs, hrun⟩ := lqp_second osqp N R.conf
  set l := normalizeRows (lqpContact R.conf) with hldef
  set Z := firstZ N (lqpStart R.conf).l
  set y₀ := (lqpStart R.conf).y
  have hH : ∀ H ∈ l.H, CostOk H := lqp_costs hA (conf_weight hA).le l (by simp [lqpLevels, hldef])
  have hH' : ∀ H ∈ l.H, Hᵀ = H := fun H h => (hH H h).1
  -- the cost of the contact level against standing
  obtain ⟨s, hsm, hsq, hsf⟩ := hst
  obtain ⟨k1, k2⟩ := (keeps_start hM s).mpr hsm
  have hZ : ZInv Z [lqpStart R.conf] := ZInv.first hN _
  obtain ⟨u, hu⟩ := hZ.reach (y := y₀) (y' := s) (by intro d hd; obtain rfl := List.mem_singleton.mp hd; rfl)
    (by intro d hd; obtain rfl := List.mem_singleton.mp hd; exact k1)
  have hws : Within [lqpStart R.conf] (y₀ + Z.2 *ᵥ u) := by
    rw [← hu]; intro d hd; obtain rfl := List.mem_singleton.mp hd; exact k2
  have hc := (hs _ _).2 (levelQP_exists (Z := Z) hH hw) _ (tightAnswer_feasible (l := l) u hws)
  rw [levelQP_cost _ _ _ _ hH', levelQP_cost _ _ _ _ hH'] at hc
  simp only [tightAnswer, Sum.elim_comp_inl, Sum.elim_inr] at hc
  rw [← hu] at hc
  have hobj : l.objective s = 0 := by
    rw [hldef, contact_objective]
    have e1 : energy R.conf s = 0 := by simp [energy, hsq]
    have e2 : contactMiss R.conf s = 0 :=
      contactMiss_ok ⟨by rw [hsq, mulVec_zero], hsf, fun i => by rw [hsq]; simp⟩
    rw [e1, e2]; ring
  rw [objective_eq] at hobj
  set b := solveSingle osqp Z y₀ [lqpStart R.conf] l with hb
  have hby : y₀ + Z.2 *ᵥ (osqp _ (levelQP Z y₀ [lqpStart R.conf] l) ∘ Sum.inl) = b.y := rfl
  have hbv : ∀ r, osqp _ (levelQP Z y₀ [lqpStart R.conf] l) (Sum.inr r) = b.v r := fun r => rfl
  rw [hby] at hc
  have hc' : eqPart l b.y + 1 / 2 * ∑ r : l.I, osqp _ (levelQP Z y₀ [lqpStart R.conf] l) (Sum.inr r) ^ 2 ≤ δ := by linarith
  have hen : 0 ≤ (l.H.elim 0 fun H => b.y ⬝ᵥ (H *ᵥ b.y)) := by
    rcases hlH : l.H with _ | H
    · simp
    · exact (hH H (by rw [hlH]; rfl)).2 b.y
  have hvsum : 0 ≤ ∑ r : l.I, osqp _ (levelQP Z y₀ [lqpStart R.conf] l) (Sum.inr r) ^ 2 := Finset.sum_nonneg fun _ _ => sq_nonneg _
  have hrsum : 0 ≤ l.residual b.y ⬝ᵥ l.residual b.y := by
    simp only [dotProduct]; exact Finset.sum_nonneg fun r _ => mul_self_nonneg _
  have hR : l.residual b.y ⬝ᵥ l.residual b.y ≤ 2 * δ := by
    unfold eqPart at hc'; linarith
  have hv : ∀ r : l.I, osqp _ (levelQP Z y₀ [lqpStart R.conf] l) (Sum.inr r) ≤ √(2 * δ) := by
    intro r
    refine Real.le_sqrt_of_sq_le ?_
    have := Finset.single_le_sum (f := fun r : l.I => osqp _ (levelQP Z y₀ [lqpStart R.conf] l) (Sum.inr r) ^ 2)
      (fun _ _ => sq_nonneg _) (Finset.mem_univ r)
    unfold eqPart at hc'
    linarith
  refine ⟨_, b, rs, hrun, ?_, fun r hr => ?_⟩
  · have := congrArg List.length hmap
    change (lqpRun osqp N R.conf |>.map (·.l)).length = _ at this
    rw [hrun] at this
    simpa [lqpLevels, LqpRobot.conf] using this
  have hL : solveSequential osqp N (lqpStart R.conf) (lqpLevels R.conf) = lqpStart R.conf :: b :: rs := hrun
  rw [hL] at hres hineq hown
  have facts : l.residual r.y = l.residual b.y ∧ ∀ i, l.value r.y i ≤ √(2 * δ) + ε := by
    rcases List.mem_cons.mp hr with rfl | hr
    · exact ⟨rfl, fun i => ((hown b (by simp)) i).trans (by linarith [hv i, hbv i])⟩
    · refine ⟨(List.pairwise_cons.mp (List.pairwise_cons.mp hres).2).1 r hr, fun i => ?_⟩
      exact ((List.pairwise_cons.mp (List.pairwise_cons.mp hineq).2).1 r hr i).trans (by linarith [hv i, hbv i])
  obtain ⟨f1, f2⟩ := facts
  refine ⟨?_, fun k => ?_, fun i => ?_⟩
  · have e : l.residual r.y ⬝ᵥ l.residual r.y = ∑ k, ((R.J *ᵥ qddOf r.y) k / rowLen (R.J k)) ^ 2 := by
      refine Finset.sum_congr rfl fun k _ => ?_
      have e' := contact_residual R.conf r.y k
      rw [sq]
      exact congrArg₂ (· * ·) e' e'
    rw [← e, f1]
    exact hR
  · have := f2 (Sum.inl k : Fin m ⊕ (Fin n ⊕ Fin n))
    have e' := (contact_value_force R.conf r.y k).symm.trans_le this
    exact (div_le_iff₀ (rowLen_pos _)).mp e'
  · have h1 := f2 (Sum.inr (Sum.inl i) : Fin m ⊕ (Fin n ⊕ Fin n))
    have h2 := f2 (Sum.inr (Sum.inr i) : Fin m ⊕ (Fin n ⊕ Fin n))
    have h1' := (contact_value_up R.conf r.y i).symm.trans_le h1
    have h2' := (contact_value_down R.conf r.y i).symm.trans_le h2
    rw [abs_le]
    constructor <;> linarith

end Lqp

open Classical in
/-- A solver with the tolerances `ε`, `δ`: an exact solution if there is one, otherwise a point within `ε`. -/
noncomputable def chooseWithin (ε : ℝ) : Osqp := fun _ _ d =>
  if h : ∃ x, d.IsSolution x then h.choose else if h : ∃ x, d.FeasibleWithin ε x then h.choose else 0

theorem chooseWithin_within {ε δ : ℝ} (hε : 0 ≤ ε) (hδ : 0 ≤ δ) : OsqpWithin ε δ (chooseWithin ε) := by
  intro X _ d
  by_cases h : ∃ x, d.IsSolution x
  · have hx := h.choose_spec
    simp only [chooseWithin, h, dif_pos]
    refine ⟨fun _ r => by linarith [hx.1 r], fun _ y hy => by linarith [hx.2 y hy]⟩
  · refine ⟨fun h' => ?_, fun h' => absurd h' h⟩
    simp only [chooseWithin, h, dif_neg, not_false_iff, h', dif_pos]
    exact h'.choose_spec

/-- the tolerances OSQP comes with -/
example (N : NullSpaceFn) (hN : N.Correct) : ∃ a b r, calcControlTorqueLQP (chooseWithin (1 / 1000)) N (slipRobot (2 / 10)) = [a, b, r] ∧
    (∀ i, |demand (slipRobot (2 / 10)).conf r.y (Sum.inr i)| ≤
      200 + 1 / 1000 * rowLen (Sum.elim ((slipRobot (2 / 10)).M (Sum.inr i)) ((slipRobot (2 / 10)).Jᵀ (Sum.inr i)))) ∧
    ∀ i, |qddOf r.y (Sum.inr i)| ≤ 5 + √(2 * (1 / 1000)) + 1 / 1000 := by
  have hst : CanStand (slipRobot (2 / 10)).conf := by
    have e1 : qddOf (0 : LqpVar (Fin 1) 6 → ℝ) = 0 := rfl
    have e2 : forceOf (0 : LqpVar (Fin 1) 6 → ℝ) = 0 := rfl
    have e3 : demand (slipRobot (2 / 10)).conf 0 = 0 := by simp [demand, e1, e2, LqpRobot.conf, slipRobot]
    exact ⟨0, ⟨fun i => by rw [e3]; rfl, fun i => by rw [e3]; simp [LqpRobot.conf]⟩, rfl, fun r => by rw [e2, mulVec_zero]; exact le_rfl⟩
  have hM : (slipRobot (2 / 10)).M * (slipRobot (2 / 10)).Minv = 1 := by simp [slipRobot]
  have hw := chooseWithin_within (ε := 1 / 1000) (δ := 1 / 1000) (by norm_num) (by norm_num)
  obtain ⟨a, b, rs, h1, h2, h3⟩ := C88_lqp_contacts (by norm_num) (by norm_num) hw N hN (slipRobot (2 / 10)) isSPD_one hM hst
  have hd := (C88_lqp_dynamics (by norm_num) hw N hN (slipRobot (2 / 10)) hM).2
  match rs, h2 with
  | [r], _ => exact ⟨a, b, r, h1, (hd r (by rw [h1]; simp)).2, (h3 r (by simp)).2.2⟩

end Verif.Props
