import Verif.Props.Loosen
import Verif.Props.FollowedQP

/-!
# C95: a lower task can be worse with stronger motors; the hypotheses are met
-/

set_option linter.unusedSectionVars false

namespace Verif.Props
open Matrix Verif Verif.Spec Verif.Model

/-- A torque that gives a task its command with the least acceleration energy is, up to a torque that moves nothing, the task's own. -/
theorem task_of_least {n c : ℕ} {A : Matrix (Fin 6 ⊕ Fin n) (Fin 6 ⊕ Fin n) ℝ} {J : Matrix (Fin c) (Fin 6 ⊕ Fin n) ℝ}
    {G : Fin 6 ⊕ Fin n → ℝ} {S : ContactSpace c (Fin n)} (hA : IsSPD A) (hS : contactSpace J A⁻¹ = some S) (hB : BaseDetermined J)
    {T : TaskReady (Fin n)} (hT : calculateJKT S A⁻¹ T.toTaskIn = some T) {τ : Fin n → ℝ} {q : Fin 6 ⊕ Fin n → ℝ} {K : Fin c → ℝ}
    (hq : Motion A J G τ q K) (hf : T.J *ᵥ q = T.f)
    (hleast : ∀ q', ContactsFixed J q' → T.J *ᵥ q' = T.f → accelEnergy A q ≤ accelEnergy A q') :
    ∃ δ, MovesNothing A J G δ ∧ τ = gravityTorque S A⁻¹ G + taskTorque S [T] + δ := by
  obtain ⟨q₁, hM₁⟩ := (C01_contact_force_exact hA hS G (gravityTorque S A⁻¹ G + taskTorque S [T])).1
  obtain ⟨a1, -, a3⟩ := C86_one_task_least hA hS hB hT hM₁ hq.2 hf
  obtain rfl := a3 (hleast _ hM₁.2 a1)
  obtain ⟨δ, hδ⟩ : ∃ δ, τ = gravityTorque S A⁻¹ G + taskTorque S [T] + δ := ⟨τ - (gravityTorque S A⁻¹ G + taskTorque S [T]), by abel⟩
  refine ⟨δ, movesNothing_of_same hA hM₁ ?_ (F' := K), hδ⟩
  rw [← hδ]
  exact hq

namespace Arms

/-- the first of the two joints alone -/
def oneRow : Matrix (Fin 1) (Fin 6 ⊕ Fin (6 + 2)) ℝ := Matrix.of fun _ => Pi.single (Sum.inr 6) 1

/-- it shall not accelerate -/
def oneTask : TaskIn (Fin (6 + 2)) := { t := 1, J := oneRow, f := fun _ => 0 }

theorem oneRow_mul (q : Fin 6 ⊕ Fin (6 + 2) → ℝ) (i : Fin oneTask.t) : (oneTask.J *ᵥ q) i = q (Sum.inr 6) := by
  change (Pi.single (Sum.inr 6) (1 : ℝ) : Fin 6 ⊕ Fin (6 + 2) → ℝ) ⬝ᵥ q = _
  simp

theorem oneTask_finite (y : Fin oneTask.t → ℝ) (h : ∃ F, (J 2)ᵀ *ᵥ F = oneTask.Jᵀ *ᵥ y) : y = 0 := by
  obtain ⟨F, hF⟩ := h
  have h6 := congrFun hF (Sum.inr 6)
  rw [JT_arm F (by decide)] at h6
  change (0 : ℝ) = ∑ i : Fin 1, _ * y i at h6
  rw [Fin.sum_univ_one] at h6
  simp [oneTask, oneRow] at h6
  funext i
  change y i = 0
  have hi : i = (0 : Fin 1) := by
    have : ∀ i : Fin 1, i = 0 := by decide
    exact this i
  rw [hi]
  exact h6.symm

theorem stand_safe {S : ContactSpace 12 (Fin (6 + 2))} (hS : contactSpace (J 2) (A 2)⁻¹ = some S)
    {N : Matrix (Fin (6 + 2)) (Fin (12 - 6)) ℝ} {L : Fin (6 + 2) → ℝ} (hL : ∀ j, 0 ≤ L j) :
    SafeTorque (A 2) (J 2) (G 2) (robot S N L).limit (robot S N L).cs Stand.dof ((robot S N L).τg + 0) := by
  rw [show (robot S N L).τg = 0 from grav hS, add_zero]
  exact safe hS (fun _ => rfl) (fun j => by simpa using hL j)

/-- both joints within the limit `s` and commanded at least `2 s`: the sum of their accelerations is brought to `2 s` -/
theorem sum_reached {S : ContactSpace 12 (Fin (6 + 2))} (hS : contactSpace (J 2) (A 2)⁻¹ = some S)
    (cod : (W : Matrix (Fin (6 + 2)) (Fin (6 + 2)) ℝ) → CodNull W) {k : ℕ} {V2 : Matrix (Fin k) (Fin (6 + 2)) ℝ}
    {N : Matrix (Fin (6 + 2)) (Fin (12 - 6)) ℝ} (hR : calculateContactConstraint (J 2) (A 2)⁻¹ cod = .ret 1 S (some ⟨k, V2, N⟩))
    {s f : ℝ} (h0 : 0 ≤ s) (h1 : 2 * s ≤ f) {solve : Solver} (hs : solve.Exact) {Y : TaskReady (Fin (6 + 2))}
    (hY : calculateJKT S (A 2)⁻¹ (sumTask f) = some Y) (lower : List (TaskReady (Fin (6 + 2)))) {τt τc : Fin (6 + 2) → ℝ}
    (h : calcTaskControlTorqueQP (robot S N fun _ => s) solve (Y :: lower) = .ret 1 τt τc) {qdd F}
    (hM : Motion (A 2) (J 2) (G 2) ((robot S N fun _ => s).τg + τt + τc) qdd F) : qdd (Sum.inr 6) = s ∧ qdd (Sum.inr 7) = s := by
  have hYT : Y.toTaskIn = sumTask f := by rw [((jkt_eq_some hS).mp hY).2]
  have hT : calculateJKT S (A 2)⁻¹ Y.toTaskIn = some Y := by rw [hYT]; exact hY
  have hJ : ∀ (q : Fin 6 ⊕ Fin (6 + 2) → ℝ) (i : Fin Y.t), (Y.J *ᵥ q) i = q (Sum.inr 6) + q (Sum.inr 7) := by
    have key : ∀ X : TaskIn (Fin (6 + 2)), X = sumTask f → ∀ (q : Fin 6 ⊕ Fin (6 + 2) → ℝ) (i : Fin X.t),
        (X.J *ᵥ q) i = q (Sum.inr 6) + q (Sum.inr 7) := by
      rintro _ rfl q i
      exact sumRow_mul f q i
    exact key _ hYT
  have hf : ∀ i : Fin Y.t, Y.f i = f := by
    have key : ∀ X : TaskIn (Fin (6 + 2)), X = sumTask f → ∀ i : Fin X.t, X.f i = f := by rintro _ rfl i; rfl
    exact key _ hYT
  have ho : ∃ o : Fin Y.t, ∀ a : Fin Y.t → ℝ, ∑ i, a i = a o := by
    have key : ∀ X : TaskIn (Fin (6 + 2)), X = sumTask f → ∃ o : Fin X.t, ∀ a : Fin X.t → ℝ, ∑ i, a i = a o := by
      rintro _ rfl
      exact ⟨(0 : Fin 1), fun f => Fin.sum_univ_one f⟩
    exact key _ hYT
  obtain ⟨o, ho⟩ := ho
  have hsound : solve.Sound := fun i t k d x hx => (hs i t k d x hx).1
  obtain ⟨δ, hδ, e⟩ := task_of_least (hA 2) hS J_base (T := withCommand Y fun _ => 2 * s) (jkt_withCommand hT _) (still (pull_leg s s))
    (by
      funext i
      refine (hJ (actuate (pull s s)) i).trans ?_
      simp [actuate, pull, Fin.ext_iff, withCommand]
      ring)
    (by
      intro q' _ hq'
      have h2 : q' (Sum.inr 6) + q' (Sum.inr 7) = 2 * s := (hJ q' o).symm.trans (congrFun hq' o)
      refine le_trans ?_ (energy_arms q')
      rw [energy_pull, energy_pull (q' _)]
      refine mul_le_mul_of_nonneg_left ?_ ?_
      · nlinarith [sq_nonneg (q' (Sum.inr 6) - q' (Sum.inr 7))]
      · unfold accelEnergy A
        rw [one_mulVec]
        exact Finset.sum_nonneg fun _ _ => mul_self_nonneg _)
  have hb := C60_first_task_best (hA 2) (R := robot S N fun _ => s) hS J_base rfl rfl Stand.six Stand.plane Stand.dof (by norm_num) cod hR hs hT
    h hM (a := fun _ => 2 * s) hδ (by
      rw [← e]
      exact safe hS (pull_leg s s) fun j => by
        unfold pull
        split_ifs
        · rw [abs_of_nonneg h0]
        · rw [abs_of_nonneg h0]
        · simpa using h0)
  rw [ho, ho, hJ, hf] at hb
  have hl := C08_torque_limit (robot S N fun _ => s) hsound (by simp) rfl h
  have l6 := (abs_le.mp (hl 6)).2
  have l7 := (abs_le.mp (hl 7)).2
  rw [← arm_follows hM (by decide)] at l6
  rw [← arm_follows hM (by decide)] at l7
  have : 2 * s ≤ qdd (Sum.inr 6) + qdd (Sum.inr 7) := by
    by_contra hlt
    push Not at hlt
    nlinarith
  constructor <;> linarith

end Arms

/-- **C95 is false of lower tasks.**  Two joints are to accelerate by 2 together; the second task asks the first of them not to
accelerate.  With the torque limit `s ≤ 1` at every joint QP control succeeds, and in every motion the joint accelerates by `s`: the wider
the limits, the further the second task is from its command, because the first task uses all that is allowed. -/
theorem C95_second_task_worse (cod : (W : Matrix (Fin (6 + 2)) (Fin (6 + 2)) ℝ) → CodNull W) {solve : Solver} (he : solve.Exact)
    (hcomp : solve.Complete) {s : ℝ} (h0 : 0 ≤ s) (h1 : s ≤ 1) :
    ∃ τg τt τc, qpCycle (Arms.J 2) (Arms.A 2)⁻¹ (Arms.G 2) cod (some fun _ => s) Stand.cs solve [Arms.sumTask 2, Arms.oneTask] =
        some (1, τg, τt, τc) ∧
      (∃ qdd F, Motion (Arms.A 2) (Arms.J 2) (Arms.G 2) (τg + τt + τc) qdd F) ∧
      ∀ qdd F, Motion (Arms.A 2) (Arms.J 2) (Arms.G 2) (τg + τt + τc) qdd F →
        ∑ i, ((Arms.oneTask.J *ᵥ qdd) i - Arms.oneTask.f i) ^ 2 = s ^ 2 := by
  obtain ⟨S, k, V2, N, hS, hR⟩ := Arms.space (m := 2) cod
  obtain ⟨Y, hY⟩ := Option.isSome_iff_exists.mp ((C06_finite_iff (Arms.hA 2) hS (Arms.sumTask 2)).mpr (Arms.sumTask_finite 2))
  obtain ⟨Z, hZ⟩ := Option.isSome_iff_exists.mp ((C06_finite_iff (Arms.hA 2) hS Arms.oneTask).mpr Arms.oneTask_finite)
  have hm : MovesNothing (Arms.A 2) (Arms.J 2) (Arms.G 2) 0 :=
    (movesNothing_iff (Arms.hA 2) (by norm_num) cod hS hR 0).mpr ⟨0, (mulVec_zero _).symm⟩
  obtain ⟨τt, τc, h⟩ := C60_never_fails (Arms.hA 2) (R := Arms.robot S N fun _ => s) hS rfl Stand.six Stand.plane Stand.dof (by norm_num) cod hR
    (fun i t k d x hx => (he i t k d x hx).1) hcomp hm (Arms.stand_safe hS fun _ => h0) [Y, Z]
  refine ⟨(Arms.robot S N fun _ => s).τg, τt, τc, ?_, ?_, fun qdd F hM => ?_⟩
  · have hts : calcTaskSpace S (Arms.A 2)⁻¹ [Arms.sumTask 2, Arms.oneTask] = some [Y, Z] := by
      unfold calcTaskSpace
      rw [List.mapM_cons, hY, List.mapM_cons, hZ]
      rfl
    unfold qpCycle
    rw [hR]
    simp only
    rw [hts]
    simp only
    rw [h]
  · obtain ⟨qdd, hM⟩ := (C01_contact_force_exact (Arms.hA 2) hS (Arms.G 2) ((Arms.robot S N fun _ => s).τg + τt + τc)).1
    exact ⟨qdd, _, hM⟩
  · have := (Arms.sum_reached hS cod hR h0 (by linarith) he hY [Z] h hM).1
    have e : ∀ i, ((Arms.oneTask.J *ᵥ qdd) i - Arms.oneTask.f i) ^ 2 = s ^ 2 := fun i => by
      rw [Arms.oneRow_mul, this]
      change (s - 0) ^ 2 = _
      rw [sub_zero]
    rw [Finset.sum_congr rfl fun i _ => e i]
    change ∑ _ : Fin 1, s ^ 2 = _
    simp

/-! ### The hypotheses are met -/

theorem ContactLe.refl (l : ContactLink) : ContactLe l l := ⟨rfl, rfl, rfl, le_rfl, le_rfl, le_rfl, le_rfl⟩

/-- a foot of twice the length with a little more friction -/
noncomputable def betterFoot (l : ContactLink) : ContactLink :=
  { l with planeX := l.planeX + |l.planeX|, friction := l.friction + 1 / 10 }

theorem betterFoot_le (l : ContactLink) : ContactLe l (betterFoot l) :=
  ⟨rfl, rfl, rfl, le_add_of_nonneg_right (abs_nonneg _), le_rfl, le_add_of_nonneg_right (by norm_num), le_rfl⟩

theorem betterFeet_le (cs : List ContactLink) : List.Forall₂ ContactLe cs (cs.map betterFoot) := by
  induction cs with
  | nil => exact .nil
  | cons l cs ih => exact .cons (betterFoot_le l) ih

/-- the robot with two arms: limit a half, and limit one with better feet; the first task is nearer to its command, strictly -/
example (cod : (W : Matrix (Fin (6 + 2)) (Fin (6 + 2)) ℝ) → CodNull W) {solve : Solver} (he : solve.Exact) (hcomp : solve.Complete) :
    ∃ S N Y Z τt τc τt' τc' rs rs',
      calcTaskControlTorqueQP (Arms.robot S N fun _ => 1 / 2) solve [Y, Z] = .ret 1 τt τc ∧
      calcTaskControlTorqueQP ((Arms.robot S N fun _ => 1 / 2).loosened (some fun _ => 1) (Stand.cs.map betterFoot)) solve [Y, Z] =
        .ret 1 τt' τc' ∧
      taskControlQPRec (Arms.robot S N fun _ => 1 / 2) solve [(Y, .fresh _), (Z, .fresh _)] = (.ret 1 τt τc, rs) ∧
      taskControlQPRec ((Arms.robot S N fun _ => 1 / 2).loosened (some fun _ => 1) (Stand.cs.map betterFoot)) solve
        [(Y, .fresh _), (Z, .fresh _)] = (.ret 1 τt' τc', rs') ∧ NoWorse rs rs' ∧
      ∀ qdd F qdd' F', Motion (Arms.A 2) (Arms.J 2) (Arms.G 2) ((Arms.robot S N fun _ => 1 / 2).τg + τt + τc) qdd F →
        Motion (Arms.A 2) (Arms.J 2) (Arms.G 2) ((Arms.robot S N fun _ => 1 / 2).τg + τt' + τc') qdd' F' →
        ∑ i, ((Y.J *ᵥ qdd') i - Y.f i) ^ 2 ≤ ∑ i, ((Y.J *ᵥ qdd) i - Y.f i) ^ 2 := by
  obtain ⟨S, k, V2, N, hS, hR⟩ := Arms.space (m := 2) cod
  obtain ⟨Y, hY⟩ := Option.isSome_iff_exists.mp ((C06_finite_iff (Arms.hA 2) hS (Arms.sumTask 2)).mpr (Arms.sumTask_finite 2))
  obtain ⟨Z, hZ⟩ := Option.isSome_iff_exists.mp ((C06_finite_iff (Arms.hA 2) hS Arms.oneTask).mpr Arms.oneTask_finite)
  have hYT : Y.toTaskIn = Arms.sumTask 2 := by rw [((jkt_eq_some hS).mp hY).2]
  have hT : calculateJKT S (Arms.A 2)⁻¹ Y.toTaskIn = some Y := by rw [hYT]; exact hY
  have hm : MovesNothing (Arms.A 2) (Arms.J 2) (Arms.G 2) 0 :=
    (movesNothing_iff (Arms.hA 2) (by norm_num) cod hS hR 0).mpr ⟨0, (mulVec_zero _).symm⟩
  have hsound : solve.Sound := fun i t k d x hx => (he i t k d x hx).1
  obtain ⟨τt, τc, h⟩ := C60_never_fails (Arms.hA 2) (R := Arms.robot S N fun _ => 1 / 2) hS rfl Stand.six Stand.plane Stand.dof (by norm_num) cod
    hR hsound hcomp hm (Arms.stand_safe hS fun _ => by norm_num) [Y, Z]
  have hl : LimitLe (Arms.robot S N fun _ => 1 / 2).limit (some fun _ => 1) := fun L' e =>
    ⟨_, rfl, fun j => by rw [← Option.some.inj e]; norm_num⟩
  have hcs := betterFeet_le (Arms.robot S N fun _ => 1 / 2).cs
  obtain ⟨τt', τc', h'⟩ := C95_qp_success (R := Arms.robot S N fun _ => 1 / 2) Stand.six Stand.plane Stand.dof (by norm_num) hl hcs hsound hsound
    hcomp h
  obtain ⟨rs, hrs⟩ := records_of _ h
  obtain ⟨rs', hrs'⟩ := records_of _ h'
  exact ⟨S, N, Y, Z, τt, τc, τt', τc', rs, rs', h, h', hrs, hrs',
    C95_qp_no_worse (R := Arms.robot S N fun _ => 1 / 2) Stand.six Stand.plane Stand.dof hl hcs he he _ _ rfl hrs hrs',
    fun qdd F qdd' F' hM hM' => C95_first_task (R := Arms.robot S N fun _ => 1 / 2) (Arms.hA 2) cod hS hR rfl Stand.six Stand.plane Stand.dof
      (by norm_num) Arms.J_base hl hcs he he hT [Z] [Z] h h' hM hM'⟩

/-- redistribution for the same two robots -/
example (cod : (W : Matrix (Fin (6 + 2)) (Fin (6 + 2)) ℝ) → CodNull W) {solve : RSolver} (he : solve.Exact) (hcomp : solve.Complete) :
    ∃ S N τ1 τ2, redistribute (Arms.robot S N fun _ => 1 / 2) solve (0 + 0) 0 = some (1, τ1) ∧
      redistribute ((Arms.robot S N fun _ => 1 / 2).loosened (some fun _ => 1) (Stand.cs.map betterFoot)) solve (0 + 0) 0 = some (1, τ2) := by
  obtain ⟨S, k, V2, N, hS, hR⟩ := Arms.space (m := 2) cod
  have hsafe := Arms.stand_safe (N := N) hS (L := fun _ => 1 / 2) fun _ => by norm_num
  have hg : (Arms.robot S N fun _ => 1 / 2).τg = 0 := Arms.grav hS
  rw [hg] at hsafe
  obtain ⟨τ1, h1⟩ := (C10_succeeds_iff (Arms.hA 2) (Arms.robot S N fun _ => 1 / 2) hS rfl Stand.six Stand.plane Stand.dof (by norm_num) cod hR he hcomp
    0 0).mpr ⟨0, hsafe.1, fun qdd F qdd' F' hM hM' => by
      refine ⟨?_, hsafe.2 _ _ hM'⟩
      have := (movesNothing_iff (G := Arms.G 2) (Arms.hA 2) (by norm_num) cod hS hR 0).mpr ⟨0, (mulVec_zero _).symm⟩
      exact this _ _ _ _ _ hM (by rw [add_zero]; exact hM')⟩
  have hl : LimitLe (Arms.robot S N fun _ => 1 / 2).limit (some fun _ => 1) := fun L' e =>
    ⟨_, rfl, fun j => by rw [← Option.some.inj e]; norm_num⟩
  obtain ⟨τ2, h2⟩ := C95_redistribute_success (R := Arms.robot S N fun _ => 1 / 2) (Arms.hA 2) hS rfl Stand.six Stand.plane Stand.dof (by norm_num) cod
    hR hl (betterFeet_le _) (fun k d x hx => (he k d x hx).1) he hcomp h1
  exact ⟨S, N, τ1, τ2, h1, h2⟩

/-- the joint shall accelerate by 5 -/
def exJTStand : JTask (Fin 1) 6 := ⟨1, exJJ, fun _ => 5, none, none⟩

/-- the joint-acceleration QP on a robot standing on its foot -/
example : ∃ t1 t2, jaccPass exStand bestSolver [exJTStand] 1 = some (true, t1) ∧
    jaccPass { exStand with cs := exStand.cs.map betterFoot, limit := none } bestSolver [exJTStand] 1 = some (true, t2) ∧
    ∃ (T T1 T2 : JTask (Fin 1) 6) (o1 o2 : JAnswer (Fin 1) 6), [exJTStand][0]? = some T ∧ t1[0]? = some T1 ∧ t2[0]? = some T2 ∧
      T1.out = some o1 ∧ T2.out = some o2 ∧ jaccEffort exStand T o2.acc ≤ jaccEffort exStand T o1.acc := by
  have hc : 6 = 6 * (active exStand.cs).length := by simp [exStand, exContact, active]
  have h6 : ∀ l ∈ exStand.cs, l.type = .c6d := by simp [exStand, exContact]
  have hp : ∀ l ∈ exStand.cs, 0 < l.planeX ∧ 0 < l.planeY := by simp [exStand, exContact]
  obtain ⟨t1, e1⟩ := (C35_succeeds_iff (R := exStand) (ts := [exJTStand]) isSPD_one h6 hp hc
    bestSolver_exact bestSolver_complete one_pos (by simp)).mpr ⟨_, exStand_admissible hc⟩
  obtain ⟨t2, e2⟩ := C95_jacc_success (R := exStand) isSPD_one h6 hp hc (betterFeet_le _) bestSolver_exact bestSolver_complete bestSolver_exact
    bestSolver_complete one_pos (by simp) none e1
  refine ⟨t1, t2, e1, e2, ?_⟩
  have key : ∀ (R : JRobot (Fin 1) 6) t, jaccPass R bestSolver [exJTStand] 1 = some (true, t) → jaccCall R bestSolver [exJTStand] 0 = some (true, t) := by
    intro R t h
    unfold jaccPass at h
    simp only [jaccPassWith] at h
    rcases hx : jaccCall R bestSolver [exJTStand] 0 with _ | ⟨b, ts⟩
    · rw [hx] at h; simp at h
    · rw [hx] at h
      simpa using h
  exact C95_jacc_effort h6 hp hc (betterFeet_le _) bestSolver_exact bestSolver_exact none (key _ _ e1) (key _ _ e2)

end Verif.Props
