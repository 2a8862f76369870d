import Verif.Props.TaskUnits
import Verif.Props.Effort

/-!
# C94: when QP control follows a command that could be followed safely
-/

set_option linter.unusedSectionVars false

namespace Verif.Props
open Matrix Verif Verif.Spec Verif.Model

section
variable {n c : ℕ} {A : Matrix (Fin 6 ⊕ Fin n) (Fin 6 ⊕ Fin n) ℝ} {J : Matrix (Fin c) (Fin 6 ⊕ Fin n) ℝ} {G : Fin 6 ⊕ Fin n → ℝ}
  {R : QPRobot n c}

/-- Two torques that cause the same motion once differ by a torque that moves nothing. -/
theorem movesNothing_of_same (hA : IsSPD A) {τ δ : Fin n → ℝ} {qdd : Fin 6 ⊕ Fin n → ℝ} {F F' : Fin c → ℝ}
    (h : Motion A J G τ qdd F) (h' : Motion A J G (τ + δ) qdd F') : MovesNothing A J G δ := by
  intro τ₁ q q' K K' h1 h2
  have hadd : ∀ a b : Fin n → ℝ, actuate (a + b) = actuate a + actuate b := fun a b => by
    funext i; rcases i with i | i <;> simp [actuate]
  have e1 : A *ᵥ qdd + Jᵀ *ᵥ F + G = actuate τ := h.1
  have e2 : A *ᵥ qdd + Jᵀ *ᵥ F' + G = actuate τ + actuate δ := by rw [← hadd]; exact h'.1
  have e3 : A *ᵥ q + Jᵀ *ᵥ K + G = actuate τ₁ := h1.1
  have e4 : A *ᵥ q' + Jᵀ *ᵥ K' + G = actuate τ₁ + actuate δ := by rw [← hadd]; exact h2.1
  have hj : J *ᵥ (q' - q) = 0 := by
    have f1 : J *ᵥ q = 0 := h1.2
    have f2 : J *ᵥ q' = 0 := h2.2
    rw [mulVec_sub, f1, f2, sub_self]
  have e5 : A *ᵥ (q' - q) = Jᵀ *ᵥ (F' - F - K' + K) := by
    simp only [mulVec_sub, mulVec_add]
    linear_combination (exp := 1) e4 - e3 - e2 + e1
  have e6 : (q' - q) ⬝ᵥ (A *ᵥ (q' - q)) = 0 := by
    rw [e5, dotProduct_mulVec, vecMul_transpose, hj, zero_dotProduct]
  by_contra hne
  exact (hA.pos _ (sub_ne_zero.mpr hne)).ne' e6

/-- C94, QP control (partial: for the least-energy motion).  If a safe torque causes a motion in which the first task gets its
command, and no motion with the contacts kept and that command followed has less acceleration energy, then after a successful call
of QP control the command is followed, in every motion and with any lower tasks. -/
theorem C94_qp_follows_partial (hA : IsSPD A) (hS : contactSpace J A⁻¹ = some R.S) (hB : BaseDetermined J)
    (hP : R.P = gravityForce R.S G) (hg : R.τg = gravityTorque R.S A⁻¹ G)
    (h6 : ∀ l ∈ R.cs, l.type = .c6d) (hp : ∀ l ∈ R.cs, 0 < l.planeX ∧ 0 < l.planeY) (hc : c = 6 * (active R.cs).length)
    (hc6 : 6 < c) (cod : (W : Matrix (Fin n) (Fin n) ℝ) → CodNull W) {v k : ℕ} {V2 : Matrix (Fin k) (Fin n) ℝ}
    (hR : calculateContactConstraint J A⁻¹ cod = .ret v R.S (some ⟨k, V2, R.NwJw⟩))
    {solve : Solver} (hs : solve.Exact) {T : TaskReady (Fin n)} (hT : calculateJKT R.S A⁻¹ T.toTaskIn = some T)
    {lower : List (TaskReady (Fin n))} {τt τc : Fin n → ℝ}
    (h : calcTaskControlTorqueQP R solve (T :: lower) = .ret 1 τt τc) {qdd : Fin 6 ⊕ Fin n → ℝ} {F : Fin c → ℝ}
    (hM : Motion A J G (R.τg + τt + τc) qdd F) {τ : Fin n → ℝ} (hsafe : SafeTorque A J G R.limit R.cs hc τ)
    {q : Fin 6 ⊕ Fin n → ℝ} {K : Fin c → ℝ} (hq : Motion A J G τ q K) (hf : T.J *ᵥ q = T.f)
    (hleast : ∀ q', ContactsFixed J q' → T.J *ᵥ q' = T.f → accelEnergy A q ≤ accelEnergy A q') :
    T.J *ᵥ qdd = T.f := by
  obtain ⟨q₁, hM₁⟩ := (C01_contact_force_exact hA hS G (gravityTorque R.S A⁻¹ G + taskTorque R.S [T])).1
  obtain ⟨a1, -, a3⟩ := C86_one_task_least hA hS hB hT hM₁ hq.2 hf
  obtain rfl := a3 (hleast _ hM₁.2 a1)
  obtain ⟨δ, hδ⟩ : ∃ δ, τ = R.τg + taskTorque R.S [T] + δ := ⟨τ - (R.τg + taskTorque R.S [T]), by abel⟩
  have hm : MovesNothing A J G δ := by
    refine movesNothing_of_same hA hM₁ ?_ (F' := K)
    rw [← hg, ← hδ]
    exact hq
  have hw : withCommand T T.f = T := rfl
  have := C60_first_task_best hA hS hB hP hg h6 hp hc hc6 cod hR hs hT h hM (a := T.f) hm (by rw [hw, ← hδ]; exact hsafe)
  simp only [sub_self, ne_eq, OfNat.ofNat_ne_zero, not_false_eq_true, zero_pow, Finset.sum_const_zero] at this
  funext i
  have hi := (Finset.sum_eq_zero_iff_of_nonneg fun i _ => sq_nonneg ((T.J *ᵥ qdd) i - T.f i)).mp
    (le_antisymm this (Finset.sum_nonneg fun i _ => sq_nonneg _)) i (Finset.mem_univ i)
  have := pow_eq_zero_iff (two_ne_zero) |>.mp hi
  linarith

/-- C94, QP control.  A task that, with the contacts, leaves no motion free gets its command whenever some safe torque gives it. -/
theorem C94_qp_follows_determined (hA : IsSPD A) (hS : contactSpace J A⁻¹ = some R.S) (hB : BaseDetermined J)
    (hP : R.P = gravityForce R.S G) (hg : R.τg = gravityTorque R.S A⁻¹ G)
    (h6 : ∀ l ∈ R.cs, l.type = .c6d) (hp : ∀ l ∈ R.cs, 0 < l.planeX ∧ 0 < l.planeY) (hc : c = 6 * (active R.cs).length)
    (hc6 : 6 < c) (cod : (W : Matrix (Fin n) (Fin n) ℝ) → CodNull W) {v k : ℕ} {V2 : Matrix (Fin k) (Fin n) ℝ}
    (hR : calculateContactConstraint J A⁻¹ cod = .ret v R.S (some ⟨k, V2, R.NwJw⟩))
    {solve : Solver} (hs : solve.Exact) {T : TaskReady (Fin n)} (hT : calculateJKT R.S A⁻¹ T.toTaskIn = some T)
    (hdet : ∀ q, J *ᵥ q = 0 → T.J *ᵥ q = 0 → q = 0)
    {lower : List (TaskReady (Fin n))} {τt τc : Fin n → ℝ}
    (h : calcTaskControlTorqueQP R solve (T :: lower) = .ret 1 τt τc) {qdd : Fin 6 ⊕ Fin n → ℝ} {F : Fin c → ℝ}
    (hM : Motion A J G (R.τg + τt + τc) qdd F) {τ : Fin n → ℝ} (hsafe : SafeTorque A J G R.limit R.cs hc τ)
    {q : Fin 6 ⊕ Fin n → ℝ} {K : Fin c → ℝ} (hq : Motion A J G τ q K) (hf : T.J *ᵥ q = T.f) :
    T.J *ᵥ qdd = T.f := by
  refine C94_qp_follows_partial hA hS hB hP hg h6 hp hc hc6 cod hR hs hT h hM hsafe hq hf fun q' hc' hf' => ?_
  have h1 : J *ᵥ q' = 0 := hc'
  have h2 : J *ᵥ q = 0 := hq.2
  have := hdet (q' - q) (by rw [mulVec_sub, h1, h2, sub_self]) (by rw [mulVec_sub, hf', hf, sub_self])
  rw [sub_eq_zero.mp this]

end

namespace Arms

/-- the row of the sum of two arm joints -/
def sumRow : Matrix (Fin 1) (Fin 6 ⊕ Fin (6 + 2)) ℝ := Matrix.of fun _ => Pi.single (Sum.inr 6) 1 + Pi.single (Sum.inr 7) 1

/-- two arm joints shall together accelerate by `f` -/
def sumTask (f : ℝ) : TaskIn (Fin (6 + 2)) := { t := 1, J := sumRow, f := fun _ => f }

/-- the first of them is weak -/
noncomputable def weak : Fin (6 + 2) → ℝ := fun j => if j = 6 then 1 / 2 else 10

theorem sumRow_mul (f : ℝ) (q : Fin 6 ⊕ Fin (6 + 2) → ℝ) (i : Fin (sumTask f).t) :
    ((sumTask f).J *ᵥ q) i = q (Sum.inr 6) + q (Sum.inr 7) := by
  change (Pi.single (Sum.inr 6) (1 : ℝ) + Pi.single (Sum.inr 7) 1 : Fin 6 ⊕ Fin (6 + 2) → ℝ) ⬝ᵥ q = _
  rw [add_dotProduct]; simp

theorem sumTask_finite (f : ℝ) (y : Fin (sumTask f).t → ℝ) (h : ∃ F, (J 2)ᵀ *ᵥ F = (sumTask f).Jᵀ *ᵥ y) : y = 0 := by
  obtain ⟨F, hF⟩ := h
  have h6 := congrFun hF (Sum.inr 6)
  rw [JT_arm F (by decide)] at h6
  change (0 : ℝ) = ∑ i : Fin 1, _ * y i at h6
  rw [Fin.sum_univ_one] at h6
  simp [sumTask, sumRow] at h6
  funext i
  change y i = 0
  have hi : i = (0 : Fin 1) := by
    have : ∀ i : Fin 1, i = 0 := by decide
    exact this i
  rw [hi]
  exact h6.symm

/-- exchanging the two joints -/
def exch (q : Fin 6 ⊕ Fin (6 + 2) → ℝ) : Fin 6 ⊕ Fin (6 + 2) → ℝ := fun s =>
  if s = Sum.inr 6 then q (Sum.inr 7) else if s = Sum.inr 7 then q (Sum.inr 6) else q s

theorem exch_fixed {q : Fin 6 ⊕ Fin (6 + 2) → ℝ} (h : ContactsFixed (J 2) q) : ContactsFixed (J 2) (exch q) := by
  have e : J 2 *ᵥ exch q = J 2 *ᵥ q := by
    funext i
    simp only [mulVec, dotProduct]
    refine Finset.sum_congr rfl fun s _ => ?_
    rcases s with s | s
    · simp [exch]
    · by_cases hs : 6 ≤ s.val
      · simp only [J, of_apply]
        rw [if_neg (by omega), zero_mul, zero_mul]
      · have n6 : (Sum.inr s : Fin 6 ⊕ Fin (6 + 2)) ≠ Sum.inr 6 := by
          intro h; have := Sum.inr.inj h; subst this; exact hs (by decide)
        have n7 : (Sum.inr s : Fin 6 ⊕ Fin (6 + 2)) ≠ Sum.inr 7 := by
          intro h; have := Sum.inr.inj h; subst this; exact hs (by decide)
        simp only [exch, if_neg n6, if_neg n7]
  unfold ContactsFixed at h ⊢
  rw [e, h]

theorem exch_energy (q : Fin 6 ⊕ Fin (6 + 2) → ℝ) : accelEnergy (A 2) (exch q) = accelEnergy (A 2) q := by
  have h8 : ∀ f : Fin (6 + 2) → ℝ, ∑ i, f i = f 0 + f 1 + f 2 + f 3 + f 4 + f 5 + f 6 + f 7 := fun f => Fin.sum_univ_eight f
  simp only [accelEnergy, A, one_mulVec, dotProduct, Fintype.sum_sum_type, h8]
  simp [exch, Fin.ext_iff]
  ring

end Arms

/-- **C94 is false of QP control.**  Two arm joints are to accelerate by 2 together and the first of them is weak.  A safe torque follows the
command, letting the other joint do more.  QP control succeeds, with any exact solver, and gives at most half of the command in every
motion, because it always shares the work between the joints in the same proportion. -/
theorem C94_qp_weak_joint (cod : (W : Matrix (Fin (6 + 2)) (Fin (6 + 2)) ℝ) → CodNull W) {solve : Solver} (he : solve.Exact)
    (hcomp : solve.Complete) :
    (∃ τ, SafeTorque (Arms.A 2) (Arms.J 2) (Arms.G 2) (some Arms.weak) Stand.cs Stand.dof τ ∧
      (∃ qdd F, Motion (Arms.A 2) (Arms.J 2) (Arms.G 2) τ qdd F) ∧
      ∀ qdd F, Motion (Arms.A 2) (Arms.J 2) (Arms.G 2) τ qdd F → (Arms.sumTask 2).J *ᵥ qdd = (Arms.sumTask 2).f) ∧
    ∃ τg τt τc, qpCycle (Arms.J 2) (Arms.A 2)⁻¹ (Arms.G 2) cod (some Arms.weak) Stand.cs solve [Arms.sumTask 2] = some (1, τg, τt, τc) ∧
      ∀ qdd F, Motion (Arms.A 2) (Arms.J 2) (Arms.G 2) (τg + τt + τc) qdd F → ∀ i, ((Arms.sumTask 2).J *ᵥ qdd) i ≤ 1 := by
  obtain ⟨S, k, V2, N, hS, hR⟩ := Arms.space (m := 2) cod
  constructor
  · let u : Fin (6 + 2) → ℝ := fun j => if j = 6 then 1 / 2 else if j = 7 then 3 / 2 else 0
    have hu : ∀ j : Fin 6, u (Arms.leg 2 j) = 0 := fun j => by fin_cases j <;> simp [u, Arms.leg, Fin.ext_iff]
    refine ⟨u, Arms.safe hS hu fun j => ?_, ⟨_, _, Arms.still hu⟩, fun qdd F h => ?_⟩
    · simp only [u, Arms.weak]
      split_ifs <;> norm_num
    · funext i
      rw [Arms.sumRow_mul, Arms.arm_follows h (by decide), Arms.arm_follows h (by decide)]
      simp [u, Fin.ext_iff, Arms.sumTask]
      norm_num
  · obtain ⟨τg, τt, τc, h, hl, -⟩ := Arms.best (m := 2) hS cod hR (L := Arms.weak) (fun j => by unfold Arms.weak; split_ifs <;> norm_num)
      he hcomp (Arms.sumTask 2) (Arms.sumTask_finite 2)
    refine ⟨τg, τt, τc, h, fun qdd F hM i => ?_⟩
    have hrow : ∀ T ∈ [Arms.sumTask 2], T.J *ᵥ Arms.exch qdd = T.J *ᵥ qdd := by
      intro T hT
      obtain rfl := List.mem_singleton.mp hT
      funext i
      rw [Arms.sumRow_mul, Arms.sumRow_mul]
      simp [Arms.exch, Fin.ext_iff, add_comm]
    have e := (C86_qp_energy_least (Arms.hA 2) Arms.J_base (by norm_num) cod h hM (Arms.exch_fixed hM.2) hrow).2
      (Arms.exch_energy qdd).le
    have e6 := congrFun e (Sum.inr 6)
    simp [Arms.exch] at e6
    have h6 := (abs_le.mp (hl 6)).2
    rw [Arms.sumRow_mul, e6, Arms.arm_follows hM (by decide)]
    simp only [Arms.weak, if_true] at h6
    linarith

/-! ### The hypotheses are met -/

namespace Arms

noncomputable abbrev robot (S : ContactSpace 12 (Fin (6 + 2))) (N : Matrix (Fin (6 + 2)) (Fin (12 - 6)) ℝ) (L : Fin (6 + 2) → ℝ) : QPRobot (6 + 2) 12 :=
  { S := S, NwJw := N, P := gravityForce S (G 2), τg := gravityTorque S (A 2)⁻¹ (G 2), limit := some L, cs := Stand.cs }

theorem ready {S : ContactSpace 12 (Fin (6 + 2))} (hS : contactSpace (J 2) (A 2)⁻¹ = some S)
    (cod : (W : Matrix (Fin (6 + 2)) (Fin (6 + 2)) ℝ) → CodNull W) {k : ℕ}
    {V2 : Matrix (Fin k) (Fin (6 + 2)) ℝ} {N : Matrix (Fin (6 + 2)) (Fin (12 - 6)) ℝ}
    (hR : calculateContactConstraint (J 2) (A 2)⁻¹ cod = .ret 1 S (some ⟨k, V2, N⟩)) {L : Fin (6 + 2) → ℝ} (hL : ∀ j, 0 ≤ L j)
    {solve : Solver} (hs : solve.Exact) (hcomp : solve.Complete) (T : TaskIn (Fin (6 + 2)))
    (hfin : ∀ y : Fin T.t → ℝ, (∃ F, (J 2)ᵀ *ᵥ F = T.Jᵀ *ᵥ y) → y = 0) :
    ∃ (Y : TaskReady (Fin (6 + 2))) (τt τc : Fin (6 + 2) → ℝ), Y.toTaskIn = T ∧ calculateJKT S (A 2)⁻¹ Y.toTaskIn = some Y ∧
      calcTaskControlTorqueQP (robot S N L) solve [Y] = .ret 1 τt τc := by
  obtain ⟨Y, hY⟩ := Option.isSome_iff_exists.mp ((C06_finite_iff (hA 2) hS T).mpr hfin)
  have hYT : Y.toTaskIn = T := by rw [((jkt_eq_some hS).mp hY).2]
  subst hYT
  have h0 : MovesNothing (A 2) (J 2) (G 2) 0 :=
    (movesNothing_iff (hA 2) (by norm_num) cod hS hR 0).mpr ⟨0, (mulVec_zero _).symm⟩
  have hg : (robot S N L).τg = 0 := grav hS
  have hsafe0 : SafeTorque (A 2) (J 2) (G 2) (robot S N L).limit (robot S N L).cs Stand.dof ((robot S N L).τg + 0) := by
    rw [hg, add_zero]
    exact safe hS (fun _ => rfl) (fun j => by simpa using hL j)
  have hsound : solve.Sound := fun i t k d x hx => (hs i t k d x hx).1
  obtain ⟨τt, τc, h⟩ := C60_never_fails (hA 2) (R := robot S N L) hS rfl Stand.six Stand.plane Stand.dof (by norm_num) cod hR
    hsound hcomp h0 hsafe0 [Y]
  exact ⟨Y, τt, τc, rfl, hY, h⟩

/-- contacts at rest keep the base and the legs at rest -/
theorem rest {q : Fin 6 ⊕ Fin (6 + 2) → ℝ} (hq : J 2 *ᵥ q = 0) : (∀ b, q (Sum.inl b) = 0) ∧ ∀ j, q (Sum.inr (leg 2 j)) = 0 := by
  have key : ∀ i : Fin 6, (J 2 *ᵥ q) ⟨i.val, by omega⟩ = q (Sum.inl i) ∧
      (J 2 *ᵥ q) ⟨i.val + 6, by omega⟩ = q (Sum.inl i) + q (Sum.inr (leg 2 i)) := by
    intro i
    constructor
    · simp only [mulVec, dotProduct, J, of_apply, Fintype.sum_sum_type]
      rw [Finset.sum_eq_single i, Finset.sum_eq_zero]
      · rw [if_pos (Nat.mod_eq_of_lt i.isLt)]; ring
      · intro j _; rw [if_neg (by omega), zero_mul]
      · intro b _ hb
        rw [if_neg (fun h => hb (Fin.ext (by omega))), zero_mul]
      · intro h; exact absurd (Finset.mem_univ _) h
    · simp only [mulVec, dotProduct, J, of_apply, Fintype.sum_sum_type]
      rw [Finset.sum_eq_single i, Finset.sum_eq_single (leg 2 i)]
      · rw [if_pos (by omega), if_pos (by simp [leg])]; ring
      · intro b _ hb
        rw [if_neg (fun h => hb (Fin.ext (by simp only [leg, Fin.val_castAdd]; omega))), zero_mul]
      · intro h; exact absurd (Finset.mem_univ _) h
      · intro b _ hb
        rw [if_neg (fun h => hb (Fin.ext (by omega))), zero_mul]
      · intro h; exact absurd (Finset.mem_univ _) h
  have hb : ∀ b, q (Sum.inl b) = 0 := fun b => (key b).1.symm.trans (by rw [hq]; rfl)
  refine ⟨hb, fun j => ?_⟩
  have := (key j).2.symm.trans (by rw [hq]; rfl : _ = (0 : ℝ))
  rwa [hb, zero_add] at this

/-- the torque of the arms -/
noncomputable def pull (a b : ℝ) : Fin (6 + 2) → ℝ := fun j => if j = 6 then a else if j = 7 then b else 0

theorem pull_leg (a b : ℝ) (j : Fin 6) : pull a b (leg 2 j) = 0 := by fin_cases j <;> simp [pull, leg, Fin.ext_iff]

theorem energy_arms (q : Fin 6 ⊕ Fin (6 + 2) → ℝ) : accelEnergy (A 2) (actuate (pull (q (Sum.inr 6)) (q (Sum.inr 7)))) ≤ accelEnergy (A 2) q := by
  have h8 : ∀ f : Fin (6 + 2) → ℝ, ∑ i, f i = f 0 + f 1 + f 2 + f 3 + f 4 + f 5 + f 6 + f 7 := fun f => Fin.sum_univ_eight f
  simp only [accelEnergy, A, one_mulVec, dotProduct, Fintype.sum_sum_type, h8]
  simp [actuate, pull, Fin.ext_iff]
  have : 0 ≤ ∑ x : Fin 6, q (Sum.inl x) * q (Sum.inl x) := Finset.sum_nonneg fun _ _ => mul_self_nonneg _
  nlinarith [mul_self_nonneg (q (Sum.inr 0)), mul_self_nonneg (q (Sum.inr 1)), mul_self_nonneg (q (Sum.inr 2)),
    mul_self_nonneg (q (Sum.inr 3)), mul_self_nonneg (q (Sum.inr 4)), mul_self_nonneg (q (Sum.inr 5))]

theorem energy_pull (a b : ℝ) : accelEnergy (A 2) (actuate (pull a b)) = accelEnergy (A 2) (actuate (pull 1 0)) * (a ^ 2 + b ^ 2) := by
  have h8 : ∀ f : Fin (6 + 2) → ℝ, ∑ i, f i = f 0 + f 1 + f 2 + f 3 + f 4 + f 5 + f 6 + f 7 := fun f => Fin.sum_univ_eight f
  simp only [accelEnergy, A, one_mulVec, dotProduct, Fintype.sum_sum_type, h8]
  simp [actuate, pull, Fin.ext_iff]
  ring

end Arms

/-- with two strong joints the command is followed -/
example (cod : (W : Matrix (Fin (6 + 2)) (Fin (6 + 2)) ℝ) → CodNull W) {solve : Solver} (he : solve.Exact) (hcomp : solve.Complete) :
    ∃ S N Y τt τc, calcTaskControlTorqueQP (Arms.robot S N fun _ => 1) solve [Y] = .ret 1 τt τc ∧ Y.toTaskIn = Arms.sumTask 2 ∧
      ∀ qdd F, Motion (Arms.A 2) (Arms.J 2) (Arms.G 2) ((Arms.robot S N fun _ => 1).τg + τt + τc) qdd F → Y.J *ᵥ qdd = Y.f := by
  obtain ⟨S, k, V2, N, hS, hR⟩ := Arms.space (m := 2) cod
  obtain ⟨Y, τt, τc, hY, hT, h⟩ := Arms.ready hS cod hR (L := fun _ => 1) (fun _ => zero_le_one) he hcomp (Arms.sumTask 2) (Arms.sumTask_finite 2)
  refine ⟨S, N, Y, τt, τc, h, hY, fun qdd F hM => ?_⟩
  refine C94_qp_follows_partial (R := Arms.robot S N fun _ => 1) (Arms.hA 2) hS Arms.J_base rfl rfl Stand.six Stand.plane Stand.dof
    (by norm_num) cod hR he hT h hM (τ := Arms.pull 1 1) (Arms.safe hS (Arms.pull_leg 1 1) fun j => ?_) (Arms.still (Arms.pull_leg 1 1)) ?_ ?_
  · unfold Arms.pull; split_ifs <;> norm_num
  · have : (Y.toTaskIn).J *ᵥ actuate (Arms.pull 1 1) = (Y.toTaskIn).f := by
      rw [hY]
      funext i
      rw [Arms.sumRow_mul]
      simp [actuate, Arms.pull, Fin.ext_iff, Arms.sumTask]
      norm_num
    exact this
  · intro q' _ hf
    have hf' : (Y.toTaskIn).J *ᵥ q' = (Y.toTaskIn).f := hf
    rw [hY] at hf'
    have h2 : q' (Sum.inr 6) + q' (Sum.inr 7) = 2 := by
      rw [← Arms.sumRow_mul 2 q' (0 : Fin 1), hf']; rfl
    refine le_trans ?_ (Arms.energy_arms q')
    rw [Arms.energy_pull, Arms.energy_pull (q' _)]
    refine mul_le_mul_of_nonneg_left ?_ ?_
    · nlinarith [sq_nonneg (q' (Sum.inr 6) - q' (Sum.inr 7))]
    · unfold accelEnergy Arms.A
      rw [one_mulVec]
      exact Finset.sum_nonneg fun _ _ => mul_self_nonneg _

/-- a task that determines both joints -/
example (cod : (W : Matrix (Fin (6 + 2)) (Fin (6 + 2)) ℝ) → CodNull W) {solve : Solver} (he : solve.Exact) (hcomp : solve.Complete) :
    ∃ S N Y τt τc, calcTaskControlTorqueQP (Arms.robot S N fun _ => 1) solve [Y] = .ret 1 τt τc ∧ Y.toTaskIn = Arms.T 1 ∧
      ∀ qdd F, Motion (Arms.A 2) (Arms.J 2) (Arms.G 2) ((Arms.robot S N fun _ => 1).τg + τt + τc) qdd F → Y.J *ᵥ qdd = Y.f := by
  obtain ⟨S, k, V2, N, hS, hR⟩ := Arms.space (m := 2) cod
  obtain ⟨Y, τt, τc, hY, hT, h⟩ := Arms.ready hS cod hR (L := fun _ => 1) (fun _ => zero_le_one) he hcomp (Arms.T 1)
    (Arms.T_finite one_ne_zero)
  refine ⟨S, N, Y, τt, τc, h, hY, fun qdd F hM => ?_⟩
  refine C94_qp_follows_determined (R := Arms.robot S N fun _ => 1) (Arms.hA 2) hS Arms.J_base rfl rfl Stand.six Stand.plane Stand.dof
    (by norm_num) cod hR he hT ?_ h hM (τ := Arms.pull 0 1) (Arms.safe hS (Arms.pull_leg 0 1) fun j => ?_) (Arms.still (Arms.pull_leg 0 1)) ?_
  · intro q hq hf
    have hf' : (Y.toTaskIn).J *ᵥ q = 0 := hf
    rw [hY, Arms.T_J] at hf'
    have e6 : q (Sum.inr 6) = 0 := congrFun hf' (0 : Fin 2)
    have e7 : 1 * (q (Sum.inr 6) + q (Sum.inr 7)) = 0 := congrFun hf' (1 : Fin 2)
    obtain ⟨hb, hl⟩ := Arms.rest hq
    have l0 := hl 0; have l1 := hl 1; have l2 := hl 2; have l3 := hl 3; have l4 := hl 4; have l5 := hl 5
    funext i
    rcases i with i | i
    · exact hb i
    · fin_cases i
      · exact l0
      · exact l1
      · exact l2
      · exact l3
      · exact l4
      · exact l5
      · exact e6
      · change q (Sum.inr 7) = 0
        linarith
  · unfold Arms.pull; split_ifs <;> norm_num
  · have : (Y.toTaskIn).J *ᵥ actuate (Arms.pull 0 1) = (Y.toTaskIn).f := by
      rw [hY, Arms.T_J]
      simp [actuate, Arms.pull, Fin.ext_iff, Arms.T]
    exact this

end Verif.Props
