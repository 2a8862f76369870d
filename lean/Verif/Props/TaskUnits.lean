import Verif.Props.TaskOrder
import Verif.Props.QPFail

/-!
# C82: units of a task with QP task control, and cases that meet the hypotheses
-/

set_option linter.unusedSectionVars false

namespace Verif.Props
open Matrix Verif Verif.Spec Verif.Model

namespace Arms

/-- the biped of `Stand` with `m` more joints, that move arms -/
def J (m : ℕ) : Matrix (Fin 12) (Fin 6 ⊕ Fin (6 + m)) ℝ := Matrix.of fun i s =>
  match s with
  | Sum.inl j => if i.val % 6 = j.val then 1 else 0
  | Sum.inr j => if i.val = j.val + 6 then 1 else 0

/-- unit mass matrix -/
def A (m : ℕ) : Matrix (Fin 6 ⊕ Fin (6 + m)) (Fin 6 ⊕ Fin (6 + m)) ℝ := 1

theorem hA (m : ℕ) : IsSPD (A m) := isSPD_one

/-- gravity presses both feet to the floor and needs no torque -/
def G (m : ℕ) : Fin 6 ⊕ Fin (6 + m) → ℝ := -((J m)ᵀ *ᵥ Stand.F)

variable {m : ℕ}

def leg (m : ℕ) (j : Fin 6) : Fin (6 + m) := Fin.castAdd m j

theorem J_ind : IndependentRows (J m) := by
  intro F h
  have hr : ∀ j : Fin 6, ((J m)ᵀ *ᵥ F) (Sum.inr (leg m j)) = 0 := fun j => by rw [h]; rfl
  have hl : ∀ j : Fin 6, ((J m)ᵀ *ᵥ F) (Sum.inl j) = 0 := fun j => by rw [h]; rfl
  have r0 := hr 0; have r1 := hr 1; have r2 := hr 2; have r3 := hr 3; have r4 := hr 4; have r5 := hr 5
  have l0 := hl 0; have l1 := hl 1; have l2 := hl 2; have l3 := hl 3; have l4 := hl 4; have l5 := hl 5
  simp [J, leg, mulVec, dotProduct, Fin.sum_univ_succ] at r0 r1 r2 r3 r4 r5 l0 l1 l2 l3 l4 l5
  ext i
  fin_cases i <;> simp_all

theorem J_base : BaseDetermined (J m) := by
  intro v h
  have hl : ∀ j : Fin 12, (J m *ᵥ (Sum.elim v 0)) j = 0 := fun j => by rw [h]; rfl
  have r0 := hl 0; have r1 := hl 1; have r2 := hl 2; have r3 := hl 3; have r4 := hl 4; have r5 := hl 5
  simp [J, mulVec, dotProduct, Fintype.sum_sum_type, Fin.sum_univ_six] at r0 r1 r2 r3 r4 r5
  ext i
  fin_cases i <;> simp_all

theorem JT_arm (F : Fin 12 → ℝ) {j : Fin (6 + m)} (hj : 6 ≤ j.val) : ((J m)ᵀ *ᵥ F) (Sum.inr j) = 0 := by
  simp only [mulVec, dotProduct, transpose_apply, J, of_apply]
  refine Finset.sum_eq_zero fun i _ => ?_
  rw [if_neg (by omega), zero_mul]

/-- an arm joint of unit inertia follows its torque -/
theorem arm_follows {τ : Fin (6 + m) → ℝ} {qdd F} (h : Motion (A m) (J m) (G m) τ qdd F) {j : Fin (6 + m)} (hj : 6 ≤ j.val) :
    qdd (Sum.inr j) = τ j := by
  have := congrFun h.1 (Sum.inr j)
  simp only [A, one_mulVec, Pi.add_apply, JT_arm F hj, G, Pi.neg_apply, JT_arm Stand.F hj, actuate, Sum.elim_inr] at this
  linarith

/-- without torque in the legs the floor carries the weight alone -/
theorem still {τ : Fin (6 + m) → ℝ} (hτ : ∀ j : Fin 6, τ (leg m j) = 0) : Motion (A m) (J m) (G m) τ (actuate τ) Stand.F := by
  constructor
  · unfold Dynamics G A; rw [one_mulVec]; simp
  · unfold ContactsFixed
    ext i
    simp only [mulVec, dotProduct, J, of_apply, Fintype.sum_sum_type, actuate, Sum.elim_inl, Sum.elim_inr, Pi.zero_apply, mul_zero,
      Finset.sum_const_zero, zero_add]
    refine Finset.sum_eq_zero fun j _ => ?_
    by_cases hj : i.val = j.val + 6
    · have h := hτ ⟨j.val, by omega⟩
      have e : leg m ⟨j.val, by omega⟩ = j := Fin.ext rfl
      rw [e] at h
      rw [h, mul_zero]
    · rw [if_neg hj, zero_mul]

theorem space (cod : (W : Matrix (Fin (6 + m)) (Fin (6 + m)) ℝ) → CodNull W) :
    ∃ S k V2 N, contactSpace (J m) (A m)⁻¹ = some S ∧ calculateContactConstraint (J m) (A m)⁻¹ cod = .ret 1 S (some ⟨k, V2, N⟩) := by
  obtain ⟨S, ⟨k, V2, N⟩, hR⟩ := (C05_outcome (hA m) J_ind (by norm_num) cod).1.mpr
    ⟨J_base, by
      have : lastSixBase (by norm_num) (J m) = 1 := by
        ext i j; fin_cases i <;> fin_cases j <;> simp [lastSixBase, J]
      rw [this]; simp⟩
  exact ⟨S, k, V2, N, ccc_space hR, hR⟩

variable {S : ContactSpace 12 (Fin (6 + m))}

theorem feet (hS : contactSpace (J m) (A m)⁻¹ = some S) {τ : Fin (6 + m) → ℝ} {qdd F} (h : Motion (A m) (J m) (G m) τ qdd F)
    (hτ : ∀ j : Fin 6, τ (leg m j) = 0) : F = Stand.F := by
  rw [(C01_contact_force_exact (hA m) hS _ _).2.1 _ _ h, ← (C01_contact_force_exact (hA m) hS _ _).2.1 _ _ (still hτ)]

theorem grav (hS : contactSpace (J m) (A m)⁻¹ = some S) : gravityTorque S (A m)⁻¹ (G m) = 0 := by
  rw [gravityTorque, G, mulVec_neg, mulVec_mulVec (Stand.F) S.Nc, cs_Nc_JT hS, zero_mulVec, neg_zero, mulVec_zero, mulVec_zero]

/-- tasks put no torque on the legs -/
theorem leg_free (hS : contactSpace (J m) (A m)⁻¹ = some S) {T : TaskIn (Fin (6 + m))} {Y : TaskReady (Fin (6 + m))}
    (hY : calculateJKT S (A m)⁻¹ T = some Y) (a : Fin Y.t → ℝ) (j : Fin 6) : (Y.Jkt *ᵥ a) (leg m j) = 0 := by
  have hW : S.W *ᵥ Pi.single (leg m j) 1 = 0 := by
    rw [W_mulVec_eq_zero_iff (hA m) hS]
    refine ⟨fun i => if i.val = j.val then -1 else if i.val = j.val + 6 then 1 else 0, ?_⟩
    ext s
    rcases s with b | l
    · simp only [mulVec, dotProduct, transpose_apply, J, of_apply, actuate, Sum.elim_inl, Fin.sum_univ_succ]
      fin_cases b <;> fin_cases j <;> simp
    · simp only [mulVec, dotProduct, transpose_apply, J, of_apply, actuate, Sum.elim_inr]
      by_cases hl : l = leg m j
      · subst hl
        rw [Pi.single_eq_same, Finset.sum_eq_single (⟨j.val + 6, by omega⟩ : Fin 12)]
        · simp [leg]
        · intro i _ hi
          rw [if_neg (show ¬ i.val = (leg m j).val + 6 from fun h => hi (Fin.ext h)), zero_mul]
        · intro h; exact absurd (Finset.mem_univ _) h
      · rw [Pi.single_eq_of_ne hl]
        refine Finset.sum_eq_zero fun i _ => ?_
        by_cases hi : i.val = l.val + 6
        · rw [if_neg (show ¬ i.val = j.val by omega),
            if_neg (show ¬ i.val = j.val + 6 from fun h => hl (Fin.ext (by simp only [leg, Fin.val_castAdd]; omega))), mul_zero]
        · rw [if_neg hi, zero_mul]
  have hWi : S.Winv *ᵥ Pi.single (leg m j) 1 = 0 := by
    have hs := cs_W_symm (hA m) hS
    have hsi := cs_Winv_symm (hA m) hS
    have h1 : S.Winv * S.W * S.Winv = S.Winv := by rw [cs_Winv hS]; exact (pinv_spec _).bab
    have h2 : (S.W * S.Winv)ᵀ = S.W * S.Winv := by rw [cs_Winv hS]; exact (pinv_spec _).symL
    rw [transpose_mul, hs, hsi] at h2
    have h3 : S.Winv = S.Winv * S.Winv * S.W := by
      calc S.Winv = S.Winv * S.W * S.Winv := h1.symm
        _ = S.Winv * (S.W * S.Winv) := Matrix.mul_assoc _ _ _
        _ = S.Winv * (S.Winv * S.W) := by rw [h2]
        _ = _ := (Matrix.mul_assoc _ _ _).symm
    rw [h3, ← mulVec_mulVec, hW, mulVec_zero]
  have hJ : ∃ M, Y.Jkt = S.Winv * M := by
    rw [((jkt_eq_some hS).mp hY).2]
    exact ⟨_, Matrix.mul_assoc _ _ _⟩
  obtain ⟨M, hM⟩ := hJ
  have e : (Y.Jkt *ᵥ a) (leg m j) = Pi.single (leg m j) 1 ⬝ᵥ (Y.Jkt *ᵥ a) := by simp
  rw [e, hM, ← mulVec_mulVec, dotProduct_mulVec, ← mulVec_transpose, cs_Winv_symm (hA m) hS, hWi, zero_dotProduct]

/-- a torque the arms alone give is safe when within the limits -/
theorem safe (hS : contactSpace (J m) (A m)⁻¹ = some S) {τ : Fin (6 + m) → ℝ} (hτ : ∀ j : Fin 6, τ (leg m j) = 0)
    {L : Fin (6 + m) → ℝ} (hL : WithinLimit L τ) : SafeTorque (A m) (J m) (G m) (some L) Stand.cs Stand.dof τ := by
  constructor
  · intro L' h
    obtain rfl := Option.some.inj h
    exact hL
  · intro qdd F hM
    rw [feet hS hM hτ]
    exact Stand.hold

/-- what the QP leaves of a task of the arms: at most the deviation of any command within the limits -/
theorem best (hS : contactSpace (J m) (A m)⁻¹ = some S) (cod : (W : Matrix (Fin (6 + m)) (Fin (6 + m)) ℝ) → CodNull W) {k : ℕ}
    {V2 : Matrix (Fin k) (Fin (6 + m)) ℝ} {N : Matrix (Fin (6 + m)) (Fin (12 - 6)) ℝ}
    (hR : calculateContactConstraint (J m) (A m)⁻¹ cod = .ret 1 S (some ⟨k, V2, N⟩)) {L : Fin (6 + m) → ℝ} (hL : ∀ j, 0 ≤ L j)
    {solve : Solver} (hs : solve.Exact) (hcomp : solve.Complete) (T : TaskIn (Fin (6 + m)))
    (hfin : ∀ y : Fin T.t → ℝ, (∃ F, (J m)ᵀ *ᵥ F = T.Jᵀ *ᵥ y) → y = 0) :
    ∃ τg τt τc, qpCycle (J m) (A m)⁻¹ (G m) cod (some L) Stand.cs solve [T] = some (1, τg, τt, τc) ∧ WithinLimit L (τg + τt + τc) ∧
      ∀ u : Fin (6 + m) → ℝ, (∀ j : Fin 6, u (leg m j) = 0) → WithinLimit L u → (∀ a, T.J *ᵥ actuate u = a →
        (∀ u', (∀ j : Fin 6, u' (leg m j) = 0) → T.J *ᵥ actuate u' = a → u' = u) →
        ∃ qdd, (∀ j : Fin (6 + m), 6 ≤ j.val → qdd (Sum.inr j) = (τg + τt + τc) j) ∧
          (∀ b, qdd (Sum.inl b) = 0) ∧ (∀ j, qdd (Sum.inr (leg m j)) = 0) ∧
          ∑ i, ((T.J *ᵥ qdd) i - T.f i) ^ 2 ≤ ∑ i, (a i - T.f i) ^ 2) := by
  obtain ⟨Y, hY⟩ := Option.isSome_iff_exists.mp ((C06_finite_iff (hA m) hS T).mpr hfin)
  have hYT : Y.toTaskIn = T := by rw [((jkt_eq_some hS).mp hY).2]
  have hY' : calculateJKT S (A m)⁻¹ Y.toTaskIn = some Y := by rw [hYT]; exact hY
  subst hYT
  let R : QPRobot (6 + m) 12 := { S := S, NwJw := N, P := gravityForce S (G m), τg := gravityTorque S (A m)⁻¹ (G m), limit := some L, cs := Stand.cs }
  have h0 : MovesNothing (A m) (J m) (G m) 0 :=
    (movesNothing_iff (hA m) (by norm_num) cod hS hR 0).mpr ⟨0, (mulVec_zero _).symm⟩
  have hg : R.τg = 0 := grav hS
  have hsafe0 : SafeTorque (A m) (J m) (G m) R.limit R.cs Stand.dof (R.τg + 0) := by
    rw [hg, add_zero]
    exact safe hS (fun _ => rfl) (fun j => by simpa using hL j)
  have hsound : solve.Sound := fun i t k d x hx => (hs i t k d x hx).1
  obtain ⟨τt, τc, h⟩ := C60_never_fails (hA m) (R := R) hS rfl Stand.six Stand.plane Stand.dof (by norm_num) cod hR
    hsound hcomp h0 hsafe0 [Y]
  refine ⟨R.τg, τt, τc, ?_, C08_torque_limit R hsound (by simp) rfl h, ?_⟩
  · unfold qpCycle
    have hts : calcTaskSpace S (A m)⁻¹ [Y.toTaskIn] = some [Y] := by
      unfold calcTaskSpace
      rw [List.mapM_cons, hY']
      rfl
    rw [hR]
    simp only
    rw [hts]
    simp only
    simp only [R] at h
    rw [h]
  · intro u hu hul a ha huniq
    obtain ⟨qdd, hM⟩ := (C01_contact_force_exact (hA m) hS (G m) (R.τg + τt + τc)).1
    have hq : ∀ i, (J m *ᵥ qdd) i = 0 := fun i => by rw [hM.2]; rfl
    have hbl : (∀ b, qdd (Sum.inl b) = 0) ∧ ∀ j, qdd (Sum.inr (leg m j)) = 0 := by
      have key : ∀ i : Fin 6, (J m *ᵥ qdd) ⟨i.val, by omega⟩ = qdd (Sum.inl i) ∧
          (J m *ᵥ qdd) ⟨i.val + 6, by omega⟩ = qdd (Sum.inl i) + qdd (Sum.inr (leg m i)) := by
        intro i
        constructor
        · simp only [mulVec, dotProduct, J, of_apply, Fintype.sum_sum_type]
          rw [Finset.sum_eq_single i, Finset.sum_eq_zero]
          · rw [if_pos (Nat.mod_eq_of_lt i.isLt)]; ring
          · intro j _; rw [if_neg (by omega), zero_mul]
          · intro b _ hb
            rw [if_neg (fun h => hb (Fin.ext (by omega))), zero_mul]
          · intro h; exact absurd (Finset.mem_univ _) h
        · simp only [mulVec, dotProduct, J, of_apply, Fintype.sum_sum_type]
          rw [Finset.sum_eq_single i, Finset.sum_eq_single (leg m i)]
          · rw [if_pos (by omega), if_pos (by simp [leg])]; ring
          · intro b _ hb
            rw [if_neg (fun h => hb (Fin.ext (by simp only [leg, Fin.val_castAdd]; omega))), zero_mul]
          · intro h; exact absurd (Finset.mem_univ _) h
          · intro b _ hb
            rw [if_neg (fun h => hb (Fin.ext (by omega))), zero_mul]
          · intro h; exact absurd (Finset.mem_univ _) h
      have hb : ∀ b, qdd (Sum.inl b) = 0 := fun b => (key b).1.symm.trans (hq _)
      refine ⟨hb, fun j => ?_⟩
      have := (key j).2.symm.trans (hq _)
      rw [hb, zero_add] at this
      exact this
    refine ⟨qdd, fun j hj => arm_follows hM hj, hbl.1, hbl.2, ?_⟩
    have hu' : taskTorque S [withCommand Y a] = u := by
      refine huniq _ ?_ ?_
      · intro j
        rw [taskTorque_one]
        exact leg_free hS hY' _ j
      · have hl : ∀ j, taskTorque S [withCommand Y a] (leg m j) = 0 := by
          intro j; rw [taskTorque_one]; exact leg_free hS hY' _ j
        have hst := still hl
        have hst' : Motion (A m) (J m) (G m) (gravityTorque S (A m)⁻¹ (G m) + taskTorque S [withCommand Y a])
            (actuate (taskTorque S [withCommand Y a])) Stand.F := by rw [grav hS, zero_add]; exact hst
        exact (C06_task_achieved (hA m) hS J_base (jkt_withCommand hY' a) hst').1
    refine C60_first_task_best (R := R) (hA m) hS J_base rfl rfl Stand.six Stand.plane Stand.dof (by norm_num)
      cod hR hs hY' h hM h0 (a := a) ?_
    change SafeTorque (A m) (J m) (G m) (some L) Stand.cs Stand.dof (R.τg + taskTorque S [withCommand Y a] + 0)
    rw [hg, zero_add, add_zero, hu']
    exact safe hS hu hul

/-- two arm joints: the first shall rest, both together move by 1; the second equation in units of `1 / s` -/
def T (s : ℝ) : TaskIn (Fin (6 + 2)) :=
  { t := 2
    J := Matrix.of ![Pi.single (Sum.inr 6) 1, s • (Pi.single (Sum.inr 6) 1 + Pi.single (Sum.inr 7) 1)]
    f := ![0, s] }

theorem T_rewritten : Rewritten (T 1) (T 2) := by
  refine ⟨!![1, 0; 0, 2], ?_, ?_⟩
  · change IsUnit (det (!![1, 0; 0, 2] : Matrix (Fin 2) (Fin 2) ℝ))
    rw [det_fin_two_of]; norm_num
  · unfold T
    congr 1
    · ext i j
      fin_cases i <;> simp [Matrix.mul_apply, Fin.sum_univ_two, mul_add]
    · ext i
      fin_cases i <;> simp [mulVec, dotProduct, Fin.sum_univ_two]

theorem T_J (s : ℝ) (q : Fin 6 ⊕ Fin (6 + 2) → ℝ) :
    (T s).J *ᵥ q = ![q (Sum.inr 6), s * (q (Sum.inr 6) + q (Sum.inr 7))] := by
  have h0 : (Pi.single (Sum.inr 6) (1 : ℝ) : Fin 6 ⊕ Fin (6 + 2) → ℝ) ⬝ᵥ q = q (Sum.inr 6) := by simp
  have h1 : (s • (Pi.single (Sum.inr 6) (1 : ℝ) + Pi.single (Sum.inr 7) 1) : Fin 6 ⊕ Fin (6 + 2) → ℝ) ⬝ᵥ q
      = s * (q (Sum.inr 6) + q (Sum.inr 7)) := by
    rw [smul_dotProduct, add_dotProduct]; simp
  ext i
  have hi : ∀ i : Fin 2, i = 0 ∨ i = 1 := by decide
  rcases hi i with rfl | rfl
  · exact h0
  · exact h1

theorem T_finite {s : ℝ} (hs : s ≠ 0) (y : Fin (T s).t → ℝ) (h : ∃ F, (J 2)ᵀ *ᵥ F = (T s).Jᵀ *ᵥ y) : y = 0 := by
  obtain ⟨F, hF⟩ := h
  have h6 := congrFun hF (Sum.inr 6)
  have h7 := congrFun hF (Sum.inr 7)
  rw [JT_arm F (by decide)] at h6 h7
  change (0 : ℝ) = ∑ i : Fin 2, _ * y i at h6 h7
  rw [Fin.sum_univ_two] at h6 h7
  simp [T] at h6 h7
  have h1 : y (1 : Fin 2) = 0 := by rcases h7 with h | h; exact absurd h hs; exact h
  rw [h1] at h6
  ext i
  change y i = 0
  have hi : i = (0 : Fin 2) ∨ i = (1 : Fin 2) := by
    have : ∀ i : Fin 2, i = 0 ∨ i = 1 := by decide
    exact this i
  rcases hi with rfl | rfl
  · simpa using h6.symm
  · exact h1

end Arms

/-- C82 is false of QP task control for units: with torque limits that a task cannot be met within, the same task with one of its
equations written in units half as large makes the arm move otherwise, whatever exact solvers are used. -/
theorem C82_qp_units_differ (cod : (W : Matrix (Fin (6 + 2)) (Fin (6 + 2)) ℝ) → CodNull W) {solve : Solver} (he : solve.Exact)
    (hcomp : solve.Complete) :
    Rewritten (Arms.T 1) (Arms.T 2) ∧
    (∃ τg τt τc, qpCycle (Arms.J 2) (Arms.A 2)⁻¹ (Arms.G 2) cod (some fun _ => 1 / 2) Stand.cs solve [Arms.T 1] = some (1, τg, τt, τc) ∧
      (τg + τt + τc) 6 = 1 / 4) ∧
    ∃ τg τt τc, qpCycle (Arms.J 2) (Arms.A 2)⁻¹ (Arms.G 2) cod (some fun _ => 1 / 2) Stand.cs solve [Arms.T 2] = some (1, τg, τt, τc) ∧
      (τg + τt + τc) 6 = 2 / 5 := by
  obtain ⟨S, k, V2, N, hS, hR⟩ := Arms.space (m := 2) cod
  have key : ∀ s x : ℝ, s ≠ 0 → |x| ≤ 1 / 2 → (∀ p q : ℝ, |p| ≤ 1 / 2 → |q| ≤ 1 / 2 →
      p ^ 2 + (s * (p + q) - s) ^ 2 ≤ x ^ 2 + (s * (x + 1 / 2) - s) ^ 2 → p = x) →
      ∃ τg τt τc, qpCycle (Arms.J 2) (Arms.A 2)⁻¹ (Arms.G 2) cod (some fun _ => 1 / 2) Stand.cs solve [Arms.T s] = some (1, τg, τt, τc) ∧
        (τg + τt + τc) 6 = x := by
    intro s x hs hx hopt
    obtain ⟨τg, τt, τc, h, hl, hb⟩ := Arms.best (m := 2) hS cod hR (L := fun _ => 1 / 2) (fun _ => by norm_num) he hcomp (Arms.T s)
      (Arms.T_finite hs)
    refine ⟨τg, τt, τc, h, ?_⟩
    let u : Fin (6 + 2) → ℝ := fun j => if j = 6 then x else if j = 7 then 1 / 2 else 0
    obtain ⟨qdd, h1, h2, h3, h4⟩ := hb u (fun j => by fin_cases j <;> simp [u, Arms.leg, Fin.ext_iff]) (fun j => by
      simp only [u]; split_ifs
      · exact hx
      · norm_num
      · norm_num) _ rfl (fun u' hu' he' => by
        rw [Arms.T_J, Arms.T_J] at he'
        have e0 := congrFun he' 0
        have e1 := congrFun he' 1
        simp only [actuate, Sum.elim_inr, Matrix.cons_val_zero, Matrix.cons_val_one] at e0 e1
        have e2 := mul_left_cancel₀ hs e1
        have e3 : u' 7 = u 7 := by linarith
        have l0 := hu' 0; have l1 := hu' 1; have l2 := hu' 2; have l3 := hu' 3; have l4 := hu' 4; have l5 := hu' 5
        ext j
        fin_cases j
        · exact l0
        · exact l1
        · exact l2
        · exact l3
        · exact l4
        · exact l5
        · exact e0
        · exact e3)
    rw [Arms.T_J, Arms.T_J] at h4
    change ∑ i : Fin 2, _ ≤ ∑ i : Fin 2, _ at h4
    rw [Fin.sum_univ_two, Fin.sum_univ_two] at h4
    have q6 := h1 6 (by decide)
    have q7 := h1 7 (by decide)
    have u6 : u 6 = x := by simp [u]
    have u7 : u 7 = 1 / 2 := by simp [u, Fin.ext_iff]
    simp only [Arms.T, actuate, Sum.elim_inr, Matrix.cons_val_zero, Matrix.cons_val_one, q6, q7, u6, u7, sub_zero] at h4
    exact hopt _ _ (hl 6) (hl 7) h4
  refine ⟨Arms.T_rewritten, key 1 _ one_ne_zero (by rw [abs_of_pos] <;> norm_num) ?_, key 2 _ two_ne_zero (by rw [abs_of_pos] <;> norm_num) ?_⟩
  · intro p q hp hq h
    have hp := abs_le.mp hp
    have hq := abs_le.mp hq
    have : (p - 1 / 4) ^ 2 = 0 := by nlinarith [sq_nonneg (p - 1 / 4), mul_nonneg (sub_nonneg.mpr hq.2) (sub_nonneg.mpr hp.2), sq_nonneg (q - 1 / 2)]
    have := pow_eq_zero_iff (two_ne_zero) |>.mp this
    linarith
  · intro p q hp hq h
    have hp := abs_le.mp hp
    have hq := abs_le.mp hq
    have : (p - 2 / 5) ^ 2 = 0 := by nlinarith [sq_nonneg (p - 2 / 5), mul_nonneg (sub_nonneg.mpr hq.2) (sub_nonneg.mpr hp.2), sq_nonneg (q - 1 / 2)]
    have := pow_eq_zero_iff (two_ne_zero) |>.mp this
    linarith

/-- the solvers of the theorem exist -/
example : Stand.solver.Exact ∧ Stand.solver.Complete := ⟨Stand.solver_exact, Stand.solver_complete⟩

namespace Tip

/-- unit mass matrix -/
def A : Matrix (Fin 6 ⊕ Fin 1) (Fin 6 ⊕ Fin 1) ℝ := 1

/-- a body with one joint that turns about a point fixed to the floor -/
def J : Matrix (Fin 3) (Fin 6 ⊕ Fin 1) ℝ := Matrix.of fun i s =>
  match s with
  | Sum.inl b => if b.val = i.val then 1 else 0
  | Sum.inr _ => 0

theorem A_inv : A⁻¹ = 1 := inv_one

theorem JJ : J * A⁻¹ * Jᵀ = 1 := by
  rw [A_inv, Matrix.mul_one]
  ext i j
  fin_cases i <;> fin_cases j <;> simp [Matrix.mul_apply, J, Fin.sum_univ_succ]

theorem space : ∃ S, contactSpace J A⁻¹ = some S ∧
    S.AinvNc = Matrix.diagonal (Sum.elim ![0, 0, 0, 1, 1, 1] fun _ => 1) ∧ S.Winv = 1 := by
  have h := contactSpace_eq_some (A := A) (J := J) (S := contactSpaceOf J A⁻¹ (J * A⁻¹ * Jᵀ)⁻¹) |>.mpr
    ⟨by rw [JJ]; simp, rfl⟩
  have hP : (contactSpaceOf J A⁻¹ (J * A⁻¹ * Jᵀ)⁻¹).AinvNc
      = Matrix.diagonal (Sum.elim ![0, 0, 0, 1, 1, 1] fun _ => 1) := by
    rw [JJ]
    simp only [contactSpaceOf, A_inv, inv_one, Matrix.one_mul, Matrix.mul_one]
    ext a b
    rcases a with a | a <;> rcases b with b | b
    · fin_cases a <;> fin_cases b <;> simp [Matrix.mul_apply, J, Fin.sum_univ_succ, Matrix.diagonal, Matrix.one_apply]
    · fin_cases a <;> simp [Matrix.mul_apply, J, Matrix.diagonal, Matrix.one_apply]
    · simp [Matrix.mul_apply, J, Matrix.diagonal, Matrix.one_apply]
    · simp [Matrix.mul_apply, J, Matrix.diagonal, Matrix.one_apply]
  refine ⟨_, h, hP, ?_⟩
  have hW : (contactSpaceOf J A⁻¹ (J * A⁻¹ * Jᵀ)⁻¹).W = 1 := by
    change Matrix.submatrix (contactSpaceOf J A⁻¹ (J * A⁻¹ * Jᵀ)⁻¹).AinvNc Sum.inr Sum.inr = 1
    rw [hP]
    ext a b
    simp [Matrix.diagonal, Matrix.one_apply]
  rw [cs_Winv h, hW, pinv_of_isUnit (by simp)]
  simp

/-- tilt and joint together shall accelerate by 1, the joint not at all; `a` times the first equation added to the second -/
def TJ (a : ℝ) : Matrix (Fin 2) (Fin 6 ⊕ Fin 1) ℝ :=
  Matrix.of ![Sum.elim ![0, 0, 0, 1, 0, 0] fun _ => 1, Sum.elim ![0, 0, 0, a, 0, 0] fun _ => a + 1]

def T (a : ℝ) : TaskIn (Fin 1) := { t := 2, J := TJ a, f := ![1, a] }

theorem T_rewritten (a : ℝ) : Rewritten (T 0) (T a) := by
  refine ⟨!![1, 0; a, 1], ?_, ?_⟩
  · change IsUnit (det (!![1, 0; a, 1] : Matrix (Fin 2) (Fin 2) ℝ))
    rw [det_fin_two_of]; norm_num
  · unfold T TJ
    congr 1
    · ext i j
      fin_cases i
      · simp [Matrix.mul_apply, Fin.sum_univ_two]
      · rcases j with j | j
        · fin_cases j <;> simp [Matrix.mul_apply, Fin.sum_univ_two]
        · simp [Matrix.mul_apply, Fin.sum_univ_two]
    · ext i
      fin_cases i <;> simp [mulVec, dotProduct, Fin.sum_univ_two]

theorem torque (a : ℝ) : closedCommand J A⁻¹ 0 [T a]
    = some fun _ => -(a ^ 2 + a + 1) / (1 + a ^ 2) := by
  obtain ⟨S, hS, hP, hW⟩ := space
  have hL : TJ a * S.AinvNc * (TJ a)ᵀ = !![2, 2 * a + 1; 2 * a + 1, 2 * a ^ 2 + 2 * a + 1] := by
    rw [hP]
    ext i j
    change (∑ s, (∑ r, TJ a i r * _) * TJ a j s) = _
    have hi : ∀ i : Fin 2, i = 0 ∨ i = 1 := by decide
    rcases hi i with rfl | rfl <;> rcases hi j with rfl | rfl <;>
      simp [TJ, Matrix.diagonal, Fintype.sum_sum_type, Fin.sum_univ_six] <;> ring
  have hinv : (TJ a * S.AinvNc * (TJ a)ᵀ)⁻¹ = !![2 * a ^ 2 + 2 * a + 1, -(2 * a + 1); -(2 * a + 1), 2] := by
    rw [hL]
    apply inv_eq_left_inv
    ext i j
    fin_cases i <;> fin_cases j <;> simp [Matrix.mul_apply, Fin.sum_univ_two] <;> ring
  have hu : IsUnit (TJ a * S.AinvNc * (TJ a)ᵀ).det := by
    rw [hL]
    rw [det_fin_two_of, isUnit_iff_ne_zero]
    ring_nf; norm_num
  have hQ : (TJ a * S.AinvNc * (TJ a)ᵀ)⁻¹ * Tm S (TJ a) = !![-a; 1] := by
    have hT : Tm S (TJ a) = !![1; a + 1] := by
      unfold Tm
      rw [mul_selT, hP]
      ext i j
      rw [submatrix_apply, Matrix.mul_apply]
      fin_cases i <;> fin_cases j <;> simp [TJ, Matrix.diagonal, Fintype.sum_sum_type, Fin.sum_univ_six]
    rw [hinv, hT]
    ext i j
    fin_cases i <;> simp [Matrix.mul_apply, Fin.sum_univ_two] <;> ring
  have hne : 1 + a ^ 2 ≠ 0 := by positivity
  have hpin : pinv ((!![-a; 1] : Matrix (Fin 2) (Fin 1) ℝ) * S.Winv * (!![-a; 1] : Matrix (Fin 2) (Fin 1) ℝ)ᵀ)
      = (1 / (1 + a ^ 2) ^ 2) • !![a ^ 2, -a; -a, 1] := by
    have hK : (!![-a; 1] : Matrix (Fin 2) (Fin 1) ℝ) * S.Winv * (!![-a; 1] : Matrix (Fin 2) (Fin 1) ℝ)ᵀ = !![a ^ 2, -a; -a, 1] := by
      rw [hW, Matrix.mul_one]
      ext i j
      fin_cases i <;> fin_cases j <;> simp [Matrix.mul_apply] <;> ring
    have hKK : (!![a ^ 2, -a; -a, 1] : Matrix (Fin 2) (Fin 2) ℝ) * !![a ^ 2, -a; -a, 1] = (1 + a ^ 2) • !![a ^ 2, -a; -a, 1] := by
      ext i j
      fin_cases i <;> fin_cases j <;> simp <;> ring
    have hKt : (!![a ^ 2, -a; -a, 1] : Matrix (Fin 2) (Fin 2) ℝ)ᵀ = !![a ^ 2, -a; -a, 1] := by
      ext i j
      fin_cases i <;> fin_cases j <;> simp
    rw [hK]
    apply pinv_eq
    constructor
    · simp only [Matrix.mul_smul, Matrix.smul_mul, hKK, smul_smul]
      rw [show 1 / (1 + a ^ 2) ^ 2 * (1 + a ^ 2) * (1 + a ^ 2) = 1 by field_simp, one_smul]
    · simp only [Matrix.mul_smul, Matrix.smul_mul, hKK, smul_smul]
      congr 1
      field_simp
    · rw [Matrix.mul_smul, hKK, transpose_smul, transpose_smul, hKt]
    · rw [Matrix.smul_mul, hKK, transpose_smul, transpose_smul, hKt]
  have hY := (jkt_eq_some (T := T a) (R := { T a with
      Λ := (TJ a * S.AinvNc * (TJ a)ᵀ)⁻¹
      Jkt := S.Winv * ((TJ a * S.AinvNc * (TJ a)ᵀ)⁻¹ * Tm S (TJ a))ᵀ * pinv (((TJ a * S.AinvNc * (TJ a)ᵀ)⁻¹ * Tm S (TJ a)) * S.Winv *
        ((TJ a * S.AinvNc * (TJ a)ᵀ)⁻¹ * Tm S (TJ a))ᵀ) }) hS).mpr ⟨hu, rfl⟩
  unfold closedCommand
  rw [hS]
  simp only [calcTaskSpace]
  rw [List.mapM_cons, hY]
  refine congrArg some ?_
  change gravityTorque S _ 0 + (0 + 1 *ᵥ ((S.Winv * ((TJ a * S.AinvNc * (TJ a)ᵀ)⁻¹ * Tm S (TJ a))ᵀ *
    pinv (((TJ a * S.AinvNc * (TJ a)ᵀ)⁻¹ * Tm S (TJ a)) * S.Winv * ((TJ a * S.AinvNc * (TJ a)ᵀ)⁻¹ * Tm S (TJ a))ᵀ))
    *ᵥ ((TJ a * S.AinvNc * (TJ a)ᵀ)⁻¹ *ᵥ (![1, a] : Fin 2 → ℝ)))) = _
  have hg : gravityTorque S A⁻¹ 0 = 0 := by
    unfold gravityTorque; simp
  rw [hg, hQ]
  rw [hpin, hinv, hW, zero_add, zero_add, one_mulVec, Matrix.one_mul]
  ext i
  simp only [mulVec, dotProduct, Fin.sum_univ_two, Matrix.mul_apply]
  simp
  field_simp
  ring

end Tip

/-- C82 is false of task control without QP where the contacts do not determine the base: a body on a point, with one joint; adding
the first equation of its task to the second changes the torque. -/
theorem C82_units_base_differs :
    ∃ τ τ', closedCommand Tip.J Tip.A⁻¹ 0 [Tip.T 0] = some τ ∧
      closedCommand Tip.J Tip.A⁻¹ 0 [Tip.T 1] = some τ' ∧ Rewritten (Tip.T 0) (Tip.T 1) ∧
      τ 0 = -1 ∧ τ' 0 = -(3 / 2) := by
  refine ⟨_, _, Tip.torque 0, Tip.torque 1, Tip.T_rewritten 1, ?_, ?_⟩ <;> norm_num

/-- C82_units: the biped with two arm joints and either of these tasks has a torque, and it is the same -/
theorem C82_units_met : ∃ τ, closedCommand (Arms.J 2) (Arms.A 2)⁻¹ (Arms.G 2) [Arms.T 1] = some τ ∧
    closedCommand (Arms.J 2) (Arms.A 2)⁻¹ (Arms.G 2) [Arms.T 2] = some τ := by
  obtain ⟨S, hS⟩ := Option.isSome_iff_exists.mp ((C02_finite_iff_independent (Arms.hA 2)).mpr Arms.J_ind)
  obtain ⟨Y, hY⟩ := Option.isSome_iff_exists.mp ((C06_finite_iff (Arms.hA 2) hS (Arms.T 1)).mpr (Arms.T_finite one_ne_zero))
  have h : closedCommand (Arms.J 2) (Arms.A 2)⁻¹ (Arms.G 2) [Arms.T 1] = some (gravityTorque S (Arms.A 2)⁻¹ (Arms.G 2) + taskTorque S [Y]) := by
    unfold closedCommand
    rw [hS]
    simp only [calcTaskSpace]
    rw [List.mapM_cons, hY]
    rfl
  refine ⟨_, h, ?_⟩
  rw [← h]
  exact C82_units (Arms.hA 2) Arms.J_base (List.Forall₂.cons Arms.T_rewritten List.Forall₂.nil)

namespace Hands

/-- a hand that three arm joints move along the axes -/
def hand (o : ℕ) (ho : o + 2 < 12) : RowLink (Fin 6 ⊕ Fin (6 + 6)) :=
  { isCom := false, xpos := 0, rotm := 1, v := 0, w := 0, xipos := 0, vi := 0, com := 0, jac := 0, jacCom := 0
    pointJac := some fun _ => ![0, 0, 0, Pi.single (Sum.inr ⟨o, by omega⟩) 1, Pi.single (Sum.inr ⟨o + 1, by omega⟩) 1,
      Pi.single (Sum.inr ⟨o + 2, by omega⟩) 1] }

def links : List (RowLink (Fin 6 ⊕ Fin (6 + 6))) := [hand 0 (by omega), hand 6 (by omega), hand 9 (by omega)]

/-- a position task of a hand, at its origin -/
def link (i : ℕ) : RowTaskLink :=
  { pd := { mode := 3, tStart := 0, tEnd := 0, posInit := 0, velInit := 0, posDes := 0, velDes := 0, rotInit := 1, rotDes := 1
            posP := 1, posD := 1, posA := 1, rotP := 1, rotD := 1, rotA := 1 }
    link := i, point := 0, posSet := false, rotSet := false }

def level (ps : List (RowTaskLink × List ℝ)) : RowTask (Fin 6 ⊕ Fin (6 + 6)) :=
  { custom := false, dof := some (ps.map fun p => taskRows p.1.pd.mode).sum, links := ps.map (·.1), J := [], f := (ps.map (·.2)).flatten }

/-- the first hand shall move ahead, the second to the side -/
def one : RowTaskLink × List ℝ := (link 1, [1, 0, 0])
def two : RowTaskLink × List ℝ := (link 2, [0, 2, 0])

theorem same : SameLevel (level [one, two]) (level [two, one]) := by
  refine Or.inr ⟨[one, two], [two, one], by simp, List.Perm.swap _ _ _, ⟨rfl, rfl, rfl, rfl, ?_⟩, ⟨rfl, rfl, rfl, rfl, ?_⟩⟩ <;>
  · intro p hp
    simp only [List.mem_cons, List.not_mem_nil, or_false] at hp
    rcases hp with rfl | rfl <;> rfl

def row (j : Fin 12) : Fin 6 ⊕ Fin (6 + 6) → ℝ := Pi.single (Sum.inr j) 1

theorem tasks : cycleTasks 0 links [level [one, two]] = some [⟨6, Matrix.of ![row 6, row 7, row 8, row 9, row 10, row 11], ![1, 0, 0, 0, 2, 0]⟩] := by
  have h : ∃ l', updateTaskSpace 0 links [level [one, two]]
      = some (l', [{ level [one, two] with J := [row 6, row 7, row 8, row 9, row 10, row 11], f := [1, 0, 0, 0, 2, 0] }]) := ⟨_, rfl⟩
  obtain ⟨l', h⟩ := h
  unfold cycleTasks
  rw [h]
  simp only
  rw [List.mapM_cons]
  have e : levelIn { level [one, two] with J := [row 6, row 7, row 8, row 9, row 10, row 11], f := [1, 0, 0, 0, 2, 0] }
      = some ⟨6, Matrix.of ![row 6, row 7, row 8, row 9, row 10, row 11], ![1, 0, 0, 0, 2, 0]⟩ := by
    refine (dif_pos rfl).trans ?_
    refine congrArg some ?_
    simp only [List.length_cons, List.length_nil, TaskIn.mk.injEq, heq_eq_eq, true_and]
    constructor
    · ext i j; fin_cases i <;> rfl
    · ext i; fin_cases i <;> rfl
  rw [e]
  rfl

end Hands

/-- C82_rows, C82_closed: a biped with two hands; the rows are not in the same order, the torque is the same -/
theorem C82_order_met : ∃ τ, closedLinkCycle 0 Hands.links (Arms.J 6) (Arms.A 6)⁻¹ (Arms.G 6) [Hands.level [Hands.one, Hands.two]] = some τ ∧
    closedLinkCycle 0 Hands.links (Arms.J 6) (Arms.A 6)⁻¹ (Arms.G 6) [Hands.level [Hands.two, Hands.one]] = some τ ∧
    (Hands.level [Hands.one, Hands.two]).f ≠ (Hands.level [Hands.two, Hands.one]).f := by
  obtain ⟨S, hS⟩ := Option.isSome_iff_exists.mp ((C02_finite_iff_independent (Arms.hA 6)).mpr Arms.J_ind)
  obtain ⟨Y, hY⟩ := Option.isSome_iff_exists.mp ((C06_finite_iff (Arms.hA 6) hS
    ⟨6, Matrix.of ![Hands.row 6, Hands.row 7, Hands.row 8, Hands.row 9, Hands.row 10, Hands.row 11], ![1, 0, 0, 0, 2, 0]⟩).mpr (by
      rintro y ⟨F, hF⟩
      have key : ∀ i : Fin 6, y i = 0 := by
        intro i
        have h := congrFun hF (Sum.inr ⟨i.val + 6, by omega⟩)
        rw [Arms.JT_arm F (by simp)] at h
        change (0 : ℝ) = ∑ r : Fin 6, _ * y r at h
        rw [Fin.sum_univ_six] at h
        fin_cases i <;> simp [Hands.row, Pi.single_apply, Fin.ext_iff] at h <;> exact h.symm
      exact funext key))
  have h : closedLinkCycle 0 Hands.links (Arms.J 6) (Arms.A 6)⁻¹ (Arms.G 6) [Hands.level [Hands.one, Hands.two]]
      = some (gravityTorque S (Arms.A 6)⁻¹ (Arms.G 6) + taskTorque S [Y]) := by
    unfold closedLinkCycle
    rw [Hands.tasks]
    simp only [closedCommand]
    rw [hS]
    simp only [calcTaskSpace]
    rw [List.mapM_cons, hY]
    rfl
  refine ⟨_, h, ?_, ?_⟩
  · rw [← h]
    exact C82_closed 0 Hands.links (List.Forall₂.cons Hands.same List.Forall₂.nil)
  · simp [Hands.level, Hands.one, Hands.two]

end Verif.Props
