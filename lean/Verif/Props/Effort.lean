import Verif.Spec.Effort
import Verif.Props.Task
import Verif.Props.QPFail
import Verif.Model.Command

/-! # C86: commands spend no needless effort -/

set_option linter.unusedSectionVars false

namespace Verif.Props
open Matrix Verif Verif.Spec Verif.Model

section
variable {ι : Type*} [Fintype ι] [DecidableEq ι] {c : ℕ}
variable {A : Matrix (Fin 6 ⊕ ι) (Fin 6 ⊕ ι) ℝ} {J : Matrix (Fin c) (Fin 6 ⊕ ι) ℝ} {S : ContactSpace c ι}

theorem dot_mulVec_left {m n : Type*} [Fintype m] [Fintype n] (M : Matrix m n ℝ) (x : n → ℝ) (y : m → ℝ) : (M *ᵥ x) ⬝ᵥ y = x ⬝ᵥ (Mᵀ *ᵥ y) := by
  rw [dotProduct_comm, dotProduct_mulVec, mulVec_transpose, dotProduct_comm]

/-- A torque in the range of `W⁺` is the smallest of those with the same image under `W`. -/
theorem effort_range (hS : contactSpace J A⁻¹ = some S) {τ₀ τ : ι → ℝ} (h0 : S.Winv *ᵥ (S.W *ᵥ τ₀) = τ₀) (h : S.W *ᵥ τ = S.W *ᵥ τ₀) :
    effort τ = effort τ₀ + effort (τ - τ₀) := by
  have hs : (S.Winv * S.W)ᵀ = S.Winv * S.W := by rw [cs_Winv hS]; exact (pinv_spec _).symR
  have hz : τ₀ ⬝ᵥ (τ - τ₀) = 0 := by
    conv_lhs => arg 1; rw [← h0, mulVec_mulVec]
    rw [dot_mulVec_left, hs, ← mulVec_mulVec, mulVec_sub, h, sub_self, mulVec_zero, dotProduct_zero]
  have e : ∀ x : ι → ℝ, effort x = x ⬝ᵥ x := fun x => by
    unfold effort dotProduct
    exact Finset.sum_congr rfl fun i _ => sq (x i)
  have hd : τ ⬝ᵥ τ = (τ₀ + (τ - τ₀)) ⬝ᵥ (τ₀ + (τ - τ₀)) := by rw [add_sub_cancel]
  rw [e, e, e, hd, add_dotProduct, dotProduct_add, dotProduct_add, hz, dotProduct_comm (τ - τ₀) τ₀, hz]
  ring

theorem effort_nonneg (τ : ι → ℝ) : 0 ≤ effort τ := Finset.sum_nonneg fun i _ => sq_nonneg _

theorem effort_eq_zero {τ : ι → ℝ} (h : effort τ ≤ 0) : τ = 0 := by
  have h0 := (Finset.sum_eq_zero_iff_of_nonneg (fun i _ => sq_nonneg (τ i))).mp (le_antisymm h (effort_nonneg τ))
  ext i
  exact pow_eq_zero_iff (two_ne_zero) |>.mp (h0 i (Finset.mem_univ i))

theorem gravity_range (hS : contactSpace J A⁻¹ = some S) (G : Fin 6 ⊕ ι → ℝ) :
    S.Winv *ᵥ (S.W *ᵥ gravityTorque S A⁻¹ G) = gravityTorque S A⁻¹ G := by
  have e : gravityTorque S A⁻¹ G = (S.Winv * (Sel ι * S.AinvNc)) *ᵥ G := by
    unfold gravityTorque
    rw [← sel_mul, mulVec_mulVec, mulVec_mulVec, cs_P hS]
    simp only [Matrix.mul_assoc]
  have hb : S.Winv * S.W * S.Winv = S.Winv := by rw [cs_Winv hS]; exact (pinv_spec _).bab
  rw [e, mulVec_mulVec, mulVec_mulVec, ← Matrix.mul_assoc, ← Matrix.mul_assoc, hb, Matrix.mul_assoc]

theorem Km_range (hA : IsSPD A) (hS : contactSpace J A⁻¹ = some S) (hB : BaseDetermined J) {T : TaskIn ι} {R : TaskReady ι}
    (hR : calculateJKT S A⁻¹ T = some R) (x : Fin R.t → ℝ) : S.Winv *ᵥ (S.W *ᵥ (Km R *ᵥ x)) = Km R *ᵥ x := by
  have hb : S.Winv * S.W * S.Winv = S.Winv := by rw [cs_Winv hS]; exact (pinv_spec _).bab
  rw [(Km_eq hA hS hB hR).1, mulVec_mulVec, mulVec_mulVec]
  simp only [← Matrix.mul_assoc]
  rw [hb]

theorem ready_of_stack {ts : List (TaskIn ι)} {rs : List (TaskReady ι)} {Ainv : Matrix (Fin 6 ⊕ ι) (Fin 6 ⊕ ι) ℝ}
    (h : calcTaskSpace S Ainv ts = some rs) : ∀ R ∈ rs, ∃ T ∈ ts, calculateJKT S Ainv T = some R := by
  unfold calcTaskSpace at h
  induction ts generalizing rs with
  | nil => simp only [List.mapM_nil, Option.pure_def, Option.some.injEq] at h; subst h; intro R hR; cases hR
  | cons T ts ih =>
    simp only [List.mapM_cons, Option.pure_def, Option.bind_eq_bind, Option.bind_eq_some_iff, Option.some.injEq] at h
    obtain ⟨R, hR, rs', hrs', rfl⟩ := h
    intro R' hR'
    rcases List.mem_cons.mp hR' with rfl | hm
    · exact ⟨T, List.mem_cons_self, hR⟩
    · obtain ⟨T', hT', h'⟩ := ih hrs' R' hm
      exact ⟨T', List.mem_cons_of_mem _ hT', h'⟩

theorem stack_range (hA : IsSPD A) (hS : contactSpace J A⁻¹ = some S) (hB : BaseDetermined J) (rs : List (TaskReady ι))
    (hrs : ∀ R ∈ rs, ∃ T, calculateJKT S A⁻¹ T = some R) : S.Winv *ᵥ (S.W *ᵥ taskTorque S rs) = taskTorque S rs := by
  induction rs with
  | nil => rw [taskTorque_nil, mulVec_zero, mulVec_zero]
  | cons R rs ih =>
    obtain ⟨T, hT⟩ := hrs R (List.mem_cons_self)
    rw [taskTorque_cons, Matrix.sub_mulVec, one_mulVec, ← mulVec_mulVec]
    simp only [mulVec_add, mulVec_sub]
    rw [Km_range hA hS hB hT, Km_range hA hS hB hT, ih fun R' h => hrs R' (List.mem_cons_of_mem _ h)]

/-- C86 (weight).  Of all torques that keep every joint of the standing robot still, the gravity compensation is the smallest, and the
only one of its size. -/
theorem C86_gravity_least (hA : IsSPD A) (hS : contactSpace J A⁻¹ = some S) (G : Fin 6 ⊕ ι → ℝ) {τ : ι → ℝ} {qdd : Fin 6 ⊕ ι → ℝ}
    {F : Fin c → ℝ} (h : Motion A J G τ qdd F) (hstill : ∀ i : ι, qdd (Sum.inr i) = 0) :
    effort (gravityTorque S A⁻¹ G) ≤ effort τ ∧ (effort τ ≤ effort (gravityTorque S A⁻¹ G) → τ = gravityTorque S A⁻¹ G) := by
  have key : ∀ {τ' : ι → ℝ} {q : Fin 6 ⊕ ι → ℝ} {F' : Fin c → ℝ}, Motion A J G τ' q F' → (∀ i : ι, q (Sum.inr i) = 0) →
      S.W *ᵥ τ' = Sel ι *ᵥ (S.AinvNc *ᵥ G) := by
    intro τ' q F' hm hq
    rw [motion_iff hA hS] at hm
    have : Sel ι *ᵥ q = 0 := by ext i; rw [sel_mulVec]; exact hq i
    rw [hm.1, mulVec_sub, mulVec_sub, sub_eq_zero, actuate_eq, mulVec_mulVec, mulVec_mulVec, ← cs_W hS] at this
    exact this
  obtain ⟨q, hm⟩ := (C01_contact_force_exact hA hS G (gravityTorque S A⁻¹ G)).1
  have e := effort_range hS (gravity_range hS G) ((key h hstill).trans (key hm (C03_gravity_compensation hA hS G hm).1).symm)
  have h0 := effort_nonneg (τ - gravityTorque S A⁻¹ G)
  refine ⟨by linarith, fun hle => ?_⟩
  have := effort_eq_zero (τ := τ - gravityTorque S A⁻¹ G) (by linarith)
  exact sub_eq_zero.mp this

/-- C86 (torque).  Of all torques that make the robot move as the command for any stack of tasks does, the command is the smallest, and
the only one of its size. -/
theorem C86_torque_least (hA : IsSPD A) (hS : contactSpace J A⁻¹ = some S) (hB : BaseDetermined J) {ts : List (TaskIn ι)}
    {rs : List (TaskReady ι)} (hts : calcTaskSpace S A⁻¹ ts = some rs) {G qdd : Fin 6 ⊕ ι → ℝ} {F F' : Fin c → ℝ} {τ : ι → ℝ}
    (h : Motion A J G (gravityTorque S A⁻¹ G + taskTorque S rs) qdd F) (h' : Motion A J G τ qdd F') :
    effort (gravityTorque S A⁻¹ G + taskTorque S rs) ≤ effort τ ∧
      (effort τ ≤ effort (gravityTorque S A⁻¹ G + taskTorque S rs) → τ = gravityTorque S A⁻¹ G + taskTorque S rs) := by
  set τ₀ := gravityTorque S A⁻¹ G + taskTorque S rs with hτ
  have hr : S.Winv *ᵥ (S.W *ᵥ τ₀) = τ₀ := by
    rw [hτ, mulVec_add, mulVec_add, gravity_range hS, stack_range hA hS hB rs fun R hR => (ready_of_stack hts R hR).imp fun _ h => h.2]
  rw [motion_iff hA hS] at h h'
  have hw : S.W *ᵥ τ = S.W *ᵥ τ₀ := by
    have := congrArg (Sel ι *ᵥ ·) (h'.1.symm.trans h.1)
    simp only [mulVec_sub, sub_left_inj, actuate_eq, mulVec_mulVec] at this
    rw [cs_W hS, Matrix.mul_assoc]
    exact this
  have e := effort_range hS hr hw
  have h0 := effort_nonneg (τ - τ₀)
  refine ⟨by linarith, fun hle => ?_⟩
  exact sub_eq_zero.mp (effort_eq_zero (τ := τ - τ₀) (by linarith))

/-! ### the energy of the motion -/

theorem P_A_mulVec (hA : IsSPD A) (hS : contactSpace J A⁻¹ = some S) {v : Fin 6 ⊕ ι → ℝ} (hv : J *ᵥ v = 0) : S.AinvNc *ᵥ (A *ᵥ v) = v := by
  have h : S.Ncᵀ *ᵥ v = v := by
    rw [cs_Nc hS, cs_JcInvT hS, transpose_sub, transpose_one, Matrix.sub_mulVec, one_mulVec]
    simp only [transpose_mul, transpose_transpose, ← mulVec_mulVec, hv, mulVec_zero, sub_zero]
  have e : S.AinvNc * A = S.Ncᵀ := by
    rw [← cs_A_P hA hS, transpose_mul, cs_P_symm hA hS, hA.symm]
  rw [mulVec_mulVec, e, h]

theorem Km_orth (hA : IsSPD A) (hS : contactSpace J A⁻¹ = some S) (hB : BaseDetermined J) {T : TaskIn ι} {R : TaskReady ι}
    (hR : calculateJKT S A⁻¹ T = some R) (x : Fin R.t → ℝ) {v : Fin 6 ⊕ ι → ℝ} (hv : J *ᵥ v = 0) (hRv : R.J *ᵥ v = 0) :
    (Km R *ᵥ x) ⬝ᵥ (Sel ι *ᵥ v) = 0 := by
  rw [(Km_eq hA hS hB hR).1, ← mulVec_mulVec, ← mulVec_mulVec]
  have h1 : ∀ y : Fin R.t → ℝ, (S.Winv *ᵥ ((Tm S R.J)ᵀ *ᵥ y)) ⬝ᵥ (Sel ι *ᵥ v) = y ⬝ᵥ (Tm S R.J *ᵥ (S.Winv *ᵥ (Sel ι *ᵥ v))) := by
    intro y
    rw [dot_mulVec_left, dot_mulVec_left, transpose_transpose, cs_Winv_symm hA hS]
  rw [h1]
  have h2 : Tm S R.J *ᵥ (S.Winv *ᵥ (Sel ι *ᵥ v)) = R.J *ᵥ v := by
    conv_lhs => rw [← P_A_mulVec hA hS hv]
    conv_rhs => rw [← P_A_mulVec hA hS hv, ← cs_P_factor hA hS hB]
    unfold Tm
    simp only [mulVec_mulVec, Matrix.mul_assoc]
  rw [h2, hRv, dotProduct_zero]

/-- Moving as the torque `τ` on top of the weight demands spends the least energy among all motions with which `τ` has no power. -/
theorem energy_orth (hA : IsSPD A) (hS : contactSpace J A⁻¹ = some S) (hB : BaseDetermined J) {G qdd q' : Fin 6 ⊕ ι → ℝ} {F : Fin c → ℝ}
    {τ : ι → ℝ} (h : Motion A J G (gravityTorque S A⁻¹ G + τ) qdd F) (hq' : J *ᵥ q' = 0)
    (ho : τ ⬝ᵥ (Sel ι *ᵥ (q' - qdd)) = 0) :
    accelEnergy A q' = accelEnergy A qdd + accelEnergy A (q' - qdd) := by
  have hv : J *ᵥ (q' - qdd) = 0 := by rw [mulVec_sub, hq', h.2, sub_self]
  have hq : qdd = S.AinvNc *ᵥ ((Sel ι)ᵀ *ᵥ τ) := by
    have := ((motion_iff hA hS G _ _ _).mp h).1
    rw [this, actuate_eq, mulVec_add, ← actuate_eq, add_sub_right_comm, mulVec_add, mulVec_sub, P_gravity hA hS hB, sub_self, zero_add]
  have hz : qdd ⬝ᵥ (A *ᵥ (q' - qdd)) = 0 := by
    have : ∀ w : Fin 6 ⊕ ι → ℝ, (S.AinvNc *ᵥ ((Sel ι)ᵀ *ᵥ τ)) ⬝ᵥ w = τ ⬝ᵥ (Sel ι *ᵥ (S.AinvNc *ᵥ w)) := by
      intro w
      rw [dot_mulVec_left, dot_mulVec_left, transpose_transpose, cs_P_symm hA hS]
    conv_lhs => arg 1; rw [hq]
    rw [this, P_A_mulVec hA hS hv, ho]
  have hz' : (q' - qdd) ⬝ᵥ (A *ᵥ qdd) = 0 := by
    rw [dot_transpose_mulVec, hA.symm, dotProduct_comm, hz]
  unfold accelEnergy
  have e : q' ⬝ᵥ (A *ᵥ q') = (qdd + (q' - qdd)) ⬝ᵥ (A *ᵥ (qdd + (q' - qdd))) := by rw [add_sub_cancel]
  rw [e, mulVec_add, add_dotProduct, dotProduct_add, dotProduct_add, hz, hz']
  ring

theorem stack_orth (hA : IsSPD A) (hS : contactSpace J A⁻¹ = some S) (hB : BaseDetermined J) (rs : List (TaskReady ι))
    (hrs : ∀ R ∈ rs, ∃ T, calculateJKT S A⁻¹ T = some R) {v : Fin 6 ⊕ ι → ℝ} (hv : J *ᵥ v = 0) (hR : ∀ R ∈ rs, R.J *ᵥ v = 0) :
    taskTorque S rs ⬝ᵥ (Sel ι *ᵥ v) = 0 := by
  induction rs with
  | nil => rw [taskTorque_nil, zero_dotProduct]
  | cons R rs ih =>
    obtain ⟨T, hT⟩ := hrs R List.mem_cons_self
    have hRv := hR R List.mem_cons_self
    rw [taskTorque_cons, Matrix.sub_mulVec, one_mulVec, ← mulVec_mulVec, add_dotProduct, sub_dotProduct,
      Km_orth hA hS hB hT _ hv hRv, Km_orth hA hS hB hT _ hv hRv,
      ih (fun R' h => hrs R' (List.mem_cons_of_mem _ h)) fun R' h => hR R' (List.mem_cons_of_mem _ h)]
    norm_num

/-- The tasks a stack was made from have the same rows. -/
theorem ready_rows {Ainv : Matrix (Fin 6 ⊕ ι) (Fin 6 ⊕ ι) ℝ} {T : TaskIn ι} {R : TaskReady ι} (h : calculateJKT S Ainv T = some R) : R.toTaskIn = T := by
  unfold calculateJKT at h
  rw [Option.map_eq_some_iff] at h
  obtain ⟨Λ, -, rfl⟩ := h
  rfl

theorem accelEnergy_least (hA : IsSPD A) {q q' : Fin 6 ⊕ ι → ℝ} (h : accelEnergy A q' = accelEnergy A q + accelEnergy A (q' - q)) :
    accelEnergy A q ≤ accelEnergy A q' ∧ (accelEnergy A q' ≤ accelEnergy A q → q' = q) := by
  have h0 : 0 ≤ accelEnergy A (q' - q) := by
    by_cases hz : q' - q = 0
    · rw [hz]; simp [accelEnergy]
    · exact (hA.pos _ hz).le
  refine ⟨by linarith, fun hle => ?_⟩
  by_contra hne
  have := hA.pos (q' - q) (sub_ne_zero.mpr hne)
  unfold accelEnergy at h hle
  linarith

/-- C86 (energy).  Of all motions that keep the contacts and accelerate every task as the command for the stack does, the commanded
motion has the least energy of acceleration, and is the only one with so little. -/
theorem C86_energy_least (hA : IsSPD A) (hS : contactSpace J A⁻¹ = some S) (hB : BaseDetermined J) {ts : List (TaskIn ι)}
    {rs : List (TaskReady ι)} (hts : calcTaskSpace S A⁻¹ ts = some rs) {G qdd q' : Fin 6 ⊕ ι → ℝ} {F : Fin c → ℝ}
    (h : Motion A J G (gravityTorque S A⁻¹ G + taskTorque S rs) qdd F) (hc : ContactsFixed J q')
    (hq' : ∀ T ∈ ts, T.J *ᵥ q' = T.J *ᵥ qdd) :
    accelEnergy A qdd ≤ accelEnergy A q' ∧ (accelEnergy A q' ≤ accelEnergy A qdd → q' = qdd) := by
  refine accelEnergy_least hA (energy_orth hA hS hB h hc (stack_orth hA hS hB rs (fun R hR => (ready_of_stack hts R hR).imp fun _ h => h.2) ?_ ?_))
  · rw [mulVec_sub, hc, h.2, sub_self]
  · intro R hR
    obtain ⟨T, hT, hTR⟩ := ready_of_stack hts R hR
    have := hq' T hT
    rw [← ready_rows hTR] at this
    rw [mulVec_sub, this, sub_self]

/-- C86 (one task).  Of all motions that keep the contacts and accelerate the task as commanded, whatever could cause them, the
commanded motion has the least energy of acceleration, and is the only one with so little. -/
theorem C86_one_task_least (hA : IsSPD A) (hS : contactSpace J A⁻¹ = some S) (hB : BaseDetermined J) {T : TaskIn ι} {R : TaskReady ι}
    (hR : calculateJKT S A⁻¹ T = some R) {G qdd q' : Fin 6 ⊕ ι → ℝ} {F : Fin c → ℝ}
    (h : Motion A J G (gravityTorque S A⁻¹ G + taskTorque S [R]) qdd F) (hc : ContactsFixed J q') (hq' : T.J *ᵥ q' = T.f) :
    T.J *ᵥ qdd = T.f ∧ accelEnergy A qdd ≤ accelEnergy A q' ∧ (accelEnergy A q' ≤ accelEnergy A qdd → q' = qdd) := by
  have ht := (C06_task_achieved hA hS hB hR h).1
  refine ⟨ht, C86_energy_least (ts := [T]) (rs := [R]) hA hS hB ?_ h hc ?_⟩
  · unfold calcTaskSpace; rw [List.mapM_cons, hR]; rfl
  · intro T' hT'
    rw [List.mem_singleton] at hT'
    subst hT'
    rw [hq', ht]

end

/-! ### QP control -/

section
variable {n c : ℕ} {A : Matrix (Fin 6 ⊕ Fin n) (Fin 6 ⊕ Fin n) ℝ} {J : Matrix (Fin c) (Fin 6 ⊕ Fin n) ℝ} {G : Fin 6 ⊕ Fin n → ℝ}
  {R : QPRobot n c}

theorem ccc_space_of {cod : (W : Matrix (Fin n) (Fin n) ℝ) → CodNull W} {v : ℕ} {S : ContactSpace c (Fin n)}
    {o : Option ((k : ℕ) × Matrix (Fin k) (Fin n) ℝ × Matrix (Fin n) (Fin (c - 6)) ℝ)}
    (h : calculateContactConstraint J A⁻¹ cod = .ret v S o) : contactSpace J A⁻¹ = some S := by
  unfold calculateContactConstraint at h
  split at h
  · cases h
  rename_i S' hS
  rw [hS]
  simp only at h
  split_ifs at h
  · split at h
    · cases h
    · simp only [ContactResult.ret.injEq] at h; rw [h.2.1]
  · simp only [ContactResult.ret.injEq] at h; rw [h.2.1]

theorem qpLoop_orth (hA : IsSPD A) (hS : contactSpace J A⁻¹ = some R.S) (hB : BaseDetermined J) {v : Fin 6 ⊕ Fin n → ℝ} (hv : J *ᵥ v = 0)
    {solve : Solver} (rs : List (TaskReady (Fin n))) (hrs : ∀ T ∈ rs, ∃ T₀, calculateJKT R.S A⁻¹ T₀ = some T) (hR : ∀ T ∈ rs, T.J *ᵥ v = 0)
    (i : ℕ) (N : Matrix (Fin n) (Fin n) ℝ) (hN : ∀ x, (N *ᵥ x) ⬝ᵥ (Sel (Fin n) *ᵥ v) = x ⬝ᵥ (Sel (Fin n) *ᵥ v)) (τt τc : Fin n → ℝ)
    (ht : τt ⬝ᵥ (Sel (Fin n) *ᵥ v) = 0) (hc : ∃ z, τc = R.NwJw *ᵥ z) {w : ℕ} {τt' τc' : Fin n → ℝ}
    (h : qpLoop R solve i N τt τc rs = .ret w τt' τc') : τt' ⬝ᵥ (Sel (Fin n) *ᵥ v) = 0 ∧ ∃ z, τc' = R.NwJw *ᵥ z := by
  induction rs generalizing i N τt τc with
  | nil =>
    simp only [qpLoop, CtrlResult.ret.injEq] at h
    obtain ⟨-, rfl, rfl⟩ := h
    exact ⟨ht, hc⟩
  | cons T rs ih =>
    unfold qpLoop at h
    split at h
    · cases h
    split at h
    · simp only [CtrlResult.ret.injEq] at h
      obtain ⟨-, rfl, rfl⟩ := h
      exact ⟨ht, hc⟩
    simp only at h
    split_ifs at h
    obtain ⟨T₀, hT₀⟩ := hrs T List.mem_cons_self
    have hTv := hR T List.mem_cons_self
    refine ih (fun T' h => hrs T' (List.mem_cons_of_mem _ h)) (fun T' h => hR T' (List.mem_cons_of_mem _ h)) _ _ ?_ _ _ ?_ ⟨_, rfl⟩ h
    · intro x
      rw [null_eq, ← mulVec_mulVec, hN, Matrix.sub_mulVec, one_mulVec, sub_dotProduct, ← mulVec_mulVec, Km_orth hA hS hB hT₀ _ hv hTv, sub_zero]
    · rw [add_dotProduct, ht, hN, mulVec_mulVec]
      change 0 + (Km T *ᵥ _) ⬝ᵥ _ = 0
      rw [Km_orth hA hS hB hT₀ _ hv hTv, add_zero]

/-- C86 (energy with QP control).  Whatever the solver answers and the call returns: of all motions that keep the contacts and accelerate
every task as the resulting torque does, the motion caused has the least energy of acceleration. -/
theorem C86_qp_energy_least (hA : IsSPD A) (hB : BaseDetermined J) (hc6 : 6 < c) (cod : (W : Matrix (Fin n) (Fin n) ℝ) → CodNull W)
    {limit : Option (Fin n → ℝ)} {cs : List ContactLink} {solve : Solver} {ts : List (TaskIn (Fin n))} {w : ℕ} {τg τt τc : Fin n → ℝ}
    (hcyc : qpCycle J A⁻¹ G cod limit cs solve ts = some (w, τg, τt, τc)) {qdd q' : Fin 6 ⊕ Fin n → ℝ} {F : Fin c → ℝ}
    (h : Motion A J G (τg + τt + τc) qdd F) (hc : ContactsFixed J q') (hq' : ∀ T ∈ ts, T.J *ᵥ q' = T.J *ᵥ qdd) :
    accelEnergy A qdd ≤ accelEnergy A q' ∧ (accelEnergy A q' ≤ accelEnergy A qdd → q' = qdd) := by
  unfold qpCycle at hcyc
  split at hcyc
  swap
  · cases hcyc
  rename_i v S out hR
  obtain ⟨k, V2, N⟩ := out
  have hS : contactSpace J A⁻¹ = some S := ccc_space_of hR
  split at hcyc
  · cases hcyc
  rename_i rs hrs
  simp only at hcyc
  split at hcyc
  · cases hcyc
  rename_i v' τt' τc' hl
  simp only [Option.some.injEq, Prod.mk.injEq] at hcyc
  obtain ⟨rfl, rfl, rfl, rfl⟩ := hcyc
  have hv : J *ᵥ (q' - qdd) = 0 := by rw [mulVec_sub, hc, h.2, sub_self]
  obtain ⟨ho, z, hz⟩ := qpLoop_orth (R := { S := S, NwJw := N, P := gravityForce S G, τg := gravityTorque S A⁻¹ G, limit := limit, cs := cs })
    hA hS hB hv rs (fun T hT => (ready_of_stack hrs T hT).imp fun _ h => h.2)
    (fun T hT => by
      obtain ⟨T₀, hT₀, hTR⟩ := ready_of_stack hrs T hT
      have := hq' T₀ hT₀
      rw [← ready_rows hTR] at this
      rw [mulVec_sub, this, sub_self]) 0 1 (fun x => by rw [one_mulVec]) 0 0 (zero_dotProduct _) ⟨0, (mulVec_zero _).symm⟩ hl
  obtain ⟨qdd', hM'⟩ := (C01_contact_force_exact hA hS G (gravityTorque S A⁻¹ G + τt')).1
  rw [hz] at h
  obtain rfl := (C04_internal_force hA hc6 cod hR G _ z hM' h).1
  exact accelEnergy_least hA (energy_orth hA hS hB hM' hc ho)

end

end Verif.Props
