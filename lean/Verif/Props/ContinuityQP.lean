import Verif.Lemmas.ContinuityQP
import Verif.Props.Continuity

/-!
# C78: where QP task control varies continuously with the state
-/

set_option linter.unusedSectionVars false

namespace Verif.Props
open Matrix Topology Filter Verif Verif.Spec Verif.Model

section General
variable {X : Type*} [TopologicalSpace X] {x₀ : X} {n c : ℕ}
variable {A : X → Matrix (Fin 6 ⊕ Fin n) (Fin 6 ⊕ Fin n) ℝ} {J : X → Matrix (Fin c) (Fin 6 ⊕ Fin n) ℝ}
variable {G : X → Fin 6 ⊕ Fin n → ℝ}

/-- A joint torque that stays below the limits and under which the contacts would hold even with slightly other contact forces. -/
def SafelyInside (A : Matrix (Fin 6 ⊕ Fin n) (Fin 6 ⊕ Fin n) ℝ) (J : Matrix (Fin c) (Fin 6 ⊕ Fin n) ℝ) (G : Fin 6 ⊕ Fin n → ℝ)
    (L : Fin n → ℝ) (cs : List ContactLink) (hc : c = 6 * (active cs).length) (τ : Fin n → ℝ) : Prop :=
  (∀ j, |τ j| < L j) ∧ ∀ qdd F, Motion A J G τ qdd F → ∀ᶠ F' in 𝓝 F, ContactsHold cs (F' ∘ Fin.cast hc.symm)

/-- a row that holds for all forces near `F` holds strictly or is empty -/
theorem row_strict {m : ℕ} {C : Matrix (Fin m) (Fin c) ℝ} {F : Fin c → ℝ} (h : ∀ᶠ F' in 𝓝 F, ∀ r, 0 ≤ (C *ᵥ F') r) (r : Fin m) :
    0 < (C *ᵥ F) r ∨ C r = 0 := by
  by_cases h0 : C r = 0
  · exact Or.inr h0
  left
  have hcont : Tendsto (fun s : ℝ => F - s • C r) (𝓝 0) (𝓝 F) := by
    have : Continuous fun s : ℝ => F - s • C r := continuous_const.sub (continuous_id.smul continuous_const)
    simpa using this.tendsto 0
  have h1 : ∀ᶠ s in 𝓝[>] (0 : ℝ), 0 ≤ (C *ᵥ (F - s • C r)) r :=
    ((hcont.eventually h).filter_mono nhdsWithin_le_nhds).mono fun s hs => hs r
  obtain ⟨s, hs, hpos⟩ := (h1.and self_mem_nhdsWithin).exists
  rw [mulVec_sub, mulVec_smul, Pi.sub_apply, Pi.smul_apply, smul_eq_mul] at hs
  have h2 : (C *ᵥ C r) r = C r ⬝ᵥ C r := rfl
  have h3 : 0 < C r ⬝ᵥ C r := lt_of_le_of_ne (dotProduct_self_nonneg _) fun h => h0 (dotProduct_self_eq_zero.mp h.symm)
  have h4 : 0 < s := hpos
  rw [h2] at hs
  nlinarith [mul_pos h4 h3]

theorem ccc_space {J : Matrix (Fin c) (Fin 6 ⊕ Fin n) ℝ} {B : Matrix (Fin 6 ⊕ Fin n) (Fin 6 ⊕ Fin n) ℝ}
    {cod : (W : Matrix (Fin n) (Fin n) ℝ) → CodNull W} {v : ℕ} {S : ContactSpace c (Fin n)}
    {o : Option ((k : ℕ) × Matrix (Fin k) (Fin n) ℝ × Matrix (Fin n) (Fin (c - 6)) ℝ)}
    (h : calculateContactConstraint J B cod = .ret v S o) : contactSpace J B = some S := by
  unfold calculateContactConstraint at h
  rcases hS : contactSpace J B with _ | S'
  · rw [hS] at h; simp at h
  rw [hS] at h
  simp only at h
  split_ifs at h
  · split at h
    · cases h
    · simp only [ContactResult.ret.injEq] at h; rw [h.2.1]
  · simp only [ContactResult.ret.injEq] at h; rw [h.2.1]

/-- internal torques as the kernel of `W` -/
theorem internal_iff {A : Matrix (Fin 6 ⊕ Fin n) (Fin 6 ⊕ Fin n) ℝ} {J : Matrix (Fin c) (Fin 6 ⊕ Fin n) ℝ} (hA : IsSPD A) (hc6 : 6 < c)
    (cod : (W : Matrix (Fin n) (Fin n) ℝ) → CodNull W)
    {S : ContactSpace c (Fin n)} {v k : ℕ} {V2 : Matrix (Fin k) (Fin n) ℝ} {N : Matrix (Fin n) (Fin (c - 6)) ℝ}
    (hR : calculateContactConstraint J A⁻¹ cod = .ret v S (some ⟨k, V2, N⟩)) (δ : Fin n → ℝ) :
    (∃ z, δ = N *ᵥ z) ↔ ∃ δ', δ = (1 - pinv S.W * S.W) *ᵥ δ' := by
  have hS := ccc_space hR
  have hN := movesNothing_iff (G := 0) hA hc6 cod hS hR δ
  rw [← hN]
  have hW : S.W *ᵥ δ = 0 ↔ ∃ δ', δ = (1 - pinv S.W * S.W) *ᵥ δ' := by
    constructor
    · intro h
      refine ⟨δ, ?_⟩
      rw [sub_mulVec, one_mulVec, ← mulVec_mulVec, h, mulVec_zero, sub_zero]
    · rintro ⟨δ', rfl⟩
      rw [mulVec_mulVec, Matrix.mul_sub, Matrix.mul_one, ← Matrix.mul_assoc, (pinv_spec S.W).aba, sub_self, zero_mulVec]
  rw [← hW]
  constructor
  · intro h
    obtain ⟨q, hM⟩ := (C01_contact_force_exact hA hS 0 0).1
    obtain ⟨q', hM'⟩ := (C01_contact_force_exact hA hS 0 (0 + δ)).1
    have e := h _ _ _ _ _ hM hM'
    have h1 := ((motion_iff hA hS _ _ _ _).mp hM).1
    have h2 := ((motion_iff hA hS _ _ _ _).mp hM').1
    have h0 : actuate (0 : Fin n → ℝ) = 0 := by ext i; rcases i with i | i <;> rfl
    rw [h0, sub_zero, mulVec_zero] at h1
    rw [zero_add, sub_zero, e, h1] at h2
    rw [cs_W hS, ← mulVec_mulVec, ← mulVec_mulVec, ← actuate_eq, ← h2, mulVec_zero]
  · intro h τ q q' F F' hM hM'
    obtain ⟨y, hy⟩ := (W_mulVec_eq_zero_iff hA hS δ).mp h
    rw [((motion_iff hA hS _ _ _ _).mp hM).1, ((motion_iff hA hS _ _ _ _).mp hM').1]
    have ha : actuate (τ + δ) - 0 = actuate τ - 0 + Jᵀ *ᵥ y := by
      rw [hy]; ext i; rcases i with i | i <;> simp [actuate]
    rw [ha, mulVec_add, mulVec_mulVec, cs_P_JT hS, zero_mulVec, add_zero]

/-- limits and contact rows as one list of inequalities -/
def ineqM {m : ℕ} (S : ContactSpace c (Fin n)) (C : Matrix (Fin m) (Fin c) ℝ) : (Fin n ⊕ Fin n) ⊕ Fin m → Fin n → ℝ :=
  Sum.elim (Sum.elim (fun j => Pi.single j 1) fun j => -Pi.single j 1) fun r => -((C * rightCols S) r)

def ineqB {m : ℕ} (L : Fin n → ℝ) (C : Matrix (Fin m) (Fin c) ℝ) (P : Fin c → ℝ) : (Fin n ⊕ Fin n) ⊕ Fin m → ℝ :=
  Sum.elim (Sum.elim L L) fun r => -((C *ᵥ P) r)

theorem row_contact {m : ℕ} (S : ContactSpace c (Fin n)) (C : Matrix (Fin m) (Fin c) ℝ) (P : Fin c → ℝ) (τ : Fin n → ℝ) (r : Fin m) :
    (C *ᵥ contactForce S P τ) r = -((ineqM S C (Sum.inr r)) ⬝ᵥ τ) + -(C *ᵥ P) r := by
  have e : (ineqM S C (Sum.inr r)) ⬝ᵥ τ = -((C * rightCols S) *ᵥ τ) r := by
    show -((C * rightCols S) r) ⬝ᵥ τ = _
    rw [neg_dotProduct]; rfl
  rw [e, contactForce, mulVec_sub, ← mulVec_mulVec]
  simp only [Pi.sub_apply, rightCols, neg_neg]
  ring

theorem rows_iff {m : ℕ} (S : ContactSpace c (Fin n)) (L : Fin n → ℝ) (C : Matrix (Fin m) (Fin c) ℝ) (P : Fin c → ℝ) (τ : Fin n → ℝ) :
    (∀ r, ineqM S C r ⬝ᵥ τ ≤ ineqB L C P r) ↔ (∀ j, |τ j| ≤ L j) ∧ ∀ r, 0 ≤ (C *ᵥ contactForce S P τ) r := by
  have h1 : ∀ j, ineqM S C (Sum.inl (Sum.inl j)) ⬝ᵥ τ = τ j := fun j => by simp [ineqM]
  have h2 : ∀ j, ineqM S C (Sum.inl (Sum.inr j)) ⬝ᵥ τ = -τ j := fun j => by simp [ineqM]
  constructor
  · intro h
    refine ⟨fun j => abs_le.mpr ⟨?_, ?_⟩, fun r => ?_⟩
    · have := h (Sum.inl (Sum.inr j))
      rw [h2] at this
      have e : ineqB L C P (Sum.inl (Sum.inr j)) = L j := rfl
      linarith
    · have := h (Sum.inl (Sum.inl j))
      rw [h1] at this
      exact this
    · rw [row_contact]
      have := h (Sum.inr r)
      have e : ineqB L C P (Sum.inr r) = -(C *ᵥ P) r := rfl
      linarith
  · rintro ⟨hl, hC⟩ ((j | j) | r)
    · rw [h1]; exact (abs_le.mp (hl j)).2
    · rw [h2]
      have := (abs_le.mp (hl j)).1
      have e : ineqB L C P (Sum.inl (Sum.inr j)) = L j := rfl
      linarith
    · have := hC r
      rw [row_contact] at this
      have e : ineqB L C P (Sum.inr r) = -(C *ᵥ P) r := rfl
      linarith

/-- the acceleration commanded after the first level -/
noncomputable def firstCommand (R : QPRobot n c) (solve : Solver) {m : ℕ} (C : Matrix (Fin m) (Fin c) ℝ) (T : TaskReady (Fin n)) :
    Fin T.t → ℝ :=
  T.f + fun i => (solve 0 T.t (c - 6) (taskQP R C T 1 (R.τg + 0))).getD 0 (Sum.inl i)

/-- the first level, if some acceleration is admissible -/
theorem first_level {A : Matrix (Fin 6 ⊕ Fin n) (Fin 6 ⊕ Fin n) ℝ} {J : Matrix (Fin c) (Fin 6 ⊕ Fin n) ℝ} (hA : IsSPD A) (hc6 : 6 < c)
    (cod : (W : Matrix (Fin n) (Fin n) ℝ) → CodNull W) {R : QPRobot n c} {v k : ℕ} {V2 : Matrix (Fin k) (Fin n) ℝ}
    (hR : calculateContactConstraint J A⁻¹ cod = .ret v R.S (some ⟨k, V2, R.NwJw⟩)) {L : Fin n → ℝ} (hL : R.limit = some L)
    {m : ℕ} {C : Matrix (Fin m) (Fin c) ℝ} (hC : R.C = some ⟨m, C⟩) {solve : Solver} (hs : solve.Exact) (hcomp : solve.Complete)
    (T : TaskReady (Fin n)) (lower : List (TaskReady (Fin n)))
    (hadm : ∃ a, Adm (ineqM R.S C) (ineqB L C R.P) R.τg (Km T) (1 - pinv R.S.W * R.S.W) a) :
    Adm (ineqM R.S C) (ineqB L C R.P) R.τg (Km T) (1 - pinv R.S.W * R.S.W) (firstCommand R solve C T) ∧
    (∀ a, Adm (ineqM R.S C) (ineqB L C R.P) R.τg (Km T) (1 - pinv R.S.W * R.S.W) a →
      ∑ i, (firstCommand R solve C T i - T.f i) ^ 2 ≤ ∑ i, (a i - T.f i) ^ 2) ∧
    ∃ τt τc, calcTaskControlTorqueQP R solve (T :: lower) = .ret 1 τt τc ∧
      (∃ rs, τt = taskTorque R.S (withCommand T (firstCommand R solve C T) :: rs)) ∧
      (lower = [] → τt = Km T *ᵥ firstCommand R solve C T) ∧ ∃ z, τc = R.NwJw *ᵥ z := by
  have hsound : solve.Sound := fun i t k d x h => (hs i t k d x h).1
  have hfeas : ∀ a z, (taskQP R C T 1 (R.τg + 0)).Feasible (Sum.elim (a - T.f) z) ↔
      ∀ r, ineqM R.S C r ⬝ᵥ (R.τg + Km T *ᵥ a + R.NwJw *ᵥ z) ≤ ineqB L C R.P r := by
    intro a z
    have ea : (T.f + fun b => Sum.elim (a - T.f) z (Sum.inl b)) = a := by ext b; simp
    rw [taskQP_feasible, one_mulVec, add_zero, rows_iff, ea, Km, ← mulVec_mulVec, hL]
    simp
  have hfeas' : ∀ x, (taskQP R C T 1 (R.τg + 0)).Feasible x ↔
      ∀ r, ineqM R.S C r ⬝ᵥ (R.τg + Km T *ᵥ (T.f + fun i => x (Sum.inl i)) + R.NwJw *ᵥ fun i => x (Sum.inr i)) ≤ ineqB L C R.P r := by
    intro x
    rw [← hfeas]
    have e : Sum.elim ((T.f + fun i => x (Sum.inl i)) - T.f) (fun i => x (Sum.inr i)) = x := by
      ext s; rcases s with s | s <;> simp
    rw [e]
  obtain ⟨a0, δ0, h0⟩ := hadm
  obtain ⟨z0, hz0⟩ := (internal_iff hA hc6 cod hR ((1 - pinv R.S.W * R.S.W) *ᵥ δ0)).mpr ⟨δ0, rfl⟩
  rw [hz0] at h0
  obtain ⟨x, hx⟩ := Option.isSome_iff_exists.mp (hcomp 0 _ _ _ (taskQP_exists R C T 1 _ ((hfeas a0 z0).mpr h0)))
  have hfc : firstCommand R solve C T = T.f + fun i => x (Sum.inl i) := by rw [firstCommand, hx]; rfl
  have hxs := hs _ _ _ _ _ hx
  have hxf := (hfeas' x).mp hxs.1
  rw [← hfc] at hxf
  refine ⟨?_, ?_, ?_⟩
  · obtain ⟨δ, hδ⟩ := (internal_iff hA hc6 cod hR (R.NwJw *ᵥ fun i => x (Sum.inr i))).mp ⟨_, rfl⟩
    rw [hδ] at hxf
    exact ⟨δ, hxf⟩
  · rintro a ⟨δ, hδ⟩
    obtain ⟨z, hz⟩ := (internal_iff hA hc6 cod hR ((1 - pinv R.S.W * R.S.W) *ᵥ δ)).mpr ⟨δ, rfl⟩
    rw [hz] at hδ
    have hle := hxs.2 _ ((hfeas a z).mpr hδ)
    rw [taskQP_cost, taskQP_cost] at hle
    have e1 : ∀ i, (firstCommand R solve C T i - T.f i) ^ 2 = x (Sum.inl i) * x (Sum.inl i) := by
      intro i
      rw [hfc]
      simp only [Pi.add_apply]
      ring
    have e2 : ∀ i, (a i - T.f i) ^ 2 = Sum.elim (a - T.f) z (Sum.inl i) * Sum.elim (a - T.f) z (Sum.inl i) := by
      intro i
      simp only [Sum.elim_inl, Pi.sub_apply]
      ring
    simp only [e1, e2]
    linarith
  · have hstep : calcTaskControlTorqueQP R solve (T :: lower) = qpLoop R solve (0 + 1) (taskNullSpace R.S T 1)
        (0 + 1 *ᵥ (T.Jkt *ᵥ (T.Λ *ᵥ firstCommand R solve C T))) (R.NwJw *ᵥ fun b => x (Sum.inr b)) lower := by
      rw [calcTaskControlTorqueQP, qpLoop, hC]
      simp only [hx]
      rw [if_neg (by omega), hfc]
    have hsafe := (rows_iff R.S L C R.P _).mp hxf
    obtain ⟨τt, τc, hgo⟩ := qpLoop_go hc6 hC hsound hcomp lower (0 + 1) (taskNullSpace R.S T 1)
      (0 + 1 *ᵥ (T.Jkt *ᵥ (T.Λ *ᵥ firstCommand R solve C T))) (R.NwJw *ᵥ fun b => x (Sum.inr b)) (fun b => x (Sum.inr b)) (by
        rw [zero_add, one_mulVec, mulVec_mulVec _ T.Jkt, hL]
        exact ⟨fun L' h => by obtain rfl := Option.some.inj h; exact hsafe.1, hsafe.2⟩)
    have hint : ∀ (ts : List (TaskReady (Fin n))) i N τ0 τ1, (∃ z, τ1 = R.NwJw *ᵥ z) → qpLoop R solve i N τ0 τ1 ts = .ret 1 τt τc →
        ∃ z, τc = R.NwJw *ᵥ z := by
      intro ts
      induction ts with
      | nil =>
        intro i N τ0 τ1 hz h
        simp only [qpLoop, CtrlResult.ret.injEq, true_and] at h
        obtain ⟨-, rfl⟩ := h
        exact hz
      | cons T ts ih =>
        intro i N τ0 τ1 hz h
        simp only [qpLoop, hC] at h
        split at h
        · simp at h
        · split_ifs at h
          exact ih _ _ _ _ ⟨_, rfl⟩ h
    refine ⟨τt, τc, hstep.trans hgo, ?_, ?_, hint _ _ _ _ _ ⟨_, rfl⟩ hgo⟩
    · obtain ⟨rs, hrs⟩ := qpLoop_commands _ _ _ _ _ hgo
      exact ⟨rs, hrs⟩
    · rintro rfl
      simp only [qpLoop, CtrlResult.ret.injEq, true_and] at hgo
      rw [← hgo.1, zero_add, one_mulVec, mulVec_mulVec]
      rfl

/-- what the calls before task control leave in state `x` -/
noncomputable def nwjwAt (A : X → Matrix (Fin 6 ⊕ Fin n) (Fin 6 ⊕ Fin n) ℝ) (J : X → Matrix (Fin c) (Fin 6 ⊕ Fin n) ℝ)
    (cod : (W : Matrix (Fin n) (Fin n) ℝ) → CodNull W) (x : X) : Matrix (Fin n) (Fin (c - 6)) ℝ :=
  match calculateContactConstraint (J x) (A x)⁻¹ cod with
  | .ret _ _ (some out) => out.2.2
  | _ => 0

noncomputable def robotAt (A : X → Matrix (Fin 6 ⊕ Fin n) (Fin 6 ⊕ Fin n) ℝ) (J : X → Matrix (Fin c) (Fin 6 ⊕ Fin n) ℝ)
    (G : X → Fin 6 ⊕ Fin n → ℝ) (cod : (W : Matrix (Fin n) (Fin n) ℝ) → CodNull W) (L : Fin n → ℝ) (cs : List ContactLink)
    (x : X) : QPRobot n c :=
  { S := csAt A J x, NwJw := nwjwAt A J cod x, P := gravityForce (csAt A J x) (G x),
    τg := gravityTorque (csAt A J x) (A x)⁻¹ (G x), limit := some L, cs := cs }

noncomputable def readyAt (A : X → Matrix (Fin 6 ⊕ Fin n) (Fin 6 ⊕ Fin n) ℝ) (J : X → Matrix (Fin c) (Fin 6 ⊕ Fin n) ℝ)
    (T : TaskFam X (Fin n)) (x : X) : TaskReady (Fin n) :=
  { T.at x with
    Λ := (T.J x * (csAt A J x).AinvNc * (T.J x)ᵀ)⁻¹
    Jkt := (csAt A J x).Winv * ((T.J x * (csAt A J x).AinvNc * (T.J x)ᵀ)⁻¹ * Tm (csAt A J x) (T.J x))ᵀ *
      pinv (((T.J x * (csAt A J x).AinvNc * (T.J x)ᵀ)⁻¹ * Tm (csAt A J x) (T.J x)) * (csAt A J x).Winv *
        ((T.J x * (csAt A J x).AinvNc * (T.J x)ᵀ)⁻¹ * Tm (csAt A J x) (T.J x))ᵀ) }

theorem qp_core (hA : ∀ x, IsSPD (A x)) (hAc : ContinuousAt A x₀) (hJc : ContinuousAt J x₀) (hG : ContinuousAt G x₀)
    (hB : BaseDetermined (J x₀)) (hc6 : 6 < c) (hl : IsUnit (lastSixBase hc6 (J x₀)).det)
    (cod : (W : Matrix (Fin n) (Fin n) ℝ) → CodNull W) {L : Fin n → ℝ} {cs : List ContactLink}
    (h6 : ∀ l ∈ cs, l.type = .c6d) (hp : ∀ l ∈ cs, 0 < l.planeX ∧ 0 < l.planeY) (hc : c = 6 * (active cs).length)
    {solve : Solver} (hs : solve.Exact) (hcomp : solve.Complete) {T : TaskFam X (Fin n)} {lower : List (TaskFam X (Fin n))}
    (hT : ∀ U ∈ T :: lower, ContinuousAt U.J x₀ ∧ ContinuousAt U.f x₀)
    (hlow : (closedCommand (J x₀) (A x₀)⁻¹ (G x₀) (lower.map (·.at x₀))).isSome)
    {a₁ : Fin T.t → ℝ} {τ₁ δ₁ : Fin n → ℝ} (h1 : closedCommand (J x₀) (A x₀)⁻¹ (G x₀) [⟨T.t, T.J x₀, a₁⟩] = some τ₁)
    (hδ : MovesNothing (A x₀) (J x₀) (G x₀) δ₁) (hsafe : SafelyInside (A x₀) (J x₀) (G x₀) L cs hc (τ₁ + δ₁)) :
    ∃ (a : X → Fin T.t → ℝ) (g τ : X → Fin n → ℝ), ContinuousAt a x₀ ∧ ContinuousAt g x₀ ∧ ContinuousAt τ x₀ ∧
      ∀ᶠ x in 𝓝 x₀, ∃ τt τc,
        qpCycle (J x) (A x)⁻¹ (G x) cod (some L) cs solve (T.at x :: lower.map (·.at x)) = some (1, g x, τt, τc) ∧
        (lower = [] → τt = τ x) ∧
        ∀ qdd F, Motion (A x) (J x) (G x) (g x + τt + τc) qdd F → T.J x *ᵥ qdd = a x := by
  obtain ⟨C, hstack, hhold⟩ := stackC_holds h6 hp hc
  -- the contact space
  obtain ⟨S0, hS0⟩ : ∃ S, contactSpace (J x₀) (A x₀)⁻¹ = some S := by
    rcases h : contactSpace (J x₀) (A x₀)⁻¹ with _ | S
    · rw [closedCommand, h] at h1; simp at h1
    · exact ⟨S, rfl⟩
  have hu := cs_unit hS0
  have hev := csAt_eventually hA hAc hJc hu
  have hBe := baseDetermined_eventually hJc hB
  have hr : ∀ᶠ x in 𝓝 x₀, (baseCols (J x)).rank = (baseCols (J x₀)).rank := by
    filter_upwards [hBe] with x hx
    rw [(baseDetermined_iff_rank _).mp hx, (baseDetermined_iff_rank _).mp hB]
  obtain rfl : S0 = csAt A J x₀ := Option.some.inj (hS0.symm.trans hev.self_of_nhds)
  have hle : ∀ᶠ x in 𝓝 x₀, IsUnit (lastSixBase hc6 (J x)).det :=
    cAt_isUnit (A := fun x => lastSixBase hc6 (J x)) (cAt_submatrix hJc _ _) hl
  have hccc : ∀ᶠ x in 𝓝 x₀, ∃ k V2,
      calculateContactConstraint (J x) (A x)⁻¹ cod = .ret 1 (csAt A J x) (some ⟨k, V2, nwjwAt A J cod x⟩) := by
    filter_upwards [hev, hBe, hle] with x hS hBx hlx
    obtain ⟨S, ⟨k, V2, N⟩, hR⟩ := (C05_outcome (hA x) ((C02_finite_iff_independent (hA x)).mp (by rw [hS]; rfl)) hc6 cod).1.mpr ⟨hBx, hlx⟩
    obtain rfl : S = csAt A J x := Option.some.inj ((ccc_space hR).symm.trans hS)
    refine ⟨k, V2, ?_⟩
    have : nwjwAt A J cod x = N := by unfold nwjwAt; rw [hR]
    rw [this, hR]
  -- the first task
  obtain ⟨hTJ, hTf⟩ := hT T (by simp)
  rw [closedCommand, hS0] at h1 hlow
  simp only [calcTaskSpace, List.mapM_cons, List.mapM_nil, Option.pure_def, Option.bind_eq_bind, Option.map_eq_some_iff,
    Option.bind_eq_some_iff, Option.some.injEq] at h1
  obtain ⟨rs1, ⟨R1, hR1, rs2, hrs2, rfl⟩, hτ₁⟩ := h1
  subst hrs2
  obtain ⟨hL0, hR1e⟩ := (jkt_eq_some hS0).mp hR1
  have hLc : ContinuousAt (fun x => T.J x * (csAt A J x).AinvNc * (T.J x)ᵀ) x₀ :=
    cAt_mul (cAt_mul hTJ (cAt_P hA hAc hJc hu)) (cAt_transpose hTJ)
  have hTm := cAt_Tm hA hAc hJc hu hTJ
  have hready : ∀ᶠ x in 𝓝 x₀, calculateJKT (csAt A J x) (A x)⁻¹ (T.at x) = some (readyAt A J T x) := by
    filter_upwards [hev, cAt_isUnit hLc hL0] with x hS hL
    exact (jkt_eq_some hS).mpr ⟨hL, rfl⟩
  let K : X → Matrix (Fin n) (Fin T.t) ℝ := fun x =>
    (csAt A J x).Winv * (Tm (csAt A J x) (T.J x))ᵀ * (T.J x * (csAt A J x).AinvNc * (T.J x)ᵀ)⁻¹
  have hK : ContinuousAt K x₀ :=
    cAt_mul (cAt_mul (cAt_Winv hA hAc hJc hu hr) (cAt_transpose hTm)) (cAt_inv hLc hL0)
  have hKm : ∀ᶠ x in 𝓝 x₀, Km (readyAt A J T x) = K x := by
    filter_upwards [hev, hBe, hready] with x hS hBx hRx
    exact (Km_eq (hA x) hS hBx hRx).1
  -- the lower tasks
  obtain ⟨_, -, hge⟩ := cAt_taskTorque hA hAc hJc hu hB lower (fun U hU => hT U (by simp [hU])) (by simpa using hlow)
  -- continuity of the data
  have hW := cAt_W hA hAc hJc hu
  have hWi := cAt_Winv hA hAc hJc hu hr
  have hg : ContinuousAt (fun x => gravityTorque (csAt A J x) (A x)⁻¹ (G x)) x₀ := cAt_gravity hA hAc hJc hu hr hG
  have hJi : ContinuousAt (fun x => (csAt A J x).JcInvT) x₀ :=
    cAt_mul (cAt_mul (cAt_lambda hA hAc hJc hu) hJc) (cAt_Ainv hA hAc hJc hu)
  have hP : ContinuousAt (fun x => gravityForce (csAt A J x) (G x)) x₀ := cAt_mulVec hJi hG
  let D : X → Matrix (Fin n) (Fin n) ℝ := fun x => 1 - pinv (csAt A J x).W * (csAt A J x).W
  have hD : ContinuousAt D x₀ := continuousAt_const.sub (cAt_mul hWi hW)
  have hM : ContinuousAt (fun x => ineqM (csAt A J x) C) x₀ := by
    refine continuousAt_pi.mpr fun r => ?_
    rcases r with (j | j) | r
    · exact continuousAt_const
    · exact continuousAt_const
    · have h := cAt_mul (A := fun _ : X => C) continuousAt_const (cAt_submatrix hJi id (Sum.inr : Fin n → Fin 6 ⊕ Fin n))
      exact (continuousAt_pi.mp h r).neg
  have hb : ContinuousAt (fun x => ineqB L C (gravityForce (csAt A J x) (G x))) x₀ := by
    refine continuousAt_pi.mpr fun r => ?_
    rcases r with (j | j) | r
    · exact continuousAt_const
    · exact continuousAt_const
    · have h := cAt_mulVec (A := fun _ : X => C) continuousAt_const hP
      exact (continuousAt_pi.mp h r).neg
  -- the strictly safe point
  obtain ⟨k0, V0, hR0⟩ := hccc.self_of_nhds
  obtain ⟨δ', hδ'⟩ := (internal_iff (hA x₀) hc6 cod hR0 δ₁).mp ((movesNothing_iff (hA x₀) hc6 cod hS0 hR0 δ₁).mp hδ)
  have hτK : τ₁ = gravityTorque (csAt A J x₀) (A x₀)⁻¹ (G x₀) + K x₀ *ᵥ a₁ := by
    rw [← hτ₁, taskTorque_cons, taskTorque_nil, mulVec_zero, add_zero, (Km_eq (hA x₀) hS0 hB hR1).1]
    subst hR1e
    rfl
  have hstrict : ∀ r, ineqM (csAt A J x₀) C r ⬝ᵥ (gravityTorque (csAt A J x₀) (A x₀)⁻¹ (G x₀) + K x₀ *ᵥ a₁ + D x₀ *ᵥ δ')
      < ineqB L C (gravityForce (csAt A J x₀) (G x₀)) r ∨
      ∀ᶠ x in 𝓝 x₀, ∀ τ, ineqM (csAt A J x) C r ⬝ᵥ τ ≤ ineqB L C (gravityForce (csAt A J x) (G x)) r := by
    rw [← hτK, ← hδ']
    obtain ⟨q, hmot⟩ := (C01_contact_force_exact (hA x₀) hS0 (G x₀) (τ₁ + δ₁)).1
    have hF := hsafe.2 _ _ hmot
    have hF' : ∀ᶠ F' in 𝓝 (contactForce (csAt A J x₀) (gravityForce (csAt A J x₀) (G x₀)) (τ₁ + δ₁)), ∀ r, 0 ≤ (C *ᵥ F') r :=
      hF.mono fun F' h => (hhold F').mpr h
    rintro ((j | j) | r)
    · left
      have e : ineqM (csAt A J x₀) C (Sum.inl (Sum.inl j)) ⬝ᵥ (τ₁ + δ₁) = (τ₁ + δ₁) j := by simp [ineqM]
      rw [e]; exact (abs_lt.mp (hsafe.1 j)).2
    · left
      have e : ineqM (csAt A J x₀) C (Sum.inl (Sum.inr j)) ⬝ᵥ (τ₁ + δ₁) = -(τ₁ + δ₁) j := by
        show -(Pi.single j (1 : ℝ)) ⬝ᵥ (τ₁ + δ₁) = _
        rw [neg_dotProduct, single_one_dotProduct]
      rw [e]
      have := (abs_lt.mp (hsafe.1 j)).1
      have e2 : ineqB L C (gravityForce (csAt A J x₀) (G x₀)) (Sum.inl (Sum.inr j)) = L j := rfl
      linarith
    · rcases row_strict hF' r with h | h
      · left
        rw [row_contact] at h
        have e2 : ineqB L C (gravityForce (csAt A J x₀) (G x₀)) (Sum.inr r) = -(C *ᵥ gravityForce (csAt A J x₀) (G x₀)) r := rfl
        linarith
      · right
        refine Eventually.of_forall fun x τ => ?_
        have e1 : ineqM (csAt A J x) C (Sum.inr r) = 0 := by
          show -((C * rightCols (csAt A J x)) r) = 0
          ext j
          simp [Matrix.mul_apply, h]
        have e2 : ineqB L C (gravityForce (csAt A J x) (G x)) (Sum.inr r) = 0 := by
          show -((C *ᵥ gravityForce (csAt A J x) (G x)) r) = 0
          simp [mulVec, h]
        rw [e1, e2, zero_dotProduct]
  have hnear := adm_near hM hb hg hK hD hstrict
  -- the answer of the first level
  let a : X → Fin T.t → ℝ := fun x => firstCommand (robotAt A J G cod L cs x) solve C (readyAt A J T x)
  have hfl : ∀ᶠ x in 𝓝 x₀, ∀ lower : List (TaskReady (Fin n)),
      Adm (ineqM (csAt A J x) C) (ineqB L C (gravityForce (csAt A J x) (G x))) (gravityTorque (csAt A J x) (A x)⁻¹ (G x))
        (Km (readyAt A J T x)) (D x) (a x) ∧
      (∀ a', Adm (ineqM (csAt A J x) C) (ineqB L C (gravityForce (csAt A J x) (G x))) (gravityTorque (csAt A J x) (A x)⁻¹ (G x))
        (Km (readyAt A J T x)) (D x) a' → ∑ i, (a x i - T.f x i) ^ 2 ≤ ∑ i, (a' i - T.f x i) ^ 2) ∧
      ∃ τt τc, calcTaskControlTorqueQP (robotAt A J G cod L cs x) solve (readyAt A J T x :: lower) = .ret 1 τt τc ∧
        (∃ rs, τt = taskTorque (csAt A J x) (withCommand (readyAt A J T x) (a x) :: rs)) ∧
        (lower = [] → τt = Km (readyAt A J T x) *ᵥ a x) ∧ ∃ z, τc = nwjwAt A J cod x *ᵥ z := by
    filter_upwards [hccc, hKm, hnear] with x ⟨k, V2, hR⟩ hKx hadm
    intro rs
    exact first_level (hA x) hc6 cod (R := robotAt A J G cod L cs x) hR (L := L) rfl (C := C) hstack hs hcomp (readyAt A J T x) rs
      ⟨a₁, by rw [hKx]; exact hadm⟩
  have hacont : ContinuousAt a x₀ := by
    refine cAt_nearest (f := T.f) (L := L) (D := D) (K := K) (Tm := fun x => Tm (csAt A J x) (T.J x)) hM hb hg hK hD hTm hTf
      ?_ ?_ ?_ ?_ ?_ ?_ hstrict
    · filter_upwards [hev, hBe, hready, hKm] with x hS hBx hRx hKx
      rw [← hKx]
      exact task_right_inverse (hA x) hS hBx hRx
    · filter_upwards [hev] with x hS
      apply Matrix.ext_of_mulVec_single
      intro i
      rw [zero_mulVec, ← mulVec_mulVec]
      have hz : (csAt A J x).W *ᵥ (D x *ᵥ Pi.single i 1) = 0 := by
        show (csAt A J x).W *ᵥ ((1 - pinv (csAt A J x).W * (csAt A J x).W) *ᵥ Pi.single i 1) = 0
        rw [mulVec_mulVec, Matrix.mul_sub, Matrix.mul_one, ← Matrix.mul_assoc, (pinv_spec _).aba, sub_self, zero_mulVec]
      obtain ⟨y, hy⟩ := (W_mulVec_eq_zero_iff (hA x) hS _).mp hz
      rw [Tm, ← mulVec_mulVec, ← actuate_eq, ← hy, mulVec_mulVec, Matrix.mul_assoc, cs_P_JT hS, Matrix.mul_zero, zero_mulVec]
    · refine Eventually.of_forall fun x => ?_
      have hq : pinv (csAt A J x).W * (csAt A J x).W * (pinv (csAt A J x).W * (csAt A J x).W) = pinv (csAt A J x).W * (csAt A J x).W := by
        rw [← Matrix.mul_assoc, (pinv_spec (csAt A J x).W).bab]
      show (1 - pinv (csAt A J x).W * (csAt A J x).W) * (1 - pinv (csAt A J x).W * (csAt A J x).W) = _
      rw [Matrix.mul_sub, Matrix.mul_one, Matrix.sub_mul, Matrix.one_mul, hq, sub_self, sub_zero]
    · exact Eventually.of_forall fun x τ h => ((rows_iff _ _ _ _ _).mp h).1
    · filter_upwards [hfl, hKm] with x hx hKx
      have := (hx []).1
      rw [hKx] at this
      exact this
    · filter_upwards [hfl, hKm] with x hx hKx
      have := (hx []).2.1
      rw [hKx] at this
      exact this
  refine ⟨a, fun x => gravityTorque (csAt A J x) (A x)⁻¹ (G x), fun x => K x *ᵥ a x, hacont, hg, cAt_mulVec hK hacont, ?_⟩
  filter_upwards [hfl, hKm, hccc, hready, hge, hev, hBe] with x hx hKx ⟨k, V2, hR⟩ hRx ⟨rs, hrs, _⟩ hS hBx
  obtain ⟨-, -, τt, τc, hcall, ⟨us, hus⟩, hone, z, hz⟩ := hx rs
  refine ⟨τt, τc, ?_, ?_, ?_⟩
  · have hts : calcTaskSpace (csAt A J x) (A x)⁻¹ (T.at x :: lower.map (·.at x)) = some (readyAt A J T x :: rs) := by
      simp only [calcTaskSpace, List.mapM_cons, Option.pure_def, Option.bind_eq_bind]
      rw [hRx]
      have : List.mapM (calculateJKT (csAt A J x) (A x)⁻¹) (lower.map (·.at x)) = some rs := hrs
      rw [Option.bind_some, this]
      rfl
    unfold qpCycle
    rw [hR]
    simp only [hts]
    have : calcTaskControlTorqueQP (robotAt A J G cod L cs x) solve (readyAt A J T x :: rs) = .ret 1 τt τc := hcall
    rw [robotAt] at this
    rw [this]
  · rintro rfl
    have : rs = [] := by
      simp only [calcTaskSpace, List.map_nil, List.mapM_nil, Option.pure_def, Option.some.injEq] at hrs
      exact hrs.symm
    exact (hone this).trans (by rw [hKx]; rfl)
  · intro qdd F hmot
    obtain ⟨qdd', hM'⟩ := (C01_contact_force_exact (hA x) hS (G x) (gravityTorque (csAt A J x) (A x)⁻¹ (G x) + τt)).1
    rw [hz] at hmot
    obtain rfl := (C04_internal_force (hA x) hc6 cod hR (G x) (gravityTorque (csAt A J x) (A x)⁻¹ (G x) + τt) z hM' hmot).1
    have hus' : τt = taskTorque (csAt A J x) (withCommand (readyAt A J T x) (a x) :: us) := hus
    rw [hus'] at hM'
    have hRx' : calculateJKT (csAt A J x) (A x)⁻¹ (readyAt A J T x).toTaskIn = some (readyAt A J T x) := hRx
    have hfin := C07_top_priority_partial (hA x) hS hBx (jkt_withCommand hRx' (a x)) us hM'
    exact hfin

/-- C78 (QP control, first task).  More than six contact rows, contacts that hold the base, an exact solver that always finds an
answer.  If in state `x₀` some acceleration of the first task can be commanded, together with a torque that moves nothing, with a
margin in every limit and contact, then the acceleration QP task control gives the first task varies continuously at `x₀`, whatever
the first task wants and whatever stands below it. -/
theorem C78_qp_first_partial (hA : ∀ x, IsSPD (A x)) (hAc : ContinuousAt A x₀) (hJc : ContinuousAt J x₀) (hG : ContinuousAt G x₀)
    (hB : BaseDetermined (J x₀)) (hc6 : 6 < c) (hl : IsUnit (lastSixBase hc6 (J x₀)).det)
    (cod : (W : Matrix (Fin n) (Fin n) ℝ) → CodNull W) {L : Fin n → ℝ} {cs : List ContactLink}
    (h6 : ∀ l ∈ cs, l.type = .c6d) (hp : ∀ l ∈ cs, 0 < l.planeX ∧ 0 < l.planeY) (hc : c = 6 * (active cs).length)
    {solve : Solver} (hs : solve.Exact) (hcomp : solve.Complete) {T : TaskFam X (Fin n)} {lower : List (TaskFam X (Fin n))}
    (hT : ∀ U ∈ T :: lower, ContinuousAt U.J x₀ ∧ ContinuousAt U.f x₀)
    (hlow : (closedCommand (J x₀) (A x₀)⁻¹ (G x₀) (lower.map (·.at x₀))).isSome)
    {a₁ : Fin T.t → ℝ} {τ₁ δ₁ : Fin n → ℝ} (h1 : closedCommand (J x₀) (A x₀)⁻¹ (G x₀) [⟨T.t, T.J x₀, a₁⟩] = some τ₁)
    (hδ : MovesNothing (A x₀) (J x₀) (G x₀) δ₁) (hsafe : SafelyInside (A x₀) (J x₀) (G x₀) L cs hc (τ₁ + δ₁)) :
    ∃ a : X → Fin T.t → ℝ, ContinuousAt a x₀ ∧ ∀ᶠ x in 𝓝 x₀, ∃ τg τt τc,
      qpCycle (J x) (A x)⁻¹ (G x) cod (some L) cs solve (T.at x :: lower.map (·.at x)) = some (1, τg, τt, τc) ∧
      ∀ qdd F, Motion (A x) (J x) (G x) (τg + τt + τc) qdd F → T.J x *ᵥ qdd = a x := by
  obtain ⟨a, g, τ, ha, -, -, h⟩ := qp_core hA hAc hJc hG hB hc6 hl cod h6 hp hc hs hcomp hT hlow h1 hδ hsafe
  refine ⟨a, ha, ?_⟩
  filter_upwards [h] with x ⟨τt, τc, e1, _, e2⟩
  exact ⟨_, τt, τc, e1, e2⟩

/-- C78 (QP control, one task).  Under the same conditions return value, gravity and task torque vary continuously.  The contact
torque is not covered: the QP does not determine it. -/
theorem C78_qp_one_partial (hA : ∀ x, IsSPD (A x)) (hAc : ContinuousAt A x₀) (hJc : ContinuousAt J x₀) (hG : ContinuousAt G x₀)
    (hB : BaseDetermined (J x₀)) (hc6 : 6 < c) (hl : IsUnit (lastSixBase hc6 (J x₀)).det)
    (cod : (W : Matrix (Fin n) (Fin n) ℝ) → CodNull W) {L : Fin n → ℝ} {cs : List ContactLink}
    (h6 : ∀ l ∈ cs, l.type = .c6d) (hp : ∀ l ∈ cs, 0 < l.planeX ∧ 0 < l.planeY) (hc : c = 6 * (active cs).length)
    {solve : Solver} (hs : solve.Exact) (hcomp : solve.Complete) {T : TaskFam X (Fin n)}
    (hT : ContinuousAt T.J x₀ ∧ ContinuousAt T.f x₀)
    {a₁ : Fin T.t → ℝ} {τ₁ δ₁ : Fin n → ℝ} (h1 : closedCommand (J x₀) (A x₀)⁻¹ (G x₀) [⟨T.t, T.J x₀, a₁⟩] = some τ₁)
    (hδ : MovesNothing (A x₀) (J x₀) (G x₀) δ₁) (hsafe : SafelyInside (A x₀) (J x₀) (G x₀) L cs hc (τ₁ + δ₁)) :
    VariesContinuously (fun x => (qpCycle (J x) (A x)⁻¹ (G x) cod (some L) cs solve [T.at x]).map
      fun r => (r.1, r.2.1, r.2.2.1)) x₀ := by
  have hlow : (closedCommand (J x₀) (A x₀)⁻¹ (G x₀) (([] : List (TaskFam X (Fin n))).map (·.at x₀))).isSome := by
    rcases h : contactSpace (J x₀) (A x₀)⁻¹ with _ | S
    · rw [closedCommand, h] at h1; simp at h1
    · rw [closedCommand, h]; rfl
  obtain ⟨a, g, τ, -, hg, hτ, h⟩ := qp_core hA hAc hJc hG hB hc6 hl cod h6 hp hc hs hcomp (T := T) (lower := [])
    (fun U hU => by simp only [List.mem_singleton] at hU; subst hU; exact hT) hlow h1 hδ hsafe
  refine variesContinuously_of (g := fun x => (1, g x, τ x)) (continuousAt_const.prodMk (hg.prodMk hτ)) ?_
  filter_upwards [h] with x ⟨τt, τc, e1, e2, _⟩
  have e1' : qpCycle (J x) (A x)⁻¹ (G x) cod (some L) cs solve [T.at x] = some (1, g x, τt, τc) := e1
  rw [e1', e2 rfl]
  rfl

end General
namespace Push

theorem hold_near {F : Fin 12 → ℝ} (h : ∀ i : Fin 2, F ⟨6 * i + 3, by omega⟩ = 0 ∧ F ⟨6 * i + 4, by omega⟩ = 0 ∧
      F ⟨6 * i + 5, by omega⟩ = 0 ∧ F ⟨6 * i + 2, by omega⟩ = -1 ∧ |F ⟨6 * i + 0, by omega⟩| < 2 / 10 ∧ |F ⟨6 * i + 1, by omega⟩| < 2 / 10) :
    ∀ᶠ F' in 𝓝 F, ContactsHold Stand.cs (F' ∘ Fin.cast Stand.dof.symm) := by
  have hcoord : ∀ (j k : Fin 12) (μ : ℝ), |F j| < μ * -F k → ∀ᶠ F' : Fin 12 → ℝ in 𝓝 F, |F' j| ≤ μ * -F' k := by
    intro j k μ h
    have h1 : Continuous fun F' : Fin 12 → ℝ => |F' j| := (continuous_apply j).abs
    have h2 : Continuous fun F' : Fin 12 → ℝ => μ * -F' k := continuous_const.mul (continuous_apply k).neg
    exact (h1.continuousAt.eventually_lt h2.continuousAt h).mono fun F' h => h.le
  have hall : ∀ᶠ F' : Fin 12 → ℝ in 𝓝 F, ∀ i : Fin 2,
      |F' ⟨6 * i + 4, by omega⟩| ≤ 15 / 100 * -F' ⟨6 * i + 2, by omega⟩ ∧ |F' ⟨6 * i + 3, by omega⟩| ≤ 75 / 1000 * -F' ⟨6 * i + 2, by omega⟩ ∧
      |F' ⟨6 * i + 0, by omega⟩| ≤ 2 / 10 * -F' ⟨6 * i + 2, by omega⟩ ∧ |F' ⟨6 * i + 1, by omega⟩| ≤ 2 / 10 * -F' ⟨6 * i + 2, by omega⟩ ∧
      |F' ⟨6 * i + 5, by omega⟩| ≤ 2 / 10 * -F' ⟨6 * i + 2, by omega⟩ := by
    refine eventually_all.mpr fun i => ?_
    obtain ⟨h3, h4, h5, h2, h0, h1⟩ := h i
    refine (hcoord _ _ _ ?_).and ((hcoord _ _ _ ?_).and ((hcoord _ _ _ ?_).and ((hcoord _ _ _ ?_).and (hcoord _ _ _ ?_))))
    · rw [h4, h2]; norm_num
    · rw [h3, h2]; norm_num
    · rw [h2]; linarith
    · rw [h2]; linarith
    · rw [h5, h2]; norm_num
  filter_upwards [hall] with F' hF i
  have hi : i.val < 2 := by have := i.isLt; have := Stand.dof; omega
  have hl : ∀ l ∈ active Stand.cs, l = exContact true := by
    rw [Stand.cs_active]; simp [Stand.cs]
  have hi' := hl _ (List.getElem_mem i.isLt)
  simp only [Fin.getElem_fin, hi']
  rw [show (exContact true).rotm = 1 from rfl, Stand.inFrame_one]
  obtain ⟨h4, h3, h0, h1, h5⟩ := hF ⟨i, hi⟩
  have hx : (exContact true).planeX = 15 / 100 := rfl
  have hy : (exContact true).planeY = 75 / 1000 := rfl
  have hf : (exContact true).friction = 2 / 10 := rfl
  have hz : (exContact true).frictionZ = 2 / 10 := rfl
  rw [hx, hy, hf, hz]
  refine ⟨?_, h0, h1, h5⟩
  rw [noTip_iff (by norm_num) (by norm_num)]
  exact ⟨h4, h3⟩

theorem G_cont : Continuous G := by
  have hF : Continuous F := by
    refine continuous_pi fun i => ?_
    unfold F
    by_cases h2 : i.val % 6 = 2
    · simp only [h2, if_true]; exact continuous_const
    · by_cases h0 : i.val % 6 = 0
      · simp only [h0, if_true]; exact continuous_const.add continuous_id
      · simp only [h2, h0, if_false]; exact continuous_const
  have : Continuous fun v : Fin 12 → ℝ => -(Reach.Jᵀ *ᵥ v) := (continuous_const.matrix_mulVec continuous_id).neg
  exact this.comp hF

/-- the task of the arm, as a family -/
def fam : TaskFam ℝ (Fin 7) := { t := 1, J := fun _ => Matrix.of fun _ => Pi.single (Sum.inr 6) 1, f := fun _ _ => 1 }

end Push

/-- The hypotheses of `C78_qp_first_partial` and `C78_qp_one_partial` are met by the biped of `C78_qp_jump` as long as the push is
smaller than what friction can take: there its command does not jump. -/
example (cod : (W : Matrix (Fin 7) (Fin 7) ℝ) → CodNull W) {x₀ : ℝ} (hx : -4 / 10 < x₀) (hx' : x₀ < 0) :
    VariesContinuously (fun x => (qpCycle Reach.J Reach.A⁻¹ (Push.G x) cod (some fun _ => 1 / 2) Stand.cs Stand.solver [Reach.T]).map
      fun r => (r.1, r.2.1, r.2.2.1)) x₀ ∧
    ∃ a : ℝ → Fin 1 → ℝ, ContinuousAt a x₀ ∧ ∀ᶠ x in 𝓝 x₀, ∃ τg τt τc,
      qpCycle Reach.J Reach.A⁻¹ (Push.G x) cod (some fun _ => 1 / 2) Stand.cs Stand.solver [Reach.T, Reach.T] = some (1, τg, τt, τc) ∧
      ∀ qdd F, Motion Reach.A Reach.J (Push.G x) (τg + τt + τc) qdd F → Reach.T.J *ᵥ qdd = a x := by
  obtain ⟨S, hS⟩ := Option.isSome_iff_exists.mp ((C02_finite_iff_independent Reach.hA).mpr Reach.J_ind)
  have hl : IsUnit (lastSixBase (c := 12) (by norm_num) Reach.J).det := by
    have : lastSixBase (by norm_num) Reach.J = 1 := by
      ext i j; fin_cases i <;> fin_cases j <;> simp [lastSixBase, Reach.J]
    rw [this]; simp
  have hfree : ∀ f : Fin 1 → ℝ, ∃ R, calculateJKT S Reach.A⁻¹ ⟨1, Reach.T.J, f⟩ = some R := by
    intro f
    refine Option.isSome_iff_exists.mp ((C06_finite_iff Reach.hA hS _).mpr ?_)
    rintro y ⟨F, hF⟩
    have := congrFun hF (Sum.inr 6)
    ext i
    simp [Reach.T, Reach.J, mulVec, dotProduct, Fin.sum_univ_succ] at this
    fin_cases i
    exact this.symm
  have h1 : closedCommand Reach.J Reach.A⁻¹ (Push.G x₀) [⟨1, Push.fam.J x₀, 0⟩] = some 0 := by
    obtain ⟨R, hR⟩ := hfree 0
    have hR' : calculateJKT S Reach.A⁻¹ ⟨1, Push.fam.J x₀, 0⟩ = some R := hR
    have hRf : R.Jkt *ᵥ (R.Λ *ᵥ R.f) = 0 := by
      have hz : R.f = 0 := by rw [((jkt_eq_some hS).mp hR').2]
      rw [hz, mulVec_zero, mulVec_zero]
    rw [closedCommand, hS]
    simp only [calcTaskSpace, List.mapM_cons, List.mapM_nil, hR', Option.pure_def, Option.bind_eq_bind, Option.bind_some,
      Option.map_some]
    rw [Push.tau_zero hS]
    show some (0 + (0 + 1 *ᵥ (R.Jkt *ᵥ (R.Λ *ᵥ R.f)))) = some 0
    rw [hRf, mulVec_zero, add_zero, add_zero]
  have hlow : (closedCommand Reach.J Reach.A⁻¹ (Push.G x₀) [Reach.T]).isSome := by
    obtain ⟨R, hR⟩ := hfree Reach.T.f
    have hR' : calculateJKT S Reach.A⁻¹ Reach.T = some R := hR
    rw [closedCommand, hS]
    simp only [calcTaskSpace, List.mapM_cons, List.mapM_nil, hR']
    rfl
  have hδ : MovesNothing Reach.A Reach.J (Push.G x₀) 0 := by
    intro τ q q' F F' h h'
    rw [add_zero] at h'
    rw [((motion_iff Reach.hA hS _ _ _ _).mp h).1, ((motion_iff Reach.hA hS _ _ _ _).mp h').1]
  have hmot : Motion Reach.A Reach.J (Push.G x₀) 0 0 (Push.F x₀) := by
    constructor
    · unfold Dynamics Push.G; simp [actuate]
    · unfold ContactsFixed; simp
  have hsafe : SafelyInside Reach.A Reach.J (Push.G x₀) (fun _ => 1 / 2) Stand.cs Stand.dof (0 + 0) := by
    rw [add_zero]
    refine ⟨fun j => by norm_num, fun q F hM => ?_⟩
    rw [(C01_contact_force_exact Reach.hA hS _ _).2.1 _ _ hM, ← (C01_contact_force_exact Reach.hA hS _ _).2.1 _ _ hmot]
    apply Push.hold_near
    have hab : |(2 / 10 + x₀ : ℝ)| < 2 / 10 := abs_lt.mpr ⟨by linarith, by linarith⟩
    intro i
    fin_cases i <;> simp [Push.F] <;> exact hab
  have hcont : ContinuousAt Push.fam.J x₀ ∧ ContinuousAt Push.fam.f x₀ := ⟨continuousAt_const, continuousAt_const⟩
  constructor
  · exact C78_qp_one_partial (A := fun _ => Reach.A) (J := fun _ => Reach.J) (fun _ => Reach.hA) continuousAt_const continuousAt_const
      Push.G_cont.continuousAt Reach.J_base (by norm_num) hl cod Stand.six Stand.plane Stand.dof Stand.solver_exact
      Stand.solver_complete (T := Push.fam) hcont h1 hδ hsafe
  · exact C78_qp_first_partial (A := fun _ => Reach.A) (J := fun _ => Reach.J) (fun _ => Reach.hA) continuousAt_const
      continuousAt_const Push.G_cont.continuousAt Reach.J_base (by norm_num) hl cod Stand.six Stand.plane Stand.dof Stand.solver_exact
      Stand.solver_complete (T := Push.fam) (lower := [Push.fam]) (fun U hU => by
        simp only [List.mem_cons, List.not_mem_nil, or_false, or_self] at hU; subst hU; exact hcont) hlow h1 hδ hsafe

end Verif.Props
