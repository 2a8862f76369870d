import Verif.Model.Repeat
import Verif.Props.ClosedForm
import Verif.Props.QPControl

/-!
# C54: redistributing twice
-/

set_option linter.unusedSectionVars false

namespace Verif.Props
open Matrix Verif Verif.Spec Verif.Model

section QP
variable {n c : ℕ}

/-- C54, with QP (partial: the solver is exact).  From the second call on nothing changes any more. -/
theorem C54_qp_partial {A : Matrix (Fin 6 ⊕ Fin n) (Fin 6 ⊕ Fin n) ℝ} {J : Matrix (Fin c) (Fin 6 ⊕ Fin n) ℝ}
    {G : Fin 6 ⊕ Fin n → ℝ} (hA : IsSPD A) (R : QPRobot n c) (hS : contactSpace J A⁻¹ = some R.S)
    (hP : R.P = gravityForce R.S G)
    (h6 : ∀ l ∈ R.cs, l.type = .c6d) (hp : ∀ l ∈ R.cs, 0 < l.planeX ∧ 0 < l.planeY)
    (hc : c = 6 * (active R.cs).length) (hc6 : 6 < c)
    {solve : RSolver} (hs : solve.Exact) {base τc τc' : Fin n → ℝ}
    (h : redistributeCall R solve base τc = some (1, τc')) {k : ℕ} {τk : Fin n → ℝ}
    (hk : redistributeCalls R solve base k τc' = some τk) : τk = τc' := by
  have hsound : solve.Sound := fun k d x hx => (hs k d x hx).1
  obtain ⟨hl, hf⟩ := C10_safe hA R hS hP h6 hp hc hc6 hsound h
  obtain ⟨qdd, hM⟩ := (C01_contact_force_exact hA hS G (base + τc')).1
  induction k with
  | zero => exact (Option.some.inj hk).symm
  | succ k ih =>
    unfold redistributeCalls at hk
    cases h1 : redistributeCall R solve base τc' with
    | none => simp [h1] at hk
    | some r =>
      obtain ⟨v, τ2⟩ := r
      by_cases hv : v = 1
      · subst hv
        obtain rfl := C10_unchanged hA R hS hP h6 hp hc hc6 hs hl hM (hf _ _ hM) h1
        simp only [h1] at hk
        exact ih hk
      · rw [h1] at hk
        exfalso
        revert hk
        split
        · rename_i heq
          simp only [Option.some.injEq, Prod.mk.injEq] at heq
          exact absurd heq.1 hv
        · simp

/-- The hypotheses are met: the first call changes the torque, and three more calls succeed. -/
example (cod : (W : Matrix (Fin 6) (Fin 6) ℝ) → CodNull W) : ∃ S NwJw τc', contactSpace Ex.J Ex.A⁻¹ = some S ∧
    redistributeCall (Stand.robot S NwJw Stand.τ₀ Stand.L₀) Stand.rsolver Stand.τ₀ 0 = some (1, τc') ∧ τc' ≠ 0 ∧
    redistributeCalls (Stand.robot S NwJw Stand.τ₀ Stand.L₀) Stand.rsolver Stand.τ₀ 3 τc' = some τc' := by
  obtain ⟨S, k, V2, NwJw, τc', hR, hS, h, hne⟩ := C10_hypotheses_met cod
  refine ⟨S, NwJw, τc', hS, h, hne, ?_⟩
  have hsame : redistributeCall (Stand.robot S NwJw Stand.τ₀ Stand.L₀) Stand.rsolver Stand.τ₀ τc' = some (1, τc') := by
    obtain ⟨hl, hf⟩ := C10_safe Ex.hA (Stand.robot S NwJw Stand.τ₀ Stand.L₀) hS (G := Stand.G Stand.τ₀) rfl
      Stand.six Stand.plane Stand.dof (by norm_num) (fun k d x hx => (Stand.rsolver_exact k d x hx).1) h
    obtain ⟨τ2, h2⟩ := (C10_succeeds_iff Ex.hA (Stand.robot S NwJw Stand.τ₀ Stand.L₀) hS (G := Stand.G Stand.τ₀) rfl
      Stand.six Stand.plane Stand.dof (by norm_num) cod hR Stand.rsolver_exact Stand.rsolver_complete Stand.τ₀ τc').mpr
      ⟨τc', hl, fun qdd F qdd' F' hM hM' =>
        ⟨(C01_contact_force_exact Ex.hA hS _ _).2.2 _ _ _ _ hM' hM, hf _ _ hM'⟩⟩
    obtain ⟨qdd, hM⟩ := (C01_contact_force_exact Ex.hA hS (Stand.G Stand.τ₀) (Stand.τ₀ + τc')).1
    obtain rfl := C10_unchanged Ex.hA (Stand.robot S NwJw Stand.τ₀ Stand.L₀) hS (G := Stand.G Stand.τ₀) rfl
      Stand.six Stand.plane Stand.dof (by norm_num) Stand.rsolver_exact hl hM (hf _ _ hM) h2
    exact h2
  simp only [redistributeCalls, hsame]

end QP

section Closed
variable {ι : Type*} [Fintype ι] [DecidableEq ι]
variable {A : Matrix (Fin 6 ⊕ ι) (Fin 6 ⊕ ι) ℝ} {J : Matrix (Fin 12) (Fin 6 ⊕ ι) ℝ} {S : ContactSpace 12 ι}

theorem resultant_of_same {P1 P2 : Vec3} {F F' : Fin 12 → ℝ}
    (h : SameResultant P1 P2 (foot1 F') (foot2 F') (foot1 F) (foot2 F)) : resultant P1 P2 F' = resultant P1 P2 F := by
  obtain ⟨h1, h2⟩ := h
  have a0 := congrFun h1 0; have a1 := congrFun h1 1; have a2 := congrFun h1 2
  have b0 := congrFun h2 0; have b1 := congrFun h2 1; have b2 := congrFun h2 2
  simp [fpart, mpart, foot1, foot2, cross_apply] at a0 a1 a2 b0 b1 b2
  ext i
  fin_cases i <;> simp [resultant] <;> linarith

theorem rotate12_inv' (y : ℝ) (F : Fin 12 → ℝ) : rotate12 (rotateWithZ y) (rotate12 (rotateWithZ y)ᵀ F) = F := by
  have hcs := Real.sin_sq_add_cos_sq y
  ext i
  fin_cases i <;>
    simp [rotate12, rotateWithZ, mulVec, dotProduct, Fin.sum_univ_three] <;> grind

/-- Redistributing the redistributed wrenches gives them again. -/
theorem closedFormForce_again {s : Fin 4 → Bool} {pos : List Vec3} {com : Vec3} {yaw : ℝ} {F fc : Fin 12 → ℝ}
    (h : closedFormForce s pos com yaw F = some fc) : closedFormForce s pos com yaw fc = some fc := by
  simp only [closedFormForce, Option.bind_eq_bind, Option.bind_eq_some_iff, Option.pure_def, Option.some.injEq] at h ⊢
  obtain ⟨p1, h1, p2, h2, ⟨eta, F'⟩, hF', rfl⟩ := h
  refine ⟨p1, h1, p2, h2, (eta, F'), ?_, rfl⟩
  have hr := resultant_of_same (C14_resultant hF')
  rw [rotate12_inv']
  unfold contactRedistribute at hF' ⊢
  rw [hr]
  exact hF'

/-- C54, without QP, disagreement.  A successful redistribution is undone by the next call: the contact torque is zero
again and the control torque is what it was before the first call. -/
theorem C54_second_call_undoes (hA : IsSPD A) (hS : contactSpace J A⁻¹ = some S) (f : CodNull S.W)
    {s : Fin 4 → Bool} {p₁ p₂ : Vec3} {rest : List Vec3} (hJ : RigidBase J p₁ p₂)
    {com : Vec3} {yaw : ℝ} {G : Fin 6 ⊕ ι → ℝ} {base τc : ι → ℝ}
    (h : closedFormCall S f (gravityForce S G) s (p₁ :: p₂ :: rest) com yaw base 0 = some τc) :
    closedFormCall S f (gravityForce S G) s (p₁ :: p₂ :: rest) com yaw base τc = some 0 := by
  unfold closedFormCall at h ⊢
  rw [add_zero] at h
  obtain ⟨qdd, hM⟩ := (C01_contact_force_exact hA hS G base).1
  obtain ⟨qdd', hM'⟩ := (C01_contact_force_exact hA hS G (base + τc)).1
  obtain ⟨-, hfc, -⟩ := C49_closed_form_partial hA hS f hJ h hM hM'
  have h2 := closedFormForce_again hfc
  have hd := (C49_defined hA hS f hJ (G := G) (τ := base + τc) (pos := p₁ :: p₂ :: rest) (com := com) (yaw := yaw) (s := s)).mpr
    (by rw [h2]; rfl)
  obtain ⟨τ2, hτ2⟩ := Option.isSome_iff_exists.mp hd
  rw [hτ2]
  unfold closedFormTorque at hτ2
  dsimp only at hτ2
  rw [h2] at hτ2
  simp only at hτ2
  split at hτ2
  · split at hτ2
    · cases hτ2
    · rw [← hτ2]
      congr 1
      have : (fun i : Fin 6 => -contactForce S (gravityForce S G) (base + τc) (⟨6 + i, by omega⟩ : Fin 12)
          + contactForce S (gravityForce S G) (base + τc) (⟨6 + i, by omega⟩ : Fin 12)) = 0 := by
        ext i; simp
      rw [this, mulVec_zero]
  · cases hτ2

/-- C54, without QP, for every number of calls: the contact torque alternates between the redistribution and zero. -/
theorem C54_alternates (hA : IsSPD A) (hS : contactSpace J A⁻¹ = some S) (f : CodNull S.W)
    {s : Fin 4 → Bool} {p₁ p₂ : Vec3} {rest : List Vec3} (hJ : RigidBase J p₁ p₂)
    {com : Vec3} {yaw : ℝ} {G : Fin 6 ⊕ ι → ℝ} {base τc : ι → ℝ}
    (h : closedFormCall S f (gravityForce S G) s (p₁ :: p₂ :: rest) com yaw base 0 = some τc) (k : ℕ) :
    closedFormCalls S f (gravityForce S G) s (p₁ :: p₂ :: rest) com yaw base k 0 = some (if k % 2 = 1 then τc else 0) := by
  have h2 := C54_second_call_undoes hA hS f hJ h
  have key : ∀ k, closedFormCalls S f (gravityForce S G) s (p₁ :: p₂ :: rest) com yaw base k 0
        = some (if k % 2 = 1 then τc else 0) ∧
      closedFormCalls S f (gravityForce S G) s (p₁ :: p₂ :: rest) com yaw base k τc
        = some (if k % 2 = 1 then 0 else τc) := by
    intro k
    induction k with
    | zero => exact ⟨rfl, rfl⟩
    | succ k ih =>
      constructor
      · rw [closedFormCalls, h, Option.bind_some, ih.2]
        congr 1
        rcases Nat.mod_two_eq_zero_or_one k with e | e
        · rw [if_neg (by omega), if_pos (by omega)]
        · rw [if_pos (by omega), if_neg (by omega)]
      · rw [closedFormCalls, h2, Option.bind_some, ih.1]
        congr 1
        rcases Nat.mod_two_eq_zero_or_one k with e | e
        · rw [if_neg (by omega), if_pos (by omega)]
        · rw [if_pos (by omega), if_neg (by omega)]
  exact (key k).1

/-- C54, without QP, disagreement.  A contact torque that is already there (from QP task control, say) is dropped: the
second contact then carries its redistributed wrench minus what the dropped torque contributed. -/
theorem C54_previous_contact_torque_dropped (hA : IsSPD A) (hS : contactSpace J A⁻¹ = some S) (f : CodNull S.W)
    {s : Fin 4 → Bool} {pos : List Vec3} {com : Vec3} {yaw : ℝ} {G : Fin 6 ⊕ ι → ℝ} {base τ₀ τc : ι → ℝ}
    (h : closedFormCall S f (gravityForce S G) s pos com yaw base τ₀ = some τc)
    {qdd qdd' qdd'' : Fin 6 ⊕ ι → ℝ} {F F' D₁ D₂ : Fin 12 → ℝ}
    (hM : Motion A J G (base + τ₀) qdd F) (hM' : Motion A J G (base + τc) qdd' F')
    (h1 : Motion A J G base qdd'' D₁) (h2 : D₂ = F - D₁) :
    ∃ fc, closedFormForce s pos com yaw F = some fc ∧ wrench2 F' = wrench2 (fc - D₂) := by
  obtain ⟨q3, hM3⟩ := (C01_contact_force_exact hA hS G (base + τ₀ + τc)).1
  obtain ⟨-, fc, hfc, hw⟩ := C49_second_contact hA hS f h hM hM3
  refine ⟨fc, hfc, ?_⟩
  have e := fun τ q F' h => (C01_contact_force_exact hA hS G τ).2.1 q F' h
  have hsum : F' = contactForce S (gravityForce S G) (base + τ₀ + τc) - D₂ := by
    rw [h2, e _ _ _ hM', e _ _ _ hM, e _ _ _ h1]
    simp only [contactForce, mulVec_add]
    abel
  have hw2 : ∀ X Y : Fin 12 → ℝ, wrench2 (X - Y) = wrench2 X - wrench2 Y := by
    intro X Y; ext i; fin_cases i <;> simp [wrench2]
  rw [hsum, hw2, hw2, hw]

end Closed

/-- The hypotheses are met, with a contact torque that is not zero: two feet, all the load on the first one. -/
example (s : Fin 4 → Bool) : ∃ (S : ContactSpace 12 (Fin 6)) (f : CodNull S.W) (G : Fin 6 ⊕ Fin 6 → ℝ) (τc : Fin 6 → ℝ),
    IsSPD (1 : Matrix (Fin 6 ⊕ Fin 6) (Fin 6 ⊕ Fin 6) ℝ) ∧
    contactSpace (rigidJ ![0, 1, 0] ![0, -1, 0]) (1 : Matrix _ _ ℝ)⁻¹ = some S ∧
    RigidBase (rigidJ ![0, 1, 0] ![0, -1, 0]) ![0, 1, 0] ![0, -1, 0] ∧
    closedFormCall S f (gravityForce S G) s [![0, 1, 0], ![0, -1, 0]] 0 0 0 0 = some τc ∧ τc ≠ 0 := by
  obtain ⟨S, f, G, τc, qdd, qdd', F', hA, hS, hJ, hτ, hm, hm', h2, h8⟩ := C49_hypotheses_met ![0, 1, 0] ![0, -1, 0] s []
  refine ⟨S, f, G, τc, hA, hS, hJ, ?_, ?_⟩
  · unfold closedFormCall; rw [add_zero]; exact hτ
  · rintro rfl
    obtain ⟨-, hfc, -⟩ := C49_closed_form_partial hA hS f hJ hτ hm hm'
    rw [add_zero] at hm'
    have e : F' = pairForce := ((C01_contact_force_exact hA hS G 0).2.1 _ _ hm').trans
      ((C01_contact_force_exact hA hS G 0).2.1 _ _ hm).symm
    rw [e] at hfc
    simp only [closedFormForce, List.getElem?_cons_zero, List.getElem?_cons_succ, Option.bind_eq_bind,
      Option.bind_some, Option.bind_eq_some_iff, Option.pure_def, Option.some.injEq] at hfc
    obtain ⟨⟨eta, F1⟩, hF1, he⟩ := hfc
    have hr := C14_ratio hF1
    have hload := congrFun he 2
    unfold contactRedistribute at hF1
    split at hF1
    · simp only [Option.some.injEq, Prod.mk.injEq] at hF1
      obtain ⟨rfl, rfl⟩ := hF1
      simp [rotate12, rotateWithZ, splitForce, resultant, mulVec, dotProduct, Fin.sum_univ_three, pairForce] at hload
      norm_num [dwbcParams] at hr
      rcases hr with hr | hr <;> linarith
    · cases hF1

end Verif.Props
