import Verif.Lemmas.ClosedForm
import Verif.Props.Redistribute
import Verif.Props.Contact

/-!
# C49: redistribution of contact forces without a QP, two six-dimensional contacts
-/
set_option linter.unusedSectionVars false

namespace Verif.Props
open Matrix Verif Verif.Spec Verif.Model

variable {ι : Type*} [Fintype ι] [DecidableEq ι]
variable {A : Matrix (Fin 6 ⊕ ι) (Fin 6 ⊕ ι) ℝ} {J : Matrix (Fin 12) (Fin 6 ⊕ ι) ℝ} {S : ContactSpace 12 ι}

theorem rigid_baseDetermined {p₁ p₂ : Fin 3 → ℝ} (hJ : RigidBase J p₁ p₂) : BaseDetermined J := by
  obtain ⟨o, T, hT, hV⟩ := hJ
  have key : ∀ w : Fin 6 → ℝ, J *ᵥ Sum.elim w 0 = 0 → T w = 0 := by
    intro w hw
    obtain ⟨h1, h2, -, -⟩ := hV w
    rw [hw] at h1 h2
    have x3 := congrFun h2 0; have x4 := congrFun h2 1; have x5 := congrFun h2 2
    have x0 := congrFun h1 0; have x1 := congrFun h1 1; have x2 := congrFun h1 2
    simp [mpart, wrench1] at x3 x4 x5
    simp [fpart, mpart, wrench1, cross_apply, ← x3, ← x4, ← x5] at x0 x1 x2
    ext i
    fin_cases i <;> simp [*] <;> simp [← x0, ← x1, ← x2, ← x3, ← x4, ← x5]
  intro w hw
  have h0 : T 0 = 0 := key 0 (by
    have : (Sum.elim 0 0 : Fin 6 ⊕ ι → ℝ) = 0 := by ext i; rcases i with i | i <;> rfl
    rw [this, mulVec_zero])
  exact hT.1 ((key w hw).trans h0.symm)

/-- The redistributed pair has the resultant of the given pair, about the two positions used. -/
theorem closedFormForce_resultant {s : Fin 4 → Bool} {p₁ p₂ : Vec3} {rest : List Vec3} {com : Vec3} {yaw : ℝ}
    {F fc : Fin 12 → ℝ} (h : closedFormForce s (p₁ :: p₂ :: rest) com yaw F = some fc) :
    ZeroResultant p₁ p₂ (fc - F) := by
  simp only [closedFormForce, List.getElem?_cons_zero, List.getElem?_cons_succ, Option.bind_eq_bind, Option.bind_some,
    Option.bind_eq_some_iff, Option.pure_def, Option.some.injEq] at h
  obtain ⟨⟨eta, F'⟩, hF', rfl⟩ := h
  have h1 := C14_resultant hF'
  have h2 : ZeroResultant _ _ (F' - rotate12 (rotateWithZ (-yaw)) F) := (sameResultant_iff _ _ _ _).mp h1
  have h3 := zeroResultant_rotate (-yaw) h2
  rw [rotate12_sub, rotate12_inv] at h3
  exact zeroResultant_shift.mp h3

/-- **C49 (any registered contacts).** Whenever a torque is produced, adding it leaves every acceleration unchanged and
makes the wrench at the second active contact equal to the second redistributed wrench. -/
theorem C49_second_contact (hA : IsSPD A) (hS : contactSpace J A⁻¹ = some S) (f : CodNull S.W)
    {s : Fin 4 → Bool} {pos : List Vec3} {com : Vec3} {yaw : ℝ} {G : Fin 6 ⊕ ι → ℝ} {τ τc : ι → ℝ}
    (hτ : closedFormTorque S f (gravityForce S G) s pos com yaw τ = some τc)
    {qdd qdd' : Fin 6 ⊕ ι → ℝ} {F F' : Fin 12 → ℝ}
    (h : Motion A J G τ qdd F) (h' : Motion A J G (τ + τc) qdd' F') :
    qdd' = qdd ∧ ∃ fc, closedFormForce s pos com yaw F = some fc ∧ wrench2 F' = wrench2 fc := by
  have hF : F = contactForce S (gravityForce S G) τ := (C01_contact_force_exact hA hS G τ).2.1 _ _ h
  unfold closedFormTorque at hτ
  rw [← hF] at hτ
  dsimp only at hτ
  split at hτ
  · cases hτ
  rename_i fc hfc
  split at hτ
  · rename_i hk
    split at hτ
    · cases hτ
    rename_i X hX
    simp only [Option.some.injEq] at hτ
    obtain ⟨hu, rfl⟩ := eigenInverse_eq_some.mp hX
    set M : Matrix (Fin 6) (Fin 6) ℝ := (bottomRight S * f.V2ᵀ).submatrix id (Fin.cast hk) with hM
    set x : Fin 6 → ℝ := fun i : Fin 6 => -F (⟨6 + i, by omega⟩ : Fin 12) + fc (⟨6 + i, by omega⟩ : Fin 12) with hx
    rw [motion_iff hA hS] at h h'
    have hP : S.AinvNc *ᵥ ((Sel ι)ᵀ *ᵥ τc) = 0 := by
      rw [← hτ, mulVec_mulVec, mulVec_mulVec]
      have e : S.AinvNc * (Sel ι)ᵀ * (f.V2ᵀ.submatrix id (Fin.cast hk))
          = (S.AinvNc * (Sel ι)ᵀ * f.V2ᵀ).submatrix id (Fin.cast hk) := rfl
      rw [← Matrix.mul_assoc, e, P_V2T hA hS f]
      simp
    refine ⟨?_, fc, hfc, ?_⟩
    · rw [h'.1, h.1, actuate_eq, actuate_eq, mulVec_add, add_sub_right_comm, mulVec_add, hP, add_zero]
    · have hd : F' = F + S.JcInvT.submatrix id Sum.inr *ᵥ τc := by
        rw [h'.2, h.2, actuate_eq, actuate_eq, mulVec_add, add_sub_right_comm, mulVec_add]
        congr 1
        rw [mulVec_mulVec, mul_selT]
      have hb : bottomRight S *ᵥ τc = x := by
        rw [← hτ, mulVec_mulVec, ← Matrix.mul_assoc]
        have e : bottomRight S * (f.V2ᵀ.submatrix id (Fin.cast hk)) = M := rfl
        rw [e, mul_nonsing_inv _ hu, one_mulVec]
      have key : ∀ i : Fin 6, F' (⟨6 + i, by omega⟩ : Fin 12) = fc (⟨6 + i, by omega⟩ : Fin 12) := by
        intro i
        have e := congrFun hb i
        rw [hd, Pi.add_apply]
        have e' : (S.JcInvT.submatrix id Sum.inr *ᵥ τc) (⟨6 + i, by omega⟩ : Fin 12) = (bottomRight S *ᵥ τc) i := rfl
        rw [e', e, hx]
        ring
      ext i
      fin_cases i
      · exact key 0
      · exact key 1
      · exact key 2
      · exact key 3
      · exact key 4
      · exact key 5
  · cases hτ

/-- **C49.** If the two active contacts are the first two registered ones, at `p₁` and `p₂`, then adding the torque
leaves every acceleration unchanged and the contact wrenches become exactly the redistributed ones, which have the same
resultant as before. -/
theorem C49_closed_form_partial (hA : IsSPD A) (hS : contactSpace J A⁻¹ = some S) (f : CodNull S.W)
    {s : Fin 4 → Bool} {p₁ p₂ : Vec3} {rest : List Vec3} (hJ : RigidBase J p₁ p₂)
    {com : Vec3} {yaw : ℝ} {G : Fin 6 ⊕ ι → ℝ} {τ τc : ι → ℝ}
    (hτ : closedFormTorque S f (gravityForce S G) s (p₁ :: p₂ :: rest) com yaw τ = some τc)
    {qdd qdd' : Fin 6 ⊕ ι → ℝ} {F F' : Fin 12 → ℝ}
    (h : Motion A J G τ qdd F) (h' : Motion A J G (τ + τc) qdd' F') :
    qdd' = qdd ∧ closedFormForce s (p₁ :: p₂ :: rest) com yaw F = some F' ∧
    SameResultant p₁ p₂ (wrench1 F') (wrench2 F') (wrench1 F) (wrench2 F) := by
  obtain ⟨hq, fc, hfc, hw⟩ := C49_second_contact hA hS f hτ h h'
  have hz := closedFormForce_resultant hfc
  have hbase : ZeroResultant p₁ p₂ (F' - F) := by
    refine zeroResultant_of_base hJ fun i => ?_
    have e1 := h.1
    have e2 := h'.1
    unfold Dynamics at e1 e2
    rw [hq] at e2
    have a := congrFun e1 (Sum.inl i)
    have b := congrFun e2 (Sum.inl i)
    simp only [Pi.add_apply, actuate, Sum.elim_inl, Pi.zero_apply] at a b
    rw [mulVec_sub, Pi.sub_apply]
    linarith
  have hw2 : wrench2 (F' - F) = wrench2 (fc - F) := by
    have g : ∀ i, wrench2 F' i = wrench2 fc i := fun i => congrFun hw i
    ext i
    have := g i
    fin_cases i <;> simp [wrench2] at this ⊢ <;> linarith
  have := zeroResultant_unique hbase hz hw2
  have hF' : F' = fc := by
    have := congrArg (· + F) this
    simpa using this
  exact ⟨hq, hF' ▸ hfc, (sameResultant_iff _ _ _ _).mpr hbase⟩

/-- **C49 (a torque is produced).** In that configuration a torque is produced whenever the split ratio is finite. -/
theorem C49_defined (hA : IsSPD A) (hS : contactSpace J A⁻¹ = some S) (f : CodNull S.W)
    {s : Fin 4 → Bool} {p₁ p₂ : Vec3} (hJ : RigidBase J p₁ p₂) {pos : List Vec3}
    {com : Vec3} {yaw : ℝ} {G : Fin 6 ⊕ ι → ℝ} {τ : ι → ℝ} :
    (closedFormTorque S f (gravityForce S G) s pos com yaw τ).isSome ↔
      (closedFormForce s pos com yaw (contactForce S (gravityForce S G) τ)).isSome := by
  have hk : 6 = f.k := by
    have h1 := finrank_ker_W hA hS
    have h2 := (baseDetermined_iff_rank J).mp (rigid_baseDetermined hJ)
    have h3 := cod_k hA hS f
    omega
  have hu := closedForm_isUnit hA hS f hJ hk
  unfold closedFormTorque
  cases hc : closedFormForce s pos com yaw (contactForce S (gravityForce S G) τ) with
  | none => simp only [hc]; simp
  | some fc =>
    simp only [hc]
    rw [dif_pos hk]
    simp only [eigenInverse, if_pos hu]
    simp

/-! ## The positions are those of the first two registered contacts -/

/-- Three registered contacts. -/
def threeFeet : List Vec3 := [![0, 1, 0], ![0, -1, 0], ![0, 3, 0]]

/-- **C49 (negation).** Three contacts are registered and the last two are active.  Whatever the robot, the centre of
mass, the yaw angle and the input torque: if all the vertical load is on the first active contact, the contact wrenches
after adding the torque are *not* the redistributed ones. -/
theorem C49_wrong_pair (hA : IsSPD A) (hS : contactSpace J A⁻¹ = some S) (f : CodNull S.W)
    {s : Fin 4 → Bool} (hJ : RigidBase J ![0, -1, 0] ![0, 3, 0]) {com : Vec3} {yaw : ℝ} {G : Fin 6 ⊕ ι → ℝ} {τ τc : ι → ℝ}
    (hτ : closedFormTorque S f (gravityForce S G) s threeFeet com yaw τ = some τc)
    {qdd qdd' : Fin 6 ⊕ ι → ℝ} {F F' : Fin 12 → ℝ} (h : Motion A J G τ qdd F) (h' : Motion A J G (τ + τc) qdd' F')
    (h2 : F 2 = -2) (h8 : F 8 = 0) :
    closedFormForce s threeFeet com yaw F ≠ some F' := by
  intro hfc
  obtain ⟨hq, -⟩ := C49_second_contact hA hS f hτ h h'
  have hbase : ZeroResultant ![0, -1, 0] ![0, 3, 0] (F' - F) := by
    refine zeroResultant_of_base hJ fun i => ?_
    have e1 := h.1
    have e2 := h'.1
    unfold Dynamics at e1 e2
    rw [hq] at e2
    have a := congrFun e1 (Sum.inl i)
    have b := congrFun e2 (Sum.inl i)
    simp only [Pi.add_apply, actuate, Sum.elim_inl, Pi.zero_apply] at a b
    rw [mulVec_sub, Pi.sub_apply]
    linarith
  have hz : ZeroResultant ![0, 1, 0] ![0, -1, 0] (F' - F) := closedFormForce_resultant hfc
  rw [zeroResultant_iff] at hbase hz
  obtain ⟨-, -, a2, a3, -, -⟩ := hbase
  obtain ⟨-, -, -, b3, -, -⟩ := hz
  simp at a2 a3 b3
  have hload : F' 2 = F 2 := by linarith
  -- but the first contact never keeps all of the load
  simp only [closedFormForce, threeFeet, List.getElem?_cons_zero, List.getElem?_cons_succ, Option.bind_eq_bind,
    Option.bind_some, Option.bind_eq_some_iff, Option.pure_def, Option.some.injEq] at hfc
  obtain ⟨⟨eta, F1⟩, hF1, rfl⟩ := hfc
  have hr := C14_ratio hF1
  unfold contactRedistribute at hF1
  split at hF1
  · simp only [Option.some.injEq, Prod.mk.injEq] at hF1
    obtain ⟨rfl, rfl⟩ := hF1
    simp [rotate12, rotateWithZ, splitForce, resultant, mulVec, dotProduct, Fin.sum_univ_three, h2, h8] at hload
    norm_num [dwbcParams] at hr
    rcases hr with hr | hr <;> linarith
  · cases hF1

/-! ## Concrete robots -/

/-- Two contacts rigidly attached to the base at `p₁`, `p₂`, six joints moving the second one. -/
def rigidJ (p₁ p₂ : Vec3) : Matrix (Fin 12) (Fin 6 ⊕ Fin 6) ℝ := Matrix.of fun i s =>
  match s with
  | Sum.inl j =>
    (![![1, 0, 0, 0, p₁ 2, -p₁ 1], ![0, 1, 0, -p₁ 2, 0, p₁ 0], ![0, 0, 1, p₁ 1, -p₁ 0, 0],
      ![0, 0, 0, 1, 0, 0], ![0, 0, 0, 0, 1, 0], ![0, 0, 0, 0, 0, 1],
      ![1, 0, 0, 0, p₂ 2, -p₂ 1], ![0, 1, 0, -p₂ 2, 0, p₂ 0], ![0, 0, 1, p₂ 1, -p₂ 0, 0],
      ![0, 0, 0, 1, 0, 0], ![0, 0, 0, 0, 1, 0], ![0, 0, 0, 0, 0, 1]] : Fin 12 → Fin 6 → ℝ) i j
  | Sum.inr j => if i.val = j.val + 6 then 1 else 0

theorem rigidJ_rigid (p₁ p₂ : Vec3) : RigidBase (rigidJ p₁ p₂) p₁ p₂ := by
  refine ⟨0, id, Function.bijective_id, fun w => ?_⟩
  have e : rigidJ p₁ p₂ *ᵥ Sum.elim w 0 = ![w 0 + (w 4 * p₁ 2 - w 5 * p₁ 1), w 1 + (w 5 * p₁ 0 - w 3 * p₁ 2),
      w 2 + (w 3 * p₁ 1 - w 4 * p₁ 0), w 3, w 4, w 5, w 0 + (w 4 * p₂ 2 - w 5 * p₂ 1), w 1 + (w 5 * p₂ 0 - w 3 * p₂ 2),
      w 2 + (w 3 * p₂ 1 - w 4 * p₂ 0), w 3, w 4, w 5] := by
    have e' : ∀ i, (rigidJ p₁ p₂ *ᵥ Sum.elim w 0) i = ∑ j, rigidJ p₁ p₂ i (Sum.inl j) * w j := by
      intro i
      simp [mulVec, dotProduct, Fintype.sum_sum_type]
    ext i
    rw [e', Fin.sum_univ_six]
    fin_cases i <;> simp [rigidJ] <;> ring
  rw [e]
  refine ⟨?_, ?_, ?_, ?_⟩ <;> ext i <;> fin_cases i <;>
    simp [fpart, mpart, wrench1, wrench2, cross_apply]

theorem rigidJ_ind (p₁ p₂ : Vec3) : IndependentRows (rigidJ p₁ p₂) := by
  intro F h
  have hz := zeroResultant_of_base (rigidJ_rigid p₁ p₂) (D := F) (fun i => by rw [h]; rfl)
  have hr : ∀ j : Fin 6, ((rigidJ p₁ p₂)ᵀ *ᵥ F) (Sum.inr j) = 0 := fun j => by rw [h]; rfl
  have hw : wrench2 F = wrench2 0 := by
    have e : ∀ j : Fin 6, ((rigidJ p₁ p₂)ᵀ *ᵥ F) (Sum.inr j) = F ⟨j + 6, by omega⟩ := by
      intro j
      simp [mulVec, dotProduct, rigidJ]
      rw [Finset.sum_eq_single (⟨j + 6, by omega⟩ : Fin 12)]
      · simp
      · intro b _ hb
        rw [if_neg (fun hh => hb (Fin.ext hh))]
      · simp
    have r0 := hr 0; have r1 := hr 1; have r2 := hr 2; have r3 := hr 3; have r4 := hr 4; have r5 := hr 5
    rw [e] at r0 r1 r2 r3 r4 r5
    ext i
    fin_cases i
    · exact r0
    · exact r1
    · exact r2
    · exact r3
    · exact r4
    · exact r5
  exact zeroResultant_unique hz (by rw [zeroResultant_iff]; simp) hw

/-- All the load on the first contact, off its centre. -/
def pairForce : Fin 12 → ℝ := ![0, 0, -2, 1, 0, 0, 0, 0, 0, 0, 0, 0]

/-- A split is found for `pairForce` from the first two registered positions. -/
theorem pairForce_split (s : Fin 4 → Bool) (rest : List Vec3) :
    (closedFormForce s (![0, 1, 0] :: ![0, -1, 0] :: rest) 0 0 pairForce).isSome := by
  have hR : rotateWithZ (-0) = 1 := by
    ext i j
    fin_cases i <;> fin_cases j <;> simp [rotateWithZ]
  have e : rotate12 1 pairForce = pairForce := by
    ext i
    fin_cases i <;> simp [rotate12, pairForce]
  have h : contactRedistribute s dwbcParams ![0, 1, 0] ![0, -1, 0] pairForce ≠ none := by
    rw [Ne, C14_finite_iff (by constructor <;> norm_num [dwbcParams])]
    simp [coefA, resultant, pairForce]
  obtain ⟨x, hx⟩ := Option.ne_none_iff_exists'.mp h
  simp only [closedFormForce, List.getElem?_cons_zero, List.getElem?_cons_succ, Option.bind_eq_bind, Option.bind_some,
    hR, e, one_mulVec, sub_zero, hx]
  simp

/-- The hypotheses of `C49_closed_form_partial` (feet at the first two registered positions) and of `C49_wrong_pair` (feet
at the last two) are met by robots with unit inertia, at zero input torque, with contact force `pairForce`. -/
theorem C49_hypotheses_met (p₁ p₂ : Vec3) (s : Fin 4 → Bool) (rest : List Vec3) :
    ∃ (S : ContactSpace 12 (Fin 6)) (f : CodNull S.W) (G : Fin 6 ⊕ Fin 6 → ℝ) (τc : Fin 6 → ℝ)
      (qdd qdd' : Fin 6 ⊕ Fin 6 → ℝ) (F' : Fin 12 → ℝ),
      IsSPD (1 : Matrix (Fin 6 ⊕ Fin 6) (Fin 6 ⊕ Fin 6) ℝ) ∧ contactSpace (rigidJ p₁ p₂) (1 : Matrix _ _ ℝ)⁻¹ = some S ∧
      RigidBase (rigidJ p₁ p₂) p₁ p₂ ∧
      closedFormTorque S f (gravityForce S G) s (![0, 1, 0] :: ![0, -1, 0] :: rest) 0 0 0 = some τc ∧
      Motion 1 (rigidJ p₁ p₂) G 0 qdd pairForce ∧ Motion 1 (rigidJ p₁ p₂) G (0 + τc) qdd' F' ∧
      pairForce 2 = -2 ∧ pairForce 8 = 0 := by
  have hA : IsSPD (1 : Matrix (Fin 6 ⊕ Fin 6) (Fin 6 ⊕ Fin 6) ℝ) := isSPD_one
  obtain ⟨S, hS⟩ := Option.isSome_iff_exists.mp ((C02_finite_iff_independent hA).mpr (rigidJ_ind p₁ p₂))
  obtain ⟨f⟩ := exists_codNull S.W
  set G : Fin 6 ⊕ Fin 6 → ℝ := -((rigidJ p₁ p₂)ᵀ *ᵥ pairForce) with hG
  have hF : contactForce S (gravityForce S G) 0 = pairForce := by
    unfold contactForce gravityForce
    rw [mulVec_zero, hG, mulVec_neg, mulVec_mulVec, cs_JcInvT_JT hS]
    simp
  have hd : (closedFormTorque S f (gravityForce S G) s (![0, 1, 0] :: ![0, -1, 0] :: rest) 0 0 0).isSome := by
    rw [C49_defined hA hS f (rigidJ_rigid p₁ p₂), hF]
    exact pairForce_split s rest
  obtain ⟨τc, hτ⟩ := Option.isSome_iff_exists.mp hd
  obtain ⟨qdd, hm⟩ := (C01_contact_force_exact hA hS G 0).1
  obtain ⟨qdd', hm'⟩ := (C01_contact_force_exact hA hS G (0 + τc)).1
  rw [hF] at hm
  exact ⟨S, f, G, τc, qdd, qdd', _, hA, hS, rigidJ_rigid p₁ p₂, hτ, hm, hm', by simp [pairForce], by simp [pairForce]⟩

end Verif.Props
