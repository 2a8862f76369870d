import Verif.Spec.Mirror
import Verif.Props.Order
import Verif.Props.Renumbered

set_option linter.unusedSectionVars false

namespace Verif
open Matrix Verif.Spec Verif.Model Verif.Props

/-- The mirror on the base coordinates. -/
def mirrorSix : Matrix (Fin 6) (Fin 6) ℝ := diagonal mirrorSign

/-- The mirror on the contact rows. -/
def mirrorRows (k : ℕ) : Matrix (Fin (6 * k)) (Fin (6 * k)) ℝ := diagonal fun r => mirrorSign ⟨r % 6, by omega⟩

theorem mirrorSign_sq (r : Fin 6) : mirrorSign r * mirrorSign r = 1 := by fin_cases r <;> simp [mirrorSign]

theorem mirrorSix_sq : mirrorSix * mirrorSix = 1 := by
  rw [mirrorSix, diagonal_mul_diagonal, ← diagonal_one]
  exact congrArg diagonal (funext mirrorSign_sq)

theorem mirrorRows_orth (k : ℕ) : (mirrorRows k)ᵀ * mirrorRows k = 1 := by
  rw [mirrorRows, diagonal_transpose, diagonal_mul_diagonal, ← diagonal_one]
  exact congrArg diagonal (funext fun r => mirrorSign_sq _)

theorem mirrorRows_mulVec {k : ℕ} (F : Fin (6 * k) → ℝ) : mirrorRows k *ᵥ F = mirrorStack F := by
  ext r
  rw [mirrorRows, mulVec_diagonal]
  rfl

theorem keepsTop_mirror (k : ℕ) : KeepsTop (mirrorRows k) := by
  intro i j hj
  rw [mirrorRows, diagonal_apply_ne]
  intro h
  have := congrArg Fin.val h
  simp only [Fin.val_castLE] at this
  have := i.isLt
  omega

theorem wrenchOf_mirror {k : ℕ} (F : Fin (6 * k) → ℝ) (i : Fin k) : wrenchOf (mirrorStack F) i = mirrorWrench (wrenchOf F i) := by
  ext j
  simp only [wrenchOf, mirrorStack, mirrorWrench]
  congr 2
  apply Fin.ext
  simp only
  omega

section
variable {ι : Type*} [Fintype ι] [DecidableEq ι]

theorem baseChange_mirror : (baseChange (ι := ι) mirrorSix) = diagonal (Sum.elim mirrorSign (fun _ => 1)) := by
  ext r q
  rcases r with r | r <;> rcases q with q | q <;> simp [baseChange, mirrorSix, diagonal_apply]

theorem mirrorSigns_eq (s : ι → ℝ) (r : Fin 6 ⊕ ι) : mirrorSigns s r = Sum.elim mirrorSign (fun _ => 1) r * signed s r := by
  rcases r with r | r <;> simp [mirrorSigns, signed]

theorem mirrorMass_eq (e : Equiv.Perm ι) (s : ι → ℝ) (A : Matrix (Fin 6 ⊕ ι) (Fin 6 ⊕ ι) ℝ) :
    mirrorMass e s A = (baseChange (ι := ι) mirrorSix)ᵀ * recountMass e s A * baseChange (ι := ι) mirrorSix := by
  rw [baseChange_mirror, diagonal_transpose]
  ext r q
  rw [mul_diagonal, diagonal_mul]
  simp only [mirrorMass, recountMass, of_apply, mirrorSigns_eq]
  ring

theorem mirrorCols_eq {κ : Type*} [Fintype κ] (e : Equiv.Perm ι) (s : ι → ℝ) (J : Matrix κ (Fin 6 ⊕ ι) ℝ) :
    mirrorCols e s J = recountCols e s J * baseChange (ι := ι) mirrorSix := by
  rw [baseChange_mirror]
  ext r q
  rw [mul_diagonal]
  simp only [mirrorCols, recountCols, of_apply, mirrorSigns_eq]
  ring

theorem mirrorAll_eq (e : Equiv.Perm ι) (s : ι → ℝ) (q : Fin 6 ⊕ ι → ℝ) :
    mirrorAll e s q = (baseChange (ι := ι) mirrorSix)ᵀ *ᵥ recountAll e s q := by
  rw [baseChange_mirror, diagonal_transpose]
  ext r
  rw [mulVec_diagonal]
  simp only [mirrorAll, recountAll, mirrorSigns_eq]
  ring

theorem mirrorAll_eq' (e : Equiv.Perm ι) (s : ι → ℝ) (q : Fin 6 ⊕ ι → ℝ) :
    baseChange (ι := ι) mirrorSix *ᵥ mirrorAll e s q = recountAll e s q := by
  rw [mirrorAll_eq, baseChange_mirror, diagonal_transpose, ← baseChange_mirror, mulVec_mulVec, baseChange_mul, mirrorSix_sq,
    baseChange_one, one_mulVec]

/-- The mirror image of a contact: its sole, seen in the mirror, with the sideways axis turned round to get a right-handed frame. -/
def mirrorContact (l : ContactLink) : ContactLink := { l with rotm := mirror3 * l.rotm * mirror3 }

/-- A contact and its Jacobian, in the mirror. -/
def mirrorFoot (e : Equiv.Perm ι) (s : ι → ℝ) (f : Foot ι) : Foot ι where
  link := mirrorContact f.link
  jac := Matrix.of fun a r => mirrorSign a * mirrorCols e s f.jac a r

theorem mirror_seen (e : Equiv.Perm ι) (s : ι → ℝ) (A : Matrix (Fin 6 ⊕ ι) (Fin 6 ⊕ ι) ℝ) (G : Fin 6 ⊕ ι → ℝ) {k : ℕ}
    (g : Fin k → Foot ι) :
    SeenAs mirrorSix (mirrorRows k) (recountMass e s A) (recountCols e s (stackFn g)) (recountAll e s G)
      (mirrorMass e s A) (stackFn (mirrorFoot e s ∘ g)) (mirrorAll e s G) := by
  refine ⟨mirrorMass_eq e s A, ?_, mirrorAll_eq e s G⟩
  rw [Matrix.mul_assoc, ← mirrorCols_eq, mirrorRows]
  ext r q
  rw [diagonal_mul]
  rfl

/-- The task whose Jacobian is that of `T` in the mirror, with its rows combined otherwise (for example, the sideways row turned
round), and the same command. -/
def MirrorTask (e : Equiv.Perm ι) (s : ι → ℝ) (T T' : TaskIn ι) : Prop :=
  ∃ Q : Matrix (Fin T.t) (Fin T.t) ℝ, Qᵀ * Q = 1 ∧ T' = ⟨T.t, Q * mirrorCols e s T.J, Q *ᵥ T.f⟩

theorem mirror_tasks {e : Equiv.Perm ι} {s : ι → ℝ} {ts ts' : List (TaskIn ι)} (h : List.Forall₂ (MirrorTask e s) ts ts') :
    SeenTasks mirrorSix (ts.map (recountTask e s)) ts' := by
  unfold SeenTasks
  induction h with
  | nil => exact List.Forall₂.nil
  | @cons T T' l l' hT _ ih =>
    refine List.Forall₂.cons ?_ ih
    obtain ⟨Q, hQ, rfl⟩ := hT
    refine ⟨Q, hQ, ?_⟩
    unfold seenTask recountTask
    simp only
    rw [mirrorCols_eq, Matrix.mul_assoc]

theorem standing_mirror (e : Equiv.Perm ι) (s : ι → ℝ) (l : List (Foot ι)) :
    standing (l.map (mirrorFoot e s)) = (standing l).map (mirrorFoot e s) := by
  unfold standing
  rw [List.filter_map]
  rfl

/-- A function of the entries of a list, for a mapped list. -/
theorem map_fn {α β γ : Type*} (Φ : (k : ℕ) → (Fin k → α) → β) (f : γ → α) (l : List γ) :
    Φ (l.map f).length (l.map f).get = Φ l.length (f ∘ l.get) := by
  have h : (l.map f).get = (f ∘ l.get) ∘ Fin.cast (List.length_map f) := by
    funext i
    simp
  rw [h]
  have key : ∀ (m k : ℕ) (hk : m = k) (g : Fin k → α), Φ m (g ∘ Fin.cast hk) = Φ k g := by
    rintro m k rfl g
    rfl
  exact key _ _ _ _

end

theorem inFrame_mirror (R : Matrix (Fin 3) (Fin 3) ℝ) (w : Fin 6 → ℝ) :
    inFrame (mirror3 * R * mirror3) (mirrorWrench w) = mirrorWrench (inFrame R w) := by
  ext j
  fin_cases j <;>
    simp [inFrame, mirrorWrench, mirrorSign, mirror3, mulVec, dotProduct, Fin.sum_univ_three, diagonal_mul, mul_diagonal] <;> ring

/-- The friction and centre-of-pressure rows of a contact are symmetric. -/
theorem contactConst_mirror (l : ContactLink) (w : Fin 6 → ℝ) :
    (∀ r, 0 ≤ (contactConst (mirrorContact l) *ᵥ mirrorWrench w) r) ↔ ∀ r, 0 ≤ (contactConst l *ᵥ w) r := by
  have hl : contactConst (mirrorContact l) = contactConst l := rfl
  rw [hl]
  have e : ∀ r : Fin 10, (contactConst l *ᵥ mirrorWrench w) r
      = (contactConst l *ᵥ w) ((![0, 1, 3, 2, 4, 5, 7, 6, 9, 8] : Fin 10 → Fin 10) r) := by
    intro r
    fin_cases r <;>
      simp [contactConst, zmpConst, forceConst, mirrorWrench, mirrorSign, mulVec, dotProduct, Fin.sum_univ_six] 
  constructor
  · intro h r
    have := h ((![0, 1, 3, 2, 4, 5, 7, 6, 9, 8] : Fin 10 → Fin 10) r)
    rw [e] at this
    fin_cases r <;> exact this
  · intro h r
    rw [e]
    exact h _

theorem stackC_mirror {n k : ℕ} {e : Equiv.Perm (Fin n)} {s : Fin n → ℝ} (g : Fin k → Foot (Fin n)) {cs cs' : List ContactLink}
    (ha : active cs = List.ofFn fun i => (g i).link) (ha' : active cs' = List.ofFn fun i => (mirrorFoot e s (g i)).link)
    (h6 : ∀ l ∈ cs, l.type = .c6d) (h6' : ∀ l ∈ cs', l.type = .c6d) :
    ∃ m m' C C', stackC cs (6 * k) = some ⟨m, C⟩ ∧ stackC cs' (6 * k) = some ⟨m', C'⟩ ∧
      ∀ F : Fin (6 * k) → ℝ, (∀ r, 0 ≤ (C' *ᵥ (mirrorRows k *ᵥ F)) r) ↔ ∀ r, 0 ≤ (C *ᵥ F) r := by
  have hl : (active cs).length = k := by rw [ha, List.length_ofFn]
  have hl' : (active cs').length = k := by rw [ha', List.length_ofFn]
  obtain ⟨C, hC, h⟩ := stackC_spec cs h6 (by rw [hl] : 6 * k = 6 * (active cs).length)
  obtain ⟨C', hC', h'⟩ := stackC_spec cs' h6' (by rw [hl'] : 6 * k = 6 * (active cs').length)
  refine ⟨_, _, C, C', hC, hC', fun F => ?_⟩
  rw [h, h', mirrorRows_mulVec]
  have e1 : ∀ (i : Fin (active cs).length), (active cs)[i] = (g (Fin.cast hl i)).link := by
    intro i
    simp only [Fin.getElem_fin, ha, List.getElem_ofFn]
    rfl
  have e1' : ∀ (i : Fin (active cs').length), (active cs')[i] = mirrorContact (g (Fin.cast hl' i)).link := by
    intro i
    simp only [Fin.getElem_fin, ha', List.getElem_ofFn]
    rfl
  have e2 : ∀ (i : Fin (active cs).length) (F : Fin (6 * k) → ℝ) (p : 6 * (active cs).length = 6 * k),
      wrenchOf (F ∘ Fin.cast p) i = wrenchOf F (Fin.cast hl i) := fun i F p => rfl
  have e2' : ∀ (i : Fin (active cs').length) (F : Fin (6 * k) → ℝ) (p : 6 * (active cs').length = 6 * k),
      wrenchOf (F ∘ Fin.cast p) i = wrenchOf F (Fin.cast hl' i) := fun i F p => rfl
  have key : ∀ i : Fin k, (∀ r, 0 ≤ (contactConst (mirrorContact (g i).link) *ᵥ
      inFrame (mirrorContact (g i).link).rotm (wrenchOf (mirrorStack F) i)) r) ↔
      ∀ r, 0 ≤ (contactConst (g i).link *ᵥ inFrame (g i).link.rotm (wrenchOf F i)) r := by
    intro i
    rw [wrenchOf_mirror, show (mirrorContact (g i).link).rotm = mirror3 * (g i).link.rotm * mirror3 from rfl, inFrame_mirror]
    exact contactConst_mirror _ _
  constructor
  · intro H i
    have := (key (Fin.cast hl i)).mp fun r => by
      have := H (Fin.cast hl'.symm (Fin.cast hl i)) r
      rw [e1', e2'] at this
      exact this
    intro r
    rw [e1, e2]
    exact this r
  · intro H i
    have := (key (Fin.cast hl' i)).mpr fun r => by
      have := H (Fin.cast hl.symm (Fin.cast hl' i)) r
      rw [e1, e2] at this
      exact this
    intro r
    rw [e1', e2']
    exact this r

/-- The cycle of the robot described otherwise, if the last six contact rows stay among themselves. -/
theorem qpCycle_seen_top {n c : ℕ} {U V : Matrix (Fin 6) (Fin 6) ℝ} {R : Matrix (Fin c) (Fin c) ℝ}
    {A A' : Matrix (Fin 6 ⊕ Fin n) (Fin 6 ⊕ Fin n) ℝ} {J J' : Matrix (Fin c) (Fin 6 ⊕ Fin n) ℝ} {G G' : Fin 6 ⊕ Fin n → ℝ}
    (hU : U * V = 1) (hR : Rᵀ * R = 1) (hT : KeepsTop R) (h : SeenAs U R A J G A' J' G') {cs cs' : List ContactLink}
    (hcone : ∃ m m' C C', stackC cs c = some ⟨m, C⟩ ∧ stackC cs' c = some ⟨m', C'⟩ ∧
      ∀ F : Fin c → ℝ, (∀ r, 0 ≤ (C' *ᵥ (R *ᵥ F)) r) ↔ ∀ r, 0 ≤ (C *ᵥ F) r)
    (cod : (W : Matrix (Fin n) (Fin n) ℝ) → CodNull W) (limit : Option (Fin n → ℝ)) {solve solve' : Solver} (he : solve.Exact)
    (hcomp : solve.Complete) (he' : solve'.Exact) (hcomp' : solve'.Complete) {ts ts' : List (TaskIn (Fin n))} (ht : SeenTasks U ts ts') :
    SameCycle (qpCycle J' A'⁻¹ G' cod limit cs' solve' ts') (qpCycle J A⁻¹ G cod limit cs solve ts) := by
  have hccc := ccc_seen hU hR hT h cod
  unfold SameCycle qpCycle
  rw [hccc]
  rcases hr : calculateContactConstraint J A⁻¹ cod with _ | _ | ⟨v, S, o⟩
  · rfl
  · rfl
  rw [hr] at hccc
  rcases o with _ | ⟨k, V2, N⟩
  · rfl
  simp only [seenResult, Option.map_some]
  rcases calcTaskSpace_seen (S := S) hU h ht with ⟨e, e'⟩ | ⟨ys, ys', e, e', hy⟩
  · rw [e, e']
  rw [e, e']
  simp only
  have hs : SeenRobot U V R
      { S := S, NwJw := N, P := gravityForce S G, τg := gravityTorque S A⁻¹ G, limit := limit, cs := cs }
      { S := seenSpace U V R S, NwJw := N * (topBlock R)ᵀ,
        P := gravityForce (seenSpace U V R S) G', τg := gravityTorque (seenSpace U V R S) A'⁻¹ G',
        limit := limit, cs := cs' } := by
    refine ⟨rfl, fun δ => ?_, gravityForce_seen hU h, gravityTorque_seen hU h, rfl, Or.inr hcone⟩
    simp only [seenResult, Option.map_some] at hccc
    rw [ccc_internal hr, ccc_internal hccc]
    exact Iff.rfl
  have hl := qpLoop_seen hU hs he hcomp he' hcomp' hy 0 1 0 0 0
  unfold calcTaskControlTorqueQP
  revert hl
  rcases qpLoop _ solve 0 1 0 0 ys with _ | ⟨v1, τ1, τc1⟩ <;> rcases qpLoop _ solve' 0 1 0 0 ys' with _ | ⟨v2, τ2, τc2⟩
  · intro _; rfl
  · intro hl; exact hl.elim
  · intro hl; exact hl.elim
  · rintro ⟨rfl, rfl⟩
    simp only [Option.map_some, gravityTorque_seen hU h]

end Verif
