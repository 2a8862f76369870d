import Verif.Model.Feet
import Verif.Lemmas.TurnedRobot
import Verif.Props.QPControl

set_option linter.unusedSectionVars false

namespace Verif
open Matrix Verif.Spec Verif.Model Verif.Props

/-- A rearranged list has the same entries at rearranged places. -/
theorem perm_get {α : Type*} {l l' : List α} (h : l'.Perm l) : ∃ e : Fin l'.length ≃ Fin l.length, ∀ i, l'.get i = l.get (e i) := by
  induction h with
  | nil => exact ⟨Equiv.refl _, fun i => rfl⟩
  | @cons x l₁ l₂ _ ih =>
    obtain ⟨e, he⟩ := ih
    refine ⟨(finSuccEquiv l₁.length).trans ((Equiv.optionCongr e).trans (finSuccEquiv l₂.length).symm), fun i => ?_⟩
    refine Fin.cases ?_ (fun i => ?_) i
    · simp
    · simpa using he i
  | swap x y l =>
    refine ⟨Equiv.swap (0 : Fin (l.length + 2)) 1, fun i => ?_⟩
    match i with
    | ⟨0, _⟩ => exact (congrArg (fun j => (x :: y :: l).get j) (Equiv.swap_apply_left (0 : Fin (l.length + 2)) 1)).symm
    | ⟨1, _⟩ => exact (congrArg (fun j => (x :: y :: l).get j) (Equiv.swap_apply_right (0 : Fin (l.length + 2)) 1)).symm
    | ⟨i + 2, hi⟩ =>
      have : Equiv.swap (0 : Fin (l.length + 2)) 1 ⟨i + 2, hi⟩ = ⟨i + 2, hi⟩ :=
        Equiv.swap_apply_of_ne_of_ne (by simp [Fin.ext_iff]) (by simp [Fin.ext_iff])
      exact (congrArg (fun j => (x :: y :: l).get j) this).symm
  | trans _ _ ih1 ih2 =>
    obtain ⟨e1, h1⟩ := ih1
    obtain ⟨e2, h2⟩ := ih2
    exact ⟨e1.trans e2, fun i => (h1 i).trans (h2 _)⟩

/-- What does not depend on the numbering does not depend on the order of the list. -/
theorem perm_fn {α β : Type*} (Φ : (k : ℕ) → (Fin k → α) → β) (h : ∀ k g (e : Equiv.Perm (Fin k)), Φ k (g ∘ e) = Φ k g)
    {l l' : List α} (hp : l'.Perm l) : Φ l'.length l'.get = Φ l.length l.get := by
  obtain ⟨e, he⟩ := perm_get hp
  have : l'.get = l.get ∘ e := funext he
  rw [this]
  generalize l.get = g
  have hk := hp.length_eq
  clear this he hp
  revert e
  rw [hk]
  exact fun e => h _ g e

/-- The rows of the contacts, rearranged. -/
def rowPerm {k : ℕ} (e : Equiv.Perm (Fin k)) : Equiv.Perm (Fin (6 * k)) :=
  (wrenchPlace.symm.trans (Equiv.prodCongr e (Equiv.refl _))).trans wrenchPlace

theorem wrenchPlace_mk {k : ℕ} (r : Fin (6 * k)) : wrenchPlace.symm r = (⟨r / 6, by omega⟩, ⟨r % 6, by omega⟩) := by
  rw [Equiv.symm_apply_eq]
  apply Fin.ext
  rw [wrenchPlace_val]
  simp only
  omega

theorem rowPerm_val {k : ℕ} (e : Equiv.Perm (Fin k)) (r : Fin (6 * k)) :
    (rowPerm e r).val = 6 * (e ⟨r / 6, by omega⟩).val + r % 6 := by
  unfold rowPerm
  simp only [Equiv.trans_apply]
  rw [wrenchPlace_mk]
  simp [wrenchPlace_val]

/-- The matrix that rearranges the rows. -/
def permRows {k : ℕ} (e : Equiv.Perm (Fin k)) : Matrix (Fin (6 * k)) (Fin (6 * k)) ℝ := (1 : Matrix _ _ ℝ).submatrix (rowPerm e) id

theorem permRows_mul {k : ℕ} (e : Equiv.Perm (Fin k)) {m : Type*} (M : Matrix (Fin (6 * k)) m ℝ) :
    permRows e * M = M.submatrix (rowPerm e) id := by
  ext i j
  simp [permRows, Matrix.mul_apply, Matrix.one_apply]

theorem permRows_mulVec {k : ℕ} (e : Equiv.Perm (Fin k)) (F : Fin (6 * k) → ℝ) : permRows e *ᵥ F = F ∘ rowPerm e := by
  ext i
  simp [permRows, mulVec, dotProduct, Matrix.one_apply]

theorem permRows_orth {k : ℕ} (e : Equiv.Perm (Fin k)) : (permRows e)ᵀ * permRows e = 1 := by
  apply mul_eq_one_comm.mp
  rw [permRows_mul]
  ext i j
  simp [permRows, Matrix.one_apply, eq_comm]

theorem wrenchOf_perm {k : ℕ} (e : Equiv.Perm (Fin k)) (F : Fin (6 * k) → ℝ) (i : Fin k) :
    wrenchOf (permRows e *ᵥ F) i = wrenchOf F (e i) := by
  ext j
  unfold wrenchOf
  rw [permRows_mulVec]
  simp only [Function.comp]
  congr 1
  apply Fin.ext
  rw [rowPerm_val]
  have : (⟨(6 * i.val + j.val) / 6, by omega⟩ : Fin k) = i := Fin.ext (by simp only; omega)
  simp only [this]
  omega

section
variable {ι : Type*} [Fintype ι] [DecidableEq ι] {k : ℕ}

theorem stackFn_perm (g : Fin k → Foot ι) (e : Equiv.Perm (Fin k)) : stackFn (g ∘ e) = permRows e * stackFn g := by
  rw [permRows_mul]
  ext r j
  simp only [stackFn, of_apply, submatrix_apply, id, Function.comp]
  have h1 : (⟨(rowPerm e r).val / 6, by omega⟩ : Fin k) = e ⟨r / 6, by omega⟩ := by
    apply Fin.ext; simp only [rowPerm_val]; omega
  have h2 : (⟨(rowPerm e r).val % 6, by omega⟩ : Fin 6) = ⟨r % 6, by omega⟩ := by
    apply Fin.ext; simp only [rowPerm_val]; omega
  rw [h1, h2]

/-- A robot with its contacts registered in another order is the robot with its contact rows rearranged. -/
theorem seenAs_perm (A : Matrix (Fin 6 ⊕ ι) (Fin 6 ⊕ ι) ℝ) (G : Fin 6 ⊕ ι → ℝ) (g : Fin k → Foot ι) (e : Equiv.Perm (Fin k)) :
    SeenAs 1 (permRows e) A (stackFn g) G A (stackFn (g ∘ e)) G := by
  refine ⟨?_, ?_, ?_⟩
  · rw [baseChange_one, transpose_one, Matrix.one_mul, Matrix.mul_one]
  · rw [baseChange_one, Matrix.mul_one, stackFn_perm]
  · rw [baseChange_one, transpose_one, one_mulVec]

theorem seenTasks_same (ts : List (TaskIn ι)) : SeenTasks 1 ts ts := by
  unfold SeenTasks
  refine List.forall₂_same.mpr fun T _ => ⟨1, by simp, ?_⟩
  unfold seenTask
  rw [baseChange_one, Matrix.mul_one, Matrix.one_mul, one_mulVec]

end

section
variable {n k : ℕ}

/-- The friction and centre-of-pressure rows mean the same in both orders. -/
theorem stackC_perm (g : Fin k → Foot (Fin n)) (e : Equiv.Perm (Fin k)) {cs cs' : List ContactLink}
    (ha : active cs = List.ofFn fun i => (g i).link) (ha' : active cs' = List.ofFn fun i => (g (e i)).link)
    (h6 : ∀ l ∈ cs, l.type = .c6d) (h6' : ∀ l ∈ cs', l.type = .c6d) :
    ∃ m m' C C', stackC cs (6 * k) = some ⟨m, C⟩ ∧ stackC cs' (6 * k) = some ⟨m', C'⟩ ∧
      ∀ F : Fin (6 * k) → ℝ, (∀ r, 0 ≤ (C' *ᵥ (permRows e *ᵥ F)) r) ↔ ∀ r, 0 ≤ (C *ᵥ F) r := by
  have hl : (active cs).length = k := by rw [ha, List.length_ofFn]
  have hl' : (active cs').length = k := by rw [ha', List.length_ofFn]
  obtain ⟨C, hC, h⟩ := stackC_spec cs h6 (by rw [hl] : 6 * k = 6 * (active cs).length)
  obtain ⟨C', hC', h'⟩ := stackC_spec cs' h6' (by rw [hl'] : 6 * k = 6 * (active cs').length)
  refine ⟨_, _, C, C', hC, hC', fun F => ?_⟩
  rw [h, h']
  have e1 : ∀ (i : Fin (active cs).length), (active cs)[i] = (g (Fin.cast hl i)).link := by
    intro i
    simp only [Fin.getElem_fin, ha, List.getElem_ofFn]
    rfl
  have e1' : ∀ (i : Fin (active cs').length), (active cs')[i] = (g (e (Fin.cast hl' i))).link := by
    intro i
    simp only [Fin.getElem_fin, ha', List.getElem_ofFn]
    rfl
  have e2 : ∀ (i : Fin (active cs).length) (F : Fin (6 * k) → ℝ) (p : 6 * (active cs).length = 6 * k),
      wrenchOf (F ∘ Fin.cast p) i = wrenchOf F (Fin.cast hl i) := fun i F p => rfl
  have e2' : ∀ (i : Fin (active cs').length) (F : Fin (6 * k) → ℝ) (p : 6 * (active cs').length = 6 * k),
      wrenchOf (F ∘ Fin.cast p) i = wrenchOf F (Fin.cast hl' i) := fun i F p => rfl
  simp only [e1, e1', e2, e2', wrenchOf_perm]
  constructor
  · intro H i r
    have := H (Fin.cast hl'.symm (e.symm (Fin.cast hl i))) r
    simpa using this
  · intro H i r
    have := H (Fin.cast hl.symm (e (Fin.cast hl' i))) r
    simpa using this

end

end Verif
