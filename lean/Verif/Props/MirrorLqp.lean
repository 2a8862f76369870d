import Verif.Props.RenumberedLqp
import Verif.Props.MirrorMet
import Verif.Props.JaccQP

/-!
# C91: the hierarchical controller and the mirror
-/

set_option linter.unusedSectionVars false

namespace Verif.Props
open Matrix Verif Verif.Spec Verif.Model

variable {n k m m' : ℕ} {e : Equiv.Perm (Fin n)} {s : Fin n → ℝ}

theorem mirrorSigns_sq (hs : Signs s) (r : Fin 6 ⊕ Fin n) : mirrorSigns s r * mirrorSigns s r = 1 := by
  rcases r with r | r
  · exact mirrorSign_sq r
  · rcases hs r with h | h <;> simp [mirrorSigns, h]

theorem mirrored_dot (hs : Signs s) (x y : Fin 6 ⊕ Fin n → ℝ) : mirrorAll e s x ⬝ᵥ mirrorAll e s y = x ⬝ᵥ y := by
  unfold dotProduct
  rw [← counted_sum e fun r => x r * y r]
  refine Finset.sum_congr rfl fun r _ => ?_
  have := mirrorSigns_sq hs r
  show mirrorSigns s r * x (counted e r) * (mirrorSigns s r * y (counted e r)) = _
  linear_combination (x (counted e r) * y (counted e r)) * this

theorem mirrored_cols (hs : Signs s) {κ : Type*} (J : Matrix κ (Fin 6 ⊕ Fin n) ℝ) (q : Fin 6 ⊕ Fin n → ℝ) :
    mirrorCols e s J *ᵥ mirrorAll e s q = J *ᵥ q := by
  funext a
  exact mirrored_dot hs (J a) q

theorem mirrored_mass (hs : Signs s) (A : Matrix (Fin 6 ⊕ Fin n) (Fin 6 ⊕ Fin n) ℝ) (q : Fin 6 ⊕ Fin n → ℝ) :
    mirrorMass e s A *ᵥ mirrorAll e s q = mirrorAll e s (A *ᵥ q) := by
  funext r
  have e1 : mirrorMass e s A r = mirrorSigns s r • mirrorAll e s (A (counted e r)) := by
    funext k
    show mirrorSigns s r * mirrorSigns s k * A (counted e r) (counted e k) = mirrorSigns s r * (mirrorSigns s k * A (counted e r) (counted e k))
    ring
  show mirrorMass e s A r ⬝ᵥ mirrorAll e s q = mirrorSigns s r * (A (counted e r) ⬝ᵥ q)
  rw [e1, smul_dotProduct, mirrored_dot hs, smul_eq_mul]

theorem mirrored_colsT {c : ℕ} (J : Matrix (Fin c) (Fin 6 ⊕ Fin n) ℝ) (F : Fin c → ℝ) : (mirrorCols e s J)ᵀ *ᵥ F = mirrorAll e s (Jᵀ *ᵥ F) := by
  funext r
  show ∑ a, mirrorSigns s r * J a (counted e r) * F a = mirrorSigns s r * ∑ a, J a (counted e r) * F a
  rw [Finset.mul_sum]
  exact Finset.sum_congr rfl fun a _ => mul_assoc _ _ _

/-- Looking back from the mirror. -/
def mirrorBack (e : Equiv.Perm (Fin n)) (s : Fin n → ℝ) (q : Fin 6 ⊕ Fin n → ℝ) : Fin 6 ⊕ Fin n → ℝ := mirrorAll e.symm (s ∘ e.symm) q

theorem mirrored_back (hs : Signs s) (q : Fin 6 ⊕ Fin n → ℝ) : mirrorAll e s (mirrorBack e s q) = q := by
  funext r
  rcases r with r | r
  · show mirrorSign r * (mirrorSign r * q (.inl r)) = q (.inl r)
    rw [← mul_assoc, mirrorSign_sq, one_mul]
  · have := mirrorSigns_sq hs (.inr r)
    simp only [mirrorSigns, Sum.elim_inr] at this
    show s r * (s (e.symm (e r)) * q (.inr (e.symm (e r)))) = q (.inr r)
    rw [Equiv.symm_apply_apply]
    linear_combination q (.inr r) * this

theorem back_mirror (hs : Signs s) (q : Fin 6 ⊕ Fin n → ℝ) : mirrorBack e s (mirrorAll e s q) = q := by
  funext r
  rcases r with r | r
  · show mirrorSign r * (mirrorSign r * q (.inl r)) = q (.inl r)
    rw [← mul_assoc, mirrorSign_sq, one_mul]
  · have := mirrorSigns_sq hs (.inr (e.symm r))
    simp only [mirrorSigns, Sum.elim_inr] at this
    show s (e.symm r) * (s (e.symm r) * q (.inr (e (e.symm r)))) = q (.inr r)
    rw [Equiv.apply_symm_apply]
    linear_combination q (.inr r) * this

theorem mirrored_spd (hs : Signs s) {A : Matrix (Fin 6 ⊕ Fin n) (Fin 6 ⊕ Fin n) ℝ} (h : IsSPD A) : IsSPD (mirrorMass e s A) := by
  refine ⟨?_, fun x hx => ?_⟩
  · ext r k
    have := congrFun (congrFun h.symm (counted e r)) (counted e k)
    simp only [transpose_apply] at this
    show mirrorSigns s k * mirrorSigns s r * A (counted e k) (counted e r) = mirrorSigns s r * mirrorSigns s k * A (counted e r) (counted e k)
    rw [this]; ring
  · rw [← mirrored_back (e := e) hs x, mirrored_mass hs, mirrored_dot hs]
    refine h.pos _ fun h0 => hx ?_
    rw [← mirrored_back (e := e) hs x, h0]
    funext r
    simp [mirrorAll]

theorem mirrored_frobenius (hs : Signs s) (A : Matrix (Fin 6 ⊕ Fin n) (Fin 6 ⊕ Fin n) ℝ) : Model.frobenius (mirrorMass e s A) = Model.frobenius A := by
  unfold Model.frobenius
  congr 1
  rw [← counted_sum e fun r => ∑ k, A r k ^ 2]
  refine Finset.sum_congr rfl fun r _ => ?_
  rw [← counted_sum e fun k => A (counted e r) k ^ 2]
  refine Finset.sum_congr rfl fun k _ => ?_
  have h1 := mirrorSigns_sq hs r
  have h2 := mirrorSigns_sq hs k
  show (mirrorSigns s r * mirrorSigns s k * A (counted e r) (counted e k)) ^ 2 = _
  linear_combination (mirrorSigns s k * mirrorSigns s k * A (counted e r) (counted e k) ^ 2) * h1 + A (counted e r) (counted e k) ^ 2 * h2

theorem mirrored_rowLen (hs : Signs s) {κ : Type*} (J : Matrix κ (Fin 6 ⊕ Fin n) ℝ) (a : κ) : rowLen (mirrorCols e s J a) = rowLen (J a) := by
  have : mirrorCols e s J a ⬝ᵥ mirrorCols e s J a = J a ⬝ᵥ J a := mirrored_dot hs (J a) (J a)
  unfold rowLen
  rw [this]

/-- A task of the hierarchical controller in the mirror: its rows in other units (rows of zeros at most turned round) and in another order. -/
def MirrorRows (e : Equiv.Perm (Fin n)) (s : Fin n → ℝ) (T T' : Σ t : ℕ, Matrix (Fin t) (Fin 6 ⊕ Fin n) ℝ × (Fin t → ℝ)) : Prop :=
  ∃ (w : Fin T.1 → ℝ) (p : Equiv.Perm (Fin T.1)), (∀ a, w a ≠ 0 ∧ (T.2.1 (p a) ≠ 0 ∨ |w a| = 1)) ∧
    T' = ⟨T.1, Matrix.of fun a r => w a * mirrorCols e s T.2.1 (p a) r, fun a => w a * T.2.2 (p a)⟩

/-- Stacked contact forces in the mirror, with the contacts in another order. -/
def mirrorForces {k : ℕ} (π : Equiv.Perm (Fin k)) (F : Fin (6 * k) → ℝ) : Fin (6 * k) → ℝ := mirrorStack (F ∘ rowPerm π)

/-- The unknowns of the hierarchical controller in the mirror. -/
def mirrorVar (e : Equiv.Perm (Fin n)) (s : Fin n → ℝ) (π : Equiv.Perm (Fin k)) (y : LqpVar (Fin n) (6 * k) → ℝ) : LqpVar (Fin n) (6 * k) → ℝ :=
  Sum.elim (mirrorAll e s (qddOf y)) (mirrorForces π (forceOf y))

def unmirrorVar (e : Equiv.Perm (Fin n)) (s : Fin n → ℝ) (π : Equiv.Perm (Fin k)) (y : LqpVar (Fin n) (6 * k) → ℝ) : LqpVar (Fin n) (6 * k) → ℝ :=
  Sum.elim (mirrorBack e s (qddOf y)) (mirrorStack (forceOf y) ∘ (rowPerm π).symm)

theorem mirrorStack_twice (F : Fin (6 * k) → ℝ) : mirrorStack (mirrorStack F) = F := by
  funext r
  show mirrorSign _ * (mirrorSign _ * F r) = F r
  rw [← mul_assoc, mirrorSign_sq, one_mul]

theorem mirrorVar_back (hs : Signs s) (π : Equiv.Perm (Fin k)) (y : LqpVar (Fin n) (6 * k) → ℝ) : mirrorVar e s π (unmirrorVar e s π y) = y := by
  funext i
  rcases i with i | i
  · exact congrFun (mirrored_back hs (qddOf y)) i
  · have : mirrorForces π (mirrorStack (forceOf y) ∘ (rowPerm π).symm) = forceOf y := by
      unfold mirrorForces
      rw [Function.comp_assoc, Equiv.symm_comp_self, Function.comp_id, mirrorStack_twice]
    exact congrFun this i

theorem mirrored_stackFn (g : Fin k → Foot (Fin n)) (π : Equiv.Perm (Fin k)) (r : Fin (6 * k)) :
    stackFn (mirrorFoot e s ∘ g ∘ π) r = fun q => mirrorSign ⟨r % 6, by omega⟩ * mirrorCols e s (stackFn g) (rowPerm π r) q := by
  have h : stackFn (g ∘ π) r = stackFn g (rowPerm π r) := by
    rw [stackFn_perm, permRows_mul]
    rfl
  funext q
  show mirrorSign _ * (mirrorSigns s q * stackFn (g ∘ π) r (counted e q)) = _
  rw [h]
  rfl

theorem mirrored_feet (hs : Signs s) (g : Fin k → Foot (Fin n)) (π : Equiv.Perm (Fin k)) (q : Fin 6 ⊕ Fin n → ℝ) :
    stackFn (mirrorFoot e s ∘ g ∘ π) *ᵥ mirrorAll e s q = mirrorForces π (stackFn g *ᵥ q) := by
  funext r
  show stackFn (mirrorFoot e s ∘ g ∘ π) r ⬝ᵥ mirrorAll e s q = mirrorSign _ * (stackFn g *ᵥ q) (rowPerm π r)
  rw [mirrored_stackFn, ← mirrored_cols (e := e) hs (stackFn g) q]
  exact smul_dotProduct (mirrorSign ⟨r % 6, by omega⟩) (mirrorCols e s (stackFn g) (rowPerm π r)) (mirrorAll e s q)

theorem mirrored_feetT (g : Fin k → Foot (Fin n)) (π : Equiv.Perm (Fin k)) (F : Fin (6 * k) → ℝ) :
    (stackFn (mirrorFoot e s ∘ g ∘ π))ᵀ *ᵥ mirrorForces π F = mirrorAll e s ((stackFn g)ᵀ *ᵥ F) := by
  rw [← mirrored_colsT]
  funext q
  show ∑ r, stackFn (mirrorFoot e s ∘ g ∘ π) r q * (mirrorSign ⟨r % 6, by omega⟩ * F (rowPerm π r)) = ∑ r, mirrorCols e s (stackFn g) r q * F r
  rw [← Equiv.sum_comp (rowPerm π) fun r => mirrorCols e s (stackFn g) r q * F r]
  refine Finset.sum_congr rfl fun r _ => ?_
  rw [mirrored_stackFn]
  have := mirrorSign_sq ⟨r % 6, by omega⟩
  linear_combination (mirrorCols e s (stackFn g) (rowPerm π r) q * F (rowPerm π r)) * this

theorem noTip_mirror (lx ly : ℝ) (w : Fin 6 → ℝ) (h : NoTip lx ly w) : NoTip lx ly (mirrorWrench w) := by
  rcases h with ⟨h1, px, py, h2, h3, h4⟩ | ⟨h1, h2, h3⟩
  · refine .inl ⟨by simpa [press, mirrorWrench, mirrorSign] using h1, px, -py, ?_, h3, by rwa [abs_neg]⟩
    unfold IsCoP at h2 ⊢
    simp [mirrorWrench, mirrorSign] at h2 ⊢
    constructor <;> linarith [h2.1, h2.2]
  · exact .inr (by simp [mirrorWrench, mirrorSign, h1, h2, h3])

theorem noSlip_mirror (μ μz : ℝ) (w : Fin 6 → ℝ) (h : NoSlip μ μz w) : NoSlip μ μz (mirrorWrench w) := by
  unfold NoSlip press at *
  simpa [mirrorWrench, mirrorSign] using h

theorem mirrorWrench_twice (w : Fin 6 → ℝ) : mirrorWrench (mirrorWrench w) = w := by
  funext j
  show mirrorSign j * (mirrorSign j * w j) = w j
  rw [← mul_assoc, mirrorSign_sq, one_mul]

/-- No contact tips or slips, contact by contact. -/
theorem contactsHold_feet (g : Fin k → Foot (Fin n)) {cs : List ContactLink} (ha : active cs = List.ofFn fun i => (g i).link)
    (hc : 6 * k = 6 * (active cs).length) (F : Fin (6 * k) → ℝ) :
    ContactsHold cs (F ∘ Fin.cast hc.symm) ↔ ∀ i, NoTip (g i).link.planeX (g i).link.planeY (inFrame (g i).link.rotm (wrenchOf F i)) ∧
      NoSlip (g i).link.friction (g i).link.frictionZ (inFrame (g i).link.rotm (wrenchOf F i)) := by
  have hl : (active cs).length = k := by omega
  have e1 : ∀ (i : Fin (active cs).length), (active cs)[i] = (g (Fin.cast hl i)).link := by
    intro i
    simp only [Fin.getElem_fin, ha, List.getElem_ofFn]
    rfl
  unfold ContactsHold
  constructor
  · intro h i
    have := h (Fin.cast hl.symm i)
    rw [e1] at this
    exact this
  · intro h i
    rw [e1]
    exact h (Fin.cast hl i)

theorem contactsHold_mirror (g : Fin k → Foot (Fin n)) (π : Equiv.Perm (Fin k)) {cs cs' : List ContactLink}
    (ha : active cs = List.ofFn fun i => (g i).link) (ha' : active cs' = List.ofFn fun i => (mirrorFoot e s (g (π i))).link)
    (hc : 6 * k = 6 * (active cs).length) (hc' : 6 * k = 6 * (active cs').length) (F : Fin (6 * k) → ℝ) :
    ContactsHold cs' (mirrorForces π F ∘ Fin.cast hc'.symm) ↔ ContactsHold cs (F ∘ Fin.cast hc.symm) := by
  rw [contactsHold_feet g ha hc, contactsHold_feet (mirrorFoot e s ∘ g ∘ π) ha' hc']
  have key : ∀ i, inFrame (mirrorFoot e s (g (π i))).link.rotm (wrenchOf (mirrorForces π F) i) = mirrorWrench (inFrame (g (π i)).link.rotm (wrenchOf F (π i))) := by
    intro i
    unfold mirrorForces
    rw [wrenchOf_mirror, ← permRows_mulVec, wrenchOf_perm]
    exact inFrame_mirror _ _
  constructor
  · intro h i
    have := h (π.symm i)
    simp only [Function.comp_apply] at this
    rw [key, Equiv.apply_symm_apply] at this
    have t := noTip_mirror _ _ _ this.1
    have u := noSlip_mirror _ _ _ this.2
    rw [mirrorWrench_twice] at t u
    exact ⟨t, u⟩
  · intro h i
    simp only [Function.comp_apply]
    rw [key]
    exact ⟨noTip_mirror _ _ _ (h (π i)).1, noSlip_mirror _ _ _ (h (π i)).2⟩

theorem mirrored_abs (hs : Signs s) (q : Fin 6 ⊕ Fin n → ℝ) (i : Fin n) : |mirrorAll e s q (.inr i)| = |q (.inr (e i))| := by
  show |s i * q (.inr (e i))| = _
  rcases hs i with h | h <;> simp [h]

theorem mirrorRows_value (hs : Signs s) {T T' : Σ t : ℕ, Matrix (Fin t) (Fin 6 ⊕ Fin n) ℝ × (Fin t → ℝ)} (h : MirrorRows e s T T') (x y : Fin 6 ⊕ Fin n → ℝ) :
    T'.2.1 *ᵥ mirrorAll e s x = T'.2.1 *ᵥ mirrorAll e s y ↔ T.2.1 *ᵥ x = T.2.1 *ᵥ y := by
  obtain ⟨t, J, f⟩ := T
  obtain ⟨w, p, hw, rfl⟩ := h
  have e1 : ∀ (x : Fin 6 ⊕ Fin n → ℝ) (a : Fin t), ((Matrix.of fun a r => w a * mirrorCols e s J (p a) r) *ᵥ mirrorAll e s x) a = w a * (J *ᵥ x) (p a) := fun x a => by
    rw [← mirrored_cols (e := e) hs J x]
    exact smul_dotProduct (w a) (mirrorCols e s J (p a)) (mirrorAll e s x)
  constructor
  · intro h
    funext a
    have := congrFun h (p.symm a)
    have h2 := (e1 x (p.symm a)).symm.trans (this.trans (e1 y (p.symm a)))
    rw [Equiv.apply_symm_apply] at h2
    exact mul_left_cancel₀ (hw (p.symm a)).1 h2
  · intro h
    funext a
    refine (e1 x a).trans (Eq.trans ?_ (e1 y a).symm)
    exact congrArg (w a * ·) (congrFun h (p a))

theorem mirrorRows_miss (hs : Signs s) (π : Equiv.Perm (Fin k)) {T T' : Σ t : ℕ, Matrix (Fin t) (Fin 6 ⊕ Fin n) ℝ × (Fin t → ℝ)} (h : MirrorRows e s T T')
    (y : LqpVar (Fin n) (6 * k) → ℝ) : taskMiss T' (mirrorVar e s π y) = taskMiss T y := by
  obtain ⟨t, J, f⟩ := T
  obtain ⟨w, p, hw, rfl⟩ := h
  show ∑ a, (((Matrix.of fun a r => w a * mirrorCols e s J (p a) r) *ᵥ mirrorAll e s (qddOf y) - fun a => w a * f (p a)) a
    / rowLen ((Matrix.of fun a r => w a * mirrorCols e s J (p a) r) a)) ^ 2 = ∑ r, ((J *ᵥ qddOf y - f) r / rowLen (J r)) ^ 2
  rw [← Equiv.sum_comp p fun r => ((J *ᵥ qddOf y - f) r / rowLen (J r)) ^ 2]
  refine Finset.sum_congr rfl fun a _ => ?_
  have e1 : ((Matrix.of fun a r => w a * mirrorCols e s J (p a) r) *ᵥ mirrorAll e s (qddOf y)) a = w a * (J *ᵥ qddOf y) (p a) := by
    rw [← mirrored_cols (e := e) hs J (qddOf y)]
    exact smul_dotProduct (w a) (mirrorCols e s J (p a)) (mirrorAll e s (qddOf y))
  have e2 : rowLen ((Matrix.of fun a r => w a * mirrorCols e s J (p a) r) a) = |w a| * rowLen (J (p a)) := by
    have h1 : (w a • mirrorCols e s J (p a)) ⬝ᵥ (w a • mirrorCols e s J (p a)) = w a ^ 2 * (J (p a) ⬝ᵥ J (p a)) := by
      rw [smul_dotProduct, dotProduct_smul, show mirrorCols e s J (p a) ⬝ᵥ mirrorCols e s J (p a) = J (p a) ⬝ᵥ J (p a) from mirrored_dot hs _ _]
      simp only [smul_eq_mul]
      ring
    have h2 : √(w a ^ 2 * (J (p a) ⬝ᵥ J (p a))) = |w a| * √(J (p a) ⬝ᵥ J (p a)) := by
      rw [Real.sqrt_mul (sq_nonneg _), Real.sqrt_sq_eq_abs]
    have h3 : 0 < |w a| := abs_pos.mpr (hw a).1
    show rowLen (w a • mirrorCols e s J (p a)) = _
    unfold rowLen
    rw [h1, h2]
    rcases (hw a).2 with h | h
    · have h4 : 0 < √(J (p a) ⬝ᵥ J (p a)) := by
        refine Real.sqrt_pos.mpr (lt_of_le_of_ne (Finset.sum_nonneg fun i _ => mul_self_nonneg _) fun h0 => h (dotProduct_self_eq_zero.mp h0.symm))
      rw [if_pos (mul_pos h3 h4), if_pos h4]
    · rw [h, one_mul, one_mul]
  rw [e2, Pi.sub_apply, Pi.sub_apply, e1, ← mul_sub, mul_div_mul_comm, mul_pow, div_pow, sq_abs, div_self (pow_ne_zero 2 (hw a).1), one_mul]

theorem mirrored_get {α : Type*} {r : α → α → Prop} {l l' : List α} (h : List.Forall₂ r l l') (i : ℕ) :
    (∀ t, l[i]? = some t → ∃ t', l'[i]? = some t' ∧ r t t') ∧ ∀ t', l'[i]? = some t' → ∃ t, l[i]? = some t ∧ r t t' := by
  induction h generalizing i with
  | nil => simp
  | cons h _ ih =>
    rcases i with _ | i
    · simpa using h
    · simpa using ih i

section
variable {A : Matrix (Fin 6 ⊕ Fin n) (Fin 6 ⊕ Fin n) ℝ} {G : Fin 6 ⊕ Fin n → ℝ} {g : Fin k → Foot (Fin n)} {π : Equiv.Perm (Fin k)}
  {C : Matrix (Fin m) (Fin (6 * k)) ℝ} {C' : Matrix (Fin m') (Fin (6 * k)) ℝ}
  {tasks tasks' : List (Σ t : ℕ, Matrix (Fin t) (Fin 6 ⊕ Fin n) ℝ × (Fin t → ℝ))}

/-- The robot on its feet, as the hierarchical controller sees it. -/
noncomputable abbrev feetRobot (A : Matrix (Fin 6 ⊕ Fin n) (Fin 6 ⊕ Fin n) ℝ) (G : Fin 6 ⊕ Fin n → ℝ) (g : Fin k → Foot (Fin n))
    (C : Matrix (Fin m) (Fin (6 * k)) ℝ) (tasks : List (Σ t : ℕ, Matrix (Fin t) (Fin 6 ⊕ Fin n) ℝ × (Fin t → ℝ))) : LqpRobot n (6 * k) m :=
  ⟨A, A⁻¹, G, stackFn g, C, tasks⟩

theorem mirrored_demand (hs : Signs s) (y : LqpVar (Fin n) (6 * k) → ℝ) :
    demand (feetRobot (mirrorMass e s A) (mirrorAll e s G) (mirrorFoot e s ∘ g ∘ π) C' tasks').conf (mirrorVar e s π y)
      = mirrorAll e s (demand (feetRobot A G g C tasks).conf y) := by
  show mirrorMass e s A *ᵥ mirrorAll e s (qddOf y) + mirrorAll e s G + (stackFn (mirrorFoot e s ∘ g ∘ π))ᵀ *ᵥ mirrorForces π (forceOf y)
    = mirrorAll e s (A *ᵥ qddOf y + G + (stackFn g)ᵀ *ᵥ forceOf y)
  rw [mirrored_mass hs, mirrored_feetT]
  funext r
  simp only [mirrorAll, Pi.add_apply]
  ring

theorem mirrored_energy (hs : Signs s) (y : LqpVar (Fin n) (6 * k) → ℝ) :
    energy (feetRobot (mirrorMass e s A) (mirrorAll e s G) (mirrorFoot e s ∘ g ∘ π) C' tasks').conf (mirrorVar e s π y)
      = energy (feetRobot A G g C tasks).conf y := by
  show 5 / Model.frobenius (mirrorMass e s A) * (mirrorAll e s (qddOf y) ⬝ᵥ (mirrorMass e s A *ᵥ mirrorAll e s (qddOf y))) = _
  rw [mirrored_frobenius hs, mirrored_mass hs, mirrored_dot hs]
  rfl

theorem mirrored_moves (hs : Signs s) (y : LqpVar (Fin n) (6 * k) → ℝ) :
    Moves (feetRobot (mirrorMass e s A) (mirrorAll e s G) (mirrorFoot e s ∘ g ∘ π) C' tasks').conf (mirrorVar e s π y)
      ↔ Moves (feetRobot A G g C tasks).conf y := by
  unfold Moves
  rw [mirrored_demand (C := C) (tasks := tasks) hs]
  refine and_congr (forall_congr' fun i => ?_) ⟨fun h i => ?_, fun h i => ?_⟩
  · show mirrorSign i * demand (feetRobot A G g C tasks).conf y (.inl i) = 0 ↔ _
    have : mirrorSign i ≠ 0 := fun h => by have := mirrorSign_sq i; rw [h] at this; norm_num at this
    rw [mul_eq_zero, or_iff_right this]
  · have := h (e.symm i)
    rw [mirrored_abs hs, Equiv.apply_symm_apply] at this
    exact this
  · rw [mirrored_abs hs]
    exact h (e i)

/-- The mirror image of a robot that could stand still could stand still. -/
theorem mirrored_stands (hs : Signs s) {cs cs' : List ContactLink}
    (ha : active cs = List.ofFn fun i => (g i).link) (ha' : active cs' = List.ofFn fun i => (mirrorFoot e s (g (π i))).link)
    (h6 : ∀ l ∈ cs, l.type = .c6d) (h6' : ∀ l ∈ cs', l.type = .c6d) (hp : ∀ l ∈ cs, 0 < l.planeX ∧ 0 < l.planeY)
    (hp' : ∀ l ∈ cs', 0 < l.planeX ∧ 0 < l.planeY) (hC : jContactRows cs (6 * k) = some ⟨m, C⟩) (hC' : jContactRows cs' (6 * k) = some ⟨m', C'⟩)
    (hstand : CanStand (feetRobot A G g C tasks).conf) :
    CanStand (feetRobot (mirrorMass e s A) (mirrorAll e s G) (mirrorFoot e s ∘ g ∘ π) C' tasks').conf := by
  have hc : 6 * k = 6 * (active cs).length := by rw [ha, List.length_ofFn]
  have hc' : 6 * k = 6 * (active cs').length := by rw [ha', List.length_ofFn]
  obtain ⟨M, hM, hMF⟩ := jContactRows_six h6 hp hc
  obtain ⟨M', hM', hMF'⟩ := jContactRows_six h6' hp' hc'
  have e1 := Option.some.inj (hC.symm.trans hM)
  have e1' := Option.some.inj (hC'.symm.trans hM')
  obtain rfl : m = 10 * (active cs).length := congrArg Sigma.fst e1
  obtain rfl : m' = 10 * (active cs').length := congrArg Sigma.fst e1'
  obtain rfl : C = M := eq_of_heq (Sigma.mk.inj e1).2
  obtain rfl : C' = M' := eq_of_heq (Sigma.mk.inj e1').2
  obtain ⟨y, h1, h2, h3⟩ := hstand
  refine ⟨mirrorVar e s π y, (mirrored_moves hs y).mpr h1, ?_, (hMF' _).mpr ((contactsHold_mirror g π ha ha' hc hc' _).mpr ((hMF _).mp h3))⟩
  show mirrorAll e s (qddOf y) = 0
  rw [h2]
  funext r
  simp [mirrorAll]

/-- **C91 (hierarchical controller).**  A robot on 6-D contacts that could stand still, and its mirror image with mirrored contacts, registered in any order,
and mirrored tasks: every task accelerates the mirror image as it accelerates the robot, seen in the mirror. -/
theorem C91_lqp_mirror (osqp osqp' : Osqp) (ho : OsqpExact osqp) (ho' : OsqpExact osqp') (N N' : NullSpaceFn) (hN : N.Correct) (hN' : N'.Correct)
    (hs : Signs s) (hA : IsSPD A) {cs cs' : List ContactLink}
    (ha : active cs = List.ofFn fun i => (g i).link) (ha' : active cs' = List.ofFn fun i => (mirrorFoot e s (g (π i))).link)
    (h6 : ∀ l ∈ cs, l.type = .c6d) (h6' : ∀ l ∈ cs', l.type = .c6d) (hp : ∀ l ∈ cs, 0 < l.planeX ∧ 0 < l.planeY)
    (hp' : ∀ l ∈ cs', 0 < l.planeX ∧ 0 < l.planeY) (hC : jContactRows cs (6 * k) = some ⟨m, C⟩) (hC' : jContactRows cs' (6 * k) = some ⟨m', C'⟩)
    (htasks : List.Forall₂ (MirrorRows e s) tasks tasks') (hstand : CanStand (feetRobot A G g C tasks).conf) :
    ∃ a b rs a' b' rs', calcControlTorqueLQP osqp N (feetRobot A G g C tasks) = a :: b :: rs ∧
      calcControlTorqueLQP osqp' N' (feetRobot (mirrorMass e s A) (mirrorAll e s G) (mirrorFoot e s ∘ g ∘ π) C' tasks') = a' :: b' :: rs' ∧
      rs.length = tasks.length ∧ rs'.length = tasks.length ∧ qddOf b.y = 0 ∧ qddOf b'.y = 0 ∧
      ∀ (j : ℕ) (r r' : LevelAnswer (LqpVar (Fin n) (6 * k))), rs[j]? = some r → rs'[j]? = some r' → qddOf r'.y = mirrorAll e s (qddOf r.y) := by
  have hc : 6 * k = 6 * (active cs).length := by rw [ha, List.length_ofFn]
  have hc' : 6 * k = 6 * (active cs').length := by rw [ha', List.length_ofFn]
  have cone : ∀ F, (∀ r, (C' *ᵥ mirrorForces π F) r ≤ 0) ↔ ∀ r, (C *ᵥ F) r ≤ 0 := fun F => by
    obtain ⟨M, hM, hMF⟩ := jContactRows_six h6 hp hc
    obtain ⟨M', hM', hMF'⟩ := jContactRows_six h6' hp' hc'
    have e1 := Option.some.inj (hC.symm.trans hM)
    have e1' := Option.some.inj (hC'.symm.trans hM')
    obtain rfl : m = 10 * (active cs).length := congrArg Sigma.fst e1
    obtain rfl : m' = 10 * (active cs').length := congrArg Sigma.fst e1'
    obtain rfl : C = M := eq_of_heq (Sigma.mk.inj e1).2
    obtain rfl : C' = M' := eq_of_heq (Sigma.mk.inj e1').2
    rw [hMF, hMF']
    exact contactsHold_mirror g π ha ha' hc hc' F
  set R := feetRobot A G g C tasks with hR
  set R' := feetRobot (mirrorMass e s A) (mirrorAll e s G) (mirrorFoot e s ∘ g ∘ π) C' tasks' with hR'
  have moves : ∀ y, Moves R'.conf (mirrorVar e s π y) ↔ Moves R.conf y := fun y => mirrored_moves hs y
  have en : ∀ y, energy R'.conf (mirrorVar e s π y) = energy R.conf y := fun y => mirrored_energy hs y
  have hA' : IsSPD R'.M := mirrored_spd hs hA
  have hM : R.M * R.Minv = 1 := hA.mul_inv
  have hM' : R'.M * R'.Minv = 1 := hA'.mul_inv
  have hlen : tasks.length = tasks'.length := htasks.length_eq
  have hst' : CanStand R'.conf := by
    obtain ⟨y, h1, h2, h3⟩ := hstand
    refine ⟨mirrorVar e s π y, (moves y).mpr h1, ?_, (cone _).mpr h3⟩
    show mirrorAll e s (qddOf y) = 0
    rw [h2]
    funext r
    simp [mirrorAll]
  obtain ⟨a, b, rs, h1, h2, ⟨-, hb⟩, ht⟩ := C57_levels_partial osqp ho N hN R hA hM
  obtain ⟨a', b', rs', h1', h2', ⟨-, hb'⟩, ht'⟩ := C57_levels_partial osqp' ho' N' hN' R' hA' hM'
  have h3 : rs.length = tasks.length := h2
  have h3' : rs'.length = tasks.length := h2'.trans hlen.symm
  have hw : 0 < R.conf.weight := conf_weight hA
  obtain ⟨b1, b2⟩ := lqp_contact_still (R := R.conf) hA hw hstand hb
  obtain ⟨c1, c2⟩ := lqp_contact_still (R := R'.conf) hA' (conf_weight hA') hst' hb'
  have contact : ∀ y : LqpVar (Fin n) (6 * k) → ℝ, KeepsContact R'.conf b'.y (mirrorVar e s π y) ↔ KeepsContact R.conf b.y y := fun y => by
    have bnd : ∀ x : ℝ, (x ≤ max (0 : ℝ) 5 ∧ -x ≤ max (-0 : ℝ) 5) ↔ |x| ≤ 5 := fun x => by
      rw [neg_zero, max_eq_right (by norm_num : (0 : ℝ) ≤ 5), abs_le]
      constructor <;> rintro ⟨p, q⟩ <;> constructor <;> linarith
    have eJ : R'.conf.J *ᵥ qddOf (mirrorVar e s π y) = mirrorForces π (R.conf.J *ᵥ qddOf y) := mirrored_feet hs g π (qddOf y)
    have zero : ∀ F : Fin (6 * k) → ℝ, mirrorForces π F = 0 ↔ F = 0 := fun F => by
      constructor
      · intro h
        have h2 : F ∘ rowPerm π = 0 := by
          rw [← mirrorStack_twice (F ∘ rowPerm π), show mirrorStack (F ∘ rowPerm π) = 0 from h]
          funext r; simp [mirrorStack]
        funext r
        have := congrFun h2 ((rowPerm π).symm r)
        simpa using this
      · rintro rfl
        funext r; simp [mirrorForces, mirrorStack]
    unfold KeepsContact
    rw [b1, c1, mulVec_zero, mulVec_zero, eJ, zero]
    refine and_congr Iff.rfl (and_congr ?_ ?_)
    · refine (forall_congr' fun x => by rw [max_eq_right (c2 x)]; exact Iff.rfl).trans ((cone (forceOf y)).trans
        (forall_congr' fun x => by rw [max_eq_right (b2 x)]; exact Iff.rfl))
    · refine (forall_congr' fun i => bnd _).trans (Iff.trans ?_ (forall_congr' fun i => bnd _).symm)
      refine ⟨fun h i => ?_, fun h i => ?_⟩
      · have := h (e.symm i)
        rw [show qddOf (mirrorVar e s π y) = mirrorAll e s (qddOf y) from rfl, mirrored_abs hs, Equiv.apply_symm_apply] at this
        exact this
      · rw [show qddOf (mirrorVar e s π y) = mirrorAll e s (qddOf y) from rfl, mirrored_abs hs]
        exact h (e i)
  refine ⟨a, b, rs, a', b', rs', h1, h1', h2, h3', b1, c1, fun j => ?_⟩
  induction j using Nat.strong_induction_on with
  | _ j ih =>
    intro r r' hr hr'
    obtain ⟨t, htj⟩ : ∃ t, tasks[j]? = some t := by
      have := (List.getElem?_eq_some_iff.mp hr).1
      exact ⟨_, List.getElem?_eq_getElem (by omega)⟩
    obtain ⟨t', htj', hT⟩ := (mirrored_get htasks j).1 t htj
    obtain ⟨⟨k1, k2, k3⟩, k4⟩ := ht j r t hr htj
    obtain ⟨⟨l1, l2, l3⟩, l4⟩ := ht' j r' t' hr' htj'
    have keeps : ∀ y : LqpVar (Fin n) (6 * k) → ℝ, KeepsTasks R'.conf rs' j (mirrorVar e s π y) ↔ KeepsTasks R.conf rs j y := fun y => by
      refine ⟨fun h i hi u v hu hv => ?_, fun h i hi u v hu hv => ?_⟩
      · have hu' := List.getElem?_eq_getElem (l := rs') (i := i) (by have := (List.getElem?_eq_some_iff.mp hu).1; omega)
        obtain ⟨v', hv', hV⟩ := (mirrored_get htasks i).1 v hv
        have := h i hi _ v' hu' hv'
        rw [ih i hi u _ hu hu'] at this
        exact (mirrorRows_value hs hV _ _).mp this
      · have hu' := List.getElem?_eq_getElem (l := rs) (i := i) (by have := (List.getElem?_eq_some_iff.mp hu).1; omega)
        obtain ⟨v', hv', hV⟩ := (mirrored_get htasks i).2 v hv
        rw [ih i hi _ u hu' hu]
        exact (mirrorRows_value hs hV _ _).mpr (h i hi _ v' hu' hv')
    have up := l4 (mirrorVar e s π r.y) ((moves _).mpr k1) ((contact _).mpr k2) ((keeps _).mpr k3)
    have back := mirrorVar_back (e := e) hs π r'.y
    rw [← back] at l1 l2 l3 up
    have dm := (moves _).mp l1
    have dc := (contact _).mp l2
    have dt := (keeps _).mp l3
    rw [mirrorRows_miss hs π hT, en, mirrorRows_miss hs π hT, en] at up
    have q := lqp_unique (R := R.conf) hA hw t (y' := unmirrorVar e s π r'.y) (le_antisymm up (k4 _ dm dc dt))
      (k4 _ (moves_along k1 dm (by norm_num) (by norm_num)) (keepsContact_along k2 dc (by norm_num) (by norm_num)) (keepsTasks_along k3 dt _))
    rw [← q]
    exact (mirrored_back hs (qddOf r'.y)).symm

/-- **C91 (hierarchical controller, symmetric robot).**  A robot that looks the same in the mirror and could stand still is accelerated symmetrically by every
task of a stack that looks the same in the mirror. -/
theorem C91_lqp (osqp : Osqp) (ho : OsqpExact osqp) (N : NullSpaceFn) (hN : N.Correct) (hs : Signs s) (hA : IsSPD A)
    (hmass : mirrorMass e s A = A) (hweight : mirrorAll e s G = G) (hfeet : ∀ i, mirrorFoot e s (g (π i)) = g i) {cs : List ContactLink}
    (ha : active cs = List.ofFn fun i => (g i).link) (h6 : ∀ l ∈ cs, l.type = .c6d) (hp : ∀ l ∈ cs, 0 < l.planeX ∧ 0 < l.planeY)
    (hC : jContactRows cs (6 * k) = some ⟨m, C⟩) (htasks : List.Forall₂ (MirrorRows e s) tasks tasks) (hstand : CanStand (feetRobot A G g C tasks).conf) :
    ∃ a b rs, calcControlTorqueLQP osqp N (feetRobot A G g C tasks) = a :: b :: rs ∧ rs.length = tasks.length ∧ qddOf b.y = 0 ∧
      ∀ r ∈ rs, mirrorAll e s (qddOf r.y) = qddOf r.y := by
  have hg : mirrorFoot e s ∘ g ∘ π = g := funext hfeet
  obtain ⟨a, b, rs, a', b', rs', h1, h2, h3, -, h4, -, h5⟩ := C91_lqp_mirror (e := e) (π := π) osqp osqp ho ho N N hN hN hs hA ha
    (ha.trans (congrArg List.ofFn (funext fun i => by rw [hfeet]))) h6 h6 hp hp hC hC htasks hstand
  rw [hmass, hweight, hg, h1] at h2
  simp only [List.cons.injEq] at h2
  obtain ⟨rfl, rfl, rfl⟩ := h2
  refine ⟨a, b, rs, h1, h3, h4, fun r hr => ?_⟩
  obtain ⟨j, hj⟩ := List.mem_iff_getElem?.mp hr
  exact (h5 j r r hj hj).symm

end

/-- The two-legged robot can stand, whatever the tasks are. -/
theorem Twin.lqp_stands (tasks : List (Σ t : ℕ, Matrix (Fin t) (Fin 6 ⊕ Fin 8) ℝ × (Fin t → ℝ))) : ∃ (m : ℕ) (C : Matrix (Fin m) (Fin (6 * 2)) ℝ),
    jContactRows Pair.cs (6 * 2) = some ⟨m, C⟩ ∧ CanStand (feetRobot 1 Twin.G Twin.feet C tasks).conf := by
  have hc : 6 * 2 = 6 * (active Pair.cs).length := by simp [active, Pair.cs, exContact]
  have h6 : ∀ l ∈ Pair.cs, l.type = .c6d := by simp [Pair.cs, exContact]
  have hp : ∀ l ∈ Pair.cs, 0 < l.planeX ∧ 0 < l.planeY := by simp [Pair.cs, exContact]
  obtain ⟨M, hM, hMF⟩ := jContactRows_six h6 hp hc
  refine ⟨_, M, hM, ?_⟩
  have hm := Twin.motion 0
  have hq : Twin.arms 0 = 0 := by
    ext r
    rcases r with r | r
    · rfl
    · fin_cases r <;> simp [Twin.arms]
  rw [hq, add_zero] at hm
  have e : demand (feetRobot 1 Twin.G Twin.feet M tasks).conf (Sum.elim 0 (Twin.force 0)) = actuate Twin.τ := by
    rw [← hm.1]
    show (1 : Matrix (Fin 6 ⊕ Fin 8) (Fin 6 ⊕ Fin 8) ℝ) *ᵥ 0 + Twin.G + (stackFn Twin.feet)ᵀ *ᵥ Twin.force 0 = _
    rw [add_right_comm]
  refine ⟨Sum.elim 0 (Twin.force 0), ⟨fun i => by rw [e]; rfl, fun i => ?_⟩, rfl, (hMF _).mpr (Twin.hold 0 (fun i => by simp) hc)⟩
  rw [e]
  show |Twin.τ i| ≤ 200
  fin_cases i <;> simp [Twin.τ] <;> norm_num

/-- The hypotheses are met: the two-legged robot that is to raise both arms raises them alike. -/
example (osqp : Osqp) (ho : OsqpExact osqp) (N : NullSpaceFn) (hN : N.Correct) : ∃ (m : ℕ) (C : Matrix (Fin m) (Fin (6 * 2)) ℝ),
    jContactRows Pair.cs (6 * 2) = some ⟨m, C⟩ ∧ ∃ a b r, calcControlTorqueLQP osqp N (feetRobot 1 Twin.G Twin.feet C [⟨2, Twin.armJ, ![3, 3]⟩]) = [a, b, r] ∧
      qddOf r.y (.inr 6) = qddOf r.y (.inr 7) := by
  have h6 : ∀ l ∈ Pair.cs, l.type = .c6d := by simp [Pair.cs, exContact]
  have hp : ∀ l ∈ Pair.cs, 0 < l.planeX ∧ 0 < l.planeY := by simp [Pair.cs, exContact]
  obtain ⟨m, M, hM, hst⟩ := Twin.lqp_stands [⟨2, Twin.armJ, ![3, 3]⟩]
  have hT : List.Forall₂ (MirrorRows Twin.e Twin.s) [⟨2, Twin.armJ, ![3, 3]⟩] [⟨2, Twin.armJ, ![3, 3]⟩] := by
    refine List.Forall₂.cons ⟨fun _ => 1, Equiv.swap 0 1, fun _ => ⟨one_ne_zero, .inr abs_one⟩, ?_⟩ List.Forall₂.nil
    have h1 : (Matrix.of fun a r => 1 * mirrorCols Twin.e Twin.s Twin.armJ ((Equiv.swap (0 : Fin 2) 1) a) r) = Twin.armJ := by
      ext a r
      rcases r with r | r
      · fin_cases a <;> simp [mirrorCols, counted, Twin.armJ]
      · fin_cases a <;> fin_cases r <;> simp [mirrorCols, counted, Twin.armJ, mirrorSigns, Twin.s, Twin.e]
    have h2 : (fun a : Fin 2 => (1 : ℝ) * (![3, 3] : Fin 2 → ℝ) ((Equiv.swap (0 : Fin 2) 1) a)) = ![3, 3] := by
      ext a
      fin_cases a <;> simp
    show (⟨2, Twin.armJ, ![3, 3]⟩ : Σ t : ℕ, Matrix (Fin t) (Fin 6 ⊕ Fin 8) ℝ × (Fin t → ℝ)) = ⟨2, _, _⟩
    rw [h1, h2]
  obtain ⟨a, b, rs, h1, h2, -, h4⟩ := C91_lqp (π := Equiv.swap 0 1) osqp ho N hN Twin.signs isSPD_one Twin.looks.mass Twin.looks.weight (fun i => by
    fin_cases i
    · exact Twin.mirror_right
    · exact Twin.mirror_left) (by simp [Twin.feet, active, Pair.cs, Twin.left, Twin.right, exContact]) h6 hp hM hT hst
  obtain ⟨r, rfl⟩ := List.length_eq_one_iff.mp h2
  refine ⟨_, M, hM, a, b, r, h1, ?_⟩
  have := congrFun (h4 r (by simp)) (.inr 6)
  simpa [mirrorAll, mirrorSigns, counted, Twin.s, Twin.e] using this.symm

end Verif.Props
