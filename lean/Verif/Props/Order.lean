import Verif.Lemmas.Order
import Verif.Props.Turned
import Verif.Props.ContinuityQP

/-!
# C81: the order in which contacts are registered
-/

set_option linter.unusedSectionVars false

namespace Verif.Props
open Matrix Verif Verif.Spec Verif.Model

section
variable {ι : Type*} [Fintype ι] [DecidableEq ι] {A : Matrix (Fin 6 ⊕ ι) (Fin 6 ⊕ ι) ℝ} {G : Fin 6 ⊕ ι → ℝ}

theorem standing_perm {l l' : List (Foot ι)} (hp : l'.Perm l) : (standing l').Perm (standing l) := hp.filter _

/-- C81 (gravity compensation).  Registering the contacts in another order does not change the torque. -/
theorem C81_gravity {l l' : List (Foot ι)} (hp : l'.Perm l) : feetGravity A G l' = feetGravity A G l :=
  perm_fn (fun _ g => gravityCommand (stackFn g) A⁻¹ G)
    (fun _ g e => C80_gravity (V := 1) (Matrix.one_mul 1) (permRows_orth e) (seenAs_perm A G g e)) (standing_perm hp)

/-- C81 (task control without QP).  Nor does it change the torque of any list of tasks. -/
theorem C81_closed (ts : List (TaskIn ι)) {l l' : List (Foot ι)} (hp : l'.Perm l) : feetClosed A G ts l' = feetClosed A G ts l :=
  perm_fn (fun _ g => closedCommand (stackFn g) A⁻¹ G ts)
    (fun _ g e => C80_closed_command (V := 1) (Matrix.one_mul 1) (permRows_orth e) (seenAs_perm A G g e) (seenTasks_same ts))
    (standing_perm hp)

/-- The contacts and the forces at them, in no order. -/
noncomputable def forcesAt {k : ℕ} (A : Matrix (Fin 6 ⊕ ι) (Fin 6 ⊕ ι) ℝ) (G : Fin 6 ⊕ ι → ℝ) (τ : ι → ℝ) (g : Fin k → Foot ι) :
    Option (Multiset (Foot ι × (Fin 6 → ℝ))) :=
  (contactSpace (stackFn g) A⁻¹).map fun S =>
    Multiset.map (fun i => (g i, wrenchOf (contactForce S (gravityForce S G) τ) i)) Finset.univ.val

theorem forcesAt_perm (τ : ι → ℝ) (k : ℕ) (g : Fin k → Foot ι) (e : Equiv.Perm (Fin k)) : forcesAt A G τ (g ∘ e) = forcesAt A G τ g := by
  unfold forcesAt
  have h := seenAs_perm A G g e
  have hR := permRows_orth e
  have hs := contactSpace_seen (V := 1) (Matrix.one_mul 1) hR h
  rcases hS : contactSpace (stackFn g) A⁻¹ with _ | S
  · rw [hs, hS]; rfl
  · rcases hS' : contactSpace (stackFn (g ∘ e)) A⁻¹ with _ | S'
    · rw [hS', hS] at hs; simp at hs
    rw [Option.map_some, Option.map_some, Option.some.injEq, C80_contact_force (V := 1) (Matrix.one_mul 1) hR h hS hS' τ]
    simp only [wrenchOf_perm, Function.comp]
    have hm := Multiset.map_map (fun i => (g i, wrenchOf (contactForce S (gravityForce S G) τ) i)) (fun i => e i) Finset.univ.val
    refine hm.symm.trans (congrArg _ ?_)
    exact congrArg Finset.val (Finset.map_univ_equiv e)

/-- C81 (contact forces).  For every torque each contact gets the same force in both orders. -/
theorem C81_forces (τ : ι → ℝ) {l l' : List (Foot ι)} (hp : l'.Perm l) :
    (feetForces A G τ l').map Multiset.ofList = (feetForces A G τ l).map Multiset.ofList := by
  have key : ∀ l : List (Foot ι), (feetForces A G τ l).map Multiset.ofList = forcesAt A G τ (standing l).get := by
    intro l
    unfold feetForces forcesAt stackFeet
    rw [Option.map_map]
    congr 1
    funext S
    simp only [Function.comp]
    rw [List.ofFn_eq_map, ← Multiset.map_coe]
    rfl
  rw [key, key]
  exact perm_fn (fun _ g => forcesAt A G τ g) (forcesAt_perm τ) (standing_perm hp)

end

section
variable {n : ℕ} {A : Matrix (Fin 6 ⊕ Fin n) (Fin 6 ⊕ Fin n) ℝ} {G : Fin 6 ⊕ Fin n → ℝ}

/-- The six base columns of a contact: how it moves when only the base moves. -/
def footBase {ι : Type*} (f : Foot ι) : Matrix (Fin 6) (Fin 6) ℝ := f.jac.submatrix id Sum.inl

theorem stackFn_baseDetermined {k : ℕ} {g : Fin k → Foot (Fin n)} (i : Fin k) (hb : IsUnit (footBase (g i)).det) :
    BaseDetermined (stackFn g) := by
  intro v hv
  have : footBase (g i) *ᵥ v = 0 := by
    ext a
    have := congrFun hv (wrenchPlace (i, a))
    simp only [mulVec, dotProduct, Fintype.sum_sum_type, Sum.elim_inl, Sum.elim_inr, Pi.zero_apply, mul_zero, Finset.sum_const_zero,
      add_zero] at this
    rw [Pi.zero_apply, ← this]
    simp only [mulVec, dotProduct]
    refine Finset.sum_congr rfl fun b _ => ?_
    have h1 : (⟨(wrenchPlace (i, a)).val / 6, by omega⟩ : Fin k) = i := by apply Fin.ext; simp only [wrenchPlace_val]; omega
    have h2 : (⟨(wrenchPlace (i, a)).val % 6, by omega⟩ : Fin 6) = a := by apply Fin.ext; simp only [wrenchPlace_val]; omega
    simp only [stackFn, of_apply, h1, h2, footBase, submatrix_apply, id]
  have h := congrArg ((footBase (g i))⁻¹ *ᵥ ·) this
  simpa [mulVec_mulVec, nonsing_inv_mul _ hb] using h

theorem stackFn_lastSix {k : ℕ} (g : Fin (k + 1) → Foot (Fin n)) (hc : 6 < 6 * (k + 1)) :
    lastSixBase hc (stackFn g) = footBase (g (Fin.last k)) := by
  ext a b
  simp only [lastSixBase, submatrix_apply, stackFn, of_apply, footBase, id]
  have h1 : (⟨(6 * (k + 1) - 6 + a.val) / 6, by omega⟩ : Fin (k + 1)) = Fin.last k := by apply Fin.ext; simp only [Fin.val_last]; omega
  have h2 : (⟨(6 * (k + 1) - 6 + a.val) % 6, by omega⟩ : Fin 6) = a := by apply Fin.ext; simp only; omega
  rw [h1, h2]

theorem stackFn_outcome (hA : IsSPD A) {k : ℕ} (g : Fin k → Foot (Fin n)) (hb : ∀ i, IsUnit (footBase (g i)).det)
    (hi : IndependentRows (stackFn g)) (hk : 6 < 6 * k) (cod : (W : Matrix (Fin n) (Fin n) ℝ) → CodNull W) :
    ∃ S out, calculateContactConstraint (stackFn g) A⁻¹ cod = .ret 1 S (some out) := by
  obtain ⟨k, rfl⟩ : ∃ j, k = j + 1 := ⟨k - 1, by omega⟩
  refine (C05_outcome hA hi hk cod).1.mpr ⟨stackFn_baseDetermined (Fin.last k) (hb _), ?_⟩
  rw [stackFn_lastSix]
  exact hb _

theorem qpCycle_none {c : ℕ} {J : Matrix (Fin c) (Fin 6 ⊕ Fin n) ℝ} {B : Matrix (Fin 6 ⊕ Fin n) (Fin 6 ⊕ Fin n) ℝ}
    (cod : (W : Matrix (Fin n) (Fin n) ℝ) → CodNull W) (limit : Option (Fin n → ℝ)) (cs : List ContactLink)
    (solve : Solver) (ts : List (TaskIn (Fin n))) (h : contactSpace J B = none ∨ ¬ 6 < c) :
    qpCycle J B G cod limit cs solve ts = none := by
  unfold qpCycle calculateContactConstraint
  rcases hS : contactSpace J B with _ | S
  · rfl
  · rw [hS] at h
    simp only
    rw [if_neg (h.resolve_left (by simp))]

/-- The cycle of the robot described otherwise, when both find a matrix for the contact forces. -/
theorem qpCycle_seen {c : ℕ} {U V : Matrix (Fin 6) (Fin 6) ℝ} {R : Matrix (Fin c) (Fin c) ℝ} {A' : Matrix (Fin 6 ⊕ Fin n) (Fin 6 ⊕ Fin n) ℝ}
    {J J' : Matrix (Fin c) (Fin 6 ⊕ Fin n) ℝ} {G' : Fin 6 ⊕ Fin n → ℝ} (hU : U * V = 1) (hR : Rᵀ * R = 1)
    (h : SeenAs U R A J G A' J' G') {cs cs' : List ContactLink}
    (hcone : ∃ m m' C C', stackC cs c = some ⟨m, C⟩ ∧ stackC cs' c = some ⟨m', C'⟩ ∧
      ∀ F : Fin c → ℝ, (∀ r, 0 ≤ (C' *ᵥ (R *ᵥ F)) r) ↔ ∀ r, 0 ≤ (C *ᵥ F) r)
    (cod : (W : Matrix (Fin n) (Fin n) ℝ) → CodNull W) (limit : Option (Fin n → ℝ)) {solve solve' : Solver} (he : solve.Exact)
    (hcomp : solve.Complete) (he' : solve'.Exact) (hcomp' : solve'.Complete) {ts ts' : List (TaskIn (Fin n))} (ht : SeenTasks U ts ts')
    (hd : ∃ S out, calculateContactConstraint J A⁻¹ cod = .ret 1 S (some out))
    (hd' : ∃ S out, calculateContactConstraint J' A'⁻¹ cod = .ret 1 S (some out)) :
    SameCycle (qpCycle J' A'⁻¹ G' cod limit cs' solve' ts') (qpCycle J A⁻¹ G cod limit cs solve ts) := by
  obtain ⟨S, ⟨k, V2, N⟩, hr⟩ := hd
  obtain ⟨S', ⟨k', V2', N'⟩, hr'⟩ := hd'
  have hS := ccc_space hr
  have hS' := ccc_space hr'
  rw [contactSpace_seen hU hR h, hS, Option.map_some, Option.some.injEq] at hS'
  subst hS'
  unfold SameCycle qpCycle
  rw [hr, hr']
  simp only
  rcases calcTaskSpace_seen (S := S) hU h ht with ⟨e, e'⟩ | ⟨ys, ys', e, e', hy⟩
  · rw [e, e']
  rw [e, e']
  simp only
  have hs : SeenRobot U V R
      { S := S, NwJw := N, P := gravityForce S G, τg := gravityTorque S A⁻¹ G, limit := limit, cs := cs }
      { S := seenSpace U V R S, NwJw := N',
        P := gravityForce (seenSpace U V R S) G', τg := gravityTorque (seenSpace U V R S) A'⁻¹ G',
        limit := limit, cs := cs' } := by
    refine ⟨rfl, fun δ => ?_, gravityForce_seen hU h, gravityTorque_seen hU h, rfl, Or.inr hcone⟩
    rw [ccc_internal hr, ccc_internal hr']
    exact Iff.rfl
  have hl := qpLoop_seen hU hs he hcomp he' hcomp' hy 0 1 0 0 0
  unfold calcTaskControlTorqueQP
  revert hl
  rcases qpLoop _ solve 0 1 0 0 ys with _ | ⟨v1, τ1, τc1⟩ <;> rcases qpLoop _ solve' 0 1 0 0 ys' with _ | ⟨v2, τ2, τc2⟩
  · intro _; rfl
  · intro hl; exact hl.elim
  · intro hl; exact hl.elim
  · rintro ⟨rfl, rfl⟩
    simp only [Option.map_some, gravityTorque_seen hU h]

theorem qpCycle_perm (hA : IsSPD A) {k : ℕ} (g : Fin k → Foot (Fin n)) (e : Equiv.Perm (Fin k)) {cs cs' : List ContactLink}
    (ha : active cs = List.ofFn fun i => (g i).link) (ha' : active cs' = List.ofFn fun i => (g (e i)).link)
    (h6 : ∀ l ∈ cs, l.type = .c6d) (h6' : ∀ l ∈ cs', l.type = .c6d) (hb : ∀ i, IsUnit (footBase (g i)).det)
    (cod : (W : Matrix (Fin n) (Fin n) ℝ) → CodNull W) (limit : Option (Fin n → ℝ)) {solve solve' : Solver} (he : solve.Exact)
    (hcomp : solve.Complete) (he' : solve'.Exact) (hcomp' : solve'.Complete) (ts : List (TaskIn (Fin n))) :
    SameCycle (qpCycle (stackFn (g ∘ e)) A⁻¹ G cod limit cs' solve' ts) (qpCycle (stackFn g) A⁻¹ G cod limit cs solve ts) := by
  have h := seenAs_perm A G g e
  have hR := permRows_orth e
  have hs := contactSpace_seen (V := 1) (Matrix.one_mul 1) hR h
  by_cases hk : 6 < 6 * k
  swap
  · rw [qpCycle_none cod limit cs solve ts (Or.inr hk), qpCycle_none cod limit cs' solve' ts (Or.inr hk)]
    rfl
  by_cases hi : IndependentRows (stackFn g)
  swap
  · have h0 : contactSpace (stackFn g) A⁻¹ = none := by
      have := (C02_finite_iff_independent (J := stackFn g) hA).not.mpr hi
      simpa using this
    rw [h0, Option.map_none] at hs
    rw [qpCycle_none cod limit cs solve ts (Or.inl h0), qpCycle_none cod limit cs' solve' ts (Or.inl hs)]
    rfl
  have hi' : IndependentRows (stackFn (g ∘ e)) := by
    refine (C02_finite_iff_independent hA).mp ?_
    rw [hs, Option.isSome_map]
    exact (C02_finite_iff_independent hA).mpr hi
  exact qpCycle_seen (V := 1) (Matrix.one_mul 1) hR h (stackC_perm g e ha ha' h6 h6') cod limit he hcomp he' hcomp' (seenTasks_same ts)
    (stackFn_outcome hA g hb hi hk cod) (stackFn_outcome hA (g ∘ e) (fun i => hb _) hi' hk cod)

theorem active_links (l : List (Foot (Fin n))) : active (l.map Foot.link) = List.ofFn fun i => ((standing l).get i).link := by
  have : active (l.map Foot.link) = (standing l).map Foot.link := by
    unfold active standing
    rw [List.filter_map]
    rfl
  rw [this]
  conv_lhs => rw [← List.ofFn_get (standing l)]
  rw [List.map_ofFn]
  rfl

/-- C81 (a cycle with QP task control).  Return value, gravity torque and task torque do not depend on the order of registration, for
exact solvers that answer every solvable problem; contacts of type 6DOF whose base columns are invertible.  (The torque for the
contact forces need not be unique, see C86; it is what `C81_redistribute_differs` is about.) -/
theorem C81_qp_cycle_partial (hA : IsSPD A) {l l' : List (Foot (Fin n))} (hp : l'.Perm l) (h6 : ∀ f ∈ l, f.link.type = .c6d)
    (hb : ∀ f ∈ l, IsUnit (footBase f).det) (cod : (W : Matrix (Fin n) (Fin n) ℝ) → CodNull W) (limit : Option (Fin n → ℝ))
    {solve solve' : Solver} (he : solve.Exact) (hcomp : solve.Complete) (he' : solve'.Exact) (hcomp' : solve'.Complete)
    (ts : List (TaskIn (Fin n))) :
    SameCycle (feetQP A G cod limit solve' ts l') (feetQP A G cod limit solve ts l) := by
  unfold feetQP stackFeet
  have hst := standing_perm hp
  obtain ⟨e, hg⟩ := perm_get hst
  have ha := active_links l
  have ha' := active_links l'
  simp only [hg] at ha'
  have hb' : ∀ i, IsUnit (footBase ((standing l).get i)).det := fun i => hb _ (List.mem_of_mem_filter (List.get_mem _ i))
  have h6l : ∀ c ∈ l.map Foot.link, c.type = .c6d := by
    intro c hc; obtain ⟨f, hf, rfl⟩ := List.mem_map.mp hc; exact h6 f hf
  have h6l' : ∀ c ∈ l'.map Foot.link, c.type = .c6d := by
    intro c hc; obtain ⟨f, hf, rfl⟩ := List.mem_map.mp hc; exact h6 f (hp.mem_iff.mp hf)
  have hgg : (standing l').get = (standing l).get ∘ e := funext hg
  rw [hgg]
  have hk := hst.length_eq
  clear hgg hg hst
  revert e ha' ha hb'
  generalize (standing l).get = g
  generalize (standing l).length = k at hk g
  revert g
  subst hk
  intro g e ha ha' hb'
  exact qpCycle_perm hA g e ha ha' h6l h6l' hb' cod limit he hcomp he' hcomp' ts

theorem keepsTop_perm {k : ℕ} (e : Equiv.Perm (Fin k)) (hlast : ∀ i : Fin k, i.val + 1 = k → e i = i) : KeepsTop (permRows e) := by
  intro i j hj
  simp only [permRows, submatrix_apply, id, Matrix.one_apply]
  rw [if_neg]
  intro h
  have hv := congrArg Fin.val h
  rw [rowPerm_val] at hv
  simp only [Fin.val_castLE] at hv
  have hi := i.isLt
  set a : Fin k := ⟨i.val / 6, by omega⟩ with ha
  have h1 : (e a).val + 1 = k := by omega
  have h2 : e (e a) = e a := hlast _ h1
  have h3 : e a = a := e.injective h2
  rw [h3] at h1
  have : a.val = i.val / 6 := rfl
  omega

/-- A rearrangement that keeps the last entry, place by place. -/
theorem perm_get_last {α : Type*} {l l' : List α} (h : l'.Perm l) (hl : l'.getLast? = l.getLast?) :
    ∃ e : Fin l'.length ≃ Fin l.length, (∀ i, l'.get i = l.get (e i)) ∧ ∀ i, i.val + 1 = l'.length → (e i).val = i.val := by
  obtain ⟨e, he⟩ := perm_get h
  have hlen := h.length_eq
  rcases Nat.eq_zero_or_pos l'.length with h0 | h0
  · exact ⟨e, he, fun i => by have := i.isLt; omega⟩
  let a' : Fin l'.length := ⟨l'.length - 1, by omega⟩
  let a : Fin l.length := ⟨l.length - 1, by omega⟩
  have hget : l.get (e a') = l.get a := by
    rw [← he a']
    rw [List.getLast?_eq_getElem?, List.getLast?_eq_getElem?, List.getElem?_eq_getElem (by omega), List.getElem?_eq_getElem (by omega),
      Option.some.injEq] at hl
    exact hl
  refine ⟨e.trans (Equiv.swap (e a') a), fun i => ?_, fun i hi => ?_⟩
  · rw [he i]
    simp only [Equiv.trans_apply]
    rcases eq_or_ne (e i) (e a') with h1 | h1
    · rw [h1, Equiv.swap_apply_left, hget]
    rcases eq_or_ne (e i) a with h2 | h2
    · rw [h2, Equiv.swap_apply_right, hget]
    · rw [Equiv.swap_apply_of_ne_of_ne h1 h2]
  · have : i = a' := Fin.ext (by simp only [a']; omega)
    subst this
    simp only [Equiv.trans_apply, Equiv.swap_apply_left]
    simp only [a, a']
    omega

/-- C81 (contact redistribution by QP).  Return value and contact torque depend only on which standing contact was registered
last: the others may be registered in any order. -/
theorem C81_redistribute_last {l l' : List (Foot (Fin n))} (hp : l'.Perm l)
    (hlast : (standing l').getLast? = (standing l).getLast?) (h6 : ∀ f ∈ l, f.link.type = .c6d)
    (cod : (W : Matrix (Fin n) (Fin n) ℝ) → CodNull W) (limit : Option (Fin n → ℝ))
    {solve solve' : RSolver} (he : solve.Exact) (hcomp : solve.Complete) (he' : solve'.Exact) (hcomp' : solve'.Complete)
    (τin τc : Fin n → ℝ) :
    feetRedistribute A G cod limit solve' τin τc l' = feetRedistribute A G cod limit solve τin τc l := by
  unfold feetRedistribute stackFeet
  have hst := standing_perm hp
  obtain ⟨e, hg, hfix⟩ := perm_get_last hst hlast
  have ha := active_links l
  have ha' := active_links l'
  simp only [hg] at ha'
  have h6l : ∀ c ∈ l.map Foot.link, c.type = .c6d := by
    intro c hc; obtain ⟨f, hf, rfl⟩ := List.mem_map.mp hc; exact h6 f hf
  have h6l' : ∀ c ∈ l'.map Foot.link, c.type = .c6d := by
    intro c hc; obtain ⟨f, hf, rfl⟩ := List.mem_map.mp hc; exact h6 f (hp.mem_iff.mp hf)
  have hgg : (standing l').get = (standing l).get ∘ e := funext hg
  rw [hgg]
  have hk := hst.length_eq
  clear hgg hg hst hlast
  revert e ha' ha
  generalize (standing l).get = g
  generalize (standing l).length = k at hk g
  revert g
  subst hk
  intro g e hfix ha ha'
  have l1 : (active (l.map Foot.link)).length = (standing l').length := by rw [ha, List.length_ofFn]
  have l2 : (active (l'.map Foot.link)).length = (standing l').length := by rw [ha', List.length_ofFn]
  exact redistributeCycle_seen (V := 1) (Matrix.one_mul 1) (permRows_orth e) (keepsTop_perm e fun i hi => Fin.ext (hfix i hi))
    (stackC_perm g e ha ha' h6l h6l') (fun h => by omega) (fun h => by omega) (seenAs_perm A G g e) cod limit he hcomp he' hcomp' τin τc

end

end Verif.Props
