import Verif.Props.OrderLast
import Verif.Props.Effort
import Verif.Props.QPFail
import Verif.Props.ReducedLeast

/-!
# C98: lifting a foot and setting one down
-/

set_option linter.unusedSectionVars false

namespace Verif.Props
open Matrix Verif Verif.Spec Verif.Model

/-- The numbers of the contacts that are switched on, in the order of registration. -/
def numbers {N : ℕ} (on : Fin N → Bool) : List (Fin N) := (List.finRange N).filter on

variable {n : ℕ} {l : List (Foot (Fin n))}

theorem standing_set (l : List (Foot (Fin n))) (on : Fin l.length → Bool) :
    standing (setContacts l on) = (numbers on).map fun i => { l.get i with link := { (l.get i).link with contact := on i } } := by
  unfold standing setContacts numbers
  rw [List.filter_map]
  rfl

theorem standing_set_length (l : List (Foot (Fin n))) (on : Fin l.length → Bool) :
    (standing (setContacts l on)).length = (numbers on).length := by rw [standing_set, List.length_map]

/-- The forces `f` at the contacts that are switched on, one below the other. -/
def stackForces (l : List (Foot (Fin n))) (on : Fin l.length → Bool) (f : Fin l.length → Fin 6 → ℝ) :
    Fin (6 * (standing (setContacts l on)).length) → ℝ := fun r =>
  f ((numbers on).get ⟨r / 6, by have := r.isLt; have := standing_set_length l on; omega⟩) ⟨r % 6, by omega⟩

/-- the place of a standing contact among the numbers -/
def numberOf (l : List (Foot (Fin n))) (on : Fin l.length → Bool) (k : Fin (standing (setContacts l on)).length) : Fin l.length :=
  (numbers on).get (Fin.cast (standing_set_length l on) k)

theorem wrench_stack (on : Fin l.length → Bool) (f : Fin l.length → Fin 6 → ℝ) (k : Fin (standing (setContacts l on)).length) :
    wrenchOf (stackForces l on f) k = f (numberOf l on k) := by
  ext j
  have h1 : (6 * k.val + j.val) / 6 = k.val := by omega
  have h2 : (⟨(6 * k.val + j.val) % 6, by omega⟩ : Fin 6) = j := Fin.ext (by simp only; omega)
  simp only [wrenchOf, stackForces, h1, h2, numberOf]
  rfl

theorem get_standing (on : Fin l.length → Bool) (k : Fin (standing (setContacts l on)).length) :
    (standing (setContacts l on)).get k =
      { l.get (numberOf l on k) with link := { (l.get (numberOf l on k)).link with contact := on (numberOf l on k) } } := by
  have : ∀ (L : List (Foot (Fin n))) (e : L = (numbers on).map fun i => ({ l.get i with link := { (l.get i).link with contact := on i } } : Foot (Fin n)))
      (k : Fin L.length) (hk : k.val < (numbers on).length), L.get k =
      { l.get ((numbers on).get ⟨k, hk⟩) with link := { (l.get ((numbers on).get ⟨k, hk⟩)).link with contact := on ((numbers on).get ⟨k, hk⟩) } } := by
    rintro L rfl k hk
    simp
  exact this _ (standing_set l on) k (by rw [← standing_set_length l on]; exact k.isLt)

theorem number_on (on : Fin l.length → Bool) (k : Fin (standing (setContacts l on)).length) : on (numberOf l on k) = true := by
  have : numberOf l on k ∈ numbers on := List.get_mem _ _
  exact (List.mem_filter.mp this).2

theorem exists_place (on : Fin l.length → Bool) {i : Fin l.length} (hi : on i = true) : ∃ k, numberOf l on k = i := by
  have hm : i ∈ numbers on := List.mem_filter.mpr ⟨List.mem_finRange i, hi⟩
  obtain ⟨k, hk⟩ := List.get_of_mem hm
  exact ⟨Fin.cast (standing_set_length l on).symm k, hk⟩

theorem number_inj (on : Fin l.length → Bool) {k k' : Fin (standing (setContacts l on)).length} (h : numberOf l on k = numberOf l on k') :
    k = k' := by
  have hn : (numbers on).Nodup := (List.nodup_finRange _).filter _
  have := (List.nodup_iff_injective_get.mp hn) h
  exact Fin.ext (by simpa using congrArg Fin.val this)

/-- any stacked force consists of forces at the contacts that are switched on -/
theorem exists_forces (on : Fin l.length → Bool) (F : Fin (6 * (standing (setContacts l on)).length) → ℝ) :
    ∃ f : Fin l.length → Fin 6 → ℝ, F = stackForces l on f ∧ ∀ i, on i = false → f i = 0 := by
  classical
  refine ⟨fun i => if h : ∃ k, numberOf l on k = i then wrenchOf F h.choose else 0, ?_, fun i hi => ?_⟩
  · have key : ∀ k, wrenchOf F k = wrenchOf (stackForces l on fun i => if h : ∃ k, numberOf l on k = i then wrenchOf F h.choose else 0) k := by
      intro k
      rw [wrench_stack, dif_pos ⟨k, rfl⟩]
      congr 1
      have h : ∃ k', numberOf l on k' = numberOf l on k := ⟨k, rfl⟩
      exact (number_inj on h.choose_spec).symm
    ext r
    have := congrFun (key ⟨r / 6, by omega⟩) ⟨r % 6, by omega⟩
    simp only [wrenchOf] at this
    have e : (⟨6 * (r.val / 6) + r.val % 6, by omega⟩ : Fin (6 * (standing (setContacts l on)).length)) = r := Fin.ext (by simp only; omega)
    rw [e] at this
    exact this
  · refine dif_neg ?_
    rintro ⟨k, rfl⟩
    rw [number_on on k] at hi
    cases hi

theorem sum_numbers {N : ℕ} {M : Type*} [AddCommMonoid M] (on : Fin N → Bool) (φ : Fin N → M) :
    ((numbers on).map φ).sum = ∑ i, if on i = true then φ i else 0 := by
  rw [Fin.sum_univ_def]
  unfold numbers
  induction List.finRange N with
  | nil => rfl
  | cons a t ih =>
    rw [List.filter_cons]
    cases h : on a <;> simp [h, ih]

theorem stack_transpose (on : Fin l.length → Bool) (f : Fin l.length → Fin 6 → ℝ) :
    (stackFeet (setContacts l on))ᵀ *ᵥ stackForces l on f = ∑ i, if on i = true then (l.get i).jacᵀ *ᵥ f i else 0 := by
  rw [← sum_numbers on fun i => (l.get i).jacᵀ *ᵥ f i, stackFeet, stackFn_transpose]
  simp only [wrench_stack, get_standing]
  rw [← Equiv.sum_comp (finCongr (standing_set_length l on).symm)]
  exact (Fin.sum_univ_fun_getElem (numbers on) fun i => (l.get i).jacᵀ *ᵥ f i)

theorem stack_fixed (on : Fin l.length → Bool) (q : Fin 6 ⊕ Fin n → ℝ) :
    ContactsFixed (stackFeet (setContacts l on)) q ↔ ∀ i, on i = true → (l.get i).jac *ᵥ q = 0 := by
  unfold ContactsFixed
  constructor
  · intro h i hi
    obtain ⟨k, rfl⟩ := exists_place on hi
    ext j
    have := congrFun h (wrenchPlace (k, j))
    have h1 : (⟨(wrenchPlace (k, j)).val / 6, by omega⟩ : Fin (standing (setContacts l on)).length) = k := by
      apply Fin.ext; simp only [wrenchPlace_val]; omega
    have h2 : (⟨(wrenchPlace (k, j)).val % 6, by omega⟩ : Fin 6) = j := by apply Fin.ext; simp only [wrenchPlace_val]; omega
    simp only [stackFeet, stackFn, mulVec, of_apply, h1, h2, get_standing] at this
    exact this
  · intro h
    ext r
    have := congrFun (h _ (number_on on ⟨r / 6, by omega⟩)) ⟨r % 6, by omega⟩
    simp only [stackFeet, stackFn, mulVec, of_apply, get_standing]
    exact this

section Motion
variable {A : Matrix (Fin 6 ⊕ Fin n) (Fin 6 ⊕ Fin n) ℝ} {G : Fin 6 ⊕ Fin n → ℝ} {τ : Fin n → ℝ} {q : Fin 6 ⊕ Fin n → ℝ}
  {f : Fin l.length → Fin 6 → ℝ} {on on' : Fin l.length → Bool}

theorem sum_unloaded (hsub : ∀ i, on' i = true → on i = true) (h0 : ∀ i, on i = true → on' i = false → f i = 0) :
    (∑ i, if on i = true then (l.get i).jacᵀ *ᵥ f i else 0) = ∑ i, if on' i = true then (l.get i).jacᵀ *ᵥ f i else 0 := by
  refine Finset.sum_congr rfl fun i _ => ?_
  cases h' : on' i
  · cases h : on i
    · rfl
    · rw [if_pos rfl, h0 i h h', mulVec_zero]; simp
  · rw [hsub i h', if_pos rfl]

/-- C98 (lifting, motion).  If the contacts that are lifted carry no load, the robot goes on moving as it did under the same torque, with
the same forces at the contacts that remain. -/
theorem C98_lift_motion (hsub : ∀ i, on' i = true → on i = true) (h0 : ∀ i, on i = true → on' i = false → f i = 0)
    (h : Motion A (stackFeet (setContacts l on)) G τ q (stackForces l on f)) :
    Motion A (stackFeet (setContacts l on')) G τ q (stackForces l on' f) := by
  obtain ⟨hd, hf⟩ := h
  refine ⟨?_, (stack_fixed on' q).mpr fun i hi => (stack_fixed on q).mp hf i (hsub i hi)⟩
  unfold Dynamics at hd ⊢
  rw [stack_transpose] at hd ⊢
  rw [← sum_unloaded hsub h0]
  exact hd

/-- C98 (setting down, motion).  If contacts that do not accelerate are set down, the robot goes on moving as it did under the same torque,
the new contacts carrying nothing. -/
theorem C98_set_down_motion (hsub : ∀ i, on' i = true → on i = true) (h0 : ∀ i, on i = true → on' i = false → f i = 0)
    (hq : ∀ i, on i = true → on' i = false → (l.get i).jac *ᵥ q = 0)
    (h : Motion A (stackFeet (setContacts l on')) G τ q (stackForces l on' f)) :
    Motion A (stackFeet (setContacts l on)) G τ q (stackForces l on f) := by
  obtain ⟨hd, hf⟩ := h
  refine ⟨?_, (stack_fixed on q).mpr fun i hi => ?_⟩
  · unfold Dynamics at hd ⊢
    rw [stack_transpose] at hd ⊢
    rw [sum_unloaded hsub h0]
    exact hd
  · cases h' : on' i
    · exact hq i hi h'
    · exact (stack_fixed on' q).mp hf i h'

end Motion

/-- The contact neither tips nor slips under the wrench `w`. -/
def FootHolds (c : ContactLink) (w : Fin 6 → ℝ) : Prop :=
  NoTip c.planeX c.planeY (inFrame c.rotm w) ∧ NoSlip c.friction c.frictionZ (inFrame c.rotm w)

theorem footHolds_zero (c : ContactLink) : FootHolds c 0 := by
  have e : inFrame c.rotm 0 = 0 := by
    ext j; fin_cases j <;> simp [inFrame, mulVec, dotProduct, Fin.sum_univ_three]
  unfold FootHolds
  rw [e]
  exact ⟨Or.inr ⟨rfl, rfl, rfl⟩, by simp [NoSlip, press]⟩

theorem active_set (on : Fin l.length → Bool) : active ((setContacts l on).map Foot.link) = (standing (setContacts l on)).map Foot.link := by
  unfold active standing
  rw [List.filter_map]
  rfl

theorem rows_set (on : Fin l.length → Bool) :
    6 * (standing (setContacts l on)).length = 6 * (active ((setContacts l on).map Foot.link)).length := by
  rw [active_set, List.length_map]

theorem holds_of (on : Fin l.length → Bool) {f : Fin l.length → Fin 6 → ℝ} (h : ∀ i, on i = true → FootHolds (l.get i).link (f i)) :
    ContactsHold ((setContacts l on).map Foot.link) (stackForces l on f ∘ Fin.cast (rows_set on).symm) := by
  intro i
  have hi : i.val < (standing (setContacts l on)).length := by have := rows_set on; have := i.isLt; omega
  have e : (active ((setContacts l on).map Foot.link))[i] = ((standing (setContacts l on)).get ⟨i, hi⟩).link := by
    have := List.getElem_of_eq (active_set on) i.isLt
    rw [List.getElem_map] at this
    exact this
  have ew : wrenchOf (stackForces l on f ∘ Fin.cast (rows_set on).symm) i = f (numberOf l on ⟨i, hi⟩) := wrench_stack on f ⟨i, hi⟩
  rw [e, ew, get_standing]
  exact h _ (number_on on _)

section Control
variable {A : Matrix (Fin 6 ⊕ Fin n) (Fin 6 ⊕ Fin n) ℝ} {G : Fin 6 ⊕ Fin n → ℝ} {τ : Fin n → ℝ}
  {f : Fin l.length → Fin 6 → ℝ} {on on' : Fin l.length → Bool}

theorem set_base {i : Fin l.length} (hi : on i = true) (hb : IsUnit (footBase (l.get i)).det) : BaseDetermined (stackFeet (setContacts l on)) := by
  obtain ⟨k, rfl⟩ := exists_place on hi
  refine stackFn_baseDetermined k ?_
  rw [get_standing]
  exact hb

/-- C98 (one foot remains, torque).  A robot stands still on several independent contacts under some torque.  Then all but one contact are
switched off.  The gravity compensation for the remaining contact is the torque the robot stood under if and only if none of the other
contacts carried a load. -/
theorem C98_gravity_iff (hA : IsSPD A) {i₀ : Fin l.length} (hb : IsUnit (footBase (l.get i₀)).det) (hon : on i₀ = true)
    (hind : IndependentRows (stackFeet (setContacts l on))) (hM : Motion A (stackFeet (setContacts l on)) G τ 0 (stackForces l on f))
    {τ' : Fin n → ℝ} (hτ' : feetGravity A G (setContacts l fun i => i == i₀) = some τ') :
    τ' = τ ↔ ∀ i, on i = true → i ≠ i₀ → f i = 0 := by
  unfold feetGravity gravityCommand at hτ'
  obtain ⟨S, hS, rfl⟩ := Option.map_eq_some_iff.mp hτ'
  have hB : BaseDetermined (stackFeet (setContacts l fun i => i == i₀)) := set_base (i := i₀) (by simp) hb
  obtain ⟨q', hM'⟩ := (C01_contact_force_exact hA hS G (gravityTorque S A⁻¹ G)).1
  obtain rfl := (C03_gravity_compensation hA hS G hM').2 hB
  obtain ⟨f', hf', hz⟩ := exists_forces _ (contactForce S (gravityForce S G) (gravityTorque S A⁻¹ G))
  rw [hf'] at hM'
  have hsub : ∀ i, (i == i₀) = true → on i = true := fun i hi => by rw [eq_of_beq hi]; exact hon
  constructor
  · intro e i hi hne
    rw [e] at hM'
    have h2 := C98_set_down_motion (on := on) hsub (fun i _ h => hz i h) (fun i _ _ => mulVec_zero _) hM'
    have h3 : (stackFeet (setContacts l on))ᵀ *ᵥ (stackForces l on f - stackForces l on f') = 0 := by
      have a1 := hM.1
      have a2 := h2.1
      unfold Dynamics at a1 a2
      rw [mulVec_sub, sub_eq_zero]
      rw [← a2] at a1
      simpa using a1
    have h4 := sub_eq_zero.mp (hind _ h3)
    obtain ⟨k, rfl⟩ := exists_place on hi
    rw [← wrench_stack on f k, h4, wrench_stack on f' k]
    exact hz _ (by simpa using hne)
  · intro h0
    have h2 := C98_lift_motion (on' := fun i => i == i₀) hsub (fun i hi hne => h0 i hi (by simpa using hne)) hM
    have a1 := hM'.1
    have a2 := h2.1
    unfold Dynamics at a1 a2
    rw [stack_transpose] at a1 a2
    simp only [beq_iff_eq, Finset.sum_ite_eq', Finset.mem_univ, if_true, mulVec_zero, zero_add] at a1 a2
    have hw : f' i₀ - f i₀ = 0 := by
      have hu : IsUnit ((footBase (l.get i₀))ᵀ) := by
        rw [Matrix.isUnit_iff_isUnit_det, det_transpose]; exact hb
      refine (Matrix.mulVec_injective_iff_isUnit.mpr hu) ?_
      rw [mulVec_zero]
      ext j
      have b1 := congrFun a1 (Sum.inl j)
      have b2 := congrFun a2 (Sum.inl j)
      simp only [actuate, Pi.add_apply, Sum.elim_inl, Pi.zero_apply] at b1 b2
      have b3 : ((footBase (l.get i₀))ᵀ *ᵥ (f' i₀ - f i₀)) j = ((l.get i₀).jacᵀ *ᵥ f' i₀) (Sum.inl j) - ((l.get i₀).jacᵀ *ᵥ f i₀) (Sum.inl j) := by
        rw [mulVec_sub]; rfl
      rw [b3, Pi.zero_apply]
      linarith
    rw [sub_eq_zero.mp hw, a2] at a1
    funext j
    exact (congrFun a1 (Sum.inr j)).symm

/-- a robot that can stand safely on two or more contacts never fails there -/
theorem qp_stands (hA : IsSPD A) (h6 : ∀ f ∈ l, f.link.type = .c6d) (hp : ∀ f ∈ l, 0 < f.link.planeX ∧ 0 < f.link.planeY)
    (hb : ∀ i, on i = true → IsUnit (footBase (l.get i)).det) (htwo : 2 ≤ (numbers on).length)
    (cod : (W : Matrix (Fin n) (Fin n) ℝ) → CodNull W) {limit : Option (Fin n → ℝ)} {solve : Solver} (hs : solve.Sound) (hcomp : solve.Complete)
    (hM : Motion A (stackFeet (setContacts l on)) G τ 0 (stackForces l on f)) (hL : ∀ L, limit = some L → WithinLimit L τ)
    (hf : ∀ i, on i = true → FootHolds (l.get i).link (f i)) {ts : List (TaskIn (Fin n))}
    {out : ℕ × (Fin n → ℝ) × (Fin n → ℝ) × (Fin n → ℝ)} (h : feetQP A G cod limit solve ts (setContacts l on) = some out) : out.1 = 1 := by
  unfold feetQP qpCycle at h
  split at h
  swap
  · cases h
  rename_i v S out' hR
  split at h
  · cases h
  rename_i rs hrs
  have hS := ccc_space hR
  have hlen := standing_set_length l on
  obtain ⟨k0, hk0⟩ : ∃ k0 : Fin (standing (setContacts l on)).length, k0.val = 0 := ⟨⟨0, by omega⟩, rfl⟩
  have hB : BaseDetermined (stackFeet (setContacts l on)) := set_base (number_on on k0) (hb _ (number_on on k0))
  have h6' : ∀ c ∈ (setContacts l on).map Foot.link, c.type = .c6d := by
    intro c hc
    simp only [setContacts, List.map_map, List.mem_map] at hc
    obtain ⟨i, -, rfl⟩ := hc
    exact h6 (l.get i) (List.get_mem _ _)
  have hp' : ∀ c ∈ (setContacts l on).map Foot.link, 0 < c.planeX ∧ 0 < c.planeY := by
    intro c hc
    simp only [setContacts, List.map_map, List.mem_map] at hc
    obtain ⟨i, -, rfl⟩ := hc
    exact hp (l.get i) (List.get_mem _ _)
  obtain ⟨qg, hMg⟩ := (C01_contact_force_exact hA hS G (gravityTorque S A⁻¹ G)).1
  obtain rfl := (C03_gravity_compensation hA hS G hMg).2 hB
  have e : gravityTorque S A⁻¹ G + (τ - gravityTorque S A⁻¹ G) = τ := by abel
  have hδ : MovesNothing A (stackFeet (setContacts l on)) G (τ - gravityTorque S A⁻¹ G) :=
    still_of_once hA hS hMg (by rw [e]; exact hM) rfl
  have hsafe : SafeTorque A (stackFeet (setContacts l on)) G limit ((setContacts l on).map Foot.link) (rows_set on)
      (gravityTorque S A⁻¹ G + (τ - gravityTorque S A⁻¹ G)) := by
    rw [e]
    refine ⟨hL, fun qdd F hm => ?_⟩
    have : F = stackForces l on f :=
      ((motion_iff hA hS _ _ _ _).mp hm).2.trans ((motion_iff hA hS _ _ _ _).mp hM).2.symm
    rw [this]
    exact holds_of on hf
  obtain ⟨τt, τc, hq⟩ := C60_never_fails (R := { S := S, NwJw := out'.2.2, P := gravityForce S G, τg := gravityTorque S A⁻¹ G, limit := limit, cs := (setContacts l on).map Foot.link }) hA hS rfl h6' hp' (rows_set on) (by omega) cod hR hs hcomp hδ hsafe rs
  simp only [hq, Option.some.injEq] at h
  rw [← h]

/-- C98 (lifting, QP control).  A robot stands still safely under some torque: within the limits, without tipping or slipping.  Contacts that
carry no load are switched off and two or more remain.  Then QP task control does not fail, whatever the tasks are. -/
theorem C98_lift_safe_partial (hA : IsSPD A) (h6 : ∀ f ∈ l, f.link.type = .c6d) (hp : ∀ f ∈ l, 0 < f.link.planeX ∧ 0 < f.link.planeY)
    (hb : ∀ i, on' i = true → IsUnit (footBase (l.get i)).det) (htwo : 2 ≤ (numbers on').length)
    (cod : (W : Matrix (Fin n) (Fin n) ℝ) → CodNull W) {limit : Option (Fin n → ℝ)} {solve : Solver} (hs : solve.Sound) (hcomp : solve.Complete)
    (hM : Motion A (stackFeet (setContacts l on)) G τ 0 (stackForces l on f)) (hL : ∀ L, limit = some L → WithinLimit L τ)
    (hf : ∀ i, on i = true → FootHolds (l.get i).link (f i)) (hsub : ∀ i, on' i = true → on i = true)
    (h0 : ∀ i, on i = true → on' i = false → f i = 0) {ts : List (TaskIn (Fin n))}
    {out : ℕ × (Fin n → ℝ) × (Fin n → ℝ) × (Fin n → ℝ)} (h : feetQP A G cod limit solve ts (setContacts l on') = some out) : out.1 = 1 :=
  qp_stands hA h6 hp hb htwo cod hs hcomp (C98_lift_motion hsub h0 hM) hL (fun i hi => hf i (hsub i hi)) h

/-- C98 (setting down, QP control).  A robot stands still safely under some torque, on one contact or more.  Further contacts are switched on,
so that there are two or more.  Then QP task control does not fail, whatever the tasks are. -/
theorem C98_set_down_safe (hA : IsSPD A) (h6 : ∀ f ∈ l, f.link.type = .c6d) (hp : ∀ f ∈ l, 0 < f.link.planeX ∧ 0 < f.link.planeY)
    (hb : ∀ i, on i = true → IsUnit (footBase (l.get i)).det) (htwo : 2 ≤ (numbers on).length)
    (cod : (W : Matrix (Fin n) (Fin n) ℝ) → CodNull W) {limit : Option (Fin n → ℝ)} {solve : Solver} (hs : solve.Sound) (hcomp : solve.Complete)
    (hM : Motion A (stackFeet (setContacts l on')) G τ 0 (stackForces l on' f)) (hL : ∀ L, limit = some L → WithinLimit L τ)
    (hf : ∀ i, on' i = true → FootHolds (l.get i).link (f i)) (hsub : ∀ i, on' i = true → on i = true) {ts : List (TaskIn (Fin n))}
    {out : ℕ × (Fin n → ℝ) × (Fin n → ℝ) × (Fin n → ℝ)} (h : feetQP A G cod limit solve ts (setContacts l on) = some out) : out.1 = 1 := by
  let g : Fin l.length → Fin 6 → ℝ := fun i => if on' i = true then f i else 0
  have e : stackForces l on' f = stackForces l on' g := by
    funext r
    simp only [stackForces, g]
    rw [if_pos]
    exact (List.mem_filter.mp (List.get_mem (numbers on') _)).2
  rw [e] at hM
  have h0 : ∀ i, on i = true → on' i = false → g i = 0 := fun i _ h => if_neg (by simp [h])
  refine qp_stands hA h6 hp hb htwo cod hs hcomp (C98_set_down_motion hsub h0 (fun i _ _ => mulVec_zero _) hM) hL (fun i _ => ?_) h
  cases h' : on' i
  · rw [show g i = 0 from if_neg (by simp [h'])]
    exact footHolds_zero _
  · rw [show g i = f i from if_pos h']
    exact hf i h'

/-- C98 (the first task).  Without QPs the first task of the list is given the acceleration commanded before and after any change of the
contacts, whatever load they carry. -/
theorem C98_first_task (hA : IsSPD A) {T : TaskIn (Fin n)} {ts : List (TaskIn (Fin n))} {τ τ' : Fin n → ℝ} {q q' F F'}
    (hB : BaseDetermined (stackFeet (setContacts l on))) (hB' : BaseDetermined (stackFeet (setContacts l on')))
    (h : feetClosed A G (T :: ts) (setContacts l on) = some τ) (h' : feetClosed A G (T :: ts) (setContacts l on') = some τ')
    (hM : Motion A (stackFeet (setContacts l on)) G τ q F) (hM' : Motion A (stackFeet (setContacts l on')) G τ' q' F') :
    T.J *ᵥ q = T.f ∧ T.J *ᵥ q' = T.f := by
  have key : ∀ {on : Fin l.length → Bool} {τ q F}, BaseDetermined (stackFeet (setContacts l on)) →
      feetClosed A G (T :: ts) (setContacts l on) = some τ → Motion A (stackFeet (setContacts l on)) G τ q F → T.J *ᵥ q = T.f := by
    intro on τ q F hB h hM
    unfold feetClosed closedCommand at h
    split at h
    · cases h
    rename_i S hS
    obtain ⟨rs, hrs, rfl⟩ := Option.map_eq_some_iff.mp h
    unfold calcTaskSpace at hrs
    rw [List.mapM_cons] at hrs
    simp only [Option.bind_eq_bind, Option.bind_eq_some_iff, Option.pure_def, Option.some.injEq] at hrs
    obtain ⟨R, hR, rs', -, rfl⟩ := hrs
    exact C07_top_priority_partial hA hS hB hR rs' hM
  exact ⟨key hB h hM, key hB' h' hM'⟩

end Control

/-! Three contacts: the two feet of `Pair`, and a second contact registered at the right foot.  The left foot carries the whole weight. -/
namespace Lift

noncomputable def feet : List (Foot (Fin 6)) := [Pair.left, Pair.right, Pair.right]

/-- both feet / the left foot / the right foot / all three contacts -/
noncomputable def both : Fin feet.length → Bool := ![true, true, false]
noncomputable def onLeft : Fin feet.length → Bool := ![true, false, false]
noncomputable def onRight : Fin feet.length → Bool := ![false, true, false]
noncomputable def all : Fin feet.length → Bool := ![true, true, true]

noncomputable def G : Fin 6 ⊕ Fin 6 → ℝ := -(Pair.left.jacᵀ *ᵥ Pair.press100)

noncomputable def f : Fin feet.length → Fin 6 → ℝ := ![Pair.press100, 0, 0]

theorem transpose (on : Fin feet.length → Bool) (g : Fin feet.length → Fin 6 → ℝ) :
    (stackFeet (setContacts feet on))ᵀ *ᵥ stackForces feet on g = (if on (0 : Fin 3) = true then Pair.left.jacᵀ *ᵥ g (0 : Fin 3) else 0) +
      (if on (1 : Fin 3) = true then Pair.right.jacᵀ *ᵥ g (1 : Fin 3) else 0) +
      (if on (2 : Fin 3) = true then Pair.right.jacᵀ *ᵥ g (2 : Fin 3) else 0) := by
  rw [stack_transpose]
  exact Fin.sum_univ_three (fun i : Fin 3 => if on i = true then (feet.get i).jacᵀ *ᵥ g i else 0)

theorem independent {on : Fin feet.length → Bool} (h2 : on (2 : Fin 3) = false) : IndependentRows (stackFeet (setContacts feet on)) := by
  intro F hF
  obtain ⟨g, rfl, hz⟩ := exists_forces on F
  rw [transpose, h2, Pair.left_T, Pair.right_T] at hF
  have hg : ∀ i, g i = 0 := by
    have h1 : g (1 : Fin 3) = 0 := by
      cases h : on (1 : Fin 3)
      · exact hz _ h
      · ext j
        have := congrFun hF (Sum.inr j)
        cases h0 : on (0 : Fin 3) <;> simpa [h, h0] using this
    have h0 : g (0 : Fin 3) = 0 := by
      cases h : on (0 : Fin 3)
      · exact hz _ h
      · ext j
        have := congrFun hF (Sum.inl j)
        rw [h1, h] at this
        cases h0 : on (1 : Fin 3) <;> fin_cases j <;> simpa [h0] using this
    intro i
    change Fin 3 at i
    fin_cases i
    · exact h0
    · exact h1
    · exact hz _ h2
  ext r
  simp only [stackForces, hg, Pi.zero_apply]

theorem motion {on : Fin feet.length → Bool} (h0 : on (0 : Fin 3) = true) :
    Motion 1 (stackFeet (setContacts feet on)) G 0 0 (stackForces feet on f) := by
  constructor
  · unfold Dynamics
    rw [transpose, h0]
    have e0 : f (0 : Fin 3) = Pair.press100 := rfl
    have e1 : f (1 : Fin 3) = 0 := rfl
    have e2 : f (2 : Fin 3) = 0 := rfl
    rw [e0, e1, e2, mulVec_zero, mulVec_zero]
    have : actuate (0 : Fin 6 → ℝ) = 0 := by funext i; rcases i with i | i <;> rfl
    rw [this]
    simp [G]
  · exact mulVec_zero _

theorem gravity {on : Fin feet.length → Bool} (h2 : on (2 : Fin 3) = false) : ∃ τ, feetGravity 1 G (setContacts feet on) = some τ := by
  obtain ⟨S, hS⟩ := Option.isSome_iff_exists.mp ((C02_finite_iff_independent (isSPD_one : IsSPD (1 : Matrix (Fin 6 ⊕ Fin 6) (Fin 6 ⊕ Fin 6) ℝ))).mpr
    (independent h2))
  exact ⟨_, Option.map_eq_some_iff.mpr ⟨S, hS, rfl⟩⟩

theorem base (i : Fin feet.length) : IsUnit (footBase (feet.get i)).det := by
  change Fin 3 at i
  fin_cases i
  · exact Pair.left_base
  · exact Pair.right_base
  · exact Pair.right_base

theorem gravity_loaded {on : Fin feet.length → Bool} (h0 : on (0 : Fin 3) = true) {τ : Fin 6 → ℝ}
    (h : feetGravity 1 G (setContacts feet on) = some τ) : τ = 0 := by
  unfold feetGravity gravityCommand at h
  obtain ⟨S, hS, rfl⟩ := Option.map_eq_some_iff.mp h
  have hM := motion h0
  have hl := C86_gravity_least (isSPD_one : IsSPD (1 : Matrix (Fin 6 ⊕ Fin 6) (Fin 6 ⊕ Fin 6) ℝ)) hS G (τ := 0) (qdd := 0) (F := stackForces feet on f)
    hM (fun _ => rfl)
  refine (hl.2 ?_).symm
  have : 0 ≤ effort (gravityTorque S (1 : Matrix (Fin 6 ⊕ Fin 6) (Fin 6 ⊕ Fin 6) ℝ)⁻¹ G) := by
    unfold effort; exact Finset.sum_nonneg fun i _ => by positivity
  have e : effort (0 : Fin 6 → ℝ) = 0 := by simp [effort]
  rw [e]; exact this

theorem holds (i : Fin feet.length) : FootHolds (feet.get i).link (f i) := by
  have hz : ∀ c, FootHolds c 0 := footHolds_zero
  change Fin 3 at i
  fin_cases i
  · refine ⟨?_, ?_⟩
    · left
      simp [feet, f, Pair.left, exContact, Stand.inFrame_one, Pair.press100, NoTip, press]
      exact ⟨0, 0, by simp [IsCoP], by norm_num, by norm_num⟩
    · simp [feet, f, Pair.left, exContact, Stand.inFrame_one, Pair.press100, NoSlip, press]
  · exact hz _
  · exact hz _

end Lift

/-- C98 (negation).  A robot whose command jumps when a foot is lifted.  It stands still on two feet with zero torque, and that is its gravity
compensation.  Switching off the foot that carries the weight changes the gravity compensation.  Switching off the other foot does not. -/
theorem C98_lift_jumps : Motion 1 (stackFeet (setContacts Lift.feet Lift.both)) Lift.G 0 0 (stackForces Lift.feet Lift.both Lift.f) ∧
    feetGravity 1 Lift.G (setContacts Lift.feet Lift.both) = some 0 ∧
    feetGravity 1 Lift.G (setContacts Lift.feet Lift.onLeft) = some 0 ∧
    ∃ τ, feetGravity 1 Lift.G (setContacts Lift.feet Lift.onRight) = some τ ∧ τ ≠ 0 := by
  refine ⟨Lift.motion rfl, ?_, ?_, ?_⟩
  · obtain ⟨τ, h⟩ := Lift.gravity (on := Lift.both) rfl
    rw [h, Lift.gravity_loaded rfl h]
  · obtain ⟨τ, h⟩ := Lift.gravity (on := Lift.onLeft) rfl
    rw [h, Lift.gravity_loaded rfl h]
  · obtain ⟨τ, h⟩ := Lift.gravity (on := Lift.onRight) rfl
    refine ⟨τ, h, ?_⟩
    have e : (Lift.onRight) = fun i => i == (1 : Fin 3) := by
      funext i; change Fin 3 at i; fin_cases i <;> rfl
    rw [e] at h
    rw [Ne, C98_gravity_iff (on := Lift.both) (f := Lift.f) isSPD_one (Lift.base _) rfl (Lift.independent rfl) (Lift.motion rfl) h]
    intro h0
    have := congrFun (h0 (0 : Fin 3) rfl (show (0 : Fin 3) ≠ 1 by decide)) 2
    simp [Lift.f, Pair.press100] at this

/-- The hypotheses of `C98_lift_motion`, `C98_set_down_motion`, `C98_lift_safe_partial`, `C98_set_down_safe` and `C98_first_task` are met by this robot, and there are
results to compare. -/
theorem C98_hypotheses_met : ∃ (cod : (W : Matrix (Fin 6) (Fin 6) ℝ) → CodNull W) (solve : Solver), solve.Sound ∧ solve.Complete ∧
    (∀ f ∈ Lift.feet, f.link.type = .c6d ∧ 0 < f.link.planeX ∧ 0 < f.link.planeY) ∧ (∀ i, IsUnit (footBase (Lift.feet.get i)).det) ∧
    2 ≤ (numbers Lift.both).length ∧
    (∀ i, FootHolds (Lift.feet.get i).link (Lift.f i)) ∧
    Motion 1 (stackFeet (setContacts Lift.feet Lift.all)) Lift.G 0 0 (stackForces Lift.feet Lift.all Lift.f) ∧
    Motion 1 (stackFeet (setContacts Lift.feet Lift.onLeft)) Lift.G 0 0 (stackForces Lift.feet Lift.onLeft Lift.f) ∧
    (∀ i, Lift.both i = true → Lift.all i = true) ∧ (∀ i, Lift.all i = true → Lift.both i = false → Lift.f i = 0) ∧
    (∀ i, Lift.onLeft i = true → Lift.both i = true) ∧
    (feetQP 1 Lift.G cod none solve [] (setContacts Lift.feet Lift.both)).isSome ∧
    (feetClosed 1 Lift.G [] (setContacts Lift.feet Lift.both)).isSome := by
  classical
  let cod : (W : Matrix (Fin 6) (Fin 6) ℝ) → CodNull W := fun W => (exists_codNull W).some
  have hlen : 2 ≤ (numbers Lift.both).length := by decide
  obtain ⟨S, ⟨k, V2, N⟩, hR⟩ := stackFn_outcome (isSPD_one : IsSPD (1 : Matrix (Fin 6 ⊕ Fin 6) (Fin 6 ⊕ Fin 6) ℝ))
    (standing (setContacts Lift.feet Lift.both)).get (fun i => by rw [get_standing]; exact Lift.base _) (Lift.independent rfl)
    (by have := standing_set_length Lift.feet Lift.both; omega) cod
  refine ⟨cod, Stand.solver, fun i t n d x h => (Stand.solver_exact i t n d x h).1, Stand.solver_complete, ?_, Lift.base, hlen, Lift.holds,
    Lift.motion rfl, Lift.motion rfl, ?_, ?_, ?_, ?_, ?_⟩
  · intro f hf
    simp only [Lift.feet, List.mem_cons, List.not_mem_nil, or_false] at hf
    rcases hf with rfl | rfl | rfl <;> simp [Pair.left, Pair.right, exContact]
  · intro i _; change Fin 3 at i; fin_cases i <;> rfl
  · intro i _ h; change Fin 3 at i; fin_cases i
    · cases h
    · rfl
    · rfl
  · intro i h; change Fin 3 at i; fin_cases i
    · rfl
    · rfl
    · cases h
  · change (qpCycle (stackFn (standing (setContacts Lift.feet Lift.both)).get) _ _ _ _ _ _ _).isSome
    unfold qpCycle
    rw [hR]
    rfl
  · change (closedCommand (stackFn (standing (setContacts Lift.feet Lift.both)).get) _ _ _).isSome
    unfold closedCommand
    rw [ccc_space hR]
    rfl

end Verif.Props
