import Verif.Props.Moderate
import Verif.Props.JaccAnswers

/-!
# C95: stronger motors and better footing never hurt
-/

set_option linter.unusedSectionVars false

namespace Verif.Props
open Matrix Verif Verif.Spec Verif.Model

/-- Torque limits at least as wide; `none` is a robot without limits. -/
def LimitLe {n : ℕ} (limit limit' : Option (Fin n → ℝ)) : Prop := ∀ L', limit' = some L' → ∃ L, limit = some L ∧ ∀ j, L j ≤ L' j

/-- The same contact with a foot and friction at least as large. -/
structure ContactLe (l l' : ContactLink) : Prop where
  type : l'.type = l.type
  contact : l'.contact = l.contact
  rotm : l'.rotm = l.rotm
  planeX : l.planeX ≤ l'.planeX
  planeY : l.planeY ≤ l'.planeY
  friction : l.friction ≤ l'.friction
  frictionZ : l.frictionZ ≤ l'.frictionZ

theorem noTip_mono {lx ly lx' ly' : ℝ} {w : Fin 6 → ℝ} (hx : lx ≤ lx') (hy : ly ≤ ly') (h : NoTip lx ly w) : NoTip lx' ly' w :=
  h.imp (fun ⟨hp, px, py, hcop, h1, h2⟩ => ⟨hp, px, py, hcop, h1.trans hx, h2.trans hy⟩) id

theorem noTip_press {lx ly : ℝ} {w : Fin 6 → ℝ} (h : NoTip lx ly w) : 0 ≤ press w := by
  rcases h with h | ⟨h, -⟩
  · exact h.1.le
  · unfold press; rw [h]; norm_num

theorem noSlip_mono {μ μz μ' μz' : ℝ} {w : Fin 6 → ℝ} (hp : 0 ≤ press w) (h1 : μ ≤ μ') (h2 : μz ≤ μz') (h : NoSlip μ μz w) :
    NoSlip μ' μz' w :=
  ⟨h.1.trans (mul_le_mul_of_nonneg_right h1 hp), h.2.1.trans (mul_le_mul_of_nonneg_right h1 hp),
    h.2.2.trans (mul_le_mul_of_nonneg_right h2 hp)⟩

theorem active_le {cs cs' : List ContactLink} (h : List.Forall₂ ContactLe cs cs') : List.Forall₂ ContactLe (active cs) (active cs') := by
  induction h with
  | nil => exact .nil
  | @cons l l' cs cs' hl _ ih =>
    unfold active at ih ⊢
    rw [List.filter_cons, List.filter_cons, hl.contact]
    split
    · exact .cons hl ih
    · exact ih

theorem contactLe_mem {cs cs' : List ContactLink} (h : List.Forall₂ ContactLe cs cs') {l' : ContactLink} (hm : l' ∈ cs') :
    ∃ l ∈ cs, ContactLe l l' := by
  induction h with
  | nil => simp at hm
  | cons hl _ ih =>
    rcases List.mem_cons.mp hm with rfl | hm
    · exact ⟨_, by simp, hl⟩
    · obtain ⟨l, h1, h2⟩ := ih hm
      exact ⟨l, by simp [h1], h2⟩

/-- Contacts that hold would hold with better footing. -/
theorem contactsHold_mono {c : ℕ} {cs cs' : List ContactLink} (h : List.Forall₂ ContactLe cs cs') (hc : c = 6 * (active cs).length)
    (hc' : c = 6 * (active cs').length) {F : Fin c → ℝ} (hF : ContactsHold cs (F ∘ Fin.cast hc.symm)) :
    ContactsHold cs' (F ∘ Fin.cast hc'.symm) := by
  have ha := active_le h
  intro i
  have hlen := ha.length_eq
  have hle : ContactLe ((active cs)[i.val]'(by omega)) (active cs')[i.val] := List.forall₂_iff_get.mp ha |>.2 i.val (by omega) i.isLt
  obtain ⟨h1, h2⟩ := hF ⟨i.val, by omega⟩
  have e : wrenchOf (F ∘ Fin.cast hc.symm) ⟨i.val, by omega⟩ = wrenchOf (F ∘ Fin.cast hc'.symm) i := rfl
  rw [e] at h1 h2
  simp only [Fin.getElem_fin] at h1 h2 ⊢
  rw [← hle.rotm] at h1 h2
  exact ⟨noTip_mono hle.planeX hle.planeY h1, noSlip_mono (noTip_press h1) hle.friction hle.frictionZ h2⟩

theorem limit_mono {n : ℕ} {limit limit' : Option (Fin n → ℝ)} (h : LimitLe limit limit') {τ : Fin n → ℝ}
    (hτ : ∀ L, limit = some L → WithinLimit L τ) : ∀ L, limit' = some L → WithinLimit L τ := by
  intro L' e j
  obtain ⟨L, e', hle⟩ := h L' e
  exact (hτ L e' j).trans (hle j)

variable {n c : ℕ}

theorem loosen_contacts {cs cs' : List ContactLink} (h6 : ∀ l ∈ cs, l.type = .c6d) (hp : ∀ l ∈ cs, 0 < l.planeX ∧ 0 < l.planeY)
    (hc : c = 6 * (active cs).length) (hcs : List.Forall₂ ContactLe cs cs') :
    (∀ l ∈ cs', l.type = .c6d) ∧ (∀ l ∈ cs', 0 < l.planeX ∧ 0 < l.planeY) ∧ c = 6 * (active cs').length := by
  refine ⟨fun l' hm => ?_, fun l' hm => ?_, by rw [← (active_le hcs).length_eq]; exact hc⟩
  · obtain ⟨l, h1, h2⟩ := contactLe_mem hcs hm
    exact h2.type.trans (h6 l h1)
  · obtain ⟨l, h1, h2⟩ := contactLe_mem hcs hm
    exact ⟨(hp l h1).1.trans_le h2.planeX, (hp l h1).2.trans_le h2.planeY⟩

/-- The same robot with other torque limits and contacts. -/
def _root_.Verif.Model.QPRobot.loosened (R : QPRobot n c) (limit' : Option (Fin n → ℝ)) (cs' : List ContactLink) : QPRobot n c :=
  { R with limit := limit', cs := cs' }

section
variable {R : QPRobot n c} {limit' : Option (Fin n → ℝ)} {cs' : List ContactLink}

theorem level_loosen {m m' : ℕ} {C : Matrix (Fin m) (Fin c) ℝ} {C' : Matrix (Fin m') (Fin c) ℝ}
    (hle : ∀ τ, OkT R C τ → OkT (R.loosened limit' cs') C' τ) (T : TaskReady (Fin n)) (N : Matrix (Fin n) (Fin n) ℝ) (τ : Fin n → ℝ)
    {x : Fin T.t ⊕ Fin (c - 6) → ℝ} (hx : (taskQP R C T N τ).Feasible x) : (taskQP (R.loosened limit' cs') C' T N τ).Feasible x := by
  rw [taskQP_feasible] at hx ⊢
  exact hle _ hx

/-- How far the command recorded with a task is from the one asked for. -/
def miss (r : TaskRecord n) : ℝ := ∑ j, r.fqp.2 j ^ 2

/-- In order of priority: at the first task whose recorded command is another one, it is nearer to what was asked for. -/
def NoWorse : List (TaskRecord n) → List (TaskRecord n) → Prop
  | [], [] => True
  | r :: rs, r' :: rs' => miss r' < miss r ∨ (r'.fqp = r.fqp ∧ NoWorse rs rs')
  | _, _ => False

theorem loop_loosen {m m' : ℕ} {C : Matrix (Fin m) (Fin c) ℝ} {C' : Matrix (Fin m') (Fin c) ℝ} (hC : R.C = some ⟨m, C⟩)
    (hC' : (R.loosened limit' cs').C = some ⟨m', C'⟩) (hle : ∀ τ, OkT R C τ → OkT (R.loosened limit' cs') C' τ)
    {solve solve' : Solver} (hs : solve.Exact) (hs' : solve'.Exact) (l l' : List (TaskReady (Fin n) × TaskRecord n))
    (hl : l.map Prod.fst = l'.map Prod.fst) (i : ℕ) (N : Matrix (Fin n) (Fin n) ℝ) (τ0 τ1 τ1' : Fin n → ℝ)
    {τt τc τt' τc' : Fin n → ℝ} {rs rs' : List (TaskRecord n)} (h : qpLoopRec R solve i N τ0 τ1 l = (.ret 1 τt τc, rs))
    (h' : qpLoopRec (R.loosened limit' cs') solve' i N τ0 τ1' l' = (.ret 1 τt' τc', rs')) : NoWorse rs rs' := by
  induction l generalizing l' i N τ0 τ1 τ1' rs rs' with
  | nil =>
    obtain rfl : l' = [] := by simpa using hl.symm
    simp only [qpLoopRec, Prod.mk.injEq] at h h'
    rw [← h.2, ← h'.2]
    trivial
  | cons p l ih =>
    obtain ⟨T, r⟩ := p
    rcases l' with _ | ⟨⟨T', r'⟩, l'⟩
    · simp at hl
    simp only [List.map_cons, List.cons.injEq] at hl
    obtain ⟨rfl, hl⟩ := hl
    simp only [qpLoopRec, hC, hC'] at h h'
    split at h
    · simp at h
    rename_i x hx
    split at h'
    · simp at h'
    rename_i x' hx'
    split_ifs at h h' with h6
    · simp at h
    rw [Prod.mk.injEq] at h h'
    obtain ⟨h1, rfl⟩ := h
    obtain ⟨h1', rfl⟩ := h'
    have s1 := hs _ _ _ _ _ hx
    have s2 := hs' _ _ _ _ _ hx'
    have f1 := level_loosen hle T N _ s1.1
    by_cases hlt : ∑ a, x' (Sum.inl a) ^ 2 < ∑ a, x (Sum.inl a) ^ 2
    · exact Or.inl hlt
    · have s3 : (taskQP (R.loosened limit' cs') C' T N (R.τg + τ0)).IsSolution x := by
        refine ⟨f1, fun y hy => le_trans ?_ (s2.2 y hy)⟩
        have e1 := taskQP_cost (R.loosened limit' cs') C' T N (R.τg + τ0) x
        have e2 := taskQP_cost (R.loosened limit' cs') C' T N (R.τg + τ0) x'
        refine e1.trans_le (le_trans ?_ e2.symm.le)
        simp only [← pow_two]
        push Not at hlt
        linarith
      have ex : (fun j => x (Sum.inl j)) = fun j => x' (Sum.inl j) :=
        funext (taskQP_left_unique (R.loosened limit' cs') C' T N _ s3 s2)
      rw [← ex] at h1'
      refine Or.inr ⟨?_, ?_⟩
      · exact congrArg (Sigma.mk T.t) ex.symm
      · have := ih _ hl _ _ _ _ _ (Prod.ext h1 rfl) (Prod.ext h1' rfl)
        rw [ex] at this
        change NoWorse (qpLoopRec R solve (i + 1) (taskNullSpace R.S T N)
          (τ0 + N *ᵥ T.Jkt *ᵥ T.Λ *ᵥ (T.f + fun j => x (Sum.inl j))) (R.NwJw *ᵥ fun b => x (Sum.inr b)) l).2 _
        rw [ex]
        exact this

end

section
variable {A : Matrix (Fin 6 ⊕ Fin n) (Fin 6 ⊕ Fin n) ℝ} {J : Matrix (Fin c) (Fin 6 ⊕ Fin n) ℝ} {G : Fin 6 ⊕ Fin n → ℝ} {R : QPRobot n c}
  {limit' : Option (Fin n → ℝ)} {cs' : List ContactLink}

/-- what better limits and footing mean for the rows of the QP -/
theorem okT_loosen (h6 : ∀ l ∈ R.cs, l.type = .c6d) (hp : ∀ l ∈ R.cs, 0 < l.planeX ∧ 0 < l.planeY) (hc : c = 6 * (active R.cs).length)
    (hl : LimitLe R.limit limit') (hcs : List.Forall₂ ContactLe R.cs cs') :
    ∃ m C m' C', R.C = some ⟨m, C⟩ ∧ (R.loosened limit' cs').C = some ⟨m', C'⟩ ∧
      ∀ τ, OkT R C τ → OkT (R.loosened limit' cs') C' τ := by
  obtain ⟨h6', hp', hc'⟩ := loosen_contacts h6 hp hc hcs
  obtain ⟨C, e, h⟩ := stackC_holds h6 hp hc
  obtain ⟨C', e', h'⟩ := stackC_holds h6' hp' hc'
  refine ⟨_, C, _, C', e, e', fun τ ⟨o1, o2⟩ => ⟨limit_mono hl o1, ?_⟩⟩
  exact (h' _).mpr (contactsHold_mono hcs hc hc' ((h _).mp o2))

/-- **C95 (control does not begin to fail).**  If QP task control succeeds for a robot, it succeeds with the same tasks when torque limits are
wider and feet and friction larger. -/
theorem C95_qp_success (h6 : ∀ l ∈ R.cs, l.type = .c6d) (hp : ∀ l ∈ R.cs, 0 < l.planeX ∧ 0 < l.planeY)
    (hc : c = 6 * (active R.cs).length) (hc6 : 6 < c) (hl : LimitLe R.limit limit') (hcs : List.Forall₂ ContactLe R.cs cs')
    {solve solve' : Solver} (hs : solve.Sound) (hs' : solve'.Sound) (hcomp' : solve'.Complete) {ts : List (TaskReady (Fin n))}
    {τt τc : Fin n → ℝ} (h : calcTaskControlTorqueQP R solve ts = .ret 1 τt τc) :
    ∃ τt' τc', calcTaskControlTorqueQP (R.loosened limit' cs') solve' ts = .ret 1 τt' τc' := by
  obtain ⟨m, C, m', C', hC, hC', hle⟩ := okT_loosen h6 hp hc hl hcs
  rcases ts with _ | ⟨T, ts⟩
  · exact ⟨0, 0, rfl⟩
  rw [calcTaskControlTorqueQP, qpLoop, hC] at h
  simp only at h
  rcases hx : solve 0 T.t (c - 6) (taskQP R C T 1 (R.τg + 0)) with _ | x
  · rw [hx] at h; simp at h
  have hf := level_loosen hle T 1 (R.τg + 0) (hs _ _ _ _ _ hx)
  obtain ⟨y, hy⟩ := Option.isSome_iff_exists.mp (hcomp' 0 _ _ _ (taskQP_exists (R.loosened limit' cs') C' T 1 _ hf))
  have hy' := (taskQP_feasible (R.loosened limit' cs') C' T 1 _ y).mp (hs' _ _ _ _ _ hy)
  rw [calcTaskControlTorqueQP, qpLoop, hC']
  have hy2 : solve' 0 T.t (c - 6) (taskQP (R.loosened limit' cs') C' T 1 ((R.loosened limit' cs').τg + 0)) = some y := hy
  simp only [hy2]
  rw [if_neg (by omega)]
  refine qpLoop_go (R := R.loosened limit' cs') hc6 hC' hs' hcomp' ts _ _ _ _ (fun b => y (Sum.inr b)) ?_
  rw [← add_assoc]
  exact hy'

/-- **C95 (no task is worse before one is better).**  Two successful calls with the same tasks, the second with wider torque limits and
larger feet and friction: in order of priority, the first task that is commanded something else is commanded something nearer to what it
was asked for. -/
theorem C95_qp_no_worse (h6 : ∀ l ∈ R.cs, l.type = .c6d) (hp : ∀ l ∈ R.cs, 0 < l.planeX ∧ 0 < l.planeY)
    (hc : c = 6 * (active R.cs).length) (hl : LimitLe R.limit limit') (hcs : List.Forall₂ ContactLe R.cs cs')
    {solve solve' : Solver} (hs : solve.Exact) (hs' : solve'.Exact) (l l' : List (TaskReady (Fin n) × TaskRecord n))
    (hll : l.map Prod.fst = l'.map Prod.fst) {τt τc τt' τc' : Fin n → ℝ} {rs rs' : List (TaskRecord n)}
    (h : taskControlQPRec R solve l = (.ret 1 τt τc, rs))
    (h' : taskControlQPRec (R.loosened limit' cs') solve' l' = (.ret 1 τt' τc', rs')) : NoWorse rs rs' := by
  obtain ⟨m, C, m', C', hC, hC', hle⟩ := okT_loosen h6 hp hc hl hcs
  exact loop_loosen hC hC' hle hs hs' l l' hll 0 1 0 0 0 h h'

/-- **C95 (the first task).**  With wider torque limits and larger feet and friction the acceleration of the first task is, in every motion,
at least as near to its command; whatever tasks are below in the two calls. -/
theorem C95_first_task (hA : IsSPD A) (cod : (W : Matrix (Fin n) (Fin n) ℝ) → CodNull W) {v k : ℕ} {V2 : Matrix (Fin k) (Fin n) ℝ}
    (hS : contactSpace J A⁻¹ = some R.S) (hR : calculateContactConstraint J A⁻¹ cod = .ret v R.S (some ⟨k, V2, R.NwJw⟩))
    (hg : R.τg = gravityTorque R.S A⁻¹ G) (h6 : ∀ l ∈ R.cs, l.type = .c6d)
    (hp : ∀ l ∈ R.cs, 0 < l.planeX ∧ 0 < l.planeY) (hc : c = 6 * (active R.cs).length) (hc6 : 6 < c) (hB : BaseDetermined J)
    (hl : LimitLe R.limit limit') (hcs : List.Forall₂ ContactLe R.cs cs')
    {solve solve' : Solver} (hs : solve.Exact) (hs' : solve'.Exact) {T : TaskReady (Fin n)}
    (hT : calculateJKT R.S A⁻¹ T.toTaskIn = some T) (lower lower' : List (TaskReady (Fin n))) {τt τc τt' τc' : Fin n → ℝ}
    (h : calcTaskControlTorqueQP R solve (T :: lower) = .ret 1 τt τc)
    (h' : calcTaskControlTorqueQP (R.loosened limit' cs') solve' (T :: lower') = .ret 1 τt' τc')
    {qdd qdd' : Fin 6 ⊕ Fin n → ℝ} {F F' : Fin c → ℝ} (hM : Motion A J G (R.τg + τt + τc) qdd F)
    (hM' : Motion A J G (R.τg + τt' + τc') qdd' F') :
    ∑ i, ((T.J *ᵥ qdd') i - T.f i) ^ 2 ≤ ∑ i, ((T.J *ᵥ qdd) i - T.f i) ^ 2 := by
  obtain ⟨m, C, m', C', hC, hC', hle⟩ := okT_loosen h6 hp hc hl hcs
  obtain ⟨rs, hrs⟩ := records_of R h
  obtain ⟨rs', hrs'⟩ := records_of _ h'
  obtain ⟨r, rest, a, rfl, ha, hacc⟩ := C92_attained hA R hS hB hg hc6 cod hR solve hT hrs
  obtain ⟨r', rest', a', rfl, ha', hacc'⟩ := C92_attained hA (R.loosened limit' cs') hS hB hg hc6 cod hR solve' hT hrs'
  rw [hacc _ _ hM, hacc' _ _ hM']
  simp only [Pi.add_apply, add_sub_cancel_left]
  simp only [taskControlQPRec, qpLoopRec, List.map_cons, hC, hC'] at hrs hrs'
  split at hrs
  · simp at hrs
  rename_i x hx
  split at hrs'
  · simp at hrs'
  rename_i x' hx'
  split_ifs at hrs hrs' with h6
  · simp at hrs
  rw [Prod.mk.injEq, List.cons.injEq] at hrs hrs'
  rw [← hrs.2.1] at ha
  rw [← hrs'.2.1] at ha'
  obtain rfl := eq_of_heq (Sigma.mk.inj ha).2
  obtain rfl := eq_of_heq (Sigma.mk.inj ha').2
  have s1 := hs _ _ _ _ _ hx
  have s2 := (hs' _ _ _ _ _ hx').2 _ (level_loosen hle T 1 _ s1.1)
  have e1 := taskQP_cost (R.loosened limit' cs') C' T 1 (R.τg + 0) x
  have e2 := taskQP_cost (R.loosened limit' cs') C' T 1 (R.τg + 0) x'
  have s3 := (e2.symm.trans_le s2).trans_eq e1
  simp only [← pow_two] at s3
  linarith

/-- C95 (redistribution does not begin to fail). -/
theorem C95_redistribute_success (hA : IsSPD A) (hS : contactSpace J A⁻¹ = some R.S) (hP : R.P = Model.gravityForce R.S G)
    (h6 : ∀ l ∈ R.cs, l.type = .c6d) (hp : ∀ l ∈ R.cs, 0 < l.planeX ∧ 0 < l.planeY) (hc : c = 6 * (active R.cs).length) (hc6 : 6 < c)
    (cod : (W : Matrix (Fin n) (Fin n) ℝ) → CodNull W) {v k : ℕ} {V2 : Matrix (Fin k) (Fin n) ℝ}
    (hR : calculateContactConstraint J A⁻¹ cod = .ret v R.S (some ⟨k, V2, R.NwJw⟩)) (hl : LimitLe R.limit limit')
    (hcs : List.Forall₂ ContactLe R.cs cs') {solve solve' : RSolver} (hs : solve.Sound) (hs' : solve'.Exact) (hcomp' : solve'.Complete)
    {base τc τc' : Fin n → ℝ} (h : redistribute R solve (base + τc) τc = some (1, τc')) :
    ∃ τ, redistribute (R.loosened limit' cs') solve' (base + τc) τc = some (1, τ) := by
  obtain ⟨h6', hp', hc'⟩ := loosen_contacts h6 hp hc hcs
  obtain ⟨k1, k2⟩ := C10_safe hA R hS hP h6 hp hc hc6 hs h
  refine (C10_succeeds_iff hA (R.loosened limit' cs') hS hP h6' hp' hc' hc6 cod hR hs' hcomp' base τc).mpr
    ⟨τc', limit_mono hl k1, fun qdd F qdd' F' hM hM' => ⟨C10_motion_unchanged hA R hc6 cod hR h hM hM', ?_⟩⟩
  exact contactsHold_mono hcs hc hc' (k2 _ _ hM')

/-- C95 (redistribution changes the contact forces no more).  The quantity redistribution minimises, the change of the contact forces of
all feet but the last, is not larger with wider torque limits and larger feet and friction. -/
theorem C95_redistribute_less (hA : IsSPD A) (hS : contactSpace J A⁻¹ = some R.S) (hP : R.P = Model.gravityForce R.S G)
    (h6 : ∀ l ∈ R.cs, l.type = .c6d) (hp : ∀ l ∈ R.cs, 0 < l.planeX ∧ 0 < l.planeY) (hc : c = 6 * (active R.cs).length) (hc6 : 6 < c)
    (cod : (W : Matrix (Fin n) (Fin n) ℝ) → CodNull W) {v k : ℕ} {V2 : Matrix (Fin k) (Fin n) ℝ}
    (hR : calculateContactConstraint J A⁻¹ cod = .ret v R.S (some ⟨k, V2, R.NwJw⟩)) (hl : LimitLe R.limit limit')
    (hcs : List.Forall₂ ContactLe R.cs cs') {solve solve' : RSolver} (hs : solve.Sound) (hs' : solve'.Exact)
    {base τc τ1 τ2 : Fin n → ℝ} (h : redistribute R solve (base + τc) τc = some (1, τ1))
    (h' : redistribute (R.loosened limit' cs') solve' (base + τc) τc = some (1, τ2)) {qdd qdd1 qdd2 : Fin 6 ⊕ Fin n → ℝ}
    {F F1 F2 : Fin c → ℝ} (hM : Motion A J G (base + τc) qdd F) (hM1 : Motion A J G (base + τ1) qdd1 F1)
    (hM2 : Motion A J G (base + τ2) qdd2 F2) :
    ∑ i : Fin (c - 6), (F2 (Fin.castLE (Nat.sub_le c 6) i) - F (Fin.castLE (Nat.sub_le c 6) i)) ^ 2
      ≤ ∑ i : Fin (c - 6), (F1 (Fin.castLE (Nat.sub_le c 6) i) - F (Fin.castLE (Nat.sub_le c 6) i)) ^ 2 := by
  obtain ⟨h6', hp', hc'⟩ := loosen_contacts h6 hp hc hcs
  obtain ⟨k1, k2⟩ := C10_safe hA R hS hP h6 hp hc hc6 hs h
  obtain rfl := C10_motion_unchanged hA R hc6 cod hR h hM hM1
  exact C10_least hA (R.loosened limit' cs') hS hP h6' hp' hc' hc6 cod hR hs' h' (limit_mono hl k1) hM hM2 hM1
    (contactsHold_mono hcs hc hc' (k2 _ _ hM1))

end

/-! ### The joint-acceleration QP -/

section
variable {ι : Type} [Fintype ι] [DecidableEq ι] {R : JRobot ι c} {cs' : List ContactLink}

/-- C95 (the joint-acceleration QP does not begin to fail) with larger feet and friction.  Torque limits do not matter to it (C35). -/
theorem C95_jacc_success (hA : IsSPD R.A) (h6 : ∀ l ∈ R.cs, l.type = .c6d) (hp : ∀ l ∈ R.cs, 0 < l.planeX ∧ 0 < l.planeY)
    (hc : c = 6 * (active R.cs).length) (hcs : List.Forall₂ ContactLe R.cs cs') {solve solve' : JSolver} (hs : solve.Exact)
    (hcomp : JSolver.Complete solve) (hs' : solve'.Exact) (hcomp' : JSolver.Complete solve') {ts : List (JTask ι c)} {k : ℕ} (hk : 0 < k)
    (hlen : k ≤ ts.length) (limit' : Option (ι → ℝ)) {ts' : List (JTask ι c)} (h : jaccPass R solve ts k = some (true, ts')) :
    ∃ ts'', jaccPass { R with cs := cs', limit := limit' } solve' ts k = some (true, ts'') := by
  obtain ⟨h6', hp', hc'⟩ := loosen_contacts h6 hp hc hcs
  obtain ⟨o, ho⟩ := (C35_succeeds_iff hA h6 hp hc hs hcomp hk hlen).mp ⟨_, h⟩
  exact (C35_succeeds_iff (R := { R with cs := cs', limit := limit' }) hA h6' hp' hc' hs' hcomp' hk hlen).mpr
    ⟨o, ho.motion, ho.torque, ho.acc, contactsHold_mono hcs hc hc' ho.contacts⟩

/-- C95 (the first task of the joint-acceleration QP) costs no more effort with larger feet and friction. -/
theorem C95_jacc_effort (h6 : ∀ l ∈ R.cs, l.type = .c6d) (hp : ∀ l ∈ R.cs, 0 < l.planeX ∧ 0 < l.planeY)
    (hc : c = 6 * (active R.cs).length) (hcs : List.Forall₂ ContactLe R.cs cs') {solve solve' : JSolver} (hs : solve.Exact)
    (hs' : solve'.Exact) (limit' : Option (ι → ℝ)) {ts t1 t2 : List (JTask ι c)} (h : jaccCall R solve ts 0 = some (true, t1))
    (h' : jaccCall { R with cs := cs', limit := limit' } solve' ts 0 = some (true, t2)) :
    ∃ (T T1 T2 : JTask ι c) (o1 o2 : JAnswer ι c), ts[0]? = some T ∧ t1[0]? = some T1 ∧ t2[0]? = some T2 ∧ T1.out = some o1 ∧
      T2.out = some o2 ∧ jaccEffort R T o2.acc ≤ jaccEffort R T o1.acc := by
  obtain ⟨h6', hp', hc'⟩ := loosen_contacts h6 hp hc hcs
  obtain ⟨T, T1, o1, e1, e2, e3, ho, -⟩ := C35_best h6 hp hc hs h
  obtain ⟨T', T2, o2, e4, e5, e6, -, hb⟩ := C35_best (R := { R with cs := cs', limit := limit' }) h6' hp' hc' hs' h'
  obtain rfl : T = T' := Option.some.inj (e1.symm.trans e4)
  exact ⟨T, T1, T2, o1, o2, e1, e2, e5, e3, e6, hb o1 ⟨ho.motion, ho.torque, ho.acc, contactsHold_mono hcs hc hc' ho.contacts⟩
    (fun i P q hi => absurd hi (Nat.not_lt_zero i))⟩

end

end Verif.Props
