import Verif.Model.TorqueLimit
import Verif.Props.QPFail
import Verif.Props.LinkMod

/-!
# C61: torque limits and joint count over the life of a robot object
-/

set_option linter.unusedSectionVars false

namespace Verif.Props
open Matrix Verif Verif.Spec Verif.Model

variable {J : Type*} {s s' : LimitRobot J}

/-- A call after which the robot may have other joints: loading a model, deleting an existing link, adding a link with a joint of a known
type, turning a joint into a fixed one. -/
def Restructures (s : LimitRobot J) : LimitOp J → Prop
  | .setLimit _ => False
  | .modify (.delete name) => (s.r.find name).isSome
  | .modify (.add _ _ kind _) => kind ≠ .other
  | .modify (.toFixed _) => True
  | .modify (.inertia _ _) => False
  | .load _ _ => True

/-- A call of `SetTorqueLimit`. -/
def IsSetLimit : LimitOp J → Prop
  | .setLimit _ => True
  | _ => False

theorem reinits_iff (op : ModOp) : reinits s.r op = true ↔ Restructures s (.modify op) := by
  rcases op with name | ⟨p, name, kind, m⟩ | name | ⟨name, m⟩ <;> simp [reinits, Restructures]
  rcases kind <;> simp [reinits]

theorem run_append (ops ops' : List (LimitOp J)) : s.run (ops ++ ops') = (s.run ops).bind fun t => t.run ops' := by
  induction ops generalizing s with
  | nil => rfl
  | cons op ops ih =>
    simp only [List.cons_append, LimitRobot.run]
    rcases s.step op with _ | t
    · rfl
    · exact ih

/-- the flag is only ever raised -/
theorem step_limitSet {op : LimitOp J} (h : s.step op = some s') : s'.limitSet = true ↔ s.limitSet = true ∨ IsSetLimit op := by
  rcases op with v | op | ⟨fl, fresh⟩
  · simp only [LimitRobot.step, Option.some.injEq] at h
    subst h
    simp [IsSetLimit]
  · simp only [LimitRobot.step] at h
    split at h
    · cases h
    · split_ifs at h <;> (simp only [Option.some.injEq] at h; subst h; simp [IsSetLimit])
  · simp only [LimitRobot.step] at h
    split_ifs at h <;> (simp only [Option.some.injEq] at h; subst h; simp [IsSetLimit])

theorem run_limitSet {ops : List (LimitOp J)} (h : s.run ops = some s') :
    s'.limitSet = true ↔ s.limitSet = true ∨ ∃ op ∈ ops, IsSetLimit op := by
  induction ops generalizing s with
  | nil =>
    simp only [LimitRobot.run, Option.some.injEq] at h
    subst h
    simp
  | cons op ops ih =>
    simp only [LimitRobot.run] at h
    split at h
    · cases h
    · rename_i t ht
      rw [ih h, step_limitSet ht]
      simp [or_assoc]

/-- what a restructuring call leaves -/
theorem step_restructure {op : LimitOp J} (h : s.step op = some s') (hr : Restructures s op) :
    s'.limit = List.replicate s'.modelDof 0 := by
  rcases op with v | op | ⟨fl, fresh⟩
  · exact hr.elim
  · simp only [LimitRobot.step] at h
    split at h
    · cases h
    · rw [if_pos ((reinits_iff op).mpr hr)] at h
      split_ifs at h
      simp only [Option.some.injEq] at h
      subst h
      rfl
  · simp only [LimitRobot.step] at h
    split_ifs at h <;> (simp only [Option.some.injEq] at h; subst h; rfl)

theorem step_other {op : LimitOp J} (h : s.step op = some s') (hr : ¬ Restructures s op) (hn : ¬ IsSetLimit op) :
    s'.limit = s.limit ∧ s'.modelDof = s.modelDof := by
  rcases op with v | op | ⟨fl, fresh⟩
  · exact absurd trivial hn
  · simp only [LimitRobot.step] at h
    split at h
    · cases h
    · rw [if_neg (fun e => hr ((reinits_iff op).mp e))] at h
      simp only [Option.some.injEq] at h
      subst h
      exact ⟨rfl, rfl⟩
  · exact absurd trivial hr

/-- C61 (partial).  While the model keeps its joints, QP control works with exactly the limit set last; without any call of
`SetTorqueLimit` it works without limits. -/
theorem C61_limit_kept_partial {pre post : List (LimitOp J)} {v : List ℝ}
    (h : s.run (pre ++ .setLimit v :: post) = some s') (hpost : ∀ op ∈ post, ∃ name m, op = .modify (.inertia name m)) {n : ℕ}
    (hv : v.length = n) : s'.limitFor n = some (some fun j => v[j]) := by
  rw [run_append] at h
  obtain ⟨t, -, h⟩ := Option.bind_eq_some_iff.mp h
  simp only [LimitRobot.run, LimitRobot.step] at h
  have key : ∀ (post : List (LimitOp J)) (t : LimitRobot J), (∀ op ∈ post, ∃ name m, op = .modify (.inertia name m)) →
      t.run post = some s' → s'.limit = t.limit ∧ s'.limitSet = t.limitSet := by
    intro post
    induction post with
    | nil =>
      intro t _ h
      simp only [LimitRobot.run, Option.some.injEq] at h
      subst h
      exact ⟨rfl, rfl⟩
    | cons op ops ih =>
      intro t hp h
      obtain ⟨name, m, rfl⟩ := hp op (List.mem_cons_self ..)
      simp only [LimitRobot.run] at h
      split at h
      · cases h
      · rename_i u hu
        obtain ⟨h1, h2⟩ := ih u (fun o ho => hp o (List.mem_cons_of_mem _ ho)) h
        refine ⟨h1.trans (step_other hu (fun e => e) (fun e => e)).1, h2.trans ?_⟩
        simp only [LimitRobot.step] at hu
        split at hu
        · cases hu
        · simp only [reinits, Bool.false_eq_true, if_false, Option.some.injEq] at hu
          subst hu
          rfl
  obtain ⟨h1, h2⟩ := key post _ hpost h
  rcases s' with ⟨r, fl, d, b, l⟩
  simp only at h1 h2
  subst h1 h2
  simp [LimitRobot.limitFor, hv]

/-- C61 (partial).  Without any call of `SetTorqueLimit` there is no limit. -/
theorem C61_no_limit_partial {ops : List (LimitOp J)} (h : (newRobot J).run ops = some s') (hops : ∀ op ∈ ops, ¬ IsSetLimit op) (n : ℕ) :
    s'.limitFor n = some none := by
  have : ¬ s'.limitSet = true := by
    rw [run_limitSet h]
    rintro (h0 | ⟨op, ho, hs⟩)
    · cases h0
    · exact hops op ho hs
  rw [LimitRobot.limitFor, if_neg this]

/-- C61 (negation).  Once a limit has been set, any later call that restructures the model (loading included) leaves a limit of zero on
every joint, in force until `SetTorqueLimit` is called again. -/
theorem C61_limit_becomes_zero {ops post : List (LimitOp J)} {t : LimitRobot J} {op : LimitOp J} (h : s.run ops = some t)
    (hset : ∃ o ∈ ops, IsSetLimit o) (hr : Restructures t op) (hp : t.run (op :: post) = some s') (hpost : ∀ o ∈ post, ¬ IsSetLimit o) :
    s'.limitFor s'.modelDof = some (some 0) := by
  have ht : t.limitSet = true := (run_limitSet h).mpr (Or.inr hset)
  simp only [LimitRobot.run] at hp
  split at hp
  · cases hp
  · rename_i u hu
    have hl := step_restructure hu hr
    have key : ∀ (post : List (LimitOp J)) (u : LimitRobot J), (∀ o ∈ post, ¬ IsSetLimit o) →
        u.limit = List.replicate u.modelDof 0 → u.run post = some s' → s'.limit = List.replicate s'.modelDof 0 := by
      intro post
      induction post with
      | nil =>
        intro u _ hl h
        simp only [LimitRobot.run, Option.some.injEq] at h
        subst h
        exact hl
      | cons o ops ih =>
        intro u hp hl h
        simp only [LimitRobot.run] at h
        split at h
        · cases h
        · rename_i w hw
          refine ih w (fun o ho => hp o (List.mem_cons_of_mem _ ho)) ?_ h
          by_cases hr' : Restructures u o
          · exact step_restructure hw hr'
          · obtain ⟨e1, e2⟩ := step_other hw hr' (hp o (List.mem_cons_self ..))
            rw [e1, e2, hl]
    have hfin := key post u hpost hl hp
    have hset' : s'.limitSet = true := (run_limitSet hp).mpr (Or.inl ((step_limitSet hu).mpr (Or.inl ht)))
    rw [LimitRobot.limitFor, if_pos hset', dif_pos (by rw [hfin, List.length_replicate])]
    congr 2
    ext j
    simp only [hfin, Fin.getElem_fin, List.getElem_replicate, Pi.zero_apply]

/-- C61 (negation, size).  A limit of the wrong size is accepted and QP control is then undefined. -/
theorem C61_wrong_size_undefined {ops : List (LimitOp J)} {v : List ℝ} {n : ℕ} (hv : v.length ≠ n)
    (h : s.run (ops ++ [.setLimit v]) = some s') : s'.limitFor n = none := by
  rw [run_append] at h
  obtain ⟨t, -, h⟩ := Option.bind_eq_some_iff.mp h
  simp only [LimitRobot.run, LimitRobot.step, Option.some.injEq] at h
  subst h
  simp [LimitRobot.limitFor, hv]

section
variable {n c : ℕ} {R : QPRobot n c}

/-- C61 (what a zero limit does).  Under a limit of zero every successful QP control gives no torque at all: not even gravity is
compensated. -/
theorem C61_zero_limit_no_torque (hlim : R.limit = some 0) {solve : Solver} (hs : solve.Sound) {ts : List (TaskReady (Fin n))}
    (hne : ts ≠ []) {τt τc : Fin n → ℝ} (h : calcTaskControlTorqueQP R solve ts = .ret 1 τt τc) : R.τg + τt + τc = 0 := by
  ext j
  have := C08_torque_limit R hs hne hlim h j
  simpa using this

end

/-- C61 (negation, concrete).  A biped that stands and is controlled successfully under the limit its user has set fails at every task
after a massless link has been attached by a fixed joint, although its joints and its dynamics are what they were. -/
theorem C61_attached_link_stops_robot (cod : (W : Matrix (Fin 6) (Fin 6) ℝ) → CodNull W) (r r' : ModRobot J) {p : ℕ} {name : String}
    (h12 : r.dofCount = 12) (hadd : addLinkAt r p name .fixed 0 = some r') (T : TaskReady (Fin 6)) (hf : T.f = 0) :
    ∃ S k V2 N t t', calculateContactConstraint Ex.J Ex.A⁻¹ cod = .ret 1 S (some ⟨k, V2, N⟩) ∧
      (newRobot J).run [.load true r, .setLimit (List.replicate 6 1)] = some t ∧ t.modelDof = 6 ∧
      t.limitFor 6 = some (some 1) ∧ calcTaskControlTorqueQP (Stand.robot S N Stand.τ₀ 1) Stand.solver [T] = .ret 1 0 0 ∧
      t.run [.modify (.add p name .fixed 0)] = some t' ∧ t'.modelDof = 6 ∧
      t'.limitFor 6 = some (some 0) ∧ ∃ τt τc, calcTaskControlTorqueQP (Stand.robot S N Stand.τ₀ 0) Stand.solver [T] = .ret 0 τt τc := by
  obtain ⟨S, k, V2, N, -, hR, hS, -⟩ := C10_hypotheses_met cod
  have hl : WithinLimit 1 Stand.τ₀ := by
    intro j
    fin_cases j <;> simp [Stand.τ₀, abs_le] <;> norm_num
  have hadd' : ∃ r2, addLinkAt (reload (newRobot J).r r) p name .fixed 0 = some r2 ∧ r2.dofCount = 12 := by
    unfold addLinkAt at hadd ⊢
    have e1 : (reload (newRobot J).r r).links = r.links := rfl
    have e2 : (reload (newRobot J).r r).bodies = r.bodies := rfl
    have e3 : (reload (newRobot J).r r).names = r.names := rfl
    have e4 : (reload (newRobot J).r r).fixedParents = r.fixedParents := rfl
    rw [e1, e2, e3, e4]
    revert hadd
    split
    · simp
    · split
      · simp
      · simp only
        split
        · simp
        · intro _
          exact ⟨_, rfl, h12⟩
  obtain ⟨r2, hr2, hd2⟩ := hadd'
  obtain ⟨t, ht, htr, htd, hts, htl⟩ : ∃ t : LimitRobot J, (newRobot J).run [.load true r, .setLimit (List.replicate 6 1)] = some t ∧
      t.r = reload (newRobot J).r r ∧ t.modelDof = 6 ∧ t.limitSet = true ∧ t.limit = List.replicate 6 1 := by
    have e : (newRobot J).step (.load true r) = some { newRobot J with
        r := reload (newRobot J).r r, floating := true, modelDof := 6, limit := List.replicate 6 0 } := by
      simp only [LimitRobot.step, h12]
      rfl
    refine ⟨{ newRobot J with
        r := reload (newRobot J).r r, floating := true, modelDof := 6, limitSet := true, limit := List.replicate 6 1 }, ?_, rfl, rfl, rfl,
      rfl⟩
    simp only [LimitRobot.run, e]
    rfl
  obtain ⟨t', ht', htd', hts', htl'⟩ : ∃ t' : LimitRobot J, t.run [.modify (.add p name .fixed 0)] = some t' ∧
      t'.modelDof = 6 ∧ t'.limitSet = true ∧ t'.limit = List.replicate 6 0 := by
    refine ⟨{ t with r := r2, modelDof := 6, limit := List.replicate 6 0 }, ?_, rfl, hts, rfl⟩
    simp only [LimitRobot.run, LimitRobot.step, ModRobot.step, htr, hr2, reinits, if_true, hd2]
    rfl
  refine ⟨S, k, V2, N, t, t', hR, ht, htd, ?_, Stand.runs hS N hl T hf, ht', htd', ?_,
    stand_without_torque cod hS hR Stand.solver_sound Stand.solver_complete T []⟩
  · rw [LimitRobot.limitFor, if_pos hts, dif_pos (by rw [htl]; rfl)]
    congr 2
    ext j
    simp only [htl, Fin.getElem_fin, List.getElem_replicate, Pi.one_apply]
  · rw [LimitRobot.limitFor, if_pos hts', dif_pos (by rw [htl']; rfl)]
    congr 2
    ext j
    simp only [htl', Fin.getElem_fin, List.getElem_replicate, Pi.zero_apply]

theorem changeInertia_dof {r r' : ModRobot J} {name : String} {m : ℝ} (h : changeInertia r name m = some r') :
    r'.dofCount = r.dofCount := by
  unfold changeInertia at h
  split at h
  · cases h
  · split at h
    · cases h
    · split at h
      · cases h
      · simp only [Option.some.injEq] at h
        subst h
        rfl

/-- The joint count the object reports is that of its model. -/
def CountOk (s : LimitRobot J) : Prop := if s.floating then s.modelDof + 6 = s.r.dofCount else s.modelDof = s.r.dofCount

/-- C61 (partial).  Right after loading, the reported number of joints is right whatever the base, whatever the object held before. -/
theorem C61_loaded_count_partial {fl : Bool} {fresh : ModRobot J} (h : s.step (.load fl fresh) = some s') :
    CountOk s' ∧ s'.floating = fl ∧ s'.r.dofCount = fresh.dofCount := by
  rcases fl with _ | _
  · simp [LimitRobot.step] at h
    subst h
    exact ⟨by simp [CountOk, reload], rfl, rfl⟩
  · simp only [LimitRobot.step] at h
    split_ifs at h with h1 h2
    · simp only [Option.some.injEq] at h
      subst h
      refine ⟨?_, rfl, rfl⟩
      have := h1 trivial
      simp only [CountOk, if_true]
      show fresh.dofCount - 6 + 6 = fresh.dofCount
      omega

/-- C61 (partial).  After any history of a robot with floating base the reported number of joints is the number of degrees of freedom
without the base. -/
theorem C61_joint_count_partial {ops : List (LimitOp J)} (hs : CountOk s)
    (hfl : s.floating = true) (hops : ∀ op ∈ ops, ∀ fl fresh, op = .load fl fresh → fl = true) (h : s.run ops = some s') :
    CountOk s' ∧ s'.floating = true := by
  induction ops generalizing s with
  | nil =>
    simp only [LimitRobot.run, Option.some.injEq] at h
    subst h
    exact ⟨hs, hfl⟩
  | cons op ops ih =>
    simp only [LimitRobot.run] at h
    split at h
    · cases h
    · rename_i t ht
      have hstep : CountOk t ∧ t.floating = true := by
        rcases op with v | op | ⟨fl, fresh⟩
        · simp only [LimitRobot.step, Option.some.injEq] at ht
          subst ht
          exact ⟨hs, hfl⟩
        · simp only [LimitRobot.step] at ht
          split at ht
          · cases ht
          · rename_i r' hr'
            split_ifs at ht with h1 h2
            · simp only [Option.some.injEq] at ht
              subst ht
              refine ⟨?_, hfl⟩
              simp only [CountOk, hfl, if_true]
              omega
            · simp only [Option.some.injEq] at ht
              subst ht
              refine ⟨?_, hfl⟩
              have hdof : r'.dofCount = s.r.dofCount := by
                rcases op with name | ⟨p, name, kind, m⟩ | name | ⟨name, m⟩
                · simp only [reinits, Option.isSome_iff_ne_none, ne_eq, not_not, Bool.not_eq_true, Option.isSome_eq_false_iff,
                    Option.isNone_iff_eq_none] at h1
                  simp only [ModRobot.step, deleteLink, h1, Option.some.injEq] at hr'
                  rw [hr']
                · rcases kind <;> simp only [reinits, not_true_eq_false] at h1
                  simp only [ModRobot.step, addLinkAt] at hr'
                  split at hr'
                  · cases hr'
                  · split at hr'
                    · cases hr'
                    · simp only [Option.some.injEq] at hr'
                      rw [hr']
                · simp [reinits] at h1
                · exact changeInertia_dof hr'
              simp only [CountOk, hfl, if_true] at hs ⊢
              rw [hs, hdof]
        · obtain rfl := hops _ (List.mem_cons_self ..) fl fresh rfl
          simp only [LimitRobot.step] at ht
          split_ifs at ht with h1
          simp only [Option.some.injEq] at ht
          subst ht
          refine ⟨?_, rfl⟩
          have := h1 trivial
          simp only [CountOk, if_true, reload]
          omega
      exact ih hstep.1 hstep.2 (fun o ho => hops o (List.mem_cons_of_mem _ ho)) h

/-- C61 (negation, joint count).  On a robot with fixed base every structural modification makes the reported number of joints six too
small. -/
theorem C61_fixed_base_count {op : ModOp} (hfl : s.floating = false) (hr : Restructures s (.modify op))
    (h : s.step (.modify op) = some s') : s'.floating = false ∧ s'.modelDof + 6 = s'.r.dofCount ∧ ¬ CountOk s' := by
  simp only [LimitRobot.step] at h
  split at h
  · cases h
  · rw [if_pos ((reinits_iff op).mpr hr)] at h
    split_ifs at h with h6
    simp only [Option.some.injEq] at h
    subst h
    refine ⟨hfl, by simp only; omega, ?_⟩
    simp only [CountOk, hfl, Bool.false_eq_true, if_false]
    omega

/-! ### The hypotheses are met -/

theorem exMod_payload : ∃ r', addLinkAt (reload (newRobot ℕ).r exMod) 0 "payload" .fixed 1 = some r' ∧ r'.dofCount = 9 := ⟨_, rfl, rfl⟩

/-- a robot with floating base: limit set, then a payload attached (hypotheses of `C61_limit_becomes_zero`, `C61_joint_count_partial`) -/
example : ∃ t s', (newRobot ℕ).run [.load true exMod, .setLimit [1, 1, 1]] = some t ∧ t.limitFor 3 = some (some fun j => [(1 : ℝ), 1, 1][j]) ∧
    CountOk t ∧ t.floating = true ∧ Restructures t (.modify (.add 0 "payload" .fixed 1)) ∧
    t.run [.modify (.add 0 "payload" .fixed 1)] = some s' ∧ s'.limitFor s'.modelDof = some (some 0) := by
  obtain ⟨r', h, hd⟩ := exMod_payload
  have e : (newRobot ℕ).run [.load true exMod, .setLimit [1, 1, 1]] = some { newRobot ℕ with
      r := reload (newRobot ℕ).r exMod, floating := true, modelDof := 3, limitSet := true, limit := [1, 1, 1] } := rfl
  have hr : Restructures { newRobot ℕ with
      r := reload (newRobot ℕ).r exMod, floating := true, modelDof := 3, limitSet := true, limit := [1, 1, 1] }
      (.modify (.add 0 "payload" .fixed 1)) := by simp [Restructures]
  have e' : LimitRobot.run { newRobot ℕ with
      r := reload (newRobot ℕ).r exMod, floating := true, modelDof := 3, limitSet := true, limit := [1, 1, 1] }
      [.modify (.add 0 "payload" .fixed 1)] = some { newRobot ℕ with
      r := r', floating := true, modelDof := 3, limitSet := true, limit := List.replicate 3 0 } := by
    simp only [LimitRobot.run, LimitRobot.step, ModRobot.step, h, reinits, if_true, hd]
    rfl
  exact ⟨_, _, e, C61_limit_kept_partial (pre := [.load true exMod]) (post := []) e (by simp) rfl, rfl, rfl, hr, e',
    C61_limit_becomes_zero e ⟨_, List.mem_cons_of_mem _ (List.mem_cons_self ..), trivial⟩ hr e' (by simp)⟩

/-- a robot with fixed base whose nine joints become three -/
example : ∃ t s', (newRobot ℕ).run [.load false exMod] = some t ∧ t.floating = false ∧ CountOk t ∧ t.modelDof = 9 ∧
    Restructures t (.modify (.add 0 "payload" .fixed 1)) ∧ t.step (.modify (.add 0 "payload" .fixed 1)) = some s' ∧ s'.modelDof = 3 := by
  obtain ⟨r', h, hd⟩ := exMod_payload
  have e : (newRobot ℕ).run [.load false exMod] = some { newRobot ℕ with
      r := reload (newRobot ℕ).r exMod, floating := false, modelDof := 9, limit := List.replicate 9 0 } := rfl
  refine ⟨_, { newRobot ℕ with r := r', floating := false, modelDof := 3, limit := List.replicate 3 0 }, e, rfl, rfl, rfl,
    by simp [Restructures], ?_, rfl⟩
  simp only [LimitRobot.step, ModRobot.step, h, reinits, if_true, hd]
  rfl

end Verif.Props
