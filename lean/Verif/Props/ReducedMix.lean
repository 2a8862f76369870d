import Verif.Props.ReducedSession
import Mathlib.Tactic.FinCases

/-!
# C76: a robot on which the mixture of calls goes wrong, and the hypotheses of the C76 theorems on it
-/

set_option linter.unusedSectionVars false

namespace Verif.Props
open Matrix Verif Verif.Model Verif.Spec

theorem isSPD_reindex {α β : Type*} [Fintype α] [DecidableEq α] [Fintype β] [DecidableEq β] {A : Matrix α α ℝ} (h : IsSPD A)
    (e : β ≃ α) : IsSPD (A.submatrix e e) := by
  refine ⟨?_, fun w hw => ?_⟩
  · rw [transpose_submatrix, h.1]
  · have := h.2 (w ∘ e.symm) (fun h => hw (by
      ext i
      have := congrFun h (e i)
      simpa using this))
    have e1 : A.submatrix e e *ᵥ w = (A *ᵥ (w ∘ e.symm)) ∘ e := by
      ext i
      rw [Function.comp_apply, mulVec, mulVec, dotProduct, dotProduct, ← e.sum_comp]
      simp
    rw [e1, dotProduct, ← e.symm.sum_comp]
    simpa [dotProduct] using this

theorem comp_symm_comp {α β γ : Type*} (f : α → γ) (e : α ≃ β) : (f ∘ e.symm) ∘ e = f := by
  ext i
  simp

namespace Mix

/-- joints: six of the leg, six of the arm -/
abbrev e12 : RSys (Fin 6) (Fin 6) ≃ Fin 6 ⊕ Fin 12 := sysEquiv (show 6 + 6 = 12 from rfl)

/-- base, leg of six links, arm of six links; foot 0 is fixed to the base, foot 1 is the last link of the leg -/
def table (act : List ℕ) : IdxTable :=
  { parent := [0, 0, 1, 2, 3, 4, 5, 0, 7, 8, 9, 10, 11], jointId := [3, 6, 7, 8, 9, 10, 11, 12, 13, 14, 15, 16, 17], linkNum := 13,
    contacts := act.map fun i => if i = 0 then 0 else 6 }

/-- The robot of C40 with the two feet of `TwoFeet`; the configuration says how heavy it is.  Tasks are on link 5, the last but one of the
leg, and command the last leg joint. -/
noncomputable def env (cod : (W : Matrix (Fin 12) (Fin 12) ℝ) → CodNull W)
    (codR : (k : ℕ) → (W : Matrix (Fin k ⊕ Fin 6) (Fin k ⊕ Fin 6) ℝ) → CodNull W) : ReducedEnv ℝ 12 where
  mass _ := (exRed 6).submatrix e12.symm e12.symm
  gravity x := x • (TwoFeet.G ∘ e12.symm)
  com _ := 0
  yaw _ := 0
  contactJac i _ := Matrix.of fun r s => if h : 6 * i + r.val < 12 then TwoFeet.Jc ⟨6 * i + r.val, h⟩ (e12.symm s) else 0
  contactRot _ _ := 1
  contactPos _ _ := 0
  taskJac _ _ _ := Matrix.of fun _ s => legRow 5 (e12.symm s)
  solve := Stand.solver
  rsolve := Stand.rsolver
  cod := cod
  ties _ := true
  split act := if 1 ∈ act then some ⟨6, 6, rfl, vcOf, ncOf⟩ else some ⟨0, 12, rfl, vcOf, ncOf⟩
  ncInertia _ _ := 1
  baseRotm _ := 1
  table := table
  taskDesc _ _ _ := .links [5]
  codR := codR

variable (cod : (W : Matrix (Fin 12) (Fin 12) ℝ) → CodNull W)
  (codR : (k : ℕ) → (W : Matrix (Fin k ⊕ Fin 6) (Fin k ⊕ Fin 6) ℝ) → CodNull W)

abbrev sp : RSplit 12 := ⟨6, 6, rfl, vcOf, ncOf⟩

theorem massR_eq (x : ℝ) : massR (env cod codR) x sp = exRed 6 := by
  simp [massR, env, submatrix_submatrix]

theorem jac1 (x : ℝ) : jacR (env cod codR) x [1] sp = exFoot 6 := by
  ext r s
  have hr : r.val < 6 := r.isLt
  have h0 : r.val / 6 = 0 := Nat.div_eq_of_lt hr
  have h1 : r.val % 6 = r.val := Nat.mod_eq_of_lt hr
  simp only [jacR, submatrix_apply, id, Session.stackJac, env, of_apply, h0, h1, List.getElem_cons_zero]
  rw [dif_pos (by omega), Equiv.symm_apply_apply]
  rcases s with s | s | s
  · simp [TwoFeet.Jc, Ex.J, exFoot, Fin.ext_iff, Nat.mod_eq_of_lt hr]
  · simp only [TwoFeet.Jc, Ex.J, exFoot, of_apply, Sum.elim_inr, Sum.elim_inl]
    refine if_congr ?_ rfl rfl
    constructor
    · intro h; left; omega
    · rintro (h | h) <;> omega
  · rfl

theorem jac2 (x : ℝ) : jacR (env cod codR) x [0, 1] sp = TwoFeet.Jc := by
  ext r s
  have hr : r.val < 12 := r.isLt
  have e : ∀ h, ([0, 1] : List ℕ)[r.val / 6]'h = r.val / 6 := by
    intro h
    have : r.val / 6 = 0 ∨ r.val / 6 = 1 := by omega
    rcases this with h | h <;> simp [h]
  simp only [jacR, submatrix_apply, id, Session.stackJac, env, of_apply, e, Nat.div_add_mod]
  rw [dif_pos hr, Equiv.symm_apply_apply]
  rfl

theorem gravity_eq (x : ℝ) : (env cod codR).gravity x ∘ sysEquiv sp.sum = x • TwoFeet.G := by
  ext i
  simp [env]

theorem unR {c : ℕ} {J : Matrix (Fin c) (Fin 6 ⊕ Fin 12) ℝ} {J' : Matrix (Fin c) (RSys (Fin 6) (Fin 6)) ℝ}
    (h : J.submatrix id e12 = J') : J = J'.submatrix id e12.symm := by
  rw [← h]; ext i j; simp

theorem indep_of {c : ℕ} {J : Matrix (Fin c) (Fin 6 ⊕ Fin 12) ℝ} (h : IndependentRows (J.submatrix id e12)) : IndependentRows J := by
  intro F hF
  apply h
  ext i
  exact congrFun hF (e12 i)

theorem base_of {c : ℕ} {J : Matrix (Fin c) (Fin 6 ⊕ Fin 12) ℝ} (h : BaseDetermined (J.submatrix id e12)) : BaseDetermined J := by
  intro w hw
  apply h
  rw [← hw]
  ext r
  simp [mulVec, dotProduct, Fintype.sum_sum_type, sysEquiv]

theorem spd (x : ℝ) : IsSPD ((env cod codR).mass x) := isSPD_reindex exRed_spd e12.symm

theorem coupled (x : ℝ) (i j : Fin 6) : (env cod codR).mass x (.inr (jointEquiv sp.sum (.inl i))) (.inr (jointEquiv sp.sum (.inr j))) = 0 := by
  have := congrFun (congrFun (massR_eq cod codR x) (.inr (.inl i))) (.inr (.inr j))
  exact this.trans (exRed_coupling i j)

/-- The robot on its leg. -/
theorem reducible1 (x : ℝ) : Reducible (env cod codR) x [1] sp where
  split := by simp [env]
  vc := rfl
  nc := rfl
  mass := spd cod codR x
  rot := by simp [env]
  coupling := coupled cod codR x
  chains r j := congrFun (congrFun (jac1 cod codR x) r) (ncOf j)
  rows := by simp
  indep := indep_of (by
    have := exFoot_independent (k := 6)
    rw [← jac1 cod codR x] at this
    exact this)
  base := base_of (by
    have := exFoot_base (k := 6)
    rw [← jac1 cod codR x] at this
    exact this)

/-- The robot on both feet. -/
theorem reducible2 (x : ℝ) : Reducible (env cod codR) x [0, 1] sp where
  split := by simp [env]
  vc := rfl
  nc := rfl
  mass := spd cod codR x
  rot := by simp [env]
  coupling := coupled cod codR x
  chains r j := congrFun (congrFun (jac2 cod codR x) r) (ncOf j)
  rows := by simp
  indep := indep_of (by
    have := TwoFeet.independent
    rw [← jac2 cod codR x] at this
    exact this)
  base := base_of (by
    have := TwoFeet.base
    rw [← jac2 cod codR x] at this
    exact this)

theorem on1 : switchedOn [false, true] = [1] := by decide
theorem on2 : switchedOn [true, true] = [0, 1] := by decide

theorem table_loaded (act : List ℕ) : (table act).Loaded := by
  refine ⟨Nat.succ_pos 12, rfl, rfl, ?_, ?_, ?_, ?_, ?_⟩
  · intro i _ hi
    have : ∀ i : ℕ, i < 13 → 0 < i → [0, 0, 1, 2, 3, 4, 5, 0, 7, 8, 9, 10, 11].getD i 0 < i := by decide
    exact this i hi ‹_›
  · intro i _ hi
    have : ∀ i : ℕ, i < 13 → 0 < i → 6 ≤ [3, 6, 7, 8, 9, 10, 11, 12, 13, 14, 15, 16, 17].getD i 0 := by decide
    exact this i hi ‹_›
  · intro i _ hi
    have : ∀ i : ℕ, i < 13 → 0 < i → [3, 6, 7, 8, 9, 10, 11, 12, 13, 14, 15, 16, 17].getD i 0 < 18 := by decide
    exact this i hi ‹_›
  · intro i j h1 h2 h3 h4
    have : ∀ i : ℕ, i < 13 → ∀ j : ℕ, j < 13 → 0 < i → 0 < j →
        [3, 6, 7, 8, 9, 10, 11, 12, 13, 14, 15, 16, 17].getD i 0 = [3, 6, 7, 8, 9, 10, 11, 12, 13, 14, 15, 16, 17].getD j 0 → i = j := by
      decide
    exact this i h2 j h4 h1 h3
  · intro c hc
    obtain ⟨i, -, rfl⟩ := List.mem_map.mp hc
    simp only [table]
    split <;> simp

noncomputable abbrev feet : List ContactLink := [exContact false, exContact false]

theorem plainTask_fst {k nc c : ℕ} (D : Reduced (Fin k) (Fin nc)) (C : ReducedContact c (Fin k) (Fin nc)) (R : Mat3)
    (Ainv : Matrix (RSys (Fin k) (Fin nc)) (RSys (Fin k) (Fin nc)) ℝ) (ts : List (RTaskIn (Fin k) (Fin nc))) :
    (RSession.plainTask D C R Ainv ts).map Prod.fst = reducedTaskTorque D C R Ainv ts := by
  unfold RSession.plainTask reducedTaskTorque
  rcases hm : ts.mapM (calcJKTR D C (Ainv * C.Nc)) with _ | rs
  · simp [hm]
  · simp only [hm]
    rcases hx : rTaskFrom D C R (Ainv * C.Nc) ((jktR C.ARinvNCR C.Winv (jBaseR R)).map Prod.snd) none 0 0 rs with _ | x <;> simp [hx]

theorem kinds1 (x f : ℝ) : kindsAt (env cod codR) (commanded [⟨1, 0⟩] [fun _ => f]) x [1] [Kind.fresh] = [⟨false, true, false, 0⟩] := by
  have h1 : (5 : ℕ) ≠ (table [1]).linkNum := by decide
  have h2 : 5 ∈ 0 :: (table [1]).coLinks := by decide
  simp only [kindsAt, commanded, List.zipWith_cons_cons, List.zipWith_nil_left, List.mapIdx_cons, List.mapIdx_nil, env, classify,
    List.zip_cons_cons, List.zip_nil_right, classifyFrom, classifyOne, List.foldl_cons, List.foldl_nil, visitLink, if_neg h1, if_pos h2]
  rfl

/-- One cycle without quadratic programmes of the robot on its leg. -/
theorem legCycle (x f : ℝ) : ∃ r D S C τ, reduce vcOf ncOf (exRed 6)⁻¹ 1 (x • TwoFeet.G) = some D ∧
    contactSpace (exFoot 6) (exRed 6)⁻¹ = some S ∧ reducedContact D (exFoot 6) (exRed 6)⁻¹ = some C ∧
    reducedTaskTorque D C 1 (exRed 6)⁻¹ [exRow (legRow 5) f true 0] = some τ ∧
    (RSession.loaded 0 feet [1] none).run (env cod codR) (reducedCycle x [false, true] [fun _ => f] false) = some r ∧
    r.command ∘ jointEquiv sp.sum = reducedGravityTorque D C + τ ∧ r.s.τt ∘ jointEquiv sp.sum = τ ∧ r.s.τc = 0 := by
  obtain ⟨D, S, C, hD, hS, hC, hb⟩ := exC55 (x • TwoFeet.G)
  obtain ⟨Q0, hQ0, -⟩ := exRow_ready hS (legRow_exP 5) f true 0
  obtain ⟨τ, hτ, -⟩ := C55_same_motion_partial exRed_spd (by simp) exRed_jInc exRed_coupling hD (fun _ _ => rfl) le_rfl
    exFoot_base hb hS hC [exRow (legRow 5) f true 0] [] (by simp) (by simpa using exRow_chain (by simp [ncOf]) f 0) (by simp) (by simp)
    (by simp) (rs := [Q0]) (by simp [calcTaskSpace, hQ0])
  have hJ' : jInc ((env cod codR).ncInertia [1] x) ((env cod codR).baseRotm x) (baseNc (massR (env cod codR) x sp)) = some 1 := by
    rw [massR_eq]; exact exRed_jInc
  have hD' : reduce vcOf ncOf (massR (env cod codR) x sp)⁻¹ 1 ((env cod codR).gravity x ∘ sysEquiv sp.sum) = some D := by
    rw [massR_eq, gravity_eq]; exact hD
  have hC' : reducedContact (c := 6 * [1].length) D (jacR (env cod codR) x [1] sp) (massR (env cod codR) x sp)⁻¹ = some C := by
    rw [massR_eq, jac1]; exact hC
  obtain ⟨⟨hm, hq⟩, -⟩ := given_defined (E := env cod codR) (x0 := 0) (cc := feet) (ts := [1]) (limit := none) (v := [false, true])
    (fs := [fun _ => f]) (sp := sp) (reducible1 cod codR x) (r0 := RSession.loaded 0 feet [1] none) (.refl _) (by simp) le_rfl hJ' hD'
    (C := C) hC' (N := 0) (by simp [on1])
  have hins : ((commanded [⟨1, 0⟩] [fun _ => f]).zip [(⟨false, true, false, 0⟩ : Kind)]).mapIdx (fun i p =>
      (⟨p.1.t, ((env cod codR).taskJac i x p.1.t).submatrix id (sysEquiv sp.sum), p.1.f, p.2.cmm, p.2.reduced, p.2.noncont, p.2.order⟩ :
      RTaskIn (Fin 6) (Fin 6))) = [exRow (legRow 5) f true 0] := by
    simp only [commanded, List.zipWith_cons_cons, List.zipWith_nil_left, List.zip_cons_cons, List.zip_nil_right, List.mapIdx_cons,
      List.mapIdx_nil, env, exRow, Bool.not_true]
    congr 2
    ext i a
    simp
  have hτ' := hτ
  rw [List.append_nil, ← plainTask_fst] at hτ'
  obtain ⟨⟨τ', τR⟩, ho, rfl⟩ := Option.map_eq_some_iff.mp hτ'
  have ht : taskOut (env cod codR) (givenAt (env cod codR).toControlEnv (RSession.loaded (n := 12) 0 feet [1] none).s x [false, true]
      [fun _ => f]) ⟨6, 6, rfl, [1], D, none⟩ ⟨6, C, 0, true⟩ [⟨false, true, false, 0⟩] false = some (1, τ', τR) := by
    have : taskOut (env cod codR) (givenAt (env cod codR).toControlEnv (RSession.loaded (n := 12) 0 feet [1] none).s x [false, true]
      [fun _ => f]) ⟨6, 6, rfl, [1], D, none⟩ ⟨6, C, 0, true⟩ [⟨false, true, false, 0⟩] false =
      (RSession.plainTask D C 1 (massR (env cod codR) x sp)⁻¹ (((commanded [⟨1, 0⟩] [fun _ => f]).zip [(⟨false, true, false, 0⟩ : Kind)]).mapIdx (fun i p =>
      (⟨p.1.t, ((env cod codR).taskJac i x p.1.t).submatrix id (sysEquiv sp.sum), p.1.f, p.2.cmm, p.2.reduced, p.2.noncont, p.2.order⟩ :
      RTaskIn (Fin 6) (Fin 6))))).map fun x => (1, x.1, x.2) := by
      rw [← (reducible1 cod codR x).inv]
      rfl
    rw [this, hins, massR_eq, ho]
    rfl
  have hk : kindsAt (env cod codR) (givenAt (env cod codR).toControlEnv (RSession.loaded (n := 12) 0 feet [1] none).s x [false, true]
      [fun _ => f]).ts x [1] [Kind.fresh] = [⟨false, true, false, 0⟩] := kinds1 cod codR x f
  obtain ⟨r, hr, P⟩ := rcycle_defined (hqp := false) (o := (1, τ', τR)) rfl (by simp [RSession.loaded, Session.loaded])
    (by simp [RSession.loaded, Session.loaded])
    (by simp [RSession.loaded, Session.loaded, exContact]) hm hq le_rfl (by
      refine Eq.trans ?_ ht
      exact congrArg (fun ks => taskOut (env cod codR) (givenAt (env cod codR).toControlEnv (RSession.loaded (n := 12) 0 feet [1] none).s
        x [false, true] [fun _ => f]) ⟨6, 6, rfl, [1], D, none⟩ ⟨6, C, 0, true⟩ ks false) hk) (by intro h; exact absurd h (lt_irrefl 6))
  have h1 : r.s.τt ∘ jointEquiv sp.sum = τ' := by
    rw [P.τt]
    exact comp_symm_comp _ _
  have h2 : r.s.τc = 0 := by
    rcases P.red with ⟨h, -⟩ | ⟨-, h, -⟩
    · exact absurd h (lt_irrefl 6)
    · exact h
  refine ⟨r, D, S, C, τ', hD, hS, hC, hτ, hr, ?_, h1, h2⟩
  have h3 : r.s.τg ∘ jointEquiv sp.sum = reducedGravityTorque D C := by
    rw [P.τg]
    exact comp_symm_comp _ _
  rw [← h3, ← h1]
  ext i
  simp [RSession.command, Session.command, h2]

theorem reindex_acc {qdd : Fin 6 ⊕ Fin 12 → ℝ} : (rowM (legRow 5) *ᵥ (qdd ∘ e12)) 0 = qdd (.inr 5) := by
  rw [mulVec, dotProduct]
  simp [Pi.single_apply]
  rfl

/-- Without tasks, task control writes nothing but zeros. -/
theorem noTask {X : Type*} {n : ℕ} (E : ReducedEnv X n) (x : X) (Ainv : Matrix (Fin 6 ⊕ Fin n) (Fin 6 ⊕ Fin n) ℝ)
    (limit : Option (Fin n → ℝ)) (cc : List ContactLink) {k nc : ℕ} (sum : k + nc = n) (D : Reduced (Fin k) (Fin nc))
    (q : RContactMembers k nc) (hg : q.grav = true) (ks : List Kind) (hqp : Bool) :
    taskAt E [] x Ainv limit cc sum D q ks hqp = some (1, assembleTorque D 0 0, 0) := by
  rcases hqp with _ | _
  · simp [taskAt, RSession.plainTask, rTaskFrom]
  · simp [taskAt, hg, reducedTaskTorqueQP, rqpFrom, rqpFinish]

/-- A cycle without tasks on one foot, after anything. -/
theorem oneFoot (x : ℝ) {limit : Option (Fin 12 → ℝ)} {r0 : RSession ℝ 12} (h0 : (RSession.loaded 0 feet [] limit).s.SameSetup r0.s)
    (hqp : Bool) : ∃ r, r0.run (env cod codR) (reducedCycle x [false, true] [] hqp) = some r := by
  obtain ⟨D, S, C, hD, hS, hC, hb⟩ := exC55 (x • TwoFeet.G)
  have hJ' : jInc ((env cod codR).ncInertia [1] x) ((env cod codR).baseRotm x) (baseNc (massR (env cod codR) x sp)) = some 1 := by
    rw [massR_eq]; exact exRed_jInc
  have hD' : reduce vcOf ncOf (massR (env cod codR) x sp)⁻¹ 1 ((env cod codR).gravity x ∘ sysEquiv sp.sum) = some D := by
    rw [massR_eq, gravity_eq]; exact hD
  have hC' : reducedContact (c := 6 * [1].length) D (jacR (env cod codR) x [1] sp) (massR (env cod codR) x sp)⁻¹ = some C := by
    rw [massR_eq, jac1]; exact hC
  obtain ⟨⟨hm, hq⟩, -⟩ := given_defined (E := env cod codR) (v := [false, true]) (fs := []) (sp := sp) (reducible1 cod codR x) h0
    (by simp) le_rfl hJ' hD' (C := C) hC' (N := 0) (by simp [on1])
  have hl : r0.s.cc.length = 2 := by
    simpa [RSession.loaded, Session.loaded] using (congrArg List.length h0.cc).symm
  have ht : r0.s.ts = [] := by
    have := congrArg List.length h0.ts
    simpa [RSession.loaded, Session.loaded] using this.symm
  have h6 : r0.s.cc.all (fun l => l.type == .c6d) = true := by
    rw [← all_registered h0.cc]
    simp [RSession.loaded, Session.loaded, exContact]
  obtain ⟨r, hr, -⟩ := rcycle_defined (r := r0) (hqp := hqp) rfl (by simp [hl]) (by simp [ht]) h6 hm hq le_rfl
    (o := (1, assembleTorque D 0 0, 0)) (by
      simp only [taskOut, givenAt, ht, commanded, List.zipWith_nil_left]
      exact noTask _ _ _ _ _ _ _ _ rfl _ _) (by intro h; exact absurd h (lt_irrefl 6))
  exact ⟨r, hr⟩

/-- Limit ten on every joint. -/
def ten : Option (Fin 12 → ℝ) := some fun _ => 10

/-- A cycle without tasks on both feet, after anything. -/
theorem bothFeet {r0 : RSession ℝ 12} (h0 : (RSession.loaded 0 feet [] ten).s.SameSetup r0.s) :
    ∃ r, r0.run (env cod codR) (reducedCycle 1 [true, true] [] true) = some r ∧ r.s.taskRet = 1 ∧ r.s.contactRet = 1 ∧ r.kinds = [] := by
  have hcs : contactsNow (env cod codR).toControlEnv feet 1 [true, true] = Stand.cs := by
    simp [contactsNow, Stand.cs, feet, exContact, env]
  obtain ⟨Wt, hWt⟩ : ∃ Wt, RSession.weightOf Stand.cs 12 = some Wt := ⟨_, dif_pos Stand.dof⟩
  obtain ⟨D, S, C, N, τc, hD, hS, hC, hN, hp⟩ := TwoFeet.met_of Wt (codR 6)
  have hJ' : jInc ((env cod codR).ncInertia [0, 1] 1) ((env cod codR).baseRotm 1) (baseNc (massR (env cod codR) 1 sp)) = some 1 := by
    rw [massR_eq]; exact exRed_jInc
  have hD' : reduce vcOf ncOf (massR (env cod codR) 1 sp)⁻¹ 1 ((env cod codR).gravity 1 ∘ sysEquiv sp.sum) = some D := by
    rw [massR_eq, gravity_eq, one_smul]; exact hD
  have hC' : reducedContact (c := 6 * [0, 1].length) D (jacR (env cod codR) 1 [0, 1] sp) (massR (env cod codR) 1 sp)⁻¹ = some C := by
    rw [massR_eq, jac2]; exact hC
  obtain ⟨⟨hm, hq⟩, -⟩ := given_defined (E := env cod codR) (v := [true, true]) (fs := []) (sp := sp) (reducible2 cod codR 1) h0
    (by simp) (by simp [on2]) hJ' hD' (C := C) hC' (N := N) (by rw [if_pos (by simp [on2])]; exact hN)
  have hl : r0.s.cc.length = 2 := by
    simpa [RSession.loaded, Session.loaded] using (congrArg List.length h0.cc).symm
  have ht : r0.s.ts = [] := by
    have := congrArg List.length h0.ts
    simpa [RSession.loaded, Session.loaded] using this.symm
  have h6 : r0.s.cc.all (fun l => l.type == .c6d) = true := by
    rw [← all_registered h0.cc]
    simp [RSession.loaded, Session.loaded, exContact]
  have hcc : contactsAt (env cod codR).toControlEnv r0.s.cc 1 [true, true] = Stand.cs :=
    ((posed_setFlags _ _ h0.cc).symm.trans (contactsAt_eq 1 _)).trans hcs
  have hlim : r0.s.limit = some fun _ => 10 := h0.limit.symm
  have hold : ∀ old, reducedRedistribute D C (TwoFeet.robot N) Wt Stand.rsolver 0 old = some (1, τc) := by
    intro old
    rw [← hp]
    simp [reducedRedistribute]
  have hred : ∀ old, redOut (env cod codR) (givenAt (env cod codR).toControlEnv r0.s 1 [true, true] []) ⟨6, 6, rfl, [0, 1], D, none⟩
      ⟨12, C, N, true⟩ 0 old true = some (1, τc) := by
    intro old
    simp only [redOut, redAt, givenAt, if_true, hcc, hlim, hWt, Option.bind_some]
    exact hold old
  obtain ⟨r, hr, P⟩ := rcycle_defined (r := r0) (hqp := true) rfl (by simp [hl]) (by simp [ht]) h6 hm hq le_rfl
    (o := (1, assembleTorque D 0 0, 0)) (by
      simp only [taskOut, givenAt, ht, commanded, List.zipWith_nil_left]
      exact noTask _ _ _ _ _ _ _ _ rfl _ _) (fun _ => ⟨(1, τc), hred _⟩)
  refine ⟨r, hr, P.taskRet, ?_, ?_⟩
  · rcases P.red with ⟨-, p, h1, -, h2⟩ | ⟨h, -, -⟩
    · rw [h2]
      exact congrArg Prod.fst (Option.some.inj (h1.symm.trans (hred _)))
    · exact absurd h (by simp [on2])
  · rw [P.kinds]
    simp [givenAt, ht, commanded, kindsAt, classify, classifyFrom]

/-- Gravity compensation of the full model on one foot. -/
theorem fullGrav (x : ℝ) {limit : Option (Fin 12 → ℝ)} : ∃ r, (RSession.loaded 0 feet [] limit).run (env cod codR)
    [.full (.update x), .full (.setContact [false, true]), .full .calcContact, .full .grav] = some r := by
  have e : ([.full (.update x), .full (.setContact [false, true]), .full .calcContact, .full .grav] : List (RCall ℝ)) =
    [ControlCall.update x, .setContact [false, true]].map .full ++ [.full .calcContact, .full .grav] := rfl
  obtain ⟨S, hS⟩ := C05_few_rows (spd cod codR x) (reducible1 cod codR x).indep le_rfl cod
  have hm : membersOf (env cod codR).toControlEnv (some (6 * [false, true].count true))
      ⟨_, Session.stackJac (env cod codR).toControlEnv x [1]⟩ ((env cod codR).mass x)⁻¹ = some ⟨6, S, 0, none⟩ := by
    have : calculateContactConstraint (Session.stackJac (env cod codR).toControlEnv x [1]) ((env cod codR).mass x)⁻¹
      (env cod codR).cod = .ret 1 S none := hS
    simp only [membersOf, this]
    rfl
  have ha : Session.activeIdx (posed ((env cod codR).contactRot · x) (Session.setFlags feet [false, true])) = [1] :=
    (congrArg _ (contactsAt_eq (E := (env cod codR).toControlEnv) (cc := feet) x [false, true])).trans
      (activeIdx_contactsNow (E := (env cod codR).toControlEnv) x (by simp))
  have hJ : (⟨_, Session.stackJac (env cod codR).toControlEnv x (Session.activeIdx (posed ((env cod codR).contactRot · x)
      (Session.setFlags (RSession.loaded (n := 12) (0 : ℝ) feet [] limit).s.cc [false, true])))⟩ :
      (c : ℕ) × Matrix (Fin c) (Fin 6 ⊕ Fin 12) ℝ) = ⟨_, Session.stackJac (env cod codR).toControlEnv x [1]⟩ :=
    congrArg (fun l => (⟨_, Session.stackJac (env cod codR).toControlEnv x l⟩ : (c : ℕ) × Matrix (Fin c) (Fin 6 ⊕ Fin 12) ℝ)) ha
  rw [e, rrun_append, rrun_setup _ (by
    intro o ho
    simp only [List.mem_cons, List.not_mem_nil, or_false] at ho
    rcases ho with rfl | rfl <;> trivial), run_prep _ x (by simp [RSession.loaded, Session.loaded]),
    if_pos (by simp [RSession.loaded, Session.loaded, exContact])]
  simp only [Session.run, Option.map_some, Option.bind_some, RSession.run, RSession.step, RSession.full, Session.step, calcContact_eq,
    hJ, hm]
  exact ⟨_, rfl⟩

/-- On one foot and without torque the robot of weight two presses on the ground. -/
theorem presses {qdd : Fin 6 ⊕ Fin 12 → ℝ} {F : Fin (6 * [1].length) → ℝ}
    (h : Motion ((env cod codR).mass 1) (Session.stackJac (env cod codR).toControlEnv 1 [1]) ((env cod codR).gravity 1) 0 qdd F) :
    F ≠ 0 := by
  rintro rfl
  have h1 : Motion (massR (env cod codR) 1 sp) (jacR (env cod codR) 1 [1] sp) ((env cod codR).gravity 1 ∘ sysEquiv sp.sum) 0
    (qdd ∘ sysEquiv sp.sum) 0 := motion_reindex (jointEquiv sp.sum) h
  obtain ⟨D, S, C, hD, hS, hC, hb⟩ := exC55 ((1 : ℝ) • TwoFeet.G)
  rw [massR_eq, jac1, gravity_eq, one_smul] at h1
  have h2 := ((motion_iff exRed_spd hS _ _ _ _).mp h1).1
  rw [exP_eq hS] at h2
  have h3 := congrFun h1.1 (.inl 2)
  rw [h2, mulVec_zero, add_zero, exRed, add_mulVec, one_mulVec, ← mulVec_mulVec, exE_mulVec, exE_transpose_mulVec] at h3
  simp [exP, actuate, TwoFeet.G] at h3
  norm_num at h3

end Mix

/-- C76 is false (contact forces).  On one foot: gravity compensation of the full model in a state without weight, then a cycle with the
reduced model in the present state.  The contact force reported for a torque is not the one the ground exerts, whatever the torque. -/
theorem C76_wrong_force (cod : (W : Matrix (Fin 12) (Fin 12) ℝ) → CodNull W)
    (codR : (k : ℕ) → (W : Matrix (Fin k ⊕ Fin 6) (Fin k ⊕ Fin 6) ℝ) → CodNull W) :
    ∃ r, (RSession.loaded 0 Mix.feet [] none).run (Mix.env cod codR)
        ([] ++ [.full (.update 0), .full (.setContact [false, true]), .full .calcContact, .full .grav] ++
          reducedCycle 1 [false, true] [] false) = some r ∧
      ∀ τ qdd F, Motion ((Mix.env cod codR).mass 1) (Session.stackJac (Mix.env cod codR).toControlEnv 1 [1])
        ((Mix.env cod codR).gravity 1) τ qdd F → ∃ F', r.reportedForce τ = some ⟨_, F'⟩ ∧ F' ≠ F := by
  obtain ⟨r1, h1⟩ := Mix.fullGrav cod codR 0 (limit := none)
  obtain ⟨r, hr⟩ := Mix.oneFoot cod codR 1 (rrun_sameSetup h1) false
  have hall : (RSession.loaded 0 Mix.feet [] none).run (Mix.env cod codR)
      ([] ++ [.full (.update 0), .full (.setContact [false, true]), .full .calcContact, .full .grav] ++
        reducedCycle 1 [false, true] [] false) = some r := by
    rw [List.nil_append, rrun_append, h1, Option.bind_some, hr]
  refine ⟨r, hall, fun τ qdd F hM => ?_⟩
  have hR := Mix.reducible1 cod codR 1
  obtain ⟨So, hSo⟩ := Option.isSome_iff_exists.mp ((C02_finite_iff_independent hR.mass).mpr hR.indep)
  obtain ⟨q0, F0, hM0⟩ : ∃ q0 F0, Motion ((Mix.env cod codR).mass 1) (Session.stackJac (Mix.env cod codR).toControlEnv 1 [1])
      ((Mix.env cod codR).gravity 1) 0 q0 F0 := by
    obtain ⟨⟨q0, h⟩, -, -⟩ := C01_contact_force_exact hR.mass hSo ((Mix.env cod codR).gravity 1) 0
    exact ⟨_, _, h⟩
  have hM0' : Motion ((Mix.env cod codR).mass 0) (Session.stackJac (Mix.env cod codR).toControlEnv 0 [1])
      ((Mix.env cod codR).gravity 0) 0 0 (0 : Fin (6 * [1].length) → ℝ) := by
    constructor
    · unfold Dynamics
      rw [mulVec_zero, mulVec_zero]
      ext i
      rcases i with i | i <;> simp [Mix.env, actuate]
    · unfold ContactsFixed; rw [mulVec_zero]
  refine ⟨_, C76_reported_force_partial (sp := Mix.sp) hall (by simp) (by simp) (by simp) (Mix.spd cod codR 0) hR rfl hM hM0 hM0', ?_⟩
  intro h
  apply Mix.presses cod codR hM0
  ext i
  have h2 := congrFun h i
  have h3 : F i - F0 i + 0 = F i := h2
  show F0 i = 0
  linarith

/-- C76 is false (torques of earlier cycles).  The robot of C40 on its leg: after a cycle with the reduced model that accelerates a joint
of the leg, state, contacts, reduced model and gravity compensation alone go on accelerating that joint.  The same calls on a robot just
loaded hold it still. -/
theorem C76_gravity_only_moves (cod : (W : Matrix (Fin 12) (Fin 12) ℝ) → CodNull W)
    (codR : (k : ℕ) → (W : Matrix (Fin k ⊕ Fin 6) (Fin k ⊕ Fin 6) ℝ) → CodNull W) :
    (∃ r, (RSession.loaded 0 Mix.feet [1] none).run (Mix.env cod codR)
        (reducedCycle 1 [false, true] [fun _ => 1] false ++ (reducedPrep 1 [false, true] ++ [.grav])) = some r ∧
      ∀ qdd F, Motion ((Mix.env cod codR).mass 1) (Session.stackJac (Mix.env cod codR).toControlEnv 1 [1]) ((Mix.env cod codR).gravity 1)
        r.command qdd F → qdd (.inr 5) = 1) ∧
    ∃ r, (RSession.loaded 0 Mix.feet [1] none).run (Mix.env cod codR) (reducedPrep 1 [false, true] ++ [.grav]) = some r ∧
      ∀ qdd F, Motion ((Mix.env cod codR).mass 1) (Session.stackJac (Mix.env cod codR).toControlEnv 1 [1]) ((Mix.env cod codR).gravity 1)
        r.command qdd F → qdd = 0 := by
  obtain ⟨r0, D, S, C, τ, hD, hS, hC, hτ, hr0, hcmd, ht, hc⟩ := Mix.legCycle cod codR 1 1
  have hR := Mix.reducible1 cod codR 1
  have hdef : ∀ {r0 : RSession ℝ 12}, (RSession.loaded 0 Mix.feet [1] none).s.SameSetup r0.s →
      ∃ r, r0.run (Mix.env cod codR) (reducedPrep 1 [false, true] ++ [.grav]) = some r := by
    intro r0 h0
    have hJ' : jInc ((Mix.env cod codR).ncInertia [1] 1) ((Mix.env cod codR).baseRotm 1) (baseNc (massR (Mix.env cod codR) 1 Mix.sp)) =
        some 1 := by
      rw [Mix.massR_eq]; exact exRed_jInc
    have hD' : reduce vcOf ncOf (massR (Mix.env cod codR) 1 Mix.sp)⁻¹ 1 ((Mix.env cod codR).gravity 1 ∘ sysEquiv Mix.sp.sum) = some D := by
      rw [Mix.massR_eq, Mix.gravity_eq]; exact hD
    have hC' : reducedContact (c := 6 * [1].length) D (jacR (Mix.env cod codR) 1 [1] Mix.sp) (massR (Mix.env cod codR) 1 Mix.sp)⁻¹ =
        some C := by
      rw [Mix.massR_eq, Mix.jac1]; exact hC
    obtain ⟨-, hm, hq⟩ := given_defined (E := Mix.env cod codR) (v := [false, true]) (fs := []) (sp := Mix.sp) hR h0 (by simp) le_rfl hJ' hD'
      (C := C) hC' (N := 0) (by simp [Mix.on1])
    have hl : r0.s.cc.length = 2 := by
      simpa [RSession.loaded, Session.loaded] using (congrArg List.length h0.cc).symm
    have h6 : r0.s.cc.all (fun l => l.type == .c6d) = true := by
      rw [← all_registered h0.cc]
      simp [RSession.loaded, Session.loaded, exContact]
    rw [rrun_prep0 r0 1 (by rw [hl]; rfl), if_pos h6, hm, Option.bind_some, hq, Option.bind_some]
    exact ⟨_, rfl⟩
  have hacc : ∀ {τ' : Fin 12 → ℝ} {qdd F}, Motion ((Mix.env cod codR).mass 1) (Session.stackJac (Mix.env cod codR).toControlEnv 1 [1]) 0
      τ' qdd F → qdd ∘ sysEquiv Mix.sp.sum = S.AinvNc *ᵥ actuate (τ' ∘ jointEquiv Mix.sp.sum) := by
    intro τ' qdd F h
    have h1 : Motion (massR (Mix.env cod codR) 1 Mix.sp) (jacR (Mix.env cod codR) 1 [1] Mix.sp) 0 (τ' ∘ jointEquiv Mix.sp.sum)
      (qdd ∘ sysEquiv Mix.sp.sum) F := motion_reindex (jointEquiv Mix.sp.sum) h
    rw [Mix.massR_eq, Mix.jac1] at h1
    have := ((motion_iff exRed_spd hS _ _ _ _).mp h1).1
    rwa [sub_zero] at this
  constructor
  · obtain ⟨r, hr⟩ := hdef (rrun_sameSetup hr0)
    have hall : (RSession.loaded 0 Mix.feet [1] none).run (Mix.env cod codR)
        (reducedCycle 1 [false, true] [fun _ => 1] false ++ (reducedPrep 1 [false, true] ++ [.grav])) = some r := by
      rw [rrun_append, hr0, Option.bind_some, hr]
    refine ⟨r, hall, fun qdd F hM => ?_⟩
    obtain ⟨-, -, -, h⟩ := C76_gravity_keeps_torques (sp := Mix.sp) hr0 hall (by simp) hR
    obtain ⟨F', hM'⟩ := h qdd F hM
    have h1 := hacc hM'
    rw [hc, add_zero, ht] at h1
    obtain ⟨⟨q1, hq1⟩, -, -⟩ := C01_contact_force_exact exRed_spd hS ((1 : ℝ) • TwoFeet.G) (reducedGravityTorque D C + τ)
    have h2 := C55_first_task_partial exRed_spd (by simp) exRed_jInc exRed_coupling hD (fun _ _ => rfl) le_rfl exFoot_base hS hC
      (exRow_chain (by simp [ncOf]) 1 0) [] hτ hq1
    rw [C41_gravity_torque_partial exRed_spd hD (fun _ _ => rfl) le_rfl exFoot_base hS hC] at hq1
    rw [acc_of_motion exRed_spd hS exFoot_base hq1, ← h1] at h2
    exact Mix.reindex_acc.symm.trans (congrFun h2 (0 : Fin 1))
  · obtain ⟨r, hr⟩ := hdef (.refl _)
    refine ⟨r, hr, fun qdd F hM => ?_⟩
    obtain ⟨-, -, -, h⟩ := C76_gravity_keeps_torques (hist := []) (sp := Mix.sp) rfl hr (by simp) hR
    obtain ⟨F', hM'⟩ := h qdd F hM
    have h1 := hacc hM'
    have h0 : actuate ((((RSession.loaded 0 Mix.feet [1] none : RSession ℝ 12).s.τt + (RSession.loaded 0 Mix.feet [1] none).s.τc)) ∘
        jointEquiv Mix.sp.sum) = 0 := by
      ext i
      rcases i with i | i <;> simp [actuate, RSession.loaded, Session.loaded]
    replace h1 := h1.trans ((congrArg (S.AinvNc *ᵥ ·) h0).trans (mulVec_zero _))
    ext i
    have := congrFun h1 (Mix.e12.symm i)
    simpa using this

/-! ### The hypotheses on this robot -/

/-- `C76_cycle_safe_partial`: both feet, after any calls. -/
example (cod : (W : Matrix (Fin 12) (Fin 12) ℝ) → CodNull W)
    (codR : (k : ℕ) → (W : Matrix (Fin k ⊕ Fin 6) (Fin k ⊕ Fin 6) ℝ) → CodNull W) {hist : List (RCall ℝ)} {r0 : RSession ℝ 12}
    (h0 : (RSession.loaded 0 Mix.feet [] Mix.ten).run (Mix.env cod codR) hist = some r0) :
    ∃ r, (RSession.loaded 0 Mix.feet [] Mix.ten).run (Mix.env cod codR) (hist ++ reducedCycle 1 [true, true] [] true) = some r ∧
      r.s.taskRet = 1 ∧ r.s.contactRet = 1 ∧ Reducible (Mix.env cod codR) 1 (switchedOn [true, true]) Mix.sp ∧
      (∀ κ ∈ r.kinds, κ.noncont = false) ∧ (∀ l ∈ Mix.feet, 0 < l.planeX ∧ 0 < l.planeY) ∧ (Mix.env cod codR).rsolve.Sound := by
  obtain ⟨r, hr, h1, h2, h3⟩ := Mix.bothFeet cod codR (rrun_sameSetup h0)
  refine ⟨r, ?_, h1, h2, Mix.reducible2 cod codR 1, ?_, ?_, ?_⟩
  · rw [rrun_append, h0, Option.bind_some, hr]
  · simp [h3]
  · simp [exContact]
  · exact fun k d x hx => (Stand.rsolver_exact k d x hx).1

/-- `C76_contact_switch_undefined`: from the leg alone to the foot on the base alone. -/
example (cod : (W : Matrix (Fin 12) (Fin 12) ℝ) → CodNull W)
    (codR : (k : ℕ) → (W : Matrix (Fin k ⊕ Fin 6) (Fin k ⊕ Fin 6) ℝ) → CodNull W) {hist hist' : List (RCall ℝ)} {x x' f f' : ℝ} :
    (RSession.loaded 0 Mix.feet [1] none).run (Mix.env cod codR)
      (hist ++ reducedCycle x [false, true] [fun _ => f] false ++ hist' ++ reducedCycle x' [true, false] [fun _ => f'] false) = none := by
  have e : switchedOn [true, false] = [0] := by decide
  refine C76_contact_switch_undefined (j := 0) (i := 5) ⟨fun _ _ => rfl, Mix.table_loaded, fun act => ?_⟩ (by simp) (by simp) (by simp)
    rfl rfl (.inl ⟨?_, ?_⟩)
  · show (5 : ℕ) ≠ 13
    decide
  · rw [Mix.on1]
    exact ⟨show (5 : ℕ) ≠ 13 by decide, (co_iff (Mix.table_loaded [1]) 5).mp (by decide)⟩
  · rw [e]
    exact ⟨show (5 : ℕ) ≠ 13 by decide, fun g => absurd ((co_iff (Mix.table_loaded [0]) 5).mpr g) (by decide)⟩

/-- `C76_after_full_calls_partial`: gravity compensation of the full model is no call of task control. -/
example (cod : (W : Matrix (Fin 12) (Fin 12) ℝ) → CodNull W)
    (codR : (k : ℕ) → (W : Matrix (Fin k ⊕ Fin 6) (Fin k ⊕ Fin 6) ℝ) → CodNull W) :
    ∃ (hist : List (RCall ℝ)) (r : RSession ℝ 12), hist ≠ [] ∧ (∀ o ∈ hist, ¬ IsTaskCall o) ∧
      (RSession.loaded 0 Mix.feet [] Mix.ten).run (Mix.env cod codR) hist = some r ∧ 2 ≤ [true, true].count true := by
  obtain ⟨r, hr⟩ := Mix.fullGrav cod codR 1 (limit := Mix.ten)
  refine ⟨_, r, List.cons_ne_nil _ _, ?_, hr, by simp⟩
  intro o ho
  simp only [List.mem_cons, List.not_mem_nil, or_false] at ho
  rcases ho with rfl | rfl | rfl | rfl <;> exact fun h => h

/-- `C76_same_contacts_partial`, `C76_force_needs_full_gravity`: two cycles on both feet. -/
example (cod : (W : Matrix (Fin 12) (Fin 12) ℝ) → CodNull W)
    (codR : (k : ℕ) → (W : Matrix (Fin k ⊕ Fin 6) (Fin k ⊕ Fin 6) ℝ) → CodNull W) :
    ∃ r, (RSession.loaded 0 Mix.feet [] Mix.ten).run (Mix.env cod codR)
        (reducedCycle 1 [true, true] [] true ++ reducedCycle 1 [true, true] [] true) = some r ∧
      (∀ o ∈ reducedCycle (1 : ℝ) [true, true] [] true ++ reducedCycle 1 [true, true] [] true,
        ¬ SetsOther [true, true] o ∧ ¬ IsFullGrav o) ∧
      (∀ i x, (Mix.env cod codR).taskDesc (switchedOn [true, true]) i x = .links [5]) := by
  obtain ⟨r1, h1, -⟩ := Mix.bothFeet cod codR (r0 := RSession.loaded 0 Mix.feet [] Mix.ten) (.refl _)
  obtain ⟨r, hr, -⟩ := Mix.bothFeet cod codR (rrun_sameSetup h1)
  refine ⟨r, by rw [rrun_append, h1, Option.bind_some, hr], ?_, fun _ _ => rfl⟩
  intro o ho
  simp only [reducedCycle, reducedPrep, List.mapIdx_nil, List.nil_append, List.cons_append, List.mem_cons, List.not_mem_nil,
    or_false] at ho
  rcases ho with rfl | rfl | rfl | rfl | rfl | rfl | rfl | rfl | rfl | rfl | rfl | rfl | rfl | rfl <;> simp [SetsOther, IsFullGrav]

/-- `C76_single_support_keeps`, `C76_gravity_keeps_torques`: a cycle that runs. -/
example (cod : (W : Matrix (Fin 12) (Fin 12) ℝ) → CodNull W)
    (codR : (k : ℕ) → (W : Matrix (Fin k ⊕ Fin 6) (Fin k ⊕ Fin 6) ℝ) → CodNull W) {hist : List (RCall ℝ)} {r0 : RSession ℝ 12}
    (h0 : (RSession.loaded 0 Mix.feet [] Mix.ten).run (Mix.env cod codR) hist = some r0) :
    ∃ r, (RSession.loaded 0 Mix.feet [] Mix.ten).run (Mix.env cod codR) (hist ++ reducedCycle 1 [false, true] [] true) = some r ∧
      [false, true].count true ≤ 1 := by
  obtain ⟨r, hr⟩ := Mix.oneFoot cod codR 1 (rrun_sameSetup h0) true
  exact ⟨r, by rw [rrun_append, h0, Option.bind_some, hr], by simp⟩

end Verif.Props
