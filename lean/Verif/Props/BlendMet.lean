import Verif.Props.Blend
import Verif.Props.LoosenMet

/-!
# C96: what is limited is not blended; the hypotheses are met
-/

set_option linter.unusedSectionVars false

namespace Verif.Props
open Matrix Verif Verif.Spec Verif.Model

namespace Arms

/-- a command within the limits is followed, by both joints alike -/
theorem sum_met {S : ContactSpace 12 (Fin (6 + 2))} (hS : contactSpace (J 2) (A 2)⁻¹ = some S)
    (cod : (W : Matrix (Fin (6 + 2)) (Fin (6 + 2)) ℝ) → CodNull W) {k : ℕ} {V2 : Matrix (Fin k) (Fin (6 + 2)) ℝ}
    {N : Matrix (Fin (6 + 2)) (Fin (12 - 6)) ℝ} (hR : calculateContactConstraint (J 2) (A 2)⁻¹ cod = .ret 1 S (some ⟨k, V2, N⟩))
    {s : ℝ} {L : Fin (6 + 2) → ℝ} (hL : ∀ j, 0 ≤ L j) (h6 : |s| ≤ L 6) (h7 : |s| ≤ L 7) {solve : Solver} (hs : solve.Exact)
    {Y : TaskReady (Fin (6 + 2))} (hY : calculateJKT S (A 2)⁻¹ (sumTask (2 * s)) = some Y) {r : TaskRecord (6 + 2)} {τt τc : Fin (6 + 2) → ℝ}
    {rs : List (TaskRecord (6 + 2))} (h : taskControlQPRec (robot S N L) solve [(Y, r)] = (.ret 1 τt τc, rs)) :
    AllFollowed rs ∧ ∀ qdd F, Motion (A 2) (J 2) (G 2) ((robot S N L).τg + τt + τc) qdd F → qdd (Sum.inr 6) = s ∧ qdd (Sum.inr 7) = s := by
  have hYT : Y.toTaskIn = sumTask (2 * s) := by rw [((jkt_eq_some hS).mp hY).2]
  have hT : calculateJKT S (A 2)⁻¹ Y.toTaskIn = some Y := by rw [hYT]; exact hY
  have hJ : ∀ (q : Fin 6 ⊕ Fin (6 + 2) → ℝ) (i : Fin Y.t), (Y.J *ᵥ q) i = q (Sum.inr 6) + q (Sum.inr 7) := by
    have key : ∀ X : TaskIn (Fin (6 + 2)), X = sumTask (2 * s) → ∀ (q : Fin 6 ⊕ Fin (6 + 2) → ℝ) (i : Fin X.t),
        (X.J *ᵥ q) i = q (Sum.inr 6) + q (Sum.inr 7) := by
      rintro _ rfl q i
      exact sumRow_mul (2 * s) q i
    exact key _ hYT
  have hf : ∀ i : Fin Y.t, Y.f i = 2 * s := by
    have key : ∀ X : TaskIn (Fin (6 + 2)), X = sumTask (2 * s) → ∀ i : Fin X.t, X.f i = 2 * s := by rintro _ rfl i; rfl
    exact key _ hYT
  have ho : Nonempty (Fin Y.t) := by
    have key : ∀ X : TaskIn (Fin (6 + 2)), X = sumTask (2 * s) → Nonempty (Fin X.t) := by
      rintro _ rfl
      exact ⟨(0 : Fin 1)⟩
    exact key _ hYT
  obtain ⟨o⟩ := ho
  have hpull := still (pull_leg s s)
  obtain ⟨δ, hδ, e⟩ := task_of_least (hA 2) hS J_base (T := Y) hT hpull
    (by
      funext i
      refine (hJ (actuate (pull s s)) i).trans ?_
      rw [hf]
      simp [actuate, pull, Fin.ext_iff]
      ring)
    (by
      intro q' _ hq'
      have h2 : q' (Sum.inr 6) + q' (Sum.inr 7) = 2 * s := (hJ q' o).symm.trans ((congrFun hq' o).trans (hf o))
      refine le_trans ?_ (energy_arms q')
      rw [energy_pull, energy_pull (q' _)]
      refine mul_le_mul_of_nonneg_left ?_ ?_
      · have : q' (Sum.inr 7) = 2 * s - q' (Sum.inr 6) := by linarith
        rw [this]
        nlinarith [sq_nonneg (q' (Sum.inr 6) - s)]
      · unfold accelEnergy A
        rw [one_mulVec]
        exact Finset.sum_nonneg fun _ _ => mul_self_nonneg _)
  have hsafe : SafeTorque (A 2) (J 2) (G 2) (some L) Stand.cs Stand.dof (pull s s) := safe hS (pull_leg s s) fun j => by
    unfold pull
    split_ifs with h1 h2
    · rw [h1]; exact h6
    · rw [h2]; exact h7
    · simpa using hL j
  have hcall : calcTaskControlTorqueQP (robot S N L) solve [Y] = .ret 1 τt τc := by
    have := C92_result (robot S N L) solve [(Y, r)]
    rw [h] at this
    exact this.symm
  obtain ⟨qdd, hM⟩ := (C01_contact_force_exact (hA 2) hS (G 2) ((robot S N L).τg + τt + τc)).1
  have hb := C60_first_task_best (hA 2) (R := robot S N L) hS J_base rfl rfl Stand.six Stand.plane Stand.dof (by norm_num) cod hR hs hT
    hcall hM (a := Y.f) hδ (by
      have ew : withCommand Y Y.f = Y := rfl
      rw [ew]
      change SafeTorque (A 2) (J 2) (G 2) (some L) Stand.cs Stand.dof (gravityTorque S (A 2)⁻¹ (G 2) + taskTorque S [Y] + δ)
      rw [← e]
      exact hsafe)
  obtain ⟨r', rest, a, rfl, ha, hacc⟩ := C92_attained (hA 2) (robot S N L) hS J_base rfl (by norm_num) cod hR solve hT h
  obtain ⟨f, et, -⟩ := C92_success (robot S N L) solve _ h
  rcases f with _ | ⟨hsol, f⟩
  cases f
  rw [hacc _ _ hM] at hb
  have hsum : ∑ j, a j ^ 2 = 0 := by
    refine le_antisymm ?_ (Finset.sum_nonneg fun j _ => sq_nonneg _)
    simpa using hb
  have ha0 : a = 0 := miss_zero hsum
  subst ha0
  refine ⟨fun x hx => ?_, fun qdd F hM => ?_⟩
  · obtain rfl : x = r' := by simpa using hx
    unfold miss
    rw [ha]
    simp
  · have hτt : τt = taskTorque S [Y] := by
      rw [et]
      have : followed Y r' = Y := by
        rw [followed_of ha, add_zero]
        rfl
      rw [List.map_cons, List.map_nil, List.zipWith_cons_cons, List.zipWith_nil_right, this]
    have hstill : MovesNothing (A 2) (J 2) (G 2) τc := loop_contact_still (R := robot S N L) (hA 2) (by norm_num) cod hS hR hcall
    obtain ⟨q1, hM1⟩ := (C01_contact_force_exact (hA 2) hS (G 2) ((robot S N L).τg + τt)).1
    have e1 := hstill _ _ _ _ _ hM1 hM
    have e2 := hδ _ _ (actuate (pull s s)) _ Stand.F hM1 (by rw [hτt]; exact e ▸ hpull)
    rw [e1, ← e2]
    constructor <;> simp [actuate, pull, Fin.ext_iff]

end Arms

/-- **Commands that cannot be followed are not blended.**  Two joints with the torque limit 1/2, asked to accelerate together by `f`: for
`f = 0` they accelerate by 0, for `f = 2` by 1 and for `f = 1`, half way in between, by 1 as well. -/
theorem C96_limited_not_blended (cod : (W : Matrix (Fin (6 + 2)) (Fin (6 + 2)) ℝ) → CodNull W) {solve : Solver} (he : solve.Exact)
    (hcomp : solve.Complete) {f a : ℝ} (hfa : (f = 0 ∧ a = 0) ∨ (f = 1 ∧ a = 1) ∨ f = 2 ∧ a = 1) :
    ∃ τg τt τc, qpCycle (Arms.J 2) (Arms.A 2)⁻¹ (Arms.G 2) cod (some fun _ => 1 / 2) Stand.cs solve [Arms.sumTask f] =
        some (1, τg, τt, τc) ∧
      (∃ qdd F, Motion (Arms.A 2) (Arms.J 2) (Arms.G 2) (τg + τt + τc) qdd F) ∧
      ∀ qdd F, Motion (Arms.A 2) (Arms.J 2) (Arms.G 2) (τg + τt + τc) qdd F → ∀ i, ((Arms.sumTask f).J *ᵥ qdd) i = a := by
  obtain ⟨S, k, V2, N, hS, hR⟩ := Arms.space (m := 2) cod
  obtain ⟨Y, hY⟩ := Option.isSome_iff_exists.mp ((C06_finite_iff (Arms.hA 2) hS (Arms.sumTask f)).mpr (Arms.sumTask_finite f))
  have hm : MovesNothing (Arms.A 2) (Arms.J 2) (Arms.G 2) 0 :=
    (movesNothing_iff (Arms.hA 2) (by norm_num) cod hS hR 0).mpr ⟨0, (mulVec_zero _).symm⟩
  obtain ⟨τt, τc, h⟩ := C60_never_fails (Arms.hA 2) (R := Arms.robot S N fun _ => 1 / 2) hS rfl Stand.six Stand.plane Stand.dof (by norm_num) cod
    hR (fun i t k d x hx => (he i t k d x hx).1) hcomp hm (Arms.stand_safe hS fun _ => by norm_num) [Y]
  refine ⟨(Arms.robot S N fun _ => 1 / 2).τg, τt, τc, ?_, ?_, fun qdd F hM i => ?_⟩
  · have hts : calcTaskSpace S (Arms.A 2)⁻¹ [Arms.sumTask f] = some [Y] := by
      unfold calcTaskSpace
      rw [List.mapM_cons, hY]
      rfl
    unfold qpCycle
    rw [hR]
    simp only
    rw [hts]
    simp only
    rw [h]
  · obtain ⟨qdd, hM⟩ := (C01_contact_force_exact (Arms.hA 2) hS (Arms.G 2) ((Arms.robot S N fun _ => 1 / 2).τg + τt + τc)).1
    exact ⟨qdd, _, hM⟩
  · rw [Arms.sumRow_mul]
    obtain ⟨rs, hrs⟩ := records_of _ h
    rcases hfa with ⟨rfl, rfl⟩ | ⟨rfl, rfl⟩ | ⟨rfl, rfl⟩
    · obtain ⟨h6, h7⟩ := (Arms.sum_met hS cod hR (s := 0) (L := fun _ => 1 / 2) (fun _ => by norm_num) (by norm_num) (by norm_num) he
        (by rw [mul_zero]; exact hY) hrs).2 qdd F hM
      rw [h6, h7]
      norm_num
    · obtain ⟨h6, h7⟩ := Arms.sum_reached hS cod hR (s := 1 / 2) (by norm_num) (by norm_num) he hY [] h hM
      rw [h6, h7]
      norm_num
    · obtain ⟨h6, h7⟩ := Arms.sum_reached hS cod hR (s := 1 / 2) (by norm_num) (by norm_num) he hY [] h hM
      rw [h6, h7]
      norm_num

/-! ### The hypotheses are met -/

/-- the two joints with limit 1, asked to accelerate together by 2: the command is followed, and so is a third of it -/
example (cod : (W : Matrix (Fin (6 + 2)) (Fin (6 + 2)) ℝ) → CodNull W) {solve : Solver} (he : solve.Exact) (hcomp : solve.Complete) :
    ∃ S N Y τt τc rs τc' rs', (taskControlQPRec (Arms.robot S N fun _ => 1) solve [(Y, .fresh _)] = (.ret 1 τt τc, rs) ∧ AllFollowed rs) ∧
      (∀ i : Fin Y.t, Y.f i = 2) ∧
      taskControlQPRec (Arms.robot S N fun _ => 1) solve [(withCommand Y ((1 / 3 : ℝ) • Y.f), .fresh _)] = (.ret 1 ((1 / 3 : ℝ) • τt) τc', rs') ∧
      AllFollowed rs' := by
  obtain ⟨S, k, V2, N, hS, hR⟩ := Arms.space (m := 2) cod
  obtain ⟨Y, hY⟩ := Option.isSome_iff_exists.mp ((C06_finite_iff (Arms.hA 2) hS (Arms.sumTask 2)).mpr (Arms.sumTask_finite 2))
  have hYT : Y.toTaskIn = Arms.sumTask 2 := by rw [((jkt_eq_some hS).mp hY).2]
  have hm : MovesNothing (Arms.A 2) (Arms.J 2) (Arms.G 2) 0 :=
    (movesNothing_iff (Arms.hA 2) (by norm_num) cod hS hR 0).mpr ⟨0, (mulVec_zero _).symm⟩
  have hsound : solve.Sound := fun i t k d x hx => (he i t k d x hx).1
  have hst := Arms.stand_safe (N := N) hS (L := fun _ => 1) fun _ => by norm_num
  obtain ⟨τt, τc, h⟩ := C60_never_fails (Arms.hA 2) (R := Arms.robot S N fun _ => 1) hS rfl Stand.six Stand.plane Stand.dof (by norm_num) cod
    hR hsound hcomp hm hst [Y]
  obtain ⟨rs, hrs⟩ := records_of _ h
  have hf := (Arms.sum_met hS cod hR (s := 1) (L := fun _ => 1) (fun _ => by norm_num) (by norm_num) (by norm_num) he
    (by rw [mul_one]; exact hY) hrs).1
  obtain ⟨τc', rs', k1, k2⟩ := C96_scale (R := Arms.robot S N fun _ => 1) (Arms.hA 2) cod hS hR rfl Stand.six Stand.plane Stand.dof (by norm_num)
    hsound he hcomp hm hst (s := 1 / 3) (by norm_num) (by norm_num) _ [(withCommand Y ((1 / 3 : ℝ) • Y.f), .fresh _)] rfl hrs hf
  refine ⟨S, N, Y, τt, τc, rs, τc', rs', ⟨hrs, hf⟩, ?_, k1, k2⟩
  have key : ∀ X : TaskIn (Fin (6 + 2)), X = Arms.sumTask 2 → ∀ i : Fin X.t, X.f i = 2 := by rintro _ rfl i; rfl
  exact key _ hYT

/-- two commands that are followed, 2 and -1, and a quarter of the way from the first to the second -/
example (cod : (W : Matrix (Fin (6 + 2)) (Fin (6 + 2)) ℝ) → CodNull W) {solve : Solver} (he : solve.Exact) (hcomp : solve.Complete) :
    ∃ S N Y Z τt τc rs τt' τc' rs' τt'' τc'' rs'', Y.toTaskIn = Arms.sumTask 2 ∧ Z = withCommand Y (fun _ => -1) ∧
      (taskControlQPRec (Arms.robot S N fun _ => 1) solve [(Y, .fresh _)] = (.ret 1 τt τc, rs) ∧ AllFollowed rs) ∧
      (taskControlQPRec (Arms.robot S N fun _ => 1) solve [(Z, .fresh _)] = (.ret 1 τt' τc', rs') ∧ AllFollowed rs') ∧
      taskControlQPRec (Arms.robot S N fun _ => 1) solve [(blended (1 / 4) ⟨Y, fun _ => -1⟩, .fresh _)] = (.ret 1 τt'' τc'', rs'') ∧
      ∀ q q' q'' F F' F'', Motion (Arms.A 2) (Arms.J 2) (Arms.G 2) ((Arms.robot S N fun _ => 1).τg + τt + τc) q F →
        Motion (Arms.A 2) (Arms.J 2) (Arms.G 2) ((Arms.robot S N fun _ => 1).τg + τt' + τc') q' F' →
        Motion (Arms.A 2) (Arms.J 2) (Arms.G 2) ((Arms.robot S N fun _ => 1).τg + τt'' + τc'') q'' F'' → q'' = q + (1 / 4 : ℝ) • (q' - q) := by
  obtain ⟨S, k, V2, N, hS, hR⟩ := Arms.space (m := 2) cod
  obtain ⟨Y, hY⟩ := Option.isSome_iff_exists.mp ((C06_finite_iff (Arms.hA 2) hS (Arms.sumTask 2)).mpr (Arms.sumTask_finite 2))
  have hYT : Y.toTaskIn = Arms.sumTask 2 := by rw [((jkt_eq_some hS).mp hY).2]
  have hZ : calculateJKT S (Arms.A 2)⁻¹ (Arms.sumTask (2 * (-1 / 2))) = some (withCommand Y fun _ => -1) := by
    have h1 := jkt_withCommand (T := Y) (hYT ▸ hY) fun _ => (-1 : ℝ)
    have key : ∀ X : TaskReady (Fin (6 + 2)), X.toTaskIn = Arms.sumTask 2 →
        (withCommand X fun _ => -1).toTaskIn = Arms.sumTask (2 * (-1 / 2)) := by
      intro X hX
      have : (withCommand X fun _ => -1).toTaskIn = { X.toTaskIn with f := fun _ => -1 } := rfl
      rw [this, hX]
      have e : (2 * (-1 / 2) : ℝ) = -1 := by norm_num
      rw [e]
      rfl
    rw [← key Y hYT]
    exact h1
  have hm : MovesNothing (Arms.A 2) (Arms.J 2) (Arms.G 2) 0 :=
    (movesNothing_iff (Arms.hA 2) (by norm_num) cod hS hR 0).mpr ⟨0, (mulVec_zero _).symm⟩
  have hsound : solve.Sound := fun i t k d x hx => (he i t k d x hx).1
  have hst := Arms.stand_safe (N := N) hS (L := fun _ => 1) fun _ => by norm_num
  obtain ⟨τt, τc, h⟩ := C60_never_fails (Arms.hA 2) (R := Arms.robot S N fun _ => 1) hS rfl Stand.six Stand.plane Stand.dof (by norm_num) cod
    hR hsound hcomp hm hst [Y]
  obtain ⟨τt', τc', h'⟩ := C60_never_fails (Arms.hA 2) (R := Arms.robot S N fun _ => 1) hS rfl Stand.six Stand.plane Stand.dof (by norm_num) cod
    hR hsound hcomp hm hst [withCommand Y fun _ => -1]
  obtain ⟨rs, hrs⟩ := records_of _ h
  obtain ⟨rs', hrs'⟩ := records_of _ h'
  have hf := (Arms.sum_met hS cod hR (s := 1) (L := fun _ => 1) (fun _ => by norm_num) (by norm_num) (by norm_num) he
    (by rw [mul_one]; exact hY) hrs).1
  have hf' := (Arms.sum_met hS cod hR (s := -1 / 2) (L := fun _ => 1) (fun _ => by norm_num) (by rw [abs_le]; norm_num)
    (by rw [abs_le]; norm_num) he hZ hrs').1
  obtain ⟨τt'', τc'', rs'', k1, k2⟩ := C96_motion (R := Arms.robot S N fun _ => 1) (G := Arms.G 2) (Arms.hA 2) (by norm_num) cod hS hR hsound hsound
    he hcomp (s := 1 / 4) (by norm_num) (by norm_num) [⟨Y, fun _ => -1⟩] _ _ [(blended (1 / 4) ⟨Y, fun _ => -1⟩, .fresh _)] rfl rfl rfl hrs hf hrs' hf'
  exact ⟨S, N, Y, _, τt, τc, rs, τt', τc', rs', τt'', τc'', rs'', hYT, rfl, ⟨hrs, hf⟩, ⟨hrs', hf'⟩, k1, k2⟩

/-- arms with limit 1 and with limit 10, asked to accelerate together by 2 -/
example (cod : (W : Matrix (Fin (6 + 2)) (Fin (6 + 2)) ℝ) → CodNull W) {solve : Solver} (he : solve.Exact) (hcomp : solve.Complete) :
    ∃ S N Y τt τc τc', Y.toTaskIn = Arms.sumTask 2 ∧
      calcTaskControlTorqueQP ((Arms.robot S N fun j => if 6 ≤ j.val then 1 else 5).loosened
        (some fun j => if 6 ≤ j.val then 10 else 5) Stand.cs) solve [Y] = .ret 1 τt τc' ∧
      calcTaskControlTorqueQP (Arms.robot S N fun j => if 6 ≤ j.val then 1 else 5) solve [Y] = .ret 1 τt τc := by
  obtain ⟨S, k, V2, N, hS, hR⟩ := Arms.space (m := 2) cod
  obtain ⟨Y, hY⟩ := Option.isSome_iff_exists.mp ((C06_finite_iff (Arms.hA 2) hS (Arms.sumTask 2)).mpr (Arms.sumTask_finite 2))
  have hYT : Y.toTaskIn = Arms.sumTask 2 := by rw [((jkt_eq_some hS).mp hY).2]
  have hm : MovesNothing (Arms.A 2) (Arms.J 2) (Arms.G 2) 0 :=
    (movesNothing_iff (Arms.hA 2) (by norm_num) cod hS hR 0).mpr ⟨0, (mulVec_zero _).symm⟩
  have hsound : solve.Sound := fun i t k d x hx => (he i t k d x hx).1
  let L' : Fin (6 + 2) → ℝ := fun j => if 6 ≤ j.val then 10 else 5
  have hL' : L' = fun j => if 6 ≤ j.val then 10 else 5 := rfl
  have hpos : ∀ j, 0 ≤ L' j := fun j => by rw [hL']; dsimp only; split_ifs <;> norm_num
  have hst := Arms.stand_safe (N := N) hS (L := L') hpos
  obtain ⟨τt, τc, h⟩ := C60_never_fails (Arms.hA 2) (R := Arms.robot S N L') hS rfl Stand.six Stand.plane Stand.dof (by norm_num) cod
    hR hsound hcomp hm hst [Y]
  obtain ⟨τc', h', -⟩ := C95_unused_room (R := Arms.robot S N fun j => if 6 ≤ j.val then 1 else 5) (limit' := some L') (cs' := Stand.cs)
    (Arms.hA 2) cod hS hR rfl Stand.six Stand.plane Stand.dof (by norm_num)
    (fun L'' e => ⟨_, rfl, fun j => by
      obtain rfl := Option.some.inj e
      rw [hL']
      dsimp only
      split_ifs <;> norm_num⟩)
    (List.forall₂_same.mpr fun l _ => ContactLe.refl l) he hcomp he (ts := [Y]) (by
      intro j h1 h2 τ τ' hτ
      obtain rfl : j = 1 := by simp at h2; omega
      have hτ' : calcTaskControlTorqueQP (Arms.robot S N L') solve [Y] = .ret 1 τ τ' := hτ
      obtain ⟨rs, hrs⟩ := records_of _ hτ'
      have hmet := (Arms.sum_met hS cod hR (s := 1) (L := L') hpos (by rw [hL']; norm_num) (by rw [hL']; norm_num) he
        (by rw [mul_one]; exact hY) hrs).2
      have hl := C08_torque_limit (Arms.robot S N L') hsound (by simp) rfl hτ'
      refine ⟨fun L e j => ?_, fun qdd F hM =>
        C09_contacts_hold (G := Arms.G 2) (Arms.hA 2) (Arms.robot S N L') hS rfl Stand.six Stand.plane Stand.dof hsound (by simp) hτ' hM⟩
      obtain rfl := Option.some.inj e
      obtain ⟨qdd, hM⟩ := (C01_contact_force_exact (Arms.hA 2) hS (Arms.G 2) ((Arms.robot S N L').τg + τ + τ')).1
      obtain ⟨h6, h7⟩ := hmet _ _ hM
      dsimp only
      split_ifs with hj
      · have ha := Arms.arm_follows hM hj
        have hj' : j = 6 ∨ j = 7 := by
          have := j.isLt
          rcases Nat.lt_or_ge j.val 7 with h | h
          · exact Or.inl (Fin.ext (by change j.val = 6; omega))
          · exact Or.inr (Fin.ext (by change j.val = 7; omega))
        change |((Arms.robot S N L').τg + τ + τ') j| ≤ 1
        rw [← ha]
        rcases hj' with rfl | rfl
        · rw [h6]; norm_num
        · rw [h7]; norm_num
      · refine (hl j).trans ?_
        rw [hL']
        simp [hj]) h
  exact ⟨S, N, Y, τt, τc', τc, hYT, h, h'⟩

end Verif.Props
