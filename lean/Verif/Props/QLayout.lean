import Verif.Lemmas.QLayout

/-!
# C72: the configuration vector after modifications
-/

set_option linter.unusedSectionVars false

namespace Verif.Props
open Verif Verif.Spec Verif.Model

variable {m m' : QModel} {d : ℕ} {j : QJoint}

/-- C72, what holds.  Whatever bodies are added and whatever joints of one degree of freedom are deleted, in whatever order, the
bookkeeping stays defined, every place of the configuration vector belongs to exactly one joint, the joints come in the order of
the bodies, and the sizes fit.  Missing: deleting a spherical joint, that is a floating base (`C72_delete_base_undefined`,
`C72_delete_spherical_wrong`). -/
theorem C72_layout_partial (ops : List QOp) (h : DeletesSingles .empty ops) :
    ∃ m, QModel.empty.run ops = some m ∧ LayoutOk m := by
  obtain ⟨m, hm, hi⟩ := run_inv ops _ qinv_empty h
  exact ⟨m, hm, layout_of_inv hi⟩

/-- C72, what a caller has to do with a configuration when a joint is deleted: take its entries out.  Every other joint then reads
from the shortened vector what it read before. -/
theorem C72_delete_config_partial (ops : List QOp) (h : DeletesSingles .empty ops) (hm : QModel.empty.run ops = some m)
    (hj : m.joints[d]? = some j) (hs : j.isSph = false) (hd : m.deleteBody d = some m') (c : ℕ → ℝ) (s : QSlot) (n : ℕ)
    (hr : ReadsAt m s n) (hne : s.joint ≠ d) : ∃ n', ReadsAt m' (s.lower d) n' ∧ cutConfig j.q j.dof c n' = c n := by
  obtain ⟨m1, hm1, hi⟩ := run_inv ops _ qinv_empty h
  rw [hm] at hm1
  obtain rfl := Option.some.inj hm1
  have hok := layout_of_inv hi
  have hi' := deleteBody_inv hi hj hs hd
  obtain ⟨j', lq, hj', hl, hm'⟩ := deleteBody_some hd
  rw [hj] at hj'
  obtain rfl := Option.some.inj hj'
  have hjd : (m.joints.map (·.dof))[d]? = some j.dof := by rw [List.getElem?_map, hj]; rfl
  have hjS := take_sum_succ hjd
  have hjle := take_sum_le (m.joints.map (·.dof)) (d + 1)
  have hjq := hi.q d j hj
  have hdof := hi.dof
  cases s with
  | coord i k =>
    obtain ⟨a, ha, hk, rfl⟩ := hr
    have hid : i ≠ d := hne
    have hget := deleteBody_get hj hd (lower d i)
    rw [raise_lower hid, ha] at hget
    refine ⟨(if j.q < a.q then a.q - j.dof else a.q) + k, ⟨_, hget, hk, rfl⟩, ?_⟩
    unfold cutConfig
    have hpos : 0 < a.dof := by omega
    rcases lt_or_gt_of_ne hid with hlt | hgt
    · have := hok.ordered i d a j ha hj hlt
      rw [if_neg (show ¬ j.q < a.q by omega), if_pos (by omega)]
    · have := hok.ordered d i j a hj ha hgt
      by_cases h0 : j.q < a.q
      · rw [if_pos h0, if_neg (by omega)]
        congr 1
        omega
      · rw [if_neg h0, if_neg (by omega)]
        congr 1
        omega
  | fourth i =>
    obtain ⟨a, ha, hsa, rfl⟩ := hr
    have hid : i ≠ d := hne
    have hget := deleteBody_get hj hd (lower d i)
    rw [raise_lower hid, ha] at hget
    refine ⟨_, ⟨_, hget, hsa, rfl⟩, ?_⟩
    simp only [hsa, if_true]
    have hw := hi.w i a ha hsa
    rw [sphCount_eq, List.map_take]
    unfold cutConfig
    rw [if_neg (by omega)]
    congr 1
    omega

/-- C72, negation.  Deleting a spherical joint, where that is defined at all, leaves a configuration vector that is one longer than
what the joints read. -/
theorem C72_delete_spherical_wrong {ops : List QOp} (hm : QModel.empty.run ops = some m) (hj : m.joints[d]? = some j)
    (hs : j.isSph = true) (hd : m.deleteBody d = some m') :
    m'.qSize = m'.dofCount + sphCount m'.joints + 1 ∧ ¬ LayoutOk m' := by
  have hb := run_base ops _ _ qinv_empty.toQBase hm
  have hb' := deleteBody_base hb hd
  obtain ⟨j', lq, hj', hl, hm'⟩ := deleteBody_some hd
  rw [hj] at hj'
  obtain rfl := Option.some.inj hj'
  obtain ⟨-, e1⟩ := deleteBody_maps hd
  have hflag : (m.joints.map sphFlag)[d]? = some 1 := by rw [List.getElem?_map, hj]; simp [sphFlag, hs]
  have e2 := eraseIdx_sum hflag
  have hn : m'.dofCount = m.dofCount - j.dof := by rw [hm']
  have hq : m'.qSize = m.dofCount - j.dof + sphCount m.joints := by rw [hm']
  have hcount : m'.qSize = m'.dofCount + sphCount m'.joints + 1 := by
    rw [hq, hn, sphCount_eq, sphCount_eq, e1]; omega
  refine ⟨hcount, fun hok => ?_⟩
  have hw : ∀ i n, ReadsAt m' (.fourth i) n → (i < d → n = m'.dofCount + ((m'.joints.map sphFlag).take i).sum) ∧
      (d ≤ i → n = m'.dofCount + ((m'.joints.map sphFlag).take i).sum + 1) := by
    rintro i n ⟨k, hk, hks, rfl⟩
    rw [deleteBody_get hj hd] at hk
    obtain ⟨k0, h0, rfl⟩ := Option.map_eq_some_iff.mp hk
    have hk0 : k0.isSph = true := hks
    simp only [hk0, if_true]
    have e3 := eraseIdx_take_sum hflag i
    rw [e1, hn, sphCount_eq, List.map_take]
    rcases raise_cases d i with ⟨hi, hr⟩ | ⟨hi, hr⟩
    · rw [hr] at e3 ⊢
      rw [if_neg (by omega)] at e3
      exact ⟨fun _ => by omega, fun _ => by omega⟩
    · rw [hr] at e3 ⊢
      rw [if_pos (by omega)] at e3
      exact ⟨fun _ => by omega, fun _ => by omega⟩
  -- nobody reads the place of the deleted fourth coordinate
  have hplace : m'.dofCount + ((m'.joints.map sphFlag).take d).sum < m'.qSize := by
    have := take_sum_le (m'.joints.map sphFlag) d
    rw [hcount, sphCount_eq]
    omega
  obtain ⟨s, hs', -⟩ := hok.once _ hplace
  cases s with
  | coord i k =>
    have := hok.coord_lt i k _ hs'
    rw [hok.qdot] at this
    omega
  | fourth i =>
    obtain ⟨h1, h2⟩ := hw i _ hs'
    obtain ⟨k, hk, hks, -⟩ := hs'
    have hf : (m'.joints.map sphFlag)[i]? = some 1 := by rw [List.getElem?_map, hk]; simp [sphFlag, hks]
    have e4 := take_sum_succ hf
    rcases lt_or_ge i d with hi | hi
    · have := take_sum_mono (m'.joints.map sphFlag) (i := i + 1) (k := d) hi
      have := h1 hi
      omega
    · have := take_sum_mono (m'.joints.map sphFlag) (i := d) (k := i) hi
      have := h2 hi
      omega

/-- C72: the next body that is added puts the sizes and the fourth coordinates right again, whatever was deleted before. -/
theorem C72_add_repairs {ops : List QOp} (hm : QModel.empty.run ops = some m) (kind dof : ℕ) : LayoutOk (m.addBody kind dof) :=
  layout_of_inv (addBody_inv (run_base ops _ _ qinv_empty.toQBase hm) kind dof)

/-- C72, negation.  Deleting the base of a floating-base robot (its other links are deleted first) erases behind the end of
`lambda_q`. -/
theorem C72_delete_base_undefined {ops : List QOp} (hm : QModel.empty.run ops = some m)
    (hdofs : m.joints.map (·.dof) = [3, 3]) : m.deleteBody 1 = none := by
  have hb := run_base ops _ _ qinv_empty.toQBase hm
  have hlam := hb.lam
  rw [hb.dof, hdofs] at hlam
  have hlam7 : m.lambdaQ.length = 7 := by rw [hlam]; rfl
  obtain ⟨j, hj, hjd⟩ : ∃ j, m.joints[1]? = some j ∧ j.dof = 3 := by
    have : (m.joints.map (·.dof))[1]? = some 3 := by rw [hdofs]; rfl
    rw [List.getElem?_map] at this
    exact Option.map_eq_some_iff.mp this
  have hq := hb.q 1 j hj
  rw [hdofs] at hq
  have hq3 : j.q = 3 := by rw [hq]; rfl
  unfold QModel.deleteBody
  rw [hj]
  have : eraseLambda j.q 0 j.dof m.lambdaQ = none := by
    rw [hq3, hjd]
    simp only [eraseLambda, List.length_eraseIdx, hlam7]
    norm_num
  simp only [this]

/-- With no deletions, `lambda_q` names the degree of freedom before (counting from one, 0 for none). -/
theorem lambda_adds : ∀ (ks : List (ℕ × ℕ)) (m : QModel), QBase m → (∀ k ≤ m.dofCount, m.lambdaQ[k]? = some (k - 1)) →
    ∀ m', m.run (ks.map fun k => .add k.1 k.2) = some m' → ∀ k ≤ m'.dofCount, m'.lambdaQ[k]? = some (k - 1)
  | [], _, _, h, m', hr => by cases hr; exact h
  | e :: ks, m, hb, h, m', hr => by
    refine lambda_adds ks (m.addBody e.1 e.2) (addBody_inv hb _ _).toQBase ?_ m' hr
    intro k hk
    have hq := next_q hb
    have hk' : k ≤ m.dofCount + e.2 := hk
    show (m.lambdaQ ++ (List.range e.2).map _)[k]? = _
    by_cases hlt : k ≤ m.dofCount
    · rw [List.getElem?_append_left (by rw [hb.lam]; omega)]
      exact h k hlt
    · rw [List.getElem?_append_right (by rw [hb.lam]; omega), hb.lam, List.getElem?_map, List.getElem?_range (by omega)]
      refine congrArg some ((congrArg (· + (k - (m.dofCount + 1))) hq).trans ?_)
      omega

/-- C72, negation.  In a loaded robot, `lambda_q` gives every degree of freedom one that comes before it.  After deleting any
joint of one degree of freedom that is not the first, the entry at its place points to itself, so that a loop which follows
`lambda_q` up to 0, as RBDL's sparse factorisation does, never ends. -/
theorem C72_lambda_loop {ks : List (ℕ × ℕ)} (hm : QModel.empty.run (ks.map fun k => .add k.1 k.2) = some m)
    (hj : m.joints[d]? = some j) (h1 : j.dof = 1) (hq : 0 < j.q) (hd : m.deleteBody d = some m') :
    (∀ k, 0 < k → k ≤ m.dofCount → ∃ v, m.lambdaQ[k]? = some v ∧ v < k) ∧ m'.lambdaQ[j.q]? = some j.q := by
  have hb := run_base _ _ _ qinv_empty.toQBase hm
  have hl := lambda_adds ks _ qinv_empty.toQBase (by
    intro k hk
    have : k = 0 := by simpa [QModel.empty] using hk
    subst this
    rfl) m hm
  refine ⟨fun k hk hk' => ⟨k - 1, hl k hk', by omega⟩, ?_⟩
  obtain ⟨j', lq, hj', hlq, hm'⟩ := deleteBody_some hd
  rw [hj] at hj'
  obtain rfl := Option.some.inj hj'
  have hjd : (m.joints.map (·.dof))[d]? = some j.dof := by rw [List.getElem?_map, hj]; rfl
  have e1 := take_sum_succ hjd
  have e2 := take_sum_le (m.joints.map (·.dof)) (d + 1)
  have hjq := hb.q d j hj
  have hdof := hb.dof
  have hlq' : lq = m.lambdaQ.eraseIdx j.q := by
    rw [h1] at hlq
    simp only [eraseLambda, add_zero] at hlq
    split_ifs at hlq
    exact (Option.some.inj hlq).symm
  rw [hm']
  simp only
  rw [List.getElem?_map, hlq', List.getElem?_eraseIdx, if_neg (by omega), hl (j.q + 1) (by omega)]
  simp

/-- C72: every joint of the model is updated exactly once, whatever the types are. -/
theorem C72_every_joint_updated (m : QModel) (rootKind : ℕ) : (m.order rootKind).Perm (List.range (m.joints.length + 1)) := by
  unfold QModel.order
  refine (updateOrder_perm _ _ le_rfl).trans ?_
  rw [List.zipIdx_map_snd]
  simp [List.range_eq_range']

/-! ## A floating-base robot with an arm of two joints and a leg -/

/-- Translation, base, two arm joints, a leg joint. -/
def exQ : List (ℕ × ℕ) := [(11, 3), (spherical, 3), (1, 1), (2, 1), (1, 1)]

/-- The hypotheses of `C72_layout_partial`: the second arm joint is deleted and a joint added. -/
example : DeletesSingles .empty (exQ.map (fun k => .add k.1 k.2) ++ [.delete 3, .add 1 1, .delete 2]) := by
  simp only [exQ, List.map_cons, List.map_nil, List.cons_append, List.nil_append, DeletesSingles]
  refine ⟨⟨_, rfl, rfl, rfl⟩, fun m' h => ?_⟩
  obtain rfl := Option.some.inj h
  exact ⟨⟨_, rfl, rfl, rfl⟩, fun _ _ => trivial⟩

/-- The hypotheses of `C72_lambda_loop` and the effect. -/
example : ∃ m m', QModel.empty.run (exQ.map fun k => .add k.1 k.2) = some m ∧ m.deleteBody 3 = some m' ∧
    m.lambdaQ = [0, 0, 1, 2, 3, 4, 5, 6, 7, 8] ∧ m'.lambdaQ = [0, 0, 1, 2, 3, 4, 5, 7, 7] := ⟨_, _, rfl, rfl, rfl, rfl⟩

/-- The hypotheses of `C72_delete_base_undefined`. -/
example : ∃ m, QModel.empty.run [.add 11 3, .add spherical 3, .add 1 1, .delete 2] = some m ∧ m.joints.map (·.dof) = [3, 3] :=
  ⟨_, rfl, rfl⟩

/-- The hypotheses of `C72_delete_spherical_wrong`: the base deleted from RBDL's tables while a joint is left. -/
example : ∃ m m', QModel.empty.run (exQ.map fun k => .add k.1 k.2) = some m ∧ m.deleteBody 1 = some m' ∧ m'.qSize = 7 ∧
    m'.dofCount = 6 := ⟨_, _, rfl, rfl, rfl, rfl⟩

end Verif.Props
