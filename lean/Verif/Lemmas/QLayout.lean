import Verif.Spec.QLayout

/-!
# Helper lemmas for C72
-/

set_option linter.unusedSectionVars false

namespace Verif
open Spec Model

theorem take_sum_succ {l : List ℕ} {i : ℕ} {x : ℕ} (h : l[i]? = some x) : (l.take (i + 1)).sum = (l.take i).sum + x := by
  obtain ⟨hi, rfl⟩ := List.getElem?_eq_some_iff.mp h
  rw [List.take_succ_eq_append_getElem hi, List.sum_append]
  simp

theorem take_sum_mono (l : List ℕ) {i k : ℕ} (h : i ≤ k) : (l.take i).sum ≤ (l.take k).sum := by
  induction l generalizing i k with
  | nil => simp
  | cons a l ih =>
    cases i with
    | zero => simp
    | succ i =>
      obtain ⟨k, rfl⟩ : ∃ k', k = k' + 1 := ⟨k - 1, by omega⟩
      simp only [List.take_succ_cons, List.sum_cons]
      have := ih (i := i) (k := k) (by omega)
      omega

theorem take_sum_le (l : List ℕ) (i : ℕ) : (l.take i).sum ≤ l.sum := by
  have := take_sum_mono l (i := i) (k := max i l.length) (by omega)
  rwa [List.take_of_length_le (by omega : l.length ≤ max i l.length)] at this

/-- every place below the sum lies in one stretch -/
theorem prefix_exists (l : List ℕ) : ∀ n < l.sum, ∃ i k x, l[i]? = some x ∧ k < x ∧ n = (l.take i).sum + k := by
  induction l with
  | nil => intro n h; simp at h
  | cons a l ih =>
    intro n h
    by_cases ha : n < a
    · exact ⟨0, n, a, rfl, ha, by simp⟩
    · rw [List.sum_cons] at h
      obtain ⟨i, k, x, h1, h2, h3⟩ := ih (n - a) (by omega)
      exact ⟨i + 1, k, x, h1, h2, by rw [List.take_succ_cons, List.sum_cons]; omega⟩

theorem prefix_unique {l : List ℕ} {i i' k k' x x' : ℕ} (h : l[i]? = some x) (h' : l[i']? = some x') (hk : k < x) (hk' : k' < x')
    (he : (l.take i).sum + k = (l.take i').sum + k') : i = i' ∧ k = k' := by
  have e1 := take_sum_succ h
  have e2 := take_sum_succ h'
  rcases lt_trichotomy i i' with hlt | heq | hgt
  · have := take_sum_mono l (i := i + 1) (k := i') hlt
    omega
  · subst heq
    exact ⟨rfl, by omega⟩
  · have := take_sum_mono l (i := i' + 1) (k := i) hgt
    omega

theorem eraseIdx_take_sum {l : List ℕ} {d x : ℕ} (h : l[d]? = some x) (i : ℕ) :
    ((l.eraseIdx d).take i).sum + (if d < raise d i then x else 0) = (l.take (raise d i)).sum := by
  induction l generalizing d i with
  | nil => simp at h
  | cons a l ih =>
    cases d with
    | zero =>
      simp only [List.getElem?_cons_zero, Option.some.injEq] at h
      subst h
      have : raise 0 i = i + 1 := by unfold raise; rw [if_neg (by omega)]
      rw [this, if_pos (by omega)]
      simp only [List.eraseIdx_cons_zero, List.take_succ_cons, List.sum_cons]
      omega
    | succ d =>
      cases i with
      | zero =>
        have : raise (d + 1) 0 = 0 := by unfold raise; rw [if_pos (by omega)]
        rw [this, if_neg (by omega)]
        simp
      | succ i =>
        have hr : raise (d + 1) (i + 1) = raise d i + 1 := by unfold raise; split_ifs <;> omega
        have := ih (d := d) (by simpa using h) i
        rw [hr]
        simp only [List.eraseIdx_cons_succ, List.take_succ_cons, List.sum_cons]
        rw [← this]
        by_cases hd : d < raise d i
        · rw [if_pos hd, if_pos (by omega)]; omega
        · rw [if_neg hd, if_neg (by omega)]; omega

theorem eraseIdx_sum {l : List ℕ} {d x : ℕ} (h : l[d]? = some x) : (l.eraseIdx d).sum + x = l.sum := by
  induction l generalizing d with
  | nil => simp at h
  | cons a l ih =>
    cases d with
    | zero => simp only [List.getElem?_cons_zero, Option.some.injEq] at h; subst h; simp; omega
    | succ d =>
      have := ih (d := d) (by simpa using h)
      simp only [List.eraseIdx_cons_succ, List.sum_cons]
      omega

/-- 1 for a spherical joint, 0 for others. -/
def sphFlag (j : QJoint) : ℕ := if j.isSph then 1 else 0

theorem sphCount_eq (js : List QJoint) : sphCount js = (js.map sphFlag).sum := by
  induction js with
  | nil => rfl
  | cons j js ih =>
    unfold sphCount at ih ⊢
    rw [List.countP_cons, List.map_cons, List.sum_cons, ih, sphFlag]
    omega

theorem assignW_get (js : List QJoint) (k i : ℕ) : (assignW k js)[i]? =
    (js[i]?).map fun j => if j.isSph then { j with w := k + sphCount (js.take i) } else j := by
  induction js generalizing k i with
  | nil => simp [assignW]
  | cons j js ih =>
    cases i with
    | zero =>
      unfold assignW
      split_ifs with h <;> simp [h, sphCount]
    | succ i =>
      unfold assignW
      split_ifs with h
      · simp only [List.getElem?_cons_succ, ih, List.take_succ_cons]
        congr 1
        funext x
        simp only [sphCount, List.countP_cons, h, if_true]
        congr 2
        omega
      · simp only [List.getElem?_cons_succ, ih, List.take_succ_cons]
        congr 1
        funext x
        simp only [sphCount, List.countP_cons, h]
        simp

theorem assignW_map {β : Type*} (f : QJoint → β) (hf : ∀ j w, f { j with w := w } = f j) (js : List QJoint) (k : ℕ) :
    (assignW k js).map f = js.map f := by
  induction js generalizing k with
  | nil => rfl
  | cons j js ih =>
    unfold assignW
    split_ifs <;> simp [ih, hf]

/-- What holds of every model, whatever was deleted, except the places of the fourth coordinates. -/
structure QBase (m : QModel) : Prop where
  q : ∀ (i : ℕ) (j : QJoint), m.joints[i]? = some j → j.q = ((m.joints.map (·.dof)).take i).sum
  dof : m.dofCount = (m.joints.map (·.dof)).sum
  qdot : m.qdotSize = m.dofCount
  lam : m.lambdaQ.length = m.dofCount + 1

/-- ... and with them. -/
structure QInv (m : QModel) : Prop extends QBase m where
  w : ∀ (i : ℕ) (j : QJoint), m.joints[i]? = some j → j.isSph = true → j.w = m.dofCount + ((m.joints.map sphFlag).take i).sum
  qSize : m.qSize = m.dofCount + (m.joints.map sphFlag).sum

theorem qinv_empty : QInv QModel.empty := by
  constructor
  · constructor <;> simp [QModel.empty]
  · simp [QModel.empty]
  · simp [QModel.empty]

theorem next_q {m : QModel} (h : QBase m) :
    (match m.joints.getLast? with | none => 0 | some j => j.q + j.dof) = m.dofCount := by
  rw [h.dof]
  rcases hl : m.joints.getLast? with _ | j
  · rw [List.getLast?_eq_none_iff] at hl
    simp [hl]
  · rw [List.getLast?_eq_getElem?] at hl
    have hlen := (List.getElem?_eq_some_iff.mp hl).1
    have hd : (m.joints.map (·.dof))[m.joints.length - 1]? = some j.dof := by rw [List.getElem?_map, hl]; rfl
    have := take_sum_succ hd
    rw [List.take_of_length_le (by simp; omega)] at this
    simp only
    rw [h.q _ _ hl, this]

theorem addBody_inv {m : QModel} (h : QBase m) (kind dof : ℕ) : QInv (m.addBody kind dof) := by
  have hq := next_q h
  set q := (match m.joints.getLast? with | none => 0 | some j => j.q + j.dof) with hqdef
  have hjoints : (m.addBody kind dof).joints = assignW (m.dofCount + dof) (m.joints ++ [⟨kind, dof, q, 0⟩]) := rfl
  have hdofs : ((m.addBody kind dof).joints.map (·.dof)) = m.joints.map (·.dof) ++ [dof] := by
    rw [hjoints, assignW_map _ (fun _ _ => rfl)]; simp
  have hsph : ((m.addBody kind dof).joints.map sphFlag) = (m.joints ++ [QJoint.mk kind dof q 0]).map sphFlag := by
    rw [hjoints, assignW_map _ (fun _ _ => rfl)]
  refine ⟨⟨?_, ?_, ?_, ?_⟩, ?_, ?_⟩
  · intro i j hj
    rw [hjoints, assignW_get] at hj
    obtain ⟨j0, h0, rfl⟩ := Option.map_eq_some_iff.mp hj
    rw [hdofs]
    have e : (if j0.isSph = true then { j0 with w := m.dofCount + dof + sphCount ((m.joints ++ [QJoint.mk kind dof q 0]).take i) } else j0).q = j0.q := by
      split_ifs <;> rfl
    rw [e]
    by_cases hi : i < m.joints.length
    · rw [List.getElem?_append_left hi] at h0
      rw [List.take_append_of_le_length (by simp; omega), h.q i j0 h0]
    · rw [List.getElem?_append_right (by omega)] at h0
      have hi' : i - m.joints.length = 0 := by
        by_contra hne
        rw [List.getElem?_eq_none (by simp; omega)] at h0
        cases h0
      rw [hi'] at h0
      obtain rfl := Option.some.inj h0
      have hi2 : i = (m.joints.map (·.dof)).length := by simp; omega
      rw [hi2, List.take_left]
      simp only
      rw [hq, h.dof]
  · rw [hdofs]; show m.dofCount + dof = _; rw [h.dof]; simp
  · show m.qdotSize + dof = m.dofCount + dof; rw [h.qdot]
  · show (m.lambdaQ ++ _).length = m.dofCount + dof + 1
    rw [List.length_append, h.lam]; simp; omega
  · intro i j hj hs
    rw [hjoints, assignW_get] at hj
    obtain ⟨j0, h0, rfl⟩ := Option.map_eq_some_iff.mp hj
    have hs0 : j0.isSph = true := by
      by_contra hn
      rw [if_neg hn] at hs
      exact hn hs
    rw [if_pos hs0, hsph, ← List.map_take, ← sphCount_eq]
    rfl
  · show m.dofCount + dof + sphCount (m.joints ++ [QJoint.mk kind dof q 0]) = m.dofCount + dof + _
    rw [hsph, sphCount_eq]

theorem eraseLambda_length {q : ℕ} : ∀ {i n : ℕ} {l l' : List ℕ}, eraseLambda q i n l = some l' → l'.length + n = l.length
  | _, 0, _, _, h => by simp only [eraseLambda, Option.some.injEq] at h; subst h; rfl
  | i, n + 1, l, l', h => by
    unfold eraseLambda at h
    split_ifs at h with hi
    have := eraseLambda_length h
    rw [List.length_eraseIdx, if_pos hi] at this
    omega

theorem deleteBody_some {m m' : QModel} {d : ℕ} (hd : m.deleteBody d = some m') : ∃ j lq, m.joints[d]? = some j ∧
    eraseLambda j.q 0 j.dof m.lambdaQ = some lq ∧
    m' = { joints := ((assignW (m.dofCount - j.dof) m.joints).map fun k =>
             { k with q := if j.q < k.q then k.q - j.dof else k.q }).eraseIdx d
           dofCount := m.dofCount - j.dof, qSize := m.dofCount - j.dof + sphCount m.joints
           qdotSize := m.qdotSize - j.dof, lambdaQ := lq.map fun v => if j.q < v then v - j.dof else v } := by
  unfold QModel.deleteBody at hd
  rcases hj : m.joints[d]? with _ | j
  · rw [hj] at hd; cases hd
  rw [hj] at hd
  simp only at hd
  rcases hl : eraseLambda j.q 0 j.dof m.lambdaQ with _ | lq
  · rw [hl] at hd; cases hd
  rw [hl] at hd
  exact ⟨j, lq, rfl, hl, (Option.some.inj hd).symm⟩

theorem map_eraseIdx' {α β : Type*} (f : α → β) (l : List α) (d : ℕ) : (l.eraseIdx d).map f = (l.map f).eraseIdx d := by
  induction l generalizing d with
  | nil => rfl
  | cons a l ih => cases d <;> simp [ih]

/-- The joints after deleting, one by one. -/
theorem deleteBody_get {m m' : QModel} {d : ℕ} {j : QJoint} (hj : m.joints[d]? = some j) (hd : m.deleteBody d = some m') (i : ℕ) :
    m'.joints[i]? = (m.joints[raise d i]?).map fun k =>
      { k with q := if j.q < k.q then k.q - j.dof else k.q
               w := if k.isSph then m.dofCount - j.dof + sphCount (m.joints.take (raise d i)) else k.w } := by
  obtain ⟨j', lq, hj', -, rfl⟩ := deleteBody_some hd
  rw [hj] at hj'
  obtain rfl := Option.some.inj hj'
  simp only
  rw [getElem?_eraseIdx_raise, List.getElem?_map, assignW_get, Option.map_map]
  congr 1
  funext k
  simp only [Function.comp]
  split_ifs <;> rfl

theorem deleteBody_maps {m m' : QModel} {d : ℕ} (hd : m.deleteBody d = some m') :
    m'.joints.map (·.dof) = (m.joints.map (·.dof)).eraseIdx d ∧ m'.joints.map sphFlag = (m.joints.map sphFlag).eraseIdx d := by
  obtain ⟨j, lq, -, -, rfl⟩ := deleteBody_some hd
  simp only
  constructor
  · rw [map_eraseIdx', List.map_map]
    congr 1
    exact assignW_map _ (fun _ _ => rfl) _ _
  · rw [map_eraseIdx', List.map_map]
    congr 1
    exact assignW_map _ (fun _ _ => rfl) _ _

theorem raise_cases (d i : ℕ) : i < d ∧ raise d i = i ∨ d ≤ i ∧ raise d i = i + 1 := by
  unfold raise; split_ifs with h
  · exact .inl ⟨h, rfl⟩
  · exact .inr ⟨by omega, rfl⟩

theorem deleteBody_base {m m' : QModel} {d : ℕ} (h : QBase m) (hd : m.deleteBody d = some m') : QBase m' := by
  obtain ⟨j, lq, hj, hl, hm'⟩ := deleteBody_some hd
  obtain ⟨e1, -⟩ := deleteBody_maps hd
  have hjd : (m.joints.map (·.dof))[d]? = some j.dof := by rw [List.getElem?_map, hj]; rfl
  have hsum := eraseIdx_sum hjd
  have hn : m'.dofCount = m.dofCount - j.dof := by rw [hm']
  have hS := take_sum_succ hjd
  refine ⟨?_, ?_, ?_, ?_⟩
  · intro i k hk
    rw [deleteBody_get hj hd] at hk
    obtain ⟨k0, h0, rfl⟩ := Option.map_eq_some_iff.mp hk
    simp only
    have e2 := eraseIdx_take_sum hjd i
    rw [e1, h.q _ _ h0, h.q _ _ hj]
    rcases raise_cases d i with ⟨hi, hr⟩ | ⟨hi, hr⟩
    · rw [hr, if_neg (by omega)] at e2
      have := take_sum_mono (m.joints.map (·.dof)) (i := i) (k := d) hi.le
      rw [hr, if_neg (by omega)]
      omega
    · rw [hr, if_pos (by omega)] at e2
      have := take_sum_mono (m.joints.map (·.dof)) (i := d + 1) (k := i + 1) (by omega)
      rw [hr]
      split_ifs <;> omega
  · rw [hn, e1, h.dof]; omega
  · rw [hn]
    have : m'.qdotSize = m.qdotSize - j.dof := by rw [hm']
    rw [this, h.qdot]
  · have hlen := eraseLambda_length hl
    have : m'.lambdaQ.length = lq.length := by rw [hm']; simp
    rw [this, hn]
    have := h.lam
    have := h.dof
    omega

theorem deleteBody_inv {m m' : QModel} {d : ℕ} {j : QJoint} (h : QInv m) (hj : m.joints[d]? = some j) (hs : j.isSph = false)
    (hd : m.deleteBody d = some m') : QInv m' := by
  obtain ⟨j', lq, hj', hl, hm'⟩ := deleteBody_some hd
  rw [hj] at hj'
  obtain rfl := Option.some.inj hj'
  obtain ⟨-, e1⟩ := deleteBody_maps hd
  have hn : m'.dofCount = m.dofCount - j.dof := by rw [hm']
  have hjd : (m.joints.map sphFlag)[d]? = some 0 := by rw [List.getElem?_map, hj]; simp [sphFlag, hs]
  refine ⟨deleteBody_base h.toQBase hd, ?_, ?_⟩
  · intro i k hk hks
    rw [deleteBody_get hj hd] at hk
    obtain ⟨k0, h0, rfl⟩ := Option.map_eq_some_iff.mp hk
    have hk0 : k0.isSph = true := hks
    simp only [hk0, if_true]
    have e2 := eraseIdx_take_sum hjd i
    simp only [ite_self, add_zero] at e2
    rw [e1, e2, hn, sphCount_eq, List.map_take]
  · have e2 := eraseIdx_sum hjd
    have : m'.qSize = m.dofCount - j.dof + sphCount m.joints := by rw [hm']
    rw [this, hn, e1, sphCount_eq]
    omega

theorem layout_of_inv {m : QModel} (h : QInv m) : LayoutOk m := by
  have hdofget : ∀ (i : ℕ) (j : QJoint), m.joints[i]? = some j → (m.joints.map (·.dof))[i]? = some j.dof := by
    intro i j hj; rw [List.getElem?_map, hj]; rfl
  have hflag : ∀ (i : ℕ) (j : QJoint), m.joints[i]? = some j → j.isSph = true → (m.joints.map sphFlag)[i]? = some 1 := by
    intro i j hj hs; rw [List.getElem?_map, hj]; simp [sphFlag, hs]
  have hc : ∀ i k n, ReadsAt m (.coord i k) n → n < m.dofCount := by
    rintro i k n ⟨j, hj, hk, rfl⟩
    have e1 := take_sum_succ (hdofget i j hj)
    have e2 := take_sum_le (m.joints.map (·.dof)) (i + 1)
    rw [h.q i j hj, h.dof]
    omega
  have hw : ∀ i n, ReadsAt m (.fourth i) n → m.dofCount ≤ n ∧ n < m.qSize := by
    rintro i n ⟨j, hj, hs, rfl⟩
    have e1 := take_sum_succ (hflag i j hj hs)
    have e2 := take_sum_le (m.joints.map sphFlag) (i + 1)
    rw [h.w i j hj hs, h.qSize]
    omega
  have hle : m.dofCount ≤ m.qSize := by rw [h.qSize]; omega
  refine ⟨h.dof, h.qdot, ?_, ?_, ?_, ?_, ?_⟩
  · intro s n hr
    cases s with
    | coord i k => exact lt_of_lt_of_le (hc i k n hr) hle
    | fourth i => exact (hw i n hr).2
  · intro n hn
    by_cases hlt : n < m.dofCount
    · obtain ⟨i, k, x, h1, h2, h3⟩ := prefix_exists (m.joints.map (·.dof)) n (by rw [← h.dof]; exact hlt)
      rw [List.getElem?_map] at h1
      obtain ⟨j, hj, rfl⟩ := Option.map_eq_some_iff.mp h1
      refine ⟨.coord i k, ⟨j, hj, h2, by rw [h.q i j hj]; exact h3⟩, ?_⟩
      intro s hs
      cases s with
      | coord i' k' =>
        obtain ⟨j', hj', hk', e⟩ := hs
        rw [h.q i' j' hj'] at e
        obtain ⟨rfl, rfl⟩ := prefix_unique (hdofget i' j' hj') (hdofget i j hj) hk' h2 (by omega)
        rfl
      | fourth i' => have := (hw i' n hs).1; omega
    · obtain ⟨i, k, x, h1, h2, h3⟩ := prefix_exists (m.joints.map sphFlag) (n - m.dofCount) (by have := h.qSize; omega)
      rw [List.getElem?_map] at h1
      obtain ⟨j, hj, rfl⟩ := Option.map_eq_some_iff.mp h1
      have hs : j.isSph = true := by
        by_contra hne
        simp only [sphFlag, hne] at h2
        simp at h2
      have hk : k = 0 := by
        simp only [sphFlag, hs, if_true] at h2
        omega
      refine ⟨.fourth i, ⟨j, hj, hs, by rw [h.w i j hj hs]; omega⟩, ?_⟩
      intro s hs'
      cases s with
      | coord i' k' => have := hc i' k' n hs'; omega
      | fourth i' =>
        obtain ⟨j', hj', hsj', e⟩ := hs'
        rw [h.w i' j' hj' hsj'] at e
        obtain ⟨rfl, -⟩ := prefix_unique (k := 0) (k' := 0) (hflag i' j' hj' hsj') (hflag i j hj hs) (by omega) (by omega) (by omega)
        rfl
  · intro a b j k hj hk hab
    rw [h.q a j hj, h.q b k hk]
    have e1 := take_sum_succ (hdofget a j hj)
    have := take_sum_mono (m.joints.map (·.dof)) (i := a + 1) (k := b) hab
    omega
  · intro i k n hr
    rw [h.qdot]
    exact hc i k n hr
  · intro i n hr
    rw [h.qdot]
    exact (hw i n hr).1

theorem delete_single {m : QModel} {d : ℕ} {j : QJoint} (h : QBase m) (hj : m.joints[d]? = some j) (h1 : j.dof = 1) :
    ∃ m', m.deleteBody d = some m' := by
  have hjd : (m.joints.map (·.dof))[d]? = some j.dof := by rw [List.getElem?_map, hj]; rfl
  have e1 := take_sum_succ hjd
  have e2 := take_sum_le (m.joints.map (·.dof)) (d + 1)
  have hq := h.q d j hj
  have hlam := h.lam
  have hdof := h.dof
  unfold QModel.deleteBody
  rw [hj]
  have : eraseLambda j.q 0 j.dof m.lambdaQ = some (m.lambdaQ.eraseIdx j.q) := by
    rw [h1]
    simp only [eraseLambda, add_zero]
    rw [if_pos (by omega)]
  simp only [this]
  exact ⟨_, rfl⟩

theorem run_inv : ∀ (ops : List QOp) (m : QModel), QInv m → DeletesSingles m ops → ∃ m', m.run ops = some m' ∧ QInv m'
  | [], m, h, _ => ⟨m, rfl, h⟩
  | .add kind dof :: ops, m, h, hs => run_inv ops _ (addBody_inv h.toQBase kind dof) hs
  | .delete d :: ops, m, h, hs => by
    obtain ⟨⟨j, hj, hsph, h1⟩, hrest⟩ := hs
    obtain ⟨m1, hm1⟩ := delete_single h.toQBase hj h1
    obtain ⟨m', h2, h3⟩ := run_inv ops m1 (deleteBody_inv h hj hsph hm1) (hrest m1 hm1)
    refine ⟨m', ?_, h3⟩
    simp only [QModel.run, QModel.step, hm1]
    exact h2

/-- Everything but the fourth coordinates survives every history that is defined. -/
theorem run_base : ∀ (ops : List QOp) (m m' : QModel), QBase m → m.run ops = some m' → QBase m'
  | [], m, m', h, hr => by cases hr; exact h
  | .add kind dof :: ops, m, m', h, hr => run_base ops _ _ (addBody_inv h kind dof).toQBase hr
  | .delete d :: ops, m, m', h, hr => by
    simp only [QModel.run, QModel.step] at hr
    rcases hd : m.deleteBody d with _ | m1
    · rw [hd] at hr; cases hr
    rw [hd] at hr
    exact run_base ops m1 m' (deleteBody_base h hd) hr

theorem updateOrder_perm : ∀ (fuel : ℕ) (es : List (ℕ × ℕ)), es.length ≤ fuel → (updateOrder fuel es).Perm (es.map (·.2))
  | 0, es, h => by
    have : es = [] := List.eq_nil_of_length_eq_zero (by omega)
    subst this
    exact List.Perm.refl _
  | fuel + 1, [], _ => List.Perm.refl _
  | fuel + 1, e :: es, h => by
    unfold updateOrder
    have hlen : ((e :: es).filter fun x => !(x.1 == e.1)).length ≤ fuel := by
      have h1 : (e :: es).filter (fun x => !(x.1 == e.1)) = es.filter (fun x => !(x.1 == e.1)) := by
        rw [List.filter_cons]; simp
      rw [h1]
      have := List.length_filter_le (fun x : ℕ × ℕ => !(x.1 == e.1)) es
      simp only [List.length_cons] at h
      omega
    have ih := updateOrder_perm fuel _ hlen
    refine (List.Perm.append_left _ ih).trans ?_
    rw [← List.map_append]
    exact (List.filter_append_perm _ _).map _

end Verif
