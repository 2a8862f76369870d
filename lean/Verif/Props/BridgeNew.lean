import Verif.Model.BridgeNew
import Verif.Spec.Bridge
import Verif.Model.Rotation
import Mathlib.Tactic.FinCases
import Mathlib.Tactic.Linarith

/-!
# C97: a new Python bridge
-/

set_option linter.unusedSectionVars false

namespace Verif.Props
open Verif.Model Verif.Spec

/-- what the values given one after the other do -/
theorem comma_fold (xs : List ℝ) : ∀ s : Comma, s.row < s.vec.length →
    xs.foldlM Comma.next s = if s.row + xs.length < s.vec.length then
      some ⟨s.vec.take (s.row + 1) ++ xs ++ s.vec.drop (s.row + 1 + xs.length), s.row + xs.length⟩ else none := by
  induction xs with
  | nil =>
    intro s h
    simp [h]
  | cons x xs ih =>
    intro s h
    rw [List.foldlM_cons, Comma.next]
    by_cases h1 : s.row + 1 < s.vec.length
    · rw [if_pos h1]
      change xs.foldlM Comma.next ⟨s.vec.set (s.row + 1) x, s.row + 1⟩ = _
      rw [ih _ (by simpa using h1)]
      simp only [List.length_set, List.length_cons]
      by_cases h2 : s.row + 1 + xs.length < s.vec.length
      · rw [if_pos h2, if_pos (by omega)]
        have e1 : (s.vec.set (s.row + 1) x).take (s.row + 1 + 1) = s.vec.take (s.row + 1) ++ [x] := by
          rw [List.take_add_one, List.take_set_of_le (by omega), List.getElem?_set_self h1]
          rfl
        have e2 : (s.vec.set (s.row + 1) x).drop (s.row + 1 + 1 + xs.length) = s.vec.drop (s.row + 1 + (xs.length + 1)) := by
          rw [List.drop_set_of_lt (by omega)]
          congr 1
          omega
        rw [e1, e2]
        simp
        omega
      · rw [if_neg h2, if_neg (by omega)]
    · rw [if_neg h1, if_neg (by simp; omega)]
      rfl

/-- the initialiser: the values, then what was there before -/
theorem commaInit_eq (a : Bool) (v : List ℝ) (x : ℝ) (xs : List ℝ) :
    commaInit a v x xs = if (if a then xs.length + 1 = v.length else xs.length + 1 ≤ v.length) then
      some (x :: xs ++ v.drop (xs.length + 1)) else none := by
  unfold commaInit
  by_cases h : 0 < v.length
  · rw [if_pos h, comma_fold xs _ (by simpa using h)]
    simp only [List.length_set, Nat.zero_add]
    by_cases h1 : xs.length < v.length
    · rw [if_pos h1]
      have e1 : (v.set 0 x).take 1 = [x] := by
        cases v with
        | nil => simp at h
        | cons y v => simp
      have e2 : (v.set 0 x).drop (1 + xs.length) = v.drop (xs.length + 1) := by
        rw [List.drop_set_of_lt (by omega), Nat.add_comm]
      have e3 : ([x] ++ xs ++ v.drop (xs.length + 1)).length = v.length := by simp; omega
      simp only [e1, e2, e3]
      cases a
      · simp [h1]
      · by_cases h2 : xs.length + 1 = v.length
        · simp [h2]
        · simp [h2]
    · rw [if_neg h1]
      cases a
      · rw [if_neg (by simp; omega)]
      · rw [if_neg (by simp; omega)]
  · rw [if_neg h]
    cases a
    · rw [if_neg (by simp; omega)]
    · rw [if_neg (by simp; omega)]

theorem startValues_length : startValues.length = 39 := by simp [startValues]

/-- everything the constructor leaves -/
theorem bridgeNew_eq (a : Bool) (n : ℕ) (links : List (String × ℕ)) :
    bridgeNew a n links =
      if h : (33 ≤ n ∧ (a = true → n = 33)) ∧ 12 < links.length then
        some
          { robot := { Robot.loaded (n + 6) links (n + 7) with
              q := 0 :: startValues ++ List.replicate (n - 33) 0
              cache := some (0 :: startValues ++ List.replicate (n - 33) 0)
              cc := [⟨6, (links[6]'(by omega)).2, .c6d, bridgeFoot, none, List.replicate 6 0⟩,
                     ⟨12, (links[12]'(by omega)).2, .c6d, bridgeFoot, none, List.replicate 6 0⟩] }
            tasks := ⟨links.map Prod.fst,
              [TaskReg.linkTask 0 0 0 0, TaskReg.linkTask 6 1 15 0], 2⟩
            limit := List.replicate n 300
            q := 0 :: startValues ++ List.replicate (n - 33) 0
            command := List.replicate n 0 }
      else none := by
  unfold bridgeNew
  rw [commaInit_eq, startValues_length]
  simp only [List.length_replicate, List.drop_replicate]
  have e0 : (if a then 39 + 1 = n + 7 else 39 + 1 ≤ n + 7) ↔ (33 ≤ n ∧ (a = true → n = 33)) := by
    cases a <;> simp <;> omega
  by_cases h1 : (33 ≤ n ∧ (a = true → n = 33))
  · have hn : 33 ≤ n := h1.1
    rw [if_pos (e0.mpr h1)]
    have e1 : n + 7 - (39 + 1) = n - 33 := by omega
    have e2 : (Robot.loaded (n + 6) links (n + 7)).updateKinematics (0 :: startValues ++ List.replicate (n - 33) 0)
        (List.replicate (n + 6) 0) (List.replicate (n + 6) 0) true =
        { Robot.loaded (n + 6) links (n + 7) with
              q := 0 :: startValues ++ List.replicate (n - 33) 0
              cache := some (0 :: startValues ++ List.replicate (n - 33) 0) } := by
      have el : (0 :: startValues ++ List.replicate (n - 33) (0 : ℝ)).length = n + 7 := by
        simp [startValues_length]
        omega
      unfold Robot.updateKinematics
      rw [if_neg (by rw [el]; simp [Robot.loaded]), if_neg (by simp), if_neg (by simp)]
      rfl
    simp only [e1, e2]
    by_cases h2 : 12 < links.length
    · rw [dif_pos ⟨h1, h2⟩]
      have h6 : links[6]? = some (links[6]'(by omega)) := List.getElem?_eq_getElem (by omega)
      have h12 : links[12]? = some (links[12]'(by omega)) := List.getElem?_eq_getElem (by omega)
      simp [Robot.addByNumber, Robot.loaded, Robot.newContact, h6, h12, TaskReg.addNumber, TaskReg.hasLink, TaskReg.loaded,
        TaskReg.linkTask]
    · rw [dif_neg (by tauto)]
      by_cases h6 : 6 < links.length
      · have h6' : links[6]? = some (links[6]'(by omega)) := List.getElem?_eq_getElem (by omega)
        have h12 : links[12]? = none := List.getElem?_eq_none (by omega)
        simp [Robot.addByNumber, Robot.loaded, Robot.newContact, h6', h12]
      · have h6' : links[6]? = none := List.getElem?_eq_none (by omega)
        simp [Robot.addByNumber, Robot.loaded, h6']
  · rw [if_neg (fun h => h1 (e0.mp h)), dif_neg (by tauto)]

/-- C97.  A bridge can be made exactly for robots whose link table has the entries 6 and 12 and that have exactly 33 joints; without
assertions, at least 33 joints. -/
theorem C97_defined_iff (a : Bool) (n : ℕ) (links : List (String × ℕ)) :
    (bridgeNew a n links).isSome ↔ 12 < links.length ∧ (33 ≤ n ∧ (a = true → n = 33)) := by
  rw [bridgeNew_eq]
  by_cases h : (33 ≤ n ∧ (a = true → n = 33)) ∧ 12 < links.length
  · rw [dif_pos h]
    exact ⟨fun _ => ⟨h.2, h.1⟩, fun _ => rfl⟩
  · rw [dif_neg h]
    exact ⟨fun h' => by simp at h', fun h' => (h ⟨h'.2, h'.1⟩).elim⟩

/-- The state of the robot of a bridge as a vector. -/
def bridgeState {n : ℕ} (q : List ℝ) : Fin (n + 7) → ℝ := fun i => q.getD i 0

/-- C97 (partial: robots with 33 joints).  The new bridge holds the robot upright above the origin, not turned, the legs bent alike, the
waist and head straight, the arms mirrored; the kinematics are those of that posture. -/
theorem C97_posture_partial {a : Bool} {links : List (String × ℕ)} {b : BridgeObject 33} (h : bridgeNew a 33 links = some b) :
    let P : Posture 33 := rbdl (bridgeState b.robot.q)
    b.robot.cache = some b.robot.q ∧ b.q = b.robot.q ∧ b.robot.q.length = 40 ∧
    P.pos = ![0, 0, 0.92983] ∧ quatMat ⟨P.quatW, P.quatV 0, P.quatV 1, P.quatV 2⟩ = 1 ∧
    (∀ i : Fin 6, P.joint ⟨i, by omega⟩ = ![0, 0, -0.24, 0.6, -0.36, 0] i ∧ P.joint ⟨i + 6, by omega⟩ = P.joint ⟨i, by omega⟩) ∧
    (∀ i : Fin 3, P.joint ⟨i + 12, by omega⟩ = 0) ∧
    (∀ i : Fin 8, P.joint ⟨i + 15, by omega⟩ = ![0.3, 0.3, 1.5, -1.27, -1, 0, -1, 0] i ∧
      P.joint ⟨i + 25, by omega⟩ = - P.joint ⟨i + 15, by omega⟩) ∧
    (∀ i : Fin 2, P.joint ⟨i + 23, by omega⟩ = 0) := by
  rw [bridgeNew_eq] at h
  split_ifs at h with h1
  cases h
  refine ⟨rfl, rfl, by simp [startValues_length], ?_, ?_, ?_, ?_, ?_, ?_⟩
  · funext i
    fin_cases i <;> simp [rbdl, bridgeState, startValues]
  · ext i j
    fin_cases i <;> fin_cases j <;> simp [rbdl, bridgeState, startValues, quatMat]
  · intro i
    fin_cases i <;> simp [rbdl, bridgeState, startValues]
  · intro i
    fin_cases i <;> simp [rbdl, bridgeState, startValues]
  · intro i
    fin_cases i <;> simp [rbdl, bridgeState, startValues]
  · intro i
    fin_cases i <;> simp [rbdl, bridgeState, startValues]

/-- C97.  However many joints: two flat feet at the same place of links 6 and 12, not switched on; a task of six rows for the base above
one of three rows for link 15; a torque limit of 300 for each joint; no command. -/
theorem C97_registered {a : Bool} {n : ℕ} {links : List (String × ℕ)} {b : BridgeObject n} (h : bridgeNew a n links = some b) :
    b.robot.cc.map (fun c => (c.link, c.type, c.flag)) = [(6, .c6d, none), (12, .c6d, none)] ∧
    (∀ c ∈ b.robot.cc, c.point = ![0.03, 0, -0.1585] ∧ (links[c.link]?).map Prod.snd = some c.body) ∧
    b.tasks.ts.map (fun t => (t.hier, t.dof, t.links.map TaskLinkRec.link)) = [(0, some 6, [0]), (1, some 3, [15])] ∧
    b.limit = List.replicate n 300 ∧ b.command = List.replicate n 0 := by
  rw [bridgeNew_eq] at h
  split_ifs at h with h1
  cases h
  have h6 : links[6]? = some (links[6]'(by omega)) := List.getElem?_eq_getElem (by omega)
  have h12 : links[12]? = some (links[12]'(by omega)) := List.getElem?_eq_getElem (by omega)
  refine ⟨rfl, ?_, ?_, rfl, rfl⟩
  · intro c hc
    simp only [List.mem_cons, List.not_mem_nil, or_false] at hc
    rcases hc with rfl | rfl
    · exact ⟨rfl, by simp [h6]⟩
    · exact ⟨rfl, by simp [h12]⟩
  · simp [TaskReg.linkTask, modeDof]

/-- C97.  The feet must be switched before anything is computed from them: updating the contacts of a new bridge is undefined, after
switching them (as `setContact` of the bridge does) the Jacobian has six rows for each foot that is on. -/
theorem C97_switch_first {a : Bool} {n : ℕ} {links : List (String × ℕ)} {b : BridgeObject n} (h : bridgeNew a n links = some b)
    (W : Rbdl (n + 6)) (l r : Bool) :
    b.robot.updateContacts W = none ∧
    ∃ s, b.robot.setContact W [l, r] = some s ∧ s.contactDof = some (6 * [l, r].count true) ∧ s.jc.length = 6 * [l, r].count true := by
  rw [bridgeNew_eq] at h
  split_ifs at h with h1
  cases h
  constructor
  · simp [Robot.updateContacts, Robot.updateContact, Robot.loaded]
  · cases l <;> cases r <;>
      simp [Robot.setContact, Robot.sumDof, Robot.setFlags, Robot.updateContacts, Robot.updateContact, Robot.loaded, Robot.fillJc,
        Robot.setRows, ContactType.dof]

/-- C97 (negation).  A bridge for a robot with more than 33 joints, made without assertions, starts with a base whose orientation is not
a rotation: all four numbers of the quaternion are zero, and the 34th joint is at 1. -/
theorem C97_more_joints_no_orientation {n : ℕ} (hn : 33 < n) {links : List (String × ℕ)} (hl : 12 < links.length) :
    ∃ b, bridgeNew false n links = some b ∧ (rbdl (n := n) (bridgeState b.robot.q)).quatW = 0 ∧
      (rbdl (n := n) (bridgeState b.robot.q)).quatV = 0 ∧ (rbdl (n := n) (bridgeState b.robot.q)).joint ⟨33, hn⟩ = 1 := by
  rw [bridgeNew_eq, dif_pos ⟨⟨by omega, by simp⟩, hl⟩]
  refine ⟨_, rfl, ?_, ?_, ?_⟩
  · simp only [rbdl, bridgeState]
    rw [List.getD_eq_getElem?_getD, List.getElem?_append_right (by simp [startValues_length]; omega)]
    simp [startValues_length, List.getElem?_replicate]
    split_ifs <;> rfl
  · funext i
    fin_cases i <;> simp [rbdl, bridgeState, startValues]
  · simp [rbdl, bridgeState, startValues]

/-- C97 (negation).  Whether link 15 exists is not checked: with 13 to 15 links the bridge is made all the same, with a task on a link
behind the table. -/
theorem C97_task_link_unchecked {links : List (String × ℕ)} (h1 : 12 < links.length) (h2 : links.length ≤ 15) (a : Bool) :
    ∃ b, bridgeNew a 33 links = some b ∧ ∃ t ∈ b.tasks.ts, ∃ l ∈ t.links, b.tasks.links[l.link.toNat]? = none := by
  rw [bridgeNew_eq, dif_pos ⟨⟨le_rfl, fun _ => rfl⟩, h1⟩]
  refine ⟨_, rfl, TaskReg.linkTask 6 1 15 0, by simp, ⟨6, 15, 0⟩, by simp [TaskReg.linkTask], ?_⟩
  simpa using h2

/-- TOCABI: 33 joints, 34 links and the centre of mass -/
example : ∃ b, bridgeNew true 33 (List.replicate 35 ("link", 0)) = some b ∧
    (rbdl (n := 33) (bridgeState b.robot.q)).pos = ![0, 0, 0.92983] := by
  obtain ⟨b, hb⟩ := Option.isSome_iff_exists.mp ((C97_defined_iff true 33 (List.replicate 35 ("link", 0))).mpr ⟨by simp, le_rfl, fun _ => rfl⟩)
  exact ⟨b, hb, (C97_posture_partial hb).2.2.2.1⟩

/-- a robot with two joints in each hand more, without assertions -/
example : ∃ b, bridgeNew false 37 (List.replicate 39 ("link", 0)) = some b ∧ (rbdl (n := 37) (bridgeState b.robot.q)).quatW = 0 :=
  let ⟨b, h1, h2, _⟩ := C97_more_joints_no_orientation (n := 37) (by norm_num) (links := List.replicate 39 ("link", 0)) (by simp)
  ⟨b, h1, h2⟩

/-- a robot without upper body -/
example : ∃ b, bridgeNew true 33 (List.replicate 14 ("link", 0)) = some b ∧ ∃ t ∈ b.tasks.ts, ∃ l ∈ t.links,
    b.tasks.links[l.link.toNat]? = none :=
  C97_task_link_unchecked (by simp) (by simp) true

end Verif.Props
