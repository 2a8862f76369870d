import Verif.Model.Bridge
import Mathlib.Tactic.Linarith
import Mathlib.Tactic.Ring
import Mathlib.Tactic.NormNum
import Mathlib.Tactic.FinCases
import Mathlib.Data.Fintype.Basic
import Mathlib.Tactic.IntervalCases

/-!
# C43: the Python bridge
-/

namespace Verif.Props
open Verif Verif.Model Verif.Spec

/-- Source index of entry `i` in the library order. -/
def bridgeIndex (n i : ℕ) : ℕ := if i < 3 then i else if i = n + 6 then 3 else i + 1

theorem copyJoints_some {m : ℕ} (p : NumpyArray) : ∀ (k j : ℕ) (v : Fin m → ℝ), j + k + 7 ≤ m →
    (∀ i < m, ∃ x, rawRead p i = some x) →
    ∃ w, copyJoints p k j v = some w ∧ ∀ i : Fin m,
      (j + 6 ≤ i.val ∧ i.val < j + k + 6 → rawRead p (i + 1) = some (w i)) ∧
      (¬ (j + 6 ≤ i.val ∧ i.val < j + k + 6) → w i = v i)
  | 0, j, v, _, _ => ⟨v, rfl, fun i => ⟨fun h => by omega, fun _ => rfl⟩⟩
  | k + 1, j, v, hm, hp => by
    obtain ⟨x, hx⟩ := hp (j + 7) (by omega)
    obtain ⟨w, hw, hi⟩ := copyJoints_some p k (j + 1) (Function.update v ⟨j + 6, by omega⟩ x) (by omega) hp
    refine ⟨w, ?_, fun i => ?_⟩
    · simp only [copyJoints, writeAt, hx]
      rw [dif_pos (show j + 6 < m by omega)]
      exact hw
    · obtain ⟨h1, h2⟩ := hi i
      constructor
      · intro h
        by_cases e : i.val = j + 6
        · have hwi := h2 (by omega)
          rw [hwi, e, show i = ⟨j + 6, by omega⟩ from Fin.ext e, Function.update_self]
          exact hx
        · exact h1 (by omega)
      · intro h
        rw [h2 (by omega), Function.update_of_ne]
        intro e
        have := congrArg Fin.val e
        simp at this
        omega

/-- C43.  For a contiguous array with at least `n + 7` entries the call is defined and the new state vector, read in library
order, is the same posture as the argument read in MuJoCo order, whatever the old contents. -/
theorem C43_same_posture {n : ℕ} (q0 : Fin (n + 7) → ℝ) (p : NumpyArray) (hs : p.stride = 1) (hl : n + 7 ≤ p.size) :
    ∃ q, bridgeQ q0 p = some q ∧ rbdl q = mujoco (fun i : Fin (n + 7) => p.get i) := by
  have hp : ∀ i < n + 7, rawRead p i = some (p.get i) := by
    intro i hi
    unfold rawRead NumpyArray.get
    rw [if_pos (Or.inl (by omega)), hs]
    simp
  have key : ∀ v : Fin (n + 7) → ℝ, ∃ w, copyJoints p n 0 v = some w ∧ ∀ i : Fin (n + 7),
      (6 ≤ i.val ∧ i.val < n + 6 → w i = p.get (i + 1)) ∧ (¬ (6 ≤ i.val ∧ i.val < n + 6) → w i = v i) := by
    intro v
    obtain ⟨w, hw, hi⟩ := copyJoints_some p n 0 v (by omega) (fun i h => ⟨_, hp i h⟩)
    refine ⟨w, hw, fun i => ⟨fun h => ?_, fun h => (hi i).2 (by omega)⟩⟩
    have := (hi i).1 (by omega)
    rw [hp _ (by omega)] at this
    exact (Option.some.inj this).symm
  unfold bridgeQ
  simp only [hp 0 (by omega), hp 1 (by omega), hp 2 (by omega), hp 3 (by omega), hp 4 (by omega), hp 5 (by omega),
    hp 6 (by omega), writeAt, Option.bind_some, dif_pos (show 0 < n + 7 by omega), dif_pos (show 1 < n + 7 by omega),
    dif_pos (show 2 < n + 7 by omega), dif_pos (show 3 < n + 7 by omega), dif_pos (show 4 < n + 7 by omega),
    dif_pos (show 5 < n + 7 by omega), dif_pos (show n + 6 < n + 7 by omega)]
  obtain ⟨w, hw, hi⟩ := key (Function.update (Function.update (Function.update (Function.update (Function.update
    (Function.update (Function.update q0 ⟨0, by omega⟩ (p.get 0)) ⟨1, by omega⟩ (p.get 1)) ⟨2, by omega⟩ (p.get 2))
    ⟨3, by omega⟩ (p.get 4)) ⟨4, by omega⟩ (p.get 5)) ⟨5, by omega⟩ (p.get 6)) ⟨n + 6, by omega⟩ (p.get 3))
  refine ⟨w, hw, ?_⟩
  have hlow : ∀ (k : ℕ) (hk : k < n + 7), k < 6 → w ⟨k, hk⟩ = _ := fun k hk h6 => (hi ⟨k, hk⟩).2 (by simp; omega)
  have hlast : w ⟨6 + n, by omega⟩ = _ := (hi ⟨6 + n, by omega⟩).2 (by simp; omega)
  simp only [rbdl, mujoco, Posture.mk.injEq]
  refine ⟨?_, ?_, ?_, ?_⟩
  · ext i
    fin_cases i
    · rw [hlow _ _ (by simp)]; simp [Function.update, Fin.ext_iff]
    · rw [hlow _ _ (by simp)]; simp [Function.update, Fin.ext_iff]
    · rw [hlow _ _ (by simp)]; simp [Function.update, Fin.ext_iff]
  · rw [hlast]; simp [Function.update, Fin.ext_iff, add_comm]
  · ext i
    fin_cases i
    · rw [hlow _ _ (by simp)]; simp [Function.update, Fin.ext_iff]
    · rw [hlow _ _ (by simp)]; simp [Function.update, Fin.ext_iff]
    · rw [hlow _ _ (by simp)]; simp [Function.update, Fin.ext_iff]
  · ext i
    rw [(hi ⟨6 + i, by omega⟩).1 (by simp; omega)]
    congr 1
    simp; omega

/-- C43.  The reordering is one permutation of the `n + 7` entries: none is lost, none is used twice. -/
theorem C43_permutation (n : ℕ) : ∃ e : Equiv.Perm (Fin (n + 7)), ∀ (q0 : Fin (n + 7) → ℝ) (p : NumpyArray),
    p.stride = 1 → n + 7 ≤ p.size → bridgeQ q0 p = some fun i => p.get (e i) := by
  let fwd : Fin (n + 7) → Fin (n + 7) := fun i => ⟨bridgeIndex n i, by unfold bridgeIndex; split_ifs <;> omega⟩
  let bwd : Fin (n + 7) → Fin (n + 7) := fun i =>
    ⟨if i.val < 3 then i else if i.val = 3 then n + 6 else i - 1, by split_ifs <;> omega⟩
  refine ⟨⟨fwd, bwd, ?_, ?_⟩, ?_⟩
  · intro i
    ext
    simp only [fwd, bwd, bridgeIndex]
    split_ifs <;> omega
  · intro i
    ext
    simp only [fwd, bwd, bridgeIndex]
    split_ifs <;> omega
  · intro q0 p hs hl
    obtain ⟨q, hq, hpost⟩ := C43_same_posture q0 p hs hl
    rw [hq]
    congr 1
    ext i
    simp only [rbdl, mujoco, Posture.mk.injEq] at hpost
    obtain ⟨h1, h2, h3, h4⟩ := hpost
    simp only [Equiv.coe_fn_mk, fwd, bridgeIndex]
    by_cases a : i.val < 3
    · rw [if_pos a]
      exact congrFun h1 ⟨i, a⟩
    · rw [if_neg a]
      by_cases b : i.val = n + 6
      · rw [if_pos b, show i = ⟨6 + n, by omega⟩ from Fin.ext (by simp; omega)]
        exact h2
      · rw [if_neg b]
        by_cases c : i.val < 6
        · have := congrFun h3 ⟨i - 3, by omega⟩
          simp only at this
          rw [show (⟨3 + (i.val - 3), by omega⟩ : Fin (n + 7)) = i from Fin.ext (by simp; omega)] at this
          rw [this]
          congr 1
          omega
        · have := congrFun h4 ⟨i - 6, by omega⟩
          simp only at this
          rw [show (⟨6 + (i.val - 6), by omega⟩ : Fin (n + 7)) = i from Fin.ext (by simp; omega)] at this
          rw [this]
          congr 1
          omega

/-- C43, negation: a strided array (a NumPy view such as `a[::2]`) is read as if it were contiguous. -/
theorem C43_strided_wrong (n : ℕ) (q0 : Fin (n + 7) → ℝ) :
    ∃ p : NumpyArray, p.size = n + 7 ∧ ∀ q, bridgeQ q0 p = some q → rbdl q ≠ mujoco (fun i : Fin (n + 7) => p.get i) := by
  refine ⟨⟨fun k => k, 0, 2, n + 7⟩, rfl, fun q hq h => ?_⟩
  -- the same memory read as a contiguous array
  have hraw : ∀ i < n + 7, rawRead ⟨fun k => (k : ℝ), 0, 2, n + 7⟩ i = rawRead ⟨fun k => (k : ℝ), 0, 1, n + 7⟩ i := by
    intro i hi
    simp [rawRead, hi]
  have hcj : ∀ (k j : ℕ) (v : Fin (n + 7) → ℝ), j + k ≤ n →
      copyJoints ⟨fun k => (k : ℝ), 0, 2, n + 7⟩ k j v = copyJoints ⟨fun k => (k : ℝ), 0, 1, n + 7⟩ k j v := by
    intro k
    induction k with
    | zero => intro j v _; rfl
    | succ k ih =>
      intro j v hj
      simp only [copyJoints]
      rw [hraw _ (by omega)]
      congr 1
      funext v'
      exact ih _ _ (by omega)
  have heq : bridgeQ q0 ⟨fun k => (k : ℝ), 0, 2, n + 7⟩ = bridgeQ q0 ⟨fun k => (k : ℝ), 0, 1, n + 7⟩ := by
    unfold bridgeQ
    simp only [hraw 0 (by omega), hraw 1 (by omega), hraw 2 (by omega), hraw 3 (by omega), hraw 4 (by omega),
      hraw 5 (by omega), hraw 6 (by omega), hcj n 0 _ (by omega)]
  obtain ⟨q', hq', h'⟩ := C43_same_posture q0 ⟨fun k => (k : ℝ), 0, 1, n + 7⟩ rfl le_rfl
  rw [heq, hq'] at hq
  rw [← Option.some.inj hq, h'] at h
  have := congrFun (congrArg Posture.pos h) 1
  simp [mujoco, NumpyArray.get] at this

theorem writeAt_some {m : ℕ} {v w : Fin m → ℝ} {i : ℕ} {x : Option ℝ} (h : writeAt v i x = some w) : x.isSome := by
  cases x with
  | none => cases h
  | some x => rfl

theorem copyJoints_reads {m : ℕ} {p : NumpyArray} : ∀ {k j : ℕ} {v w : Fin m → ℝ}, copyJoints p k j v = some w →
    ∀ i, j + 7 ≤ i → i < j + k + 7 → (rawRead p i).isSome
  | 0, _, _, _, _, i, h1, h2 => by omega
  | k + 1, j, v, w, h, i, h1, h2 => by
    simp only [copyJoints, Option.bind_eq_some_iff] at h
    obtain ⟨u, hu, hk⟩ := h
    by_cases e : i = j + 7
    · rw [e]; exact writeAt_some hu
    · exact copyJoints_reads hk i (by omega) (by omega)

/-- C43.  The length of the argument is not checked: a (contiguous) array that is too short is read past its end. -/
theorem C43_short_array {n : ℕ} (q0 : Fin (n + 7) → ℝ) (p : NumpyArray) (hs : p.stride = 1) (hl : p.size < n + 7) :
    bridgeQ q0 p = none := by
  cases hq : bridgeQ q0 p with
  | none => rfl
  | some q =>
    exfalso
    simp only [bridgeQ, Option.bind_eq_some_iff] at hq
    obtain ⟨_, h0, _, h1, _, h2, _, h4, _, h5, _, h6, _, h3, hk⟩ := hq
    have hbad : ¬ (rawRead p p.size).isSome := by simp [rawRead, hs]
    apply hbad
    have hlt := hl
    generalize p.size = s at hlt ⊢
    rcases Nat.lt_or_ge s 7 with h | h
    · interval_cases s
      · exact writeAt_some h0
      · exact writeAt_some h1
      · exact writeAt_some h2
      · exact writeAt_some h3
      · exact writeAt_some h4
      · exact writeAt_some h5
      · exact writeAt_some h6
    · exact copyJoints_reads hk s (by omega) (by omega)

/-- C43.  After `CalcTorque`, whatever happened before, the command is the sum of the gravity, task and contact torques that
the controller (without its QP variant) computes for the current robot state. -/
theorem C43_command_sum {ι σ : Type} (c : Controller ι σ) (b : Bridge σ) (ops : List (BridgeOp σ)) :
    ((b.run c (ops ++ [.calcTorque])).command c) =
      let r := c.redistribute false (c.task false (c.gravity (b.run c ops).robot))
      (c.torques r).grav + (c.torques r).task + (c.torques r).contact := by
  simp [Bridge.run, Bridge.command, Bridge.step]

/-- Drop the `Reset` calls. -/
def isReset {σ : Type} : BridgeOp σ → Bool
  | .reset => true
  | _ => false

theorem run_robot {ι σ : Type} {c c' : Controller ι σ} (hg : c'.gravity = c.gravity) (ht : c'.task false = c.task false)
    (hr : c'.redistribute false = c.redistribute false) (ops : List (BridgeOp σ)) : ∀ b b' : Bridge σ, b.robot = b'.robot →
    (b.run c ops).robot = (b'.run c' (ops.filter fun o => !isReset o)).robot := by
  induction ops with
  | nil => intro b b' h; exact h
  | cons o os ih =>
    intro b b' h
    cases o with
    | robot f => exact ih _ _ (by simp [Bridge.step, h])
    | calcTorque => exact ih _ _ (by simp [Bridge.step, h, hg, ht, hr])
    | reset => exact ih _ _ (by simp [Bridge.step, h])

/-- C43, finding: `Reset` never has an effect, and the QP variant of the controller is never used.  In every call history the
commands stay the same if all `Reset` calls are dropped and the QP variant is replaced by anything else. -/
theorem C43_reset_and_qp_unused {ι σ : Type} {c c' : Controller ι σ} (hT : c'.torques = c.torques)
    (hg : c'.gravity = c.gravity) (ht : c'.task false = c.task false) (hr : c'.redistribute false = c.redistribute false)
    (b : Bridge σ) (ops : List (BridgeOp σ)) :
    (b.run c ops).command c = (b.run c' (ops.filter fun o => !isReset o)).command c' := by
  unfold Bridge.command
  rw [run_robot hg ht hr ops b b rfl, hT]

/-- Contiguous arrays of the right length exist. -/
example (n : ℕ) (v : ℤ → ℝ) : (⟨v, 0, 1, n + 7⟩ : NumpyArray).stride = 1 ∧ n + 7 ≤ (⟨v, 0, 1, n + 7⟩ : NumpyArray).size :=
  ⟨rfl, le_rfl⟩

end Verif.Props
