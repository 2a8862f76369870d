import Verif.Props.Followed
import Mathlib.Tactic.FinCases

/-!
# C94: a concrete robot that could follow a command and is given less than half of it
-/

set_option linter.unusedSectionVars false

namespace Verif.Props
open Matrix Verif Verif.Spec Verif.Model

/-! A foot of one kilogram on the floor and a body of 99 kg sliding on it along `x` and `y`. -/
namespace Sledge

def Jv0 : Matrix (Fin 3) (Fin 6 ⊕ Fin 2) ℝ :=
  Matrix.of ![Sum.elim ![1, 0, 0, 0, 0, 0] ![0, 0], Sum.elim ![0, 1, 0, 0, 0, 0] ![0, 0], Sum.elim ![0, 0, 1, 0, 0, 0] ![0, 0]]
def Jw0 : Matrix (Fin 3) (Fin 6 ⊕ Fin 2) ℝ :=
  Matrix.of ![Sum.elim ![0, 0, 0, 1, 0, 0] ![0, 0], Sum.elim ![0, 0, 0, 0, 1, 0] ![0, 0], Sum.elim ![0, 0, 0, 0, 0, 1] ![0, 0]]
def Jv1 : Matrix (Fin 3) (Fin 6 ⊕ Fin 2) ℝ :=
  Matrix.of ![Sum.elim ![1, 0, 0, 0, 0, 0] ![1, 0], Sum.elim ![0, 1, 0, 0, 0, 0] ![0, 1], Sum.elim ![0, 0, 1, 0, 0, 0] ![0, 0]]

def foot : MovingLink (Fin 6 ⊕ Fin 2) := { m := 1, x := 0, I := 1, Jv := Jv0, Jw := Jw0 }
def body : MovingLink (Fin 6 ⊕ Fin 2) := { m := 99, x := 0, I := 1, Jv := Jv1, Jw := Jw0 }

def L : List (MovingLink (Fin 6 ⊕ Fin 2)) := [foot, body]

/-- The rows of the centre of mass. -/
noncomputable def Jcom : Matrix (Fin 3) (Fin 6 ⊕ Fin 2) ℝ := (1 / 100 : ℝ) • (Jv0 + (99 : ℝ) • Jv1)

theorem mass_eq : mass L = 100 := by simp [mass, L, foot, body]; norm_num

theorem com_rows : IsComRows L Jcom := by
  intro q
  rw [mass_eq]
  simp only [linearMomentum, L, foot, body, Jcom, List.map_cons, List.map_nil, List.sum_cons, List.sum_nil, smul_mulVec, add_mulVec,
    smul_smul, add_zero, one_smul]
  norm_num

theorem v0 (q : Fin 6 ⊕ Fin 2 → ℝ) : Jv0 *ᵥ q = ![q (.inl 0), q (.inl 1), q (.inl 2)] := by
  funext i
  fin_cases i <;> simp [Jv0, mulVec, dotProduct, Fin.sum_univ_succ]

theorem w0 (q : Fin 6 ⊕ Fin 2 → ℝ) : Jw0 *ᵥ q = ![q (.inl 3), q (.inl 4), q (.inl 5)] := by
  funext i
  fin_cases i <;> simp [Jw0, mulVec, dotProduct, Fin.sum_univ_succ] <;> rfl

theorem v1 (q : Fin 6 ⊕ Fin 2 → ℝ) : Jv1 *ᵥ q = ![q (.inl 0) + q (.inr 0), q (.inl 1) + q (.inr 1), q (.inl 2)] := by
  funext i
  fin_cases i <;> simp [Jv1, mulVec, dotProduct, Fin.sum_univ_succ]

theorem spd : IsSPD (massMatrix L) := by
  refine massMatrix_spd ?_ ?_
  · intro l hl
    simp only [L, List.mem_cons, List.not_mem_nil, or_false] at hl
    rcases hl with rfl | rfl
    · exact ⟨by norm_num [foot], isSPD_one⟩
    · exact ⟨by norm_num [body], isSPD_one⟩
  · intro q h
    have h1 := (h foot (by simp [L])).1
    have h2 := (h foot (by simp [L])).2
    have h3 := (h body (by simp [L])).1
    rw [foot, v0] at h1
    rw [foot, w0] at h2
    rw [body, v1] at h3
    have a := fun i => congrFun h1 i
    have b := fun i => congrFun h2 i
    have d := fun i => congrFun h3 i
    have a0 := a 0; have a1 := a 1; have a2 := a 2; have b0 := b 0; have b1 := b 1; have b2 := b 2; have d0 := d 0; have d1 := d 1
    simp at a0 a1 a2 b0 b1 b2 d0 d1
    funext i
    rcases i with i | i
    · fin_cases i
      · exact a0
      · exact a1
      · exact a2
      · exact b0
      · exact b1
      · exact b2
    · fin_cases i
      · simpa [a0] using d0
      · simpa [a1] using d1

theorem mass_mul (q : Fin 6 ⊕ Fin 2 → ℝ) : massMatrix L *ᵥ q =
    Jv0ᵀ *ᵥ (Jv0 *ᵥ q) + Jw0ᵀ *ᵥ (Jw0 *ᵥ q) + ((99 : ℝ) • (Jv1ᵀ *ᵥ (Jv1 *ᵥ q)) + Jw0ᵀ *ᵥ (Jw0 *ᵥ q)) := by
  simp only [massMatrix, L, foot, body, List.map_cons, List.map_nil, List.sum_cons, List.sum_nil, add_zero, add_mulVec, smul_mulVec,
    one_smul, Matrix.mul_one, ← mulVec_mulVec]

noncomputable def R : JRobot (Fin 2) 6 :=
  { A := massMatrix L, G := -Spec.gravityForce ![0, 0, -981 / 100] L, Jc := Matrix.of fun i s => Sum.elim (fun j => if i = j then 1 else 0) (fun _ => 0) s,
    cs := [exContact true], limit := none }

theorem G_eq : R.G = Sum.elim ![0, 0, 981, 0, 0, 0] ![0, 0] := by
  funext i
  rcases i with i | i <;> fin_cases i <;>
    norm_num [R, Spec.gravityForce, L, foot, body, Jv0, Jv1, mulVec, dotProduct, Fin.sum_univ_succ]

theorem JcT (F : Fin 6 → ℝ) : R.Jcᵀ *ᵥ F = Sum.elim F ![0, 0] := by
  funext i
  rcases i with i | i
  · simp [R, mulVec, dotProduct]
  · fin_cases i <;> simp [R, mulVec, dotProduct]

theorem hc : 6 = 6 * (active R.cs).length := by simp [R, exContact, active]

theorem hold {a : ℝ} (ha : |a| ≤ 196) : ContactsHold R.cs ((![a, 0, -981, 0, 0, 0] : Fin 6 → ℝ) ∘ Fin.cast hc.symm) := by
  intro i
  have e : (active R.cs)[i] = exContact true := by
    have : active R.cs = [exContact true] := by simp [R, exContact, active]
    have hm := List.getElem_mem (l := active R.cs) i.isLt
    have h2 : ∀ x ∈ active R.cs, x = exContact true := by rw [this]; simp
    exact h2 _ hm
  have hl := hc
  have ei : i.val = 0 := by have := i.isLt; omega
  rw [e, noTip_iff (by simp [exContact]) (by simp [exContact])]
  simp [exContact, inFrame, wrenchOf, NoSlip, press, ei, Fin.cast, Matrix.transpose_one]
  linarith

/-- Standing still. -/
def still : JAnswer (Fin 2) 6 := ⟨0, 0, ![0, 0, -981, 0, 0, 0]⟩

/-- Sliding the body forward at 1 m/s². -/
def forward : JAnswer (Fin 2) 6 := ⟨Sum.elim (fun _ => 0) ![1, 0], ![99, 0], ![-99, 0, -981, 0, 0, 0]⟩

theorem still_ok : JAdmissible R hc still := by
  refine ⟨⟨?_, ?_⟩, fun i => by simp [still], fun i => by simp [still], hold (by norm_num)⟩
  · unfold Dynamics
    rw [G_eq, JcT]
    funext i
    rcases i with i | i <;> fin_cases i <;> simp [still, actuate]
  · simp [ContactsFixed, still]

theorem forward_ok : JAdmissible R hc forward := by
  refine ⟨⟨?_, ?_⟩, fun i => ?_, fun i => ?_, hold (by norm_num [abs_le])⟩
  · unfold Dynamics
    rw [G_eq, JcT]
    have e : R.A = massMatrix L := rfl
    rw [e, mass_mul, v0, v1, w0]
    funext i
    rcases i with i | i <;> fin_cases i <;>
      norm_num [forward, actuate, Jv0, Jv1, Jw0, mulVec, dotProduct, Fin.sum_univ_succ]
  · funext i
    simp [forward, R, mulVec, dotProduct]
  · fin_cases i <;> norm_num [forward, abs_le]
  · fin_cases i <;> norm_num [forward]

theorem forward_com : Jcom *ᵥ forward.acc = ![99 / 100, 0, 0] := by
  rw [Jcom, smul_mulVec, add_mulVec, smul_mulVec, v0, v1]
  funext i
  fin_cases i <;> norm_num [forward]

end Sledge

open Sledge in
/-- **C94 fails for the joint-acceleration QP on a robot of 100 kg.**  Its centre of mass could be accelerated at 0.99 m/s² within all limits
(`forward`), the QP is solved, and every exact answer gives at most half of that. -/
theorem C94_jacc_half : JAdmissible R hc forward ∧ Jcom *ᵥ forward.acc = ![99 / 100, 0, 0] ∧
    (∃ ts', jaccCall R bestSolver [⟨3, Jcom, ![99 / 100, 0, 0], none, none⟩] 0 = some (true, ts')) ∧
    ∀ (solve : JSolver) (ts' : List (JTask (Fin 2) 6)), solve.Exact →
      jaccCall R solve [⟨3, Jcom, ![99 / 100, 0, 0], none, none⟩] 0 = some (true, ts') →
      ∃ T' o, ts'[0]? = some T' ∧ T'.out = some o ∧ (Jcom *ᵥ o.acc) ⬝ᵥ (Jcom *ᵥ o.acc) ≤ (99 / 200) ^ 2 := by
  have h6 : ∀ l ∈ R.cs, l.type = .c6d := by simp [R, exContact]
  have hp : ∀ l ∈ R.cs, 0 < l.planeX ∧ 0 < l.planeY := by simp [R, exContact]
  refine ⟨forward_ok, forward_com, ?_, fun solve ts' hs h => ?_⟩
  · obtain ⟨ts', h⟩ := (C35_succeeds_iff (R := R) (ts := [⟨3, Jcom, ![99 / 100, 0, 0], none, none⟩]) spd h6 hp hc
      bestSolver_exact bestSolver_complete (k := 1) (by norm_num) (by simp)).mpr ⟨_, still_ok⟩
    refine ⟨ts', ?_⟩
    unfold jaccPass jaccPassWith jaccPassWith at h
    simp only at h
    rcases hx : jaccCall R bestSolver [⟨3, Jcom, ![99 / 100, 0, 0], none, none⟩] 0 with _ | ⟨b, ts''⟩
    · rw [hx] at h; cases h
    · rw [hx] at h
      simp only [Bool.true_and] at h
      rw [h]
  · obtain ⟨T', o, a1, a2, a3⟩ := C94_jacc_com (R := R) (L := L) rfl spd (by simp [L, foot, body]) (by
      simp only [L, List.mem_cons, List.not_mem_nil, or_false]
      rintro l (rfl | rfl) w <;> simpa [foot, body] using dot_self_nonneg' w) h6 hp hc hs com_rows h still_ok rfl
    refine ⟨T', o, a1, a2, ?_⟩
    rw [mass_eq] at a3
    norm_num [dotProduct, Fin.sum_univ_succ] at a3 ⊢
    linarith

/-- one joint of unit inertia never gets the 5 it is asked for, and at most the share 100/101 -/
example : ∃ ts', jaccCall exJ bestSolver [exJT] 0 = some (true, ts') ∧ ∃ (T T' : JTask (Fin 1) 0) (o : JAnswer (Fin 1) 0),
    [exJT][0]? = some T ∧ ts'[0]? = some T' ∧ T'.out = some o ∧ (T.J *ᵥ o.acc = T.f → T.f = 0) := by
  obtain ⟨ts', -, h⟩ := exJ_pass
  exact ⟨ts', h, C94_jacc_never isSPD_one (by simp [exJ]) (by simp [exJ]) (by simp [exJ, active]) bestSolver_exact h
    exJ_still rfl⟩

/-- the hierarchical controller never gives the one-joint robot what its task asks for -/
example (osqp : Osqp) (hs : OsqpExact osqp) (N : NullSpaceFn) (hN : N.Correct) :
    ∃ a b r, calcControlTorqueLQP osqp N reach = [a, b, r] ∧ ∀ t ∈ reach.tasks, t.2.1 *ᵥ qddOf r.y ≠ t.2.2 := by
  have hst : CanStand reach.conf := ⟨reachY 0, reach_moves (by norm_num), by simp [qddOf, reachY], fun r => r.elim0⟩
  obtain ⟨a, b, rs, h1, h2, h3⟩ := C94_lqp_never osqp hs N hN reach reach_spd (by simp) hst
  match rs, h2 with
  | [r], _ =>
    refine ⟨a, b, r, h1, fun t ht he => ?_⟩
    obtain rfl := List.mem_singleton.mp ht
    have := congrFun (h3 r _ rfl rfl he) 0
    simp at this

end Verif.Props
