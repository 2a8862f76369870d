import Verif.Model.Body
import Verif.Spec.Body
import Verif.Lemmas.Rotation
import Mathlib.Tactic.Abel
import Mathlib.Tactic.Module
import Mathlib.Tactic.NoncommRing

set_option linter.unusedSectionVars false

namespace Verif
open Matrix Verif.Model Verif.Spec

theorem skew_sq (v : Vec3) : skew v * (skew v)ᵀ = pointInertia v := by
  ext i j
  fin_cases i <;> fin_cases j <;>
    simp [skew, pointInertia, Matrix.mul_apply, Fin.sum_univ_three, dotProduct, vecMulVec_apply] <;> ring

theorem skew_mulVec (v w : Vec3) : skew v *ᵥ w = crossProduct v w := by
  ext i; fin_cases i <;> simp [skew, mulVec, dotProduct, Fin.sum_univ_three, cross_apply] <;> ring

theorem skew_transpose (v : Vec3) : (skew v)ᵀ = -skew v := by
  ext i j; fin_cases i <;> fin_cases j <;> simp [skew]

theorem skew_add (v w : Vec3) : skew (v + w) = skew v + skew w := by
  ext i j; fin_cases i <;> fin_cases j <;> simp [skew] <;> ring

theorem skew_neg (v : Vec3) : skew (-v) = -skew v := by
  ext i j; fin_cases i <;> fin_cases j <;> simp [skew]

theorem skew_sub (v w : Vec3) : skew (v - w) = skew v - skew w := by
  rw [sub_eq_add_neg, skew_add, skew_neg, sub_eq_add_neg]

theorem skew_smul (a : ℝ) (v : Vec3) : skew (a • v) = a • skew v := by
  ext i j; fin_cases i <;> fin_cases j <;> simp [skew]

theorem skew_zero : skew 0 = 0 := by
  ext i j; fin_cases i <;> fin_cases j <;> simp [skew]

theorem skew_rot {R : Mat3} (hR : IsRot R) (v : Vec3) : skew (R *ᵥ v) = R * skew v * Rᵀ := by
  obtain ⟨⟩ := IsRot.eqs hR
  ext i j
  fin_cases i <;> fin_cases j <;>
    simp [skew, mulVec, dotProduct, Fin.sum_univ_three, Matrix.mul_apply] <;> grind

theorem pointInertia_rot {R : Mat3} (hR : Rᵀ * R = 1) (v : Vec3) :
    pointInertia (R *ᵥ v) = R * pointInertia v * Rᵀ := by
  have hR' : R * Rᵀ = 1 := mul_eq_one_comm.mp hR
  have hd : (R *ᵥ v) ⬝ᵥ (R *ᵥ v) = v ⬝ᵥ v := by
    rw [dotProduct_mulVec, vecMul_mulVec, hR, vecMul_one]
  unfold pointInertia
  rw [hd, Matrix.mul_sub, Matrix.sub_mul, Matrix.mul_smul, Matrix.smul_mul, mul_one, hR']
  congr 1
  rw [mul_vecMulVec, vecMulVec_mul]
  congr 1
  rw [vecMul_transpose]

/-- Inertia about the origin of a body: parallel axis theorem. -/
def originInertia (b : Body) : Mat3 := b.inertia + b.mass • pointInertia b.com

theorem pointInertia_sub (x c : Vec3) :
    pointInertia (x - c) = pointInertia x + pointInertia c
      - ((2 * (x ⬝ᵥ c)) • (1 : Mat3) - vecMulVec x c - vecMulVec c x) := by
  ext i j
  simp [pointInertia, vecMulVec_apply, dotProduct, Fin.sum_univ_three]
  ring

/-- `x, c ↦ 2 x·c 1 - x cᵀ - c xᵀ` -/
def mixInertia (x c : Vec3) : Mat3 := (2 * (x ⬝ᵥ c)) • (1 : Mat3) - vecMulVec x c - vecMulVec c x

theorem mixInertia_add (x y c : Vec3) : mixInertia (x + y) c = mixInertia x c + mixInertia y c := by
  ext i j
  simp [mixInertia, vecMulVec_apply, dotProduct, Fin.sum_univ_three]; ring

theorem mixInertia_smul (a : ℝ) (x c : Vec3) : mixInertia (a • x) c = a • mixInertia x c := by
  ext i j
  simp [mixInertia, vecMulVec_apply, dotProduct, Fin.sum_univ_three]; ring

theorem mixInertia_self (c : Vec3) : mixInertia c c = (2 : ℝ) • pointInertia c := by
  ext i j
  simp [mixInertia, pointInertia, vecMulVec_apply, dotProduct, Fin.sum_univ_three]; ring

/-- parallel axis theorem for mass points -/
theorem inertiaAbout_eq (c : Vec3) (P : List Particle) :
    inertiaAbout c P = inertiaAbout 0 P + totalMass P • pointInertia c - mixInertia (firstMoment P) c := by
  induction P with
  | nil => ext i j; simp [inertiaAbout, totalMass, firstMoment, mixInertia, dotProduct, vecMulVec_apply]
  | cons p P ih =>
    have e1 : inertiaAbout c (p :: P) = p.m • pointInertia (p.x - c) + inertiaAbout c P := by simp [inertiaAbout]
    have e2 : inertiaAbout 0 (p :: P) = p.m • pointInertia p.x + inertiaAbout 0 P := by simp [inertiaAbout]
    have e3 : totalMass (p :: P) = p.m + totalMass P := by simp [totalMass]
    have e4 : firstMoment (p :: P) = p.m • p.x + firstMoment P := by simp [firstMoment]
    rw [e1, e2, e3, e4, ih, pointInertia_sub, mixInertia_add, mixInertia_smul]
    unfold mixInertia
    module

/-- A body describes `P` iff its extensive quantities are those of `P`. -/
theorem describes_iff (b : Body) (P : List Particle) :
    Describes b.mass b.com b.inertia P ↔
      b.mass = totalMass P ∧ b.mass • b.com = firstMoment P ∧ originInertia b = inertiaAbout 0 P := by
  have key : b.mass = totalMass P → b.mass • b.com = firstMoment P →
      inertiaAbout b.com P = inertiaAbout 0 P - b.mass • pointInertia b.com := by
    intro h1 h2
    rw [inertiaAbout_eq, ← h1, ← h2, mixInertia_smul, mixInertia_self]
    module
  constructor
  · rintro ⟨h1, h2, h3⟩
    refine ⟨h1, h2, ?_⟩
    rw [originInertia, h3, key h1 h2]; abel
  · rintro ⟨h1, h2, h3⟩
    refine ⟨h1, h2, ?_⟩
    rw [key h1 h2, ← h3, originInertia]; abel

theorem firstMoment_move (R : Mat3) (t : Vec3) (P : List Particle) :
    firstMoment (P.map (Particle.move R t)) = R *ᵥ firstMoment P + totalMass P • t := by
  induction P with
  | nil => simp [firstMoment, totalMass]
  | cons p P ih =>
    have e4 : ∀ (p : Particle) P, firstMoment (p :: P) = p.m • p.x + firstMoment P := fun p P => by simp [firstMoment]
    have e3 : totalMass (p :: P) = p.m + totalMass P := by simp [totalMass]
    rw [List.map_cons, e4, e4, e3, ih, mulVec_add, mulVec_smul]
    simp only [Particle.move]
    module

theorem totalMass_move (R : Mat3) (t : Vec3) (P : List Particle) :
    totalMass (P.map (Particle.move R t)) = totalMass P := by
  simp [totalMass, List.map_map, Function.comp_def, Particle.move]

theorem inertiaAbout_move {R : Mat3} (hR : Rᵀ * R = 1) (t c : Vec3) (P : List Particle) :
    inertiaAbout (R *ᵥ c + t) (P.map (Particle.move R t)) = R * inertiaAbout c P * Rᵀ := by
  induction P with
  | nil => simp [inertiaAbout]
  | cons p P ih =>
    have e1 : ∀ c (p : Particle) P, inertiaAbout c (p :: P) = p.m • pointInertia (p.x - c) + inertiaAbout c P :=
      fun c p P => by simp [inertiaAbout]
    rw [List.map_cons, e1, e1, ih, Matrix.mul_add, Matrix.add_mul, Matrix.mul_smul, Matrix.smul_mul,
      ← pointInertia_rot hR]
    simp only [Particle.move]
    rw [add_sub_add_right_eq_sub, ← mulVec_sub]

theorem totalMass_append (P Q : List Particle) : totalMass (P ++ Q) = totalMass P + totalMass Q := by simp [totalMass]
theorem firstMoment_append (P Q : List Particle) : firstMoment (P ++ Q) = firstMoment P + firstMoment Q := by
  simp [firstMoment]
theorem inertiaAbout_append (c : Vec3) (P Q : List Particle) :
    inertiaAbout c (P ++ Q) = inertiaAbout c P + inertiaAbout c Q := by simp [inertiaAbout]

/-- a body moved rigidly -/
def Model.Body.moved (b : Body) (R : Mat3) (t : Vec3) : Body := ⟨b.mass, R *ᵥ b.com + t, R * b.inertia * Rᵀ⟩

theorem describes_moved {b : Body} {P : List Particle} (h : Describes b.mass b.com b.inertia P) {R : Mat3}
    (hR : Rᵀ * R = 1) (t : Vec3) :
    Describes (b.moved R t).mass (b.moved R t).com (b.moved R t).inertia (P.map (Particle.move R t)) := by
  refine ⟨?_, ?_, ?_⟩
  · rw [totalMass_move]; exact h.mass
  · rw [firstMoment_move, ← h.com, ← h.mass]
    simp only [Model.Body.moved, mulVec_smul]; module
  · simp only [Model.Body.moved]
    rw [inertiaAbout_move hR, ← h.inertia]

/-- `addLink` adds the extensive quantities -/
theorem addLink_ext {a b c : Body} {R : Mat3} {x : Vec3} (h : addLink a b R x = some c) :
    c.mass = a.mass + b.mass ∧ c.mass ≠ 0 ∧ c.mass • c.com = a.mass • a.com + b.mass • (b.moved R x).com ∧
      originInertia c = originInertia a + originInertia (b.moved R x) := by
  unfold addLink at h
  simp only at h
  split_ifs at h with h0
  obtain rfl := Option.some.inj h
  refine ⟨rfl, h0, ?_, ?_⟩
  · simp only [Model.Body.moved, smul_smul]
    rw [mul_one_div_cancel h0, one_smul]
  · simp only [originInertia, Model.Body.moved, skew_sq]
    abel

theorem addLink_isSome {a b : Body} (h : a.mass + b.mass ≠ 0) (R : Mat3) (x : Vec3) :
    ∃ c, addLink a b R x = some c := by
  unfold addLink
  exact ⟨_, if_neg h⟩

/-- a body with nonzero mass is determined by its extensive quantities -/
theorem body_ext_of {a b : Body} (h1 : a.mass = b.mass) (h0 : a.mass ≠ 0) (h2 : a.mass • a.com = b.mass • b.com)
    (h3 : originInertia a = originInertia b) : a = b := by
  have hc : a.com = b.com := by
    rw [← h1] at h2
    have := congrArg (fun v => a.mass⁻¹ • v) h2
    simpa [smul_smul, inv_mul_cancel₀ h0] using this
  have hi : a.inertia = b.inertia := by
    unfold originInertia at h3
    rw [hc, h1] at h3
    exact add_right_cancel h3
  exact Body.ext h1 hc hi

end Verif
