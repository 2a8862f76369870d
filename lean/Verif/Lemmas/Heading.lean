import Verif.Model.Heading
import Verif.Lemmas.Rotation
import Verif.Lemmas.TurnRows
import Verif.Lemmas.Redistribute

set_option linter.unusedSectionVars false

namespace Verif
open Matrix Verif.Spec Verif.Model

/-! ### angles -/

theorem atan2_zero : atan2 0 0 = 0 := by
  unfold atan2
  exact Complex.arg_zero

theorem cos_atan2 {x y r : ℝ} (hr : 0 < r) (h : x * x + y * y = r * r) : Real.cos (atan2 y x) = x / r := by
  have hn : ‖(⟨x, y⟩ : ℂ)‖ = r := by
    rw [Complex.norm_def, Complex.normSq_mk, h, Real.sqrt_mul_self hr.le]
  have h0 : (⟨x, y⟩ : ℂ) ≠ 0 := by
    intro e; rw [e] at hn; simp at hn; linarith
  unfold atan2
  rw [Complex.cos_arg h0, hn]

theorem sin_atan2 {x y r : ℝ} (hr : 0 < r) (h : x * x + y * y = r * r) : Real.sin (atan2 y x) = y / r := by
  have hn : ‖(⟨x, y⟩ : ℂ)‖ = r := by
    rw [Complex.norm_def, Complex.normSq_mk, h, Real.sqrt_mul_self hr.le]
  unfold atan2
  rw [Complex.sin_arg, hn]

/-- The product of the three elementary turns. -/
theorem zyx_mul (a b c : ℝ) : rotateWithZ a * rotateWithY b * rotateWithX c =
    !![Real.cos a * Real.cos b, Real.cos a * Real.sin b * Real.sin c - Real.sin a * Real.cos c,
        Real.cos a * Real.sin b * Real.cos c + Real.sin a * Real.sin c;
      Real.sin a * Real.cos b, Real.sin a * Real.sin b * Real.sin c + Real.cos a * Real.cos c,
        Real.sin a * Real.sin b * Real.cos c - Real.cos a * Real.sin c;
      -Real.sin b, Real.cos b * Real.sin c, Real.cos b * Real.cos c] := by
  ext i j
  fin_cases i <;> fin_cases j <;>
    simp [rotateWithZ, rotateWithY, rotateWithX, Matrix.mul_apply, Fin.sum_univ_three] <;> ring

/-- Outside the singular attitude the sines and cosines of the angles determine the matrix, with either sign. -/
theorem zyx_regular {a b c d e f g k i : ℝ} (h : RotEqs a b c d e f g k i) {r ε x y z : ℝ} (hr : 0 < r) (h1 : a * a + d * d = r * r)
    (hε : ε * ε = 1) (cz : Real.cos z = ε * a / r) (sz : Real.sin z = ε * d / r) (cy : Real.cos y = ε * r) (sy : Real.sin y = -g)
    (cx : Real.cos x = ε * i / r) (sx : Real.sin x = ε * k / r) :
    rotateWithZ z * rotateWithY y * rotateWithX x = !![a, b, c; d, e, f; g, k, i] := by
  have hr' : r ≠ 0 := hr.ne'
  rw [zyx_mul, cz, sz, cy, sy, cx, sx]
  obtain ⟨⟩ := h
  have e1 : ε * a / r * (ε * r) = a := by field_simp; linear_combination a * hε
  have e2 : ε * d / r * (ε * r) = d := by field_simp; linear_combination d * hε
  have e3 : ε * r * (ε * k / r) = k := by field_simp; linear_combination k * hε
  have e4 : ε * r * (ε * i / r) = i := by field_simp; linear_combination i * hε
  have e5 : ε * a / r * -g * (ε * k / r) - ε * d / r * (ε * i / r) = b := by
    have : -(a * g * k) - d * i = b * (r * r) := by grind
    field_simp
    linear_combination this - (a * g * k + d * i) * hε
  have e6 : ε * a / r * -g * (ε * i / r) + ε * d / r * (ε * k / r) = c := by
    have : -(a * g * i) + d * k = c * (r * r) := by grind
    field_simp
    linear_combination this - (a * g * i - d * k) * hε
  have e7 : ε * d / r * -g * (ε * k / r) + ε * a / r * (ε * i / r) = e := by
    have : -(d * g * k) + a * i = e * (r * r) := by grind
    field_simp
    linear_combination this - (d * g * k - a * i) * hε
  have e8 : ε * d / r * -g * (ε * i / r) - ε * a / r * (ε * k / r) = f := by
    have : -(d * g * i) - a * k = f * (r * r) := by grind
    field_simp
    linear_combination this - (d * g * i + a * k) * hε
  rw [e1, e2, e3, e4, e5, e6, e7, e8, neg_neg]

/-- The three angles give the matrix back: the first is the angle about `z`, the third the angle about `x`. -/
theorem euler_spec {m : Mat3} (hm : IsRot m) :
    rotateWithZ (eulerAngles210 m 0) * rotateWithY (eulerAngles210 m 1) * rotateWithX (eulerAngles210 m 2) = m := by
  have E := IsRot.eqs hm
  have hfin : m = !![m 0 0, m 0 1, m 0 2; m 1 0, m 1 1, m 1 2; m 2 0, m 2 1, m 2 2] := by
    ext i j; fin_cases i <;> fin_cases j <;> rfl
  set r := √(m 2 2 * m 2 2 + m 2 1 * m 2 1) with hrdef
  have hrr : r * r = m 2 2 * m 2 2 + m 2 1 * m 2 1 := Real.mul_self_sqrt (by nlinarith [mul_self_nonneg (m 2 2), mul_self_nonneg (m 2 1)])
  have hr0 : 0 ≤ r := Real.sqrt_nonneg _
  have h1 : m 0 0 * m 0 0 + m 1 0 * m 1 0 = r * r := by rw [hrr]; linarith [E.c1, E.r3]
  have h2 : r * r + -m 2 0 * -m 2 0 = 1 * 1 := by rw [hrr]; linarith [E.r3]
  have h2' : -r * -r + -m 2 0 * -m 2 0 = 1 * 1 := by rw [← h2]; ring
  have a0 : ∀ (hneg : ¬ atan2 (m 1 0) (m 0 0) < 0), eulerAngles210 m 0 = atan2 (m 1 0) (m 0 0) ∧ eulerAngles210 m 1 = atan2 (-m 2 0) r := by
    intro hneg
    constructor
    · change (if _ then _ else _) = _
      rw [if_neg hneg]
    · change (if _ then _ else _) = _
      rw [if_neg hneg]
  have a1 : ∀ (hneg : atan2 (m 1 0) (m 0 0) < 0), eulerAngles210 m 0 = atan2 (m 1 0) (m 0 0) + Real.pi ∧ eulerAngles210 m 1 = atan2 (-m 2 0) (-r) := by
    intro hneg
    constructor
    · change (if _ then _ else _) = _
      rw [if_pos hneg]
    · change (if _ then _ else _) = _
      rw [if_pos hneg]
  have a2 : eulerAngles210 m 2 = atan2 (Real.sin (eulerAngles210 m 0) * m 0 2 - Real.cos (eulerAngles210 m 0) * m 1 2)
      (Real.cos (eulerAngles210 m 0) * m 1 1 - Real.sin (eulerAngles210 m 0) * m 0 1) := rfl
  rcases hr0.eq_or_lt with hz | hpos
  · -- the singular attitude
    have hz' : r = 0 := hz.symm
    have h00 : m 0 0 = 0 := by nlinarith [mul_self_nonneg (m 0 0), mul_self_nonneg (m 1 0), h1, hz']
    have h10 : m 1 0 = 0 := by nlinarith [mul_self_nonneg (m 0 0), mul_self_nonneg (m 1 0), h1, hz']
    have h22 : m 2 2 = 0 := by nlinarith [mul_self_nonneg (m 2 2), mul_self_nonneg (m 2 1), hrr, hz']
    have h21 : m 2 1 = 0 := by nlinarith [mul_self_nonneg (m 2 2), mul_self_nonneg (m 2 1), hrr, hz']
    have hz0 : atan2 (m 1 0) (m 0 0) = 0 := by rw [h00, h10, atan2_zero]
    obtain ⟨b0, b1⟩ := a0 (by rw [hz0]; exact lt_irrefl 0)
    rw [hz0] at b0
    rw [b0, Real.sin_zero, Real.cos_zero] at a2
    have h3 : (1 * m 1 1 - 0 * m 0 1) * (1 * m 1 1 - 0 * m 0 1) + (0 * m 0 2 - 1 * m 1 2) * (0 * m 0 2 - 1 * m 1 2) = 1 * 1 := by
      have := E.r2
      rw [h10] at this
      linarith
    rw [b0, b1, a2, zyx_mul, cos_atan2 one_pos h2, sin_atan2 one_pos h2, cos_atan2 one_pos h3, sin_atan2 one_pos h3, Real.sin_zero, Real.cos_zero, hz']
    have k01 := E.k01
    have k02 := E.k02
    rw [h10, h21] at k02
    rw [h10, h22] at k01
    conv_rhs => rw [hfin]
    rw [h00, h10, h21, h22, ← k01, ← k02]
    congr 1
    ext i j
    fin_cases i <;> fin_cases j <;> simp <;> ring
  · have hden : ∀ (ε : ℝ), ε * ε = 1 → Real.sin (eulerAngles210 m 0) = ε * m 1 0 / r → Real.cos (eulerAngles210 m 0) = ε * m 0 0 / r →
        Real.cos (eulerAngles210 m 2) = ε * m 2 2 / r ∧ Real.sin (eulerAngles210 m 2) = ε * m 2 1 / r := by
      intro ε hε hs hc
      have e1 : ε * m 1 0 / r * m 0 2 - ε * m 0 0 / r * m 1 2 = ε * m 2 1 / r := by
        rw [← E.k21]; ring
      have e2 : ε * m 0 0 / r * m 1 1 - ε * m 1 0 / r * m 0 1 = ε * m 2 2 / r := by
        rw [← E.k22]; ring
      rw [hs, hc, e1, e2] at a2
      have h3 : ε * m 2 2 / r * (ε * m 2 2 / r) + ε * m 2 1 / r * (ε * m 2 1 / r) = 1 * 1 := by
        have : r ≠ 0 := hpos.ne'
        field_simp
        linear_combination (m 2 2 * m 2 2 + m 2 1 * m 2 1) * hε - hrr
      rw [a2, cos_atan2 one_pos h3, sin_atan2 one_pos h3, div_one, div_one]
      exact ⟨rfl, rfl⟩
    conv_rhs => rw [hfin]
    by_cases hneg : atan2 (m 1 0) (m 0 0) < 0
    · obtain ⟨b0, b1⟩ := a1 hneg
      have hc : Real.cos (eulerAngles210 m 0) = -1 * m 0 0 / r := by rw [b0, Real.cos_add_pi, cos_atan2 hpos h1]; ring
      have hs : Real.sin (eulerAngles210 m 0) = -1 * m 1 0 / r := by rw [b0, Real.sin_add_pi, sin_atan2 hpos h1]; ring
      obtain ⟨hx, hx'⟩ := hden (-1) (by norm_num) hs hc
      refine zyx_regular E hpos h1 (ε := -1) (by norm_num) hc hs ?_ ?_ hx hx'
      · rw [b1, cos_atan2 one_pos h2']; ring
      · rw [b1, sin_atan2 one_pos h2']; ring
    · obtain ⟨b0, b1⟩ := a0 hneg
      have hc : Real.cos (eulerAngles210 m 0) = 1 * m 0 0 / r := by rw [b0, cos_atan2 hpos h1]; ring
      have hs : Real.sin (eulerAngles210 m 0) = 1 * m 1 0 / r := by rw [b0, sin_atan2 hpos h1]; ring
      obtain ⟨hx, hx'⟩ := hden 1 (by norm_num) hs hc
      refine zyx_regular E hpos h1 (ε := 1) (by norm_num) hc hs ?_ ?_ hx hx'
      · rw [b1, cos_atan2 one_pos h2]; ring
      · rw [b1, sin_atan2 one_pos h2]; ring

/-- An upright base with heading `ψ`: the third angle is `0` or a half turn. -/
theorem euler_upright {ψ : ℝ} (h1 : -Real.pi < ψ) (h2 : ψ ≤ Real.pi) :
    eulerAngles210 (rotateWithZ ψ) 2 = if ψ < 0 then Real.pi else 0 := by
  have ha : atan2 (Real.sin ψ) (Real.cos ψ) = ψ := by
    unfold atan2
    have : (⟨Real.cos ψ, Real.sin ψ⟩ : ℂ) = Complex.cos ψ + Complex.sin ψ * Complex.I := by
      apply Complex.ext <;> simp [← Complex.ofReal_cos, ← Complex.ofReal_sin]
    rw [this]
    exact Complex.arg_cos_add_sin_mul_I ⟨h1, h2⟩
  have hcs := Real.cos_sq_add_sin_sq ψ
  simp only [eulerAngles210, rotateWithZ, Matrix.of_apply, cons_val', cons_val_zero, cons_val_one, cons_val, cons_val_fin_one]
  rw [ha]
  split_ifs with h
  · rw [Real.sin_add_pi, Real.cos_add_pi]
    have e1 : -Real.sin ψ * 0 - -Real.cos ψ * 0 = 0 := by ring
    have e2 : -Real.cos ψ * Real.cos ψ - -Real.sin ψ * -Real.sin ψ = -1 := by linear_combination -hcs
    rw [e1, e2]
    unfold atan2
    have : (⟨-1, 0⟩ : ℂ) = -1 := by apply Complex.ext <;> simp
    rw [this, Complex.arg_neg_one]
  · have e1 : Real.sin ψ * 0 - Real.cos ψ * 0 = 0 := by ring
    have e2 : Real.cos ψ * Real.cos ψ - Real.sin ψ * -Real.sin ψ = 1 := by linear_combination hcs
    rw [e1, e2]
    unfold atan2
    have : (⟨1, 0⟩ : ℂ) = 1 := by apply Complex.ext <;> simp
    rw [this, Complex.arg_one]

/-! ### turning about the vertical -/

theorem rotZ_orth (θ : ℝ) : (rotateWithZ θ)ᵀ * rotateWithZ θ = 1 := by
  have := Real.cos_sq_add_sin_sq θ
  ext i j
  fin_cases i <;> fin_cases j <;> simp [rotateWithZ, Matrix.mul_apply, Fin.sum_univ_three] <;> grind

theorem rotZ_back (a θ : ℝ) : rotateWithZ (-(a + θ)) * rotateWithZ θ = rotateWithZ (-a) := by
  have e : -a = -(a + θ) + θ := by ring
  have hc : Real.cos (-a) = Real.cos (-(a + θ)) * Real.cos θ - Real.sin (-(a + θ)) * Real.sin θ := by rw [e, Real.cos_add]
  have hs : Real.sin (-a) = Real.sin (-(a + θ)) * Real.cos θ + Real.cos (-(a + θ)) * Real.sin θ := by rw [e, Real.sin_add]
  ext i j
  fin_cases i <;> fin_cases j <;>
    simp only [rotateWithZ, Matrix.mul_apply, Fin.sum_univ_three, Matrix.of_apply, cons_val', cons_val_zero, cons_val_one, cons_val,
      cons_val_fin_one, Fin.zero_eta, Fin.mk_one, Fin.reduceFinMk] <;> (try rw [hc]) <;> (try rw [hs]) <;> ring

theorem rotate12_comp (P Q : Mat3) (F : Fin 12 → ℝ) : rotate12 P (rotate12 Q F) = rotate12 (P * Q) F := by
  have h : ∀ a b c : ℝ, ![(Q *ᵥ ![a, b, c]) 0, (Q *ᵥ ![a, b, c]) 1, (Q *ᵥ ![a, b, c]) 2] = Q *ᵥ ![a, b, c] := by
    intro a b c; ext i; fin_cases i <;> rfl
  have k : ∀ a b c : ℝ, P *ᵥ ![(Q *ᵥ ![a, b, c]) 0, (Q *ᵥ ![a, b, c]) 1, (Q *ᵥ ![a, b, c]) 2] = (P * Q) *ᵥ ![a, b, c] := by
    intro a b c; rw [h, mulVec_mulVec]
  unfold rotate12
  simp only [cons_val]
  rw [k, k, k, k]

theorem rotate12_turn (Q : Mat3) (F : Fin 12 → ℝ) : turnRows Q 12 *ᵥ F = rotate12 Q F := by
  ext r
  rw [turnRows_mulVec Q (by norm_num)]
  fin_cases r <;> simp [rotate12, mulVec, dotProduct, Fin.sum_univ_three]

/-- The redistributed forces turn with the robot if the angle used does. -/
theorem closedFormForce_turn (s : Fin 4 → Bool) (pos : List Vec3) (com d : Vec3) (yaw θ : ℝ) (F : Fin 12 → ℝ) :
    closedFormForce s (pos.map fun p => rotateWithZ θ *ᵥ p + d) (rotateWithZ θ *ᵥ com + d) (yaw + θ) (rotate12 (rotateWithZ θ) F)
      = (closedFormForce s pos com yaw F).map (rotate12 (rotateWithZ θ)) := by
  have hp : ∀ p : Vec3, rotateWithZ (-(yaw + θ)) *ᵥ (rotateWithZ θ *ᵥ p + d - (rotateWithZ θ *ᵥ com + d)) = rotateWithZ (-yaw) *ᵥ (p - com) := by
    intro p
    have : rotateWithZ θ *ᵥ p + d - (rotateWithZ θ *ᵥ com + d) = rotateWithZ θ *ᵥ (p - com) := by rw [mulVec_sub]; abel
    rw [this, mulVec_mulVec, rotZ_back]
  have hb : (rotateWithZ (-(yaw + θ)))ᵀ = rotateWithZ θ * (rotateWithZ (-yaw))ᵀ := by
    rw [← rotZ_back yaw θ, transpose_mul, ← Matrix.mul_assoc, mul_eq_one_comm.mp (rotZ_orth θ), Matrix.one_mul]
  unfold closedFormForce
  simp only [List.getElem?_map]
  rcases pos[0]? with _ | p1
  · rfl
  rcases pos[1]? with _ | p2
  · rfl
  simp only [Option.map_some, Option.bind_eq_bind, Option.bind_some, hp, rotate12_comp, rotZ_back]
  rcases contactRedistribute s dwbcParams (rotateWithZ (-yaw) *ᵥ (p1 - com)) (rotateWithZ (-yaw) *ᵥ (p2 - com))
    (rotate12 (rotateWithZ (-yaw)) F) with _ | out
  · rfl
  simp only [Option.bind_some, Option.pure_def, Option.map_some, hb, rotate12_comp]

/-- Only the positions relative to the centre of mass matter. -/
theorem closedFormForce_shift (s : Fin 4 → Bool) (pos : List Vec3) (com d : Vec3) (yaw : ℝ) (F : Fin 12 → ℝ) :
    closedFormForce s (pos.map (· + d)) (com + d) yaw F = closedFormForce s pos com yaw F := by
  have h : ∀ p : Vec3, p + d - (com + d) = p - com := fun p => add_sub_add_right_eq_sub p com d
  unfold closedFormForce
  rw [List.getElem?_map, List.getElem?_map]
  generalize pos[0]? = a
  generalize pos[1]? = b
  rcases a with _ | p1
  · simp
  rcases b with _ | p2
  · simp
  simp only [Option.map_some, Option.bind_eq_bind, Option.bind_some]
  rw [h, h]

section
variable {ι : Type*} [Fintype ι] [DecidableEq ι]

/-- The torque that brings the second wrench from `F` to `fc`. -/
noncomputable def closedApply (S : ContactSpace 12 ι) (f : CodNull S.W) (F fc : Fin 12 → ℝ) : Option (ι → ℝ) :=
  if h : 6 = f.k then
    match eigenInverse ((bottomRight S * f.V2ᵀ).submatrix id (Fin.cast h)) with
    | none => none
    | some X => some ((f.V2ᵀ.submatrix id (Fin.cast h) * X) *ᵥ
        fun i : Fin 6 => -F (⟨6 + i, by omega⟩ : Fin 12) + fc (⟨6 + i, by omega⟩ : Fin 12))
  else none

theorem closedFormTorque_eq (S : ContactSpace 12 ι) (f : CodNull S.W) (P : Fin 12 → ℝ) (s : Fin 4 → Bool)
    (pos : List Vec3) (com : Vec3) (yaw : ℝ) (τ : ι → ℝ) :
    closedFormTorque S f P s pos com yaw τ
      = (closedFormForce s pos com yaw (contactForce S P τ)).bind (closedApply S f (contactForce S P τ)) := by
  unfold closedFormTorque closedApply
  rcases h : closedFormForce s pos com yaw (contactForce S P τ) with _ | fc
  · simp only [h, Option.bind_none]
  · simp only [h, Option.bind_some]
    rfl

/-- The torque reaches the wrench asked for. -/
theorem closedApply_second {S : ContactSpace 12 ι} {f : CodNull S.W} {F fc : Fin 12 → ℝ} {τ : ι → ℝ} (h : closedApply S f F fc = some τ)
    (i : Fin 6) : (bottomRight S *ᵥ τ) i = -F ⟨6 + i, by omega⟩ + fc ⟨6 + i, by omega⟩ := by
  unfold closedApply at h
  split_ifs at h with hk
  rcases hX : eigenInverse ((bottomRight S * f.V2ᵀ).submatrix id (Fin.cast hk)) with _ | X
  · rw [hX] at h; simp at h
  rw [hX] at h
  simp only [Option.some.injEq] at h
  obtain ⟨hu, rfl⟩ := eigenInverse_eq_some.mp hX
  rw [← h, mulVec_mulVec, ← Matrix.mul_assoc]
  have : bottomRight S * f.V2ᵀ.submatrix id (Fin.cast hk) = (bottomRight S * f.V2ᵀ).submatrix id (Fin.cast hk) := rfl
  rw [this, Matrix.mul_nonsing_inv _ hu, one_mulVec]

/-- The lower right block of the turned robot. -/
theorem bottomRight_seen (U V : Matrix (Fin 6) (Fin 6) ℝ) (Q : Mat3) (S : ContactSpace 12 ι) :
    bottomRight (seenSpace U V (turnRows Q 12) S) = turnRows Q 6 * bottomRight S := by
  have hb : ∀ S : ContactSpace 12 ι, bottomRight S = (S.JcInvT.submatrix id Sum.inr).submatrix (fun i : Fin 6 => (⟨6 + i, by omega⟩ : Fin 12)) id :=
    fun S => rfl
  rw [hb, hb, rightCols_seen]
  ext i j
  have h1 : ∀ r, (turnRows Q 12 * S.JcInvT.submatrix id Sum.inr) r j = (turnRows Q 12 *ᵥ fun l => S.JcInvT l (Sum.inr j)) r := fun r => rfl
  have h2 : ∀ r, (turnRows Q 6 * (S.JcInvT.submatrix id Sum.inr).submatrix (fun i : Fin 6 => (⟨6 + i, by omega⟩ : Fin 12)) id) r j
      = (turnRows Q 6 *ᵥ fun l => S.JcInvT ⟨6 + l, by omega⟩ (Sum.inr j)) r := fun r => rfl
  rw [submatrix_apply, h2]
  change (turnRows Q 12 *ᵥ fun l => S.JcInvT l (Sum.inr j)) _ = _
  rw [turnRows_mulVec Q (by norm_num), turnRows_mulVec Q (by norm_num)]
  refine Finset.sum_congr rfl fun k _ => ?_
  congr 2
  · apply Fin.ext; simp only; omega
  · apply Fin.ext; simp only; omega

/-- The torque that brings the second wrench of the turned robot from `Q F` to `fc`. -/
theorem closedApply_seen {Q : Mat3} (hQ : Qᵀ * Q = 1) (U V : Matrix (Fin 6) (Fin 6) ℝ) (S : ContactSpace 12 ι) (f : CodNull S.W) (F fc : Fin 12 → ℝ) :
    closedApply (seenSpace U V (turnRows Q 12) S) f (turnRows Q 12 *ᵥ F) (turnRows Q 12 *ᵥ fc) = closedApply S f F fc := by
  have ho : (turnRows Q 6)ᵀ * turnRows Q 6 = 1 := turnRows_orth hQ (by norm_num)
  have ho' : turnRows Q 6 * (turnRows Q 6)ᵀ = 1 := mul_eq_one_comm.mp ho
  have hv : ∀ F : Fin 12 → ℝ, (fun i : Fin 6 => (turnRows Q 12 *ᵥ F) (⟨6 + i, by omega⟩ : Fin 12))
      = turnRows Q 6 *ᵥ fun i : Fin 6 => F (⟨6 + i, by omega⟩ : Fin 12) := by
    intro F
    ext i
    rw [turnRows_mulVec Q (by norm_num), turnRows_mulVec Q (by norm_num)]
    refine Finset.sum_congr rfl fun k _ => ?_
    congr 2
    · apply Fin.ext; simp only; omega
    · apply Fin.ext; simp only; omega
  unfold closedApply
  by_cases h : 6 = f.k
  swap
  · rw [dif_neg h, dif_neg h]
  rw [dif_pos h, dif_pos h, bottomRight_seen]
  have hm : (turnRows Q 6 * bottomRight S * f.V2ᵀ).submatrix id (Fin.cast h) = turnRows Q 6 * (bottomRight S * f.V2ᵀ).submatrix id (Fin.cast h) := by
    rw [Matrix.mul_assoc]; rfl
  rw [hm]
  set M := (bottomRight S * f.V2ᵀ).submatrix id (Fin.cast h) with hM
  have hd : IsUnit (turnRows Q 6 * M).det ↔ IsUnit M.det := by
    rw [det_mul]
    have : IsUnit (turnRows Q 6).det := isUnit_det_of_left_inverse ho
    exact IsUnit.mul_iff.trans (and_iff_right this)
  by_cases hu : IsUnit M.det
  · rw [eigenInverse_eq_some.mpr ⟨hu, rfl⟩, eigenInverse_eq_some.mpr ⟨hd.mpr hu, rfl⟩]
    simp only [Option.some.injEq]
    have e1 : (fun i : Fin 6 => -(turnRows Q 12 *ᵥ F) (⟨6 + i, by omega⟩ : Fin 12) + (turnRows Q 12 *ᵥ fc) (⟨6 + i, by omega⟩ : Fin 12))
        = turnRows Q 6 *ᵥ fun i : Fin 6 => -F (⟨6 + i, by omega⟩ : Fin 12) + fc (⟨6 + i, by omega⟩ : Fin 12) := by
      have : (fun i : Fin 6 => -F (⟨6 + i, by omega⟩ : Fin 12) + fc (⟨6 + i, by omega⟩ : Fin 12))
          = -(fun i : Fin 6 => F (⟨6 + i, by omega⟩ : Fin 12)) + fun i : Fin 6 => fc (⟨6 + i, by omega⟩ : Fin 12) := rfl
      rw [this, mulVec_add, mulVec_neg, ← hv, ← hv]
      rfl
    have e2 : (turnRows Q 6 * M)⁻¹ = M⁻¹ * (turnRows Q 6)ᵀ := by
      rw [Matrix.mul_inv_rev, inv_eq_left_inv ho]
    rw [e1, e2, mulVec_mulVec]
    have : f.V2ᵀ.submatrix id (Fin.cast h) * (M⁻¹ * (turnRows Q 6)ᵀ) * turnRows Q 6
        = f.V2ᵀ.submatrix id (Fin.cast h) * M⁻¹ * ((turnRows Q 6)ᵀ * turnRows Q 6) := by simp only [Matrix.mul_assoc]
    exact congrArg (· *ᵥ _) (this.trans (by rw [ho, Matrix.mul_one]))
  · rw [eigenInverse_eq_none.mpr hu, eigenInverse_eq_none.mpr (fun h => hu (hd.mp h))]

end

end Verif
