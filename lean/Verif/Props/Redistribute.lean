import Verif.Lemmas.Redistribute
import Verif.Lemmas.ConstraintRows

/-!
# C14: closed-form redistribution of two contact wrenches
-/
set_option linter.unusedSectionVars false

namespace Verif.Props
open Matrix Verif Verif.Spec Verif.Model

/-- wrench of foot 1 and foot 2 in a stacked pair -/
def foot1 (F : Fin 12 → ℝ) : Fin 6 → ℝ := ![F 0, F 1, F 2, F 3, F 4, F 5]
def foot2 (F : Fin 12 → ℝ) : Fin 6 → ℝ := ![F 6, F 7, F 8, F 9, F 10, F 11]

/-- C14.  Whenever a result is produced, the redistributed pair has the resultant of the input pair. -/
theorem C14_resultant {s : Fin 4 → Bool} {p : RedistParams} {P1 P2 : Fin 3 → ℝ} {F F' : Fin 12 → ℝ} {eta : ℝ}
    (h : contactRedistribute s p P1 P2 F = some (eta, F')) :
    SameResultant P1 P2 (foot1 F') (foot2 F') (foot1 F) (foot2 F) := by
  unfold contactRedistribute at h
  split at h
  · simp only [Option.some.injEq, Prod.mk.injEq] at h
    obtain ⟨rfl, rfl⟩ := h
    rename_i e _
    constructor
    · ext i
      fin_cases i <;> simp [fpart, foot1, foot2, splitForce, resultant] <;> ring
    · ext i
      fin_cases i <;>
        simp [fpart, mpart, foot1, foot2, splitForce, resultant, coefA, coefB, cross_apply] <;> ring
  · cases h

/-- C14.  The split ratio is within the requested range, or one half. -/
theorem C14_ratio {s : Fin 4 → Bool} {p : RedistParams} {P1 P2 : Fin 3 → ℝ} {F F' : Fin 12 → ℝ} {eta : ℝ}
    (h : contactRedistribute s p P1 P2 F = some (eta, F')) :
    (1 - p.etaCust ≤ eta ∧ eta ≤ p.etaCust) ∨ eta = 1 / 2 := by
  unfold contactRedistribute at h
  split at h
  · rename_i e he
    simp only [Option.some.injEq, Prod.mk.injEq] at h
    obtain ⟨rfl, -⟩ := h
    exact clamp_range he
  · cases h

/-- Meaning of the parameters: nonnegative sizes, friction and range. -/
structure RedistParams.Valid (p : RedistParams) : Prop where
  width : 0 < p.ratioY * p.footWidth
  length : 0 < p.ratioX * p.footLength
  mu : 0 ≤ p.mu
  half : 1 / 2 ≤ p.etaCust
  one : p.etaCust < 1

/-- C14.  A result is produced unless both the lateral moment arm of the resultant between the feet and the lateral
moment about foot 2 vanish (`0/0`). -/
theorem C14_finite_iff {p : RedistParams} (hp : RedistParams.Valid p) (s : Fin 4 → Bool) (P1 P2 : Fin 3 → ℝ)
    (F : Fin 12 → ℝ) :
    contactRedistribute s p P1 P2 F = none ↔
      coefA P1 P2 (resultant P1 P2 F) 0 = 0 ∧ coefB P2 (resultant P1 P2 F) 0 = 0 := by
  set R := resultant P1 P2 F with hR
  obtain ⟨lb, ub, hb, hl, hu, -⟩ := bounds_spec s (A := coefA P1 P2 R) (B := coefB P2 R)
    (coefC_nonneg hp.width.le hp.length.le hp.mu R) (1 - p.etaCust) p.etaCust
  have eA : (P1 2 - P2 2) * R 1 - (P1 1 - P2 1) * R 2 = coefA P1 P2 R 0 := rfl
  have eB : -R 3 - P2 2 * R 1 + P2 1 * R 2 = -coefB P2 R 0 := by simp [coefB]; ring
  have hn : contactRedistribute s p P1 P2 F = none ↔ ∀ e, splitRatio s p P1 P2 R ≠ .fin e := by
    unfold contactRedistribute
    rw [← hR]
    split
    · rename_i e he
      simp [he]
    · rename_i x
      constructor
      · intro _ e he
        exact x e he
      · intro _; rfl
  rw [hn]
  have hsr : splitRatio s p P1 P2 R
      = clampRatio p.etaCust (.fin lb, .fin ub) (Fl.div (s 3) (-coefB P2 R 0) (coefA P1 P2 R 0)) := by
    unfold splitRatio
    simp only [hb, eA, eB]
  rw [hsr]
  by_cases hA : coefA P1 P2 R 0 = 0
  · by_cases hB : coefB P2 R 0 = 0
    · have : Fl.div (s 3) (-coefB P2 R 0) (coefA P1 P2 R 0) = .nan := by simp [Fl.div, hA, hB]
      rw [this, clamp_nan]
      simp [hA, hB]
    · have : Fl.div (s 3) (-coefB P2 R 0) (coefA P1 P2 R 0) ≠ .nan := by simp [Fl.div, hA, hB]
      obtain ⟨e, he⟩ := clamp_fin p.etaCust lb ub this
      simp [he, hB]
  · have : Fl.div (s 3) (-coefB P2 R 0) (coefA P1 P2 R 0) ≠ .nan := by simp [Fl.div, hA]
    obtain ⟨e, he⟩ := clamp_fin p.etaCust lb ub this
    simp [he, hA]

/-- Neither foot tips (soles scaled by the safety ratios) nor exceeds the yaw-moment bound. -/
def BothFeetHold (p : RedistParams) (F : Fin 12 → ℝ) : Prop :=
  ∀ w ∈ [foot1 F, foot2 F],
    NoTip (p.ratioX * p.footLength / 2) (p.ratioY * p.footWidth / 2) w ∧ |w 5| ≤ p.mu * press w

/-- Both feet hold iff the three inequalities in `eta` do. -/
theorem bothFeetHold_iff {p : RedistParams} (hp : RedistParams.Valid p) (P1 P2 : Fin 3 → ℝ) {R : Fin 6 → ℝ} (hpress : R 2 < 0) :
    ∀ e, 0 < e → e < 1 → (BothFeetHold p (splitForce P1 P2 R e) ↔
      ∀ i, |coefA P1 P2 R i * e + coefB P2 R i| ≤ coefC p R i) := by
  have hw := hp.width
  have hl := hp.length
  have habs : |R 2| = -R 2 := abs_of_neg hpress
  intro e h0 h1
  have aux : ∀ (a b k t : ℝ), 0 < t → (|t * (a * e + b)| ≤ k * (t * -R 2) ↔ |a * e + b| ≤ k * |R 2|) := by
    intro a b k t ht
    rw [abs_mul, abs_of_pos ht, habs, show k * (t * -R 2) = t * (k * -R 2) by ring]
    exact mul_le_mul_iff_right₀ ht
  have h1' : 0 < 1 - e := by linarith
  unfold BothFeetHold
  rw [forall_fin_three]
  simp only [List.mem_cons, List.not_mem_nil, or_false, forall_eq_or_imp, forall_eq]
  rw [noTip_iff (by linarith) (by linarith), noTip_iff (by linarith) (by linarith)]
  have p1 : press (foot1 (splitForce P1 P2 R e)) = e * -R 2 := by simp [press, foot1, splitForce]
  have p2 : press (foot2 (splitForce P1 P2 R e)) = (1 - e) * -R 2 := by simp [press, foot2, splitForce]
  have q3 : foot1 (splitForce P1 P2 R e) 3 = e * (coefA P1 P2 R 0 * e + coefB P2 R 0) := by
    simp [foot1, splitForce]; ring
  have q4 : foot1 (splitForce P1 P2 R e) 4 = e * (coefA P1 P2 R 1 * e + coefB P2 R 1) := by
    simp [foot1, splitForce]; ring
  have q5 : foot1 (splitForce P1 P2 R e) 5 = e * (coefA P1 P2 R 2 * e + coefB P2 R 2) := by
    simp [foot1, splitForce]; ring
  have r3 : foot2 (splitForce P1 P2 R e) 3 = (1 - e) * (coefA P1 P2 R 0 * e + coefB P2 R 0) := by
    simp [foot2, splitForce]
  have r4 : foot2 (splitForce P1 P2 R e) 4 = (1 - e) * (coefA P1 P2 R 1 * e + coefB P2 R 1) := by
    simp [foot2, splitForce]
  have r5 : foot2 (splitForce P1 P2 R e) 5 = (1 - e) * (coefA P1 P2 R 2 * e + coefB P2 R 2) := by
    simp [foot2, splitForce]
  rw [p1, p2, q3, q4, q5, r3, r4, r5, aux _ _ _ _ h0, aux _ _ _ _ h0, aux _ _ _ _ h0, aux _ _ _ _ h1',
    aux _ _ _ _ h1', aux _ _ _ _ h1']
  simp only [coefC, cons_val_zero, cons_val_one, cons_val]
  tauto

/-- C14.  If some split in the requested range keeps both feet, the returned split does, too. -/
theorem C14_safe {p : RedistParams} (hp : RedistParams.Valid p) {s : Fin 4 → Bool} {P1 P2 : Fin 3 → ℝ}
    {F F' : Fin 12 → ℝ} {eta : ℝ} (hpress : (resultant P1 P2 F) 2 < 0)
    {η₀ : ℝ} (hη : 1 - p.etaCust ≤ η₀ ∧ η₀ ≤ p.etaCust)
    (h₀ : BothFeetHold p (splitForce P1 P2 (resultant P1 P2 F) η₀))
    (h : contactRedistribute s p P1 P2 F = some (eta, F')) :
    BothFeetHold p F' ∧ 1 - p.etaCust ≤ eta ∧ eta ≤ p.etaCust := by
  set R := resultant P1 P2 F with hR
  have key := bothFeetHold_iff hp P1 P2 hpress
  have hh := hp.half
  have ho := hp.one
  have h₀' := (key η₀ (by linarith [hη.1]) (by linarith [hη.2])).mp h₀
  obtain ⟨lb, ub, hb, hlb, hub, hiff⟩ := bounds_spec s (A := coefA P1 P2 R) (B := coefB P2 R)
    (coefC_nonneg hp.width.le hp.length.le hp.mu R) (1 - p.etaCust) p.etaCust
  obtain ⟨m1, m2⟩ := (hiff η₀).mpr ⟨hη, fun i _ => h₀' i⟩
  unfold contactRedistribute at h
  rw [← hR] at h
  split at h
  · rename_i e he
    simp only [Option.some.injEq, Prod.mk.injEq] at h
    obtain ⟨rfl, rfl⟩ := h
    unfold splitRatio at he
    simp only [hb] at he
    have hin' := clamp_mem hlb hub (m1.trans m2) he
    have hr := (hiff e).mp hin'
    refine ⟨(key e (by linarith [hr.1.1]) (by linarith [hr.1.2])).mpr fun i => ?_, hr.1⟩
    by_cases hA : coefA P1 P2 R i = 0
    · have := h₀' i
      rw [hA, zero_mul] at this ⊢
      exact this
    · exact hr.2 i hA
  · cases h

/-! ### The hypotheses are met by a standing robot with feet 0.2 apart -/

noncomputable def exParams : RedistParams :=
  { etaCust := 99 / 100, footLength := 26 / 100, footWidth := 1 / 10, mu := 1, ratioX := 9 / 10, ratioY := 9 / 10 }

example : RedistParams.Valid exParams := by
  constructor <;> norm_num [exParams]

/-- equal load on both feet: the input itself is a safe split (`η₀ = 1/2`), and a result is produced -/
example (s : Fin 4 → Bool) :
    let P1 : Fin 3 → ℝ := ![0, 1 / 10, -1]
    let P2 : Fin 3 → ℝ := ![0, -1 / 10, -1]
    let F : Fin 12 → ℝ := ![0, 0, -1, 0, 0, 0, 0, 0, -1, 0, 0, 0]
    (resultant P1 P2 F) 2 < 0 ∧ BothFeetHold exParams (splitForce P1 P2 (resultant P1 P2 F) (1 / 2)) ∧
      contactRedistribute s exParams P1 P2 F ≠ none := by
  intro P1 P2 F
  refine ⟨by simp [resultant, F], ?_, ?_⟩
  · have e : splitForce P1 P2 (resultant P1 P2 F) (1 / 2) = F := by
      ext i
      fin_cases i <;> simp [splitForce, resultant, coefA, coefB, P1, P2, F] <;> norm_num
    rw [e]
    intro w hw
    have : w = ![0, 0, -1, 0, 0, 0] := by
      simp only [List.mem_cons, List.not_mem_nil, or_false] at hw
      rcases hw with rfl | rfl <;> (ext i; fin_cases i <;> simp [foot1, foot2, F])
    subst this
    rw [noTip_iff (by norm_num [exParams]) (by norm_num [exParams])]
    simp [press, exParams]
    norm_num
  · rw [Ne, C14_finite_iff (by constructor <;> norm_num [exParams])]
    simp [coefA, resultant, P1, P2, F]
    norm_num

end Verif.Props
