import Verif.Model.HqpWarm
import Verif.Lemmas.HQPExists
import Mathlib.Logic.Equiv.Fin.Basic

/-! # Lemmas on the persistent problem data of a hierarchy -/

set_option linter.unusedSectionVars false

namespace Verif.Lemmas
open Matrix Verif Verif.Spec Verif.Model

variable {V : Type} [Fintype V] [DecidableEq V]

theorem rowsBefore_nil : rowsBefore ([] : List (SizedAnswer V)) = 0 := rfl

theorem rowsBefore_cons (d : SizedAnswer V) (ds : List (SizedAnswer V)) : rowsBefore (d :: ds) = d.l.p + rowsBefore ds := by
  simp [rowsBefore]

theorem rowsBefore_append (ds es : List (SizedAnswer V)) : rowsBefore (ds ++ es) = rowsBefore ds + rowsBefore es := by
  simp [rowsBefore]

/-! ## Block writes -/

theorem setBlock_in {M : ℕ → ℕ → ℝ} {r c h w : ℕ} {B : Matrix (Fin h) (Fin w) ℝ} (i : Fin h) (j : Fin w) :
    setBlock M r c B (r + i) (c + j) = B i j := by
  rw [setBlock, dif_pos (by omega)]
  congr <;> simp

theorem setBlock_out {M : ℕ → ℕ → ℝ} {r c h w : ℕ} {B : Matrix (Fin h) (Fin w) ℝ} {i j : ℕ}
    (hb : ¬((r ≤ i ∧ i < r + h) ∧ c ≤ j ∧ j < c + w)) : setBlock M r c B i j = M i j := by rw [setBlock, dif_neg hb]

theorem setBlock_congr {M M' : ℕ → ℕ → ℝ} {r c h w : ℕ} {B : Matrix (Fin h) (Fin w) ℝ} {i j : ℕ}
    (hM : M i j = M' i j ∨ ((r ≤ i ∧ i < r + h) ∧ c ≤ j ∧ j < c + w)) : setBlock M r c B i j = setBlock M' r c B i j := by
  rw [setBlock, setBlock]
  split_ifs with hb
  · rfl
  · exact hM.resolve_right hb

theorem setSeg_in {x : ℕ → ℝ} {r h : ℕ} {b : Fin h → ℝ} (i : Fin h) : setSeg x r b (r + i) = b i := by
  rw [setSeg, dif_pos (by omega)]
  congr; simp

theorem setSeg_out {x : ℕ → ℝ} {r h : ℕ} {b : Fin h → ℝ} {i : ℕ} (hb : ¬(r ≤ i ∧ i < r + h)) : setSeg x r b i = x i := by
  rw [setSeg, dif_neg hb]

theorem setSeg_congr {x x' : ℕ → ℝ} {r h : ℕ} {b : Fin h → ℝ} {i : ℕ} (hx : x i = x' i ∨ (r ≤ i ∧ i < r + h)) :
    setSeg x r b i = setSeg x' r b i := by
  rw [setSeg, setSeg]
  split_ifs with hb
  · rfl
  · exact hx.resolve_right hb

theorem earlierRows_congr (Z : Basis V) (ds : List (SizedAnswer V)) {i j : ℕ} : ∀ {M M' : ℕ → ℕ → ℝ} {r : ℕ},
    (M i j = M' i j ∨ (r ≤ i ∧ i < r + rowsBefore ds ∧ j < Z.1)) → earlierRows Z M r ds i j = earlierRows Z M' r ds i j := by
  induction ds with
  | nil =>
    intro M M' r h
    simp only [rowsBefore_nil] at h
    exact h.resolve_right (by omega)
  | cons d ds ih =>
    intro M M' r h
    rw [rowsBefore_cons] at h
    refine ih ?_
    by_cases hb : (r ≤ i ∧ i < r + d.l.p) ∧ 0 ≤ j ∧ j < 0 + Z.1
    · exact .inl (setBlock_congr (.inr hb))
    · rcases h with h | h
      · exact .inl (setBlock_congr (.inl h))
      · right; omega

theorem earlierRows_out (Z : Basis V) (ds : List (SizedAnswer V)) {i j : ℕ} : ∀ {M : ℕ → ℕ → ℝ} {r : ℕ},
    ¬(r ≤ i ∧ i < r + rowsBefore ds ∧ j < Z.1) → earlierRows Z M r ds i j = M i j := by
  induction ds with
  | nil => intro M r _; rfl
  | cons d ds ih =>
    intro M r h
    rw [rowsBefore_cons] at h
    rw [earlierRows, ih (by omega), setBlock_out (by omega)]

theorem earlierRows_in (Z : Basis V) (pre : List (SizedAnswer V)) (d : SizedAnswer V) (post : List (SizedAnswer V)) (t : Fin d.l.p)
    (j : Fin Z.1) : ∀ {M : ℕ → ℕ → ℝ} {r : ℕ},
    earlierRows Z M r (pre ++ d :: post) (r + rowsBefore pre + t) j = (d.l.A * Z.2) t j := by
  induction pre with
  | nil =>
    intro M r
    rw [List.nil_append, earlierRows, rowsBefore_nil, earlierRows_out _ _ (by omega)]
    have := setBlock_in (M := M) (r := r) (c := 0) (B := d.l.A * Z.2) t j
    simpa using this
  | cons e pre ih =>
    intro M r
    rw [List.cons_append, earlierRows, rowsBefore_cons, ← add_assoc]
    exact ih

theorem earlierBounds_congr (y : V → ℝ) (ds : List (SizedAnswer V)) {i : ℕ} : ∀ {x x' : ℕ → ℝ} {r : ℕ},
    (x i = x' i ∨ (r ≤ i ∧ i < r + rowsBefore ds)) → earlierBounds y x r ds i = earlierBounds y x' r ds i := by
  induction ds with
  | nil =>
    intro M M' r h
    simp only [rowsBefore_nil] at h
    exact h.resolve_right (by omega)
  | cons d ds ih =>
    intro M M' r h
    rw [rowsBefore_cons] at h
    refine ih ?_
    by_cases hb : r ≤ i ∧ i < r + d.l.p
    · exact .inl (setSeg_congr (.inr hb))
    · rcases h with h | h
      · exact .inl (setSeg_congr (.inl h))
      · right; omega

theorem earlierBounds_out (y : V → ℝ) (ds : List (SizedAnswer V)) {i : ℕ} : ∀ {x : ℕ → ℝ} {r : ℕ},
    ¬(r ≤ i ∧ i < r + rowsBefore ds) → earlierBounds y x r ds i = x i := by
  induction ds with
  | nil => intro M r _; rfl
  | cons d ds ih =>
    intro M r h
    rw [rowsBefore_cons] at h
    rw [earlierBounds, ih (by omega), setSeg_out (by omega)]

theorem earlierBounds_in (y : V → ℝ) (pre : List (SizedAnswer V)) (d : SizedAnswer V) (post : List (SizedAnswer V)) (t : Fin d.l.p) :
    ∀ {x : ℕ → ℝ} {r : ℕ},
    earlierBounds y x r (pre ++ d :: post) (r + rowsBefore pre + t) = (-(d.l.A *ᵥ y) + d.v - d.l.a) t := by
  induction pre with
  | nil =>
    intro x r
    rw [List.nil_append, earlierBounds, rowsBefore_nil, earlierBounds_out _ _ (by omega)]
    simpa using setSeg_in (x := x) (r := r) (b := -(d.l.A *ᵥ y) + d.v - d.l.a) t
  | cons e pre ih =>
    intro M r
    rw [List.cons_append, earlierBounds, rowsBefore_cons, ← add_assoc]
    exact ih

/-- every row number belongs to one of the levels -/
theorem rowsBefore_split (ds : List (SizedAnswer V)) : ∀ {i : ℕ}, i < rowsBefore ds →
    ∃ pre d post, ds = pre ++ d :: post ∧ ∃ t : Fin d.l.p, i = rowsBefore pre + t := by
  induction ds with
  | nil => intro i h; simp [rowsBefore_nil] at h
  | cons d ds ih =>
    intro i h
    rw [rowsBefore_cons] at h
    by_cases hi : i < d.l.p
    · exact ⟨[], d, ds, rfl, ⟨i, hi⟩, by simp [rowsBefore_nil]⟩
    · obtain ⟨pre, e, post, rfl, t, ht⟩ := ih (i := i - d.l.p) (by omega)
      exact ⟨d :: pre, e, post, rfl, t, by rw [rowsBefore_cons]; omega⟩

/-! ## Clean data -/

/-- The members have the sizes of a level with `k` null-space directions, `p` inequalities and `b` rows before it, and are zero wherever
such a level does not write. -/
structure Clean (k p b : ℕ) (s : QpBuf) : Prop where
  nv : s.nv = k + p
  nc : s.nc = p + b
  H : ∀ i j, ¬((i < k ∧ j < k) ∨ ((k ≤ i ∧ i < k + p) ∧ k ≤ j ∧ j < k + p)) → s.H i j = 0
  g : ∀ i, ¬ i < k + p → s.g i = 0
  A : ∀ i j, ¬((i < p + b ∧ j < k) ∨ (i < p ∧ k ≤ j ∧ j < k + p)) → s.A i j = 0
  ub : ∀ i, ¬ i < p + b → s.ub i = 0

theorem clean_zero (k p b : ℕ) : Clean k p b (.zero (k + p) (p + b)) :=
  ⟨rfl, rfl, fun _ _ _ => rfl, fun _ _ => rfl, fun _ _ _ => rfl, fun _ _ => rfl⟩

theorem fillBuf_clean {k p b : ℕ} {s : QpBuf} (hs : Clean k p b s) (Z : Basis V) (y : V → ℝ) (done : List (SizedAnswer V))
    (l : SizedLevel V) (hk : Z.1 = k) (hp : l.p = p) (hb : rowsBefore done = b) :
    ∃ s', fillBuf s Z y done l = some s' ∧ fillBuf (.zero (k + p) (p + b)) Z y done l = some s' ∧ Clean k p b s' := by
  subst hk hp hb
  obtain ⟨nv, nc, H, g, A, ub⟩ := s
  obtain ⟨rfl, rfl, hH, hg, hA, hub⟩ := hs
  simp only at hH hg hA hub
  have e1 : Z.1 + l.p - l.p = Z.1 := by omega
  refine ⟨_, rfl.trans (if_pos ⟨by simp, by simp, le_rfl⟩), ?_, ?_⟩
  · refine (if_pos ⟨by simp [QpBuf.zero], by simp [QpBuf.zero], le_rfl⟩).trans ?_
    simp only [QpBuf.zero, e1, Option.some.injEq, QpBuf.mk.injEq, true_and]
    refine ⟨?_, ?_, ?_, ?_⟩
    · funext i j
      refine setBlock_congr ?_
      by_cases h1 : (0 ≤ i ∧ i < 0 + Z.1) ∧ 0 ≤ j ∧ j < 0 + Z.1
      · exact .inr h1
      · left
        refine setBlock_congr ?_
        by_cases h2 : (Z.1 ≤ i ∧ i < Z.1 + l.p) ∧ Z.1 ≤ j ∧ j < Z.1 + l.p
        · exact .inr h2
        · left; exact (hH i j (by omega)).symm
    · funext i
      refine setSeg_congr ?_
      by_cases h1 : 0 ≤ i ∧ i < 0 + Z.1
      · exact .inr h1
      · left
        refine setSeg_congr ?_
        by_cases h2 : Z.1 ≤ i ∧ i < Z.1 + l.p
        · exact .inr h2
        · left; exact (hg i (by omega)).symm
    · funext i j
      refine earlierRows_congr _ _ ?_
      by_cases h0 : l.p ≤ i ∧ i < l.p + rowsBefore done ∧ j < Z.1
      · exact .inr h0
      left
      refine setBlock_congr ?_
      by_cases h1 : (0 ≤ i ∧ i < 0 + l.p) ∧ Z.1 ≤ j ∧ j < Z.1 + l.p
      · exact .inr h1
      left
      refine setBlock_congr ?_
      by_cases h2 : (0 ≤ i ∧ i < 0 + l.p) ∧ 0 ≤ j ∧ j < 0 + Z.1
      · exact .inr h2
      left
      exact (hA i j (by omega)).symm
    · funext i
      refine earlierBounds_congr _ _ ?_
      by_cases h0 : l.p ≤ i ∧ i < l.p + rowsBefore done
      · exact .inr h0
      left
      refine setSeg_congr ?_
      by_cases h1 : 0 ≤ i ∧ i < 0 + l.p
      · exact .inr h1
      left
      exact (hub i (by omega)).symm
  · refine ⟨rfl, rfl, ?_, ?_, ?_, ?_⟩
    · intro i j h
      simp only [e1]
      rw [setBlock_out (by omega), setBlock_out (by omega), hH i j h]
    · intro i h
      simp only [e1]
      rw [setSeg_out (by omega), setSeg_out (by omega), hg i h]
    · intro i j h
      simp only [e1]
      rw [earlierRows_out _ _ (by omega), setBlock_out (by omega), setBlock_out (by omega), hA i j h]
    · intro i h
      simp only
      rw [earlierBounds_out _ _ (by omega), setSeg_out (by omega), hub i h]

/-! ## The problem posed from zero data is the problem of the level -/

/-- the members after the block writes into zero data -/
noncomputable def coldBuf (Z : Basis V) (y : V → ℝ) (done : List (SizedAnswer V)) (l : SizedLevel V) : QpBuf :=
  let T := l.B * Z.2
  { nv := Z.1 + l.p, nc := l.p + rowsBefore done
    H := setBlock (setBlock 0 Z.1 Z.1 (1 : Matrix (Fin l.p) (Fin l.p) ℝ)) 0 0
      (Tᵀ * T + l.H.elim 0 fun H => Z.2ᵀ * H * Z.2)
    g := setSeg (setSeg 0 Z.1 (0 : Fin l.p → ℝ)) 0
      (Tᵀ *ᵥ (l.B *ᵥ y + l.b) + l.H.elim 0 fun H => (Z.2ᵀ * H) *ᵥ y)
    A := earlierRows Z (setBlock (setBlock 0 0 0 (l.A * Z.2)) 0 Z.1 (-1 : Matrix (Fin l.p) (Fin l.p) ℝ)) l.p done
    ub := earlierBounds y (setSeg 0 0 (-(l.A *ᵥ y) - l.a)) l.p done }

theorem fillBuf_zero (Z : Basis V) (y : V → ℝ) (done : List (SizedAnswer V)) (l : SizedLevel V) :
    fillBuf (.zero (Z.1 + l.p) (l.p + rowsBefore done)) Z y done l = some (coldBuf Z y done l) := by
  rw [fillBuf, if_pos ⟨by simp [QpBuf.zero], by simp [QpBuf.zero], le_rfl⟩]
  simp [coldBuf, QpBuf.zero]

theorem cost_reindex {X Y : Type} [Fintype X] [Fintype Y] (e : X ≃ Y) (d : LeQP X) (d' : LeQP Y)
    (hH : ∀ i j, d'.H (e i) (e j) = d.H i j) (hg : ∀ i, d'.g (e i) = d.g i) (x : Y → ℝ) : d'.cost x = d.cost (x ∘ e) := by
  simp only [LeQP.cost, dotProduct, mulVec, Function.comp_apply]
  rw [← Equiv.sum_comp e, ← Equiv.sum_comp e]
  simp only [hg]
  congr 2
  refine Finset.sum_congr rfl fun i _ => ?_
  rw [← Equiv.sum_comp e]
  simp only [hH]

/-- where a variable of the level's problem is stored -/
abbrev place (k p : ℕ) : Fin k ⊕ Fin p ≃ Fin (k + p) := finSumFinEquiv

theorem coldBuf_H (Z : Basis V) (y : V → ℝ) (done : List (SizedAnswer V)) (l : SizedLevel V) (i j : Fin Z.1 ⊕ Fin l.p) :
    (coldBuf Z y done l).H (place Z.1 l.p i) (place Z.1 l.p j) = (levelQP Z y (done.map (·.toAnswer)) l.toLevel).H i j := by
  simp only [coldBuf]
  rcases i with i | i <;> rcases j with j | j
  · have := setBlock_in (M := setBlock 0 Z.1 Z.1 (1 : Matrix (Fin l.p) (Fin l.p) ℝ)) (r := 0) (c := 0)
      (B := (l.B * Z.2)ᵀ * (l.B * Z.2) + l.H.elim 0 fun H => Z.2ᵀ * H * Z.2) i j
    simp only [zero_add] at this
    simp only [finSumFinEquiv_apply_left, Fin.val_castAdd]
    rw [this]
    rfl
  · rw [setBlock_out (by simp), setBlock_out (by simp)]
    rfl
  · rw [setBlock_out (by simp), setBlock_out (by simp)]
    rfl
  · rw [setBlock_out (by simp)]
    have := setBlock_in (M := 0) (r := Z.1) (c := Z.1) (B := (1 : Matrix (Fin l.p) (Fin l.p) ℝ)) i j
    simp only [finSumFinEquiv_apply_right, Fin.val_natAdd]
    rw [this]
    by_cases h : i = j
    · subst h
      rw [one_apply_eq]
      exact (@one_apply_eq (Fin l.p) ℝ (Classical.decEq _) _ _ i).symm
    · rw [one_apply_ne h]
      exact (@one_apply_ne (Fin l.p) ℝ (Classical.decEq _) _ _ i j h).symm

theorem coldBuf_g (Z : Basis V) (y : V → ℝ) (done : List (SizedAnswer V)) (l : SizedLevel V) (i : Fin Z.1 ⊕ Fin l.p) :
    (coldBuf Z y done l).g (place Z.1 l.p i) = (levelQP Z y (done.map (·.toAnswer)) l.toLevel).g i := by
  simp only [coldBuf]
  rcases i with i | i
  · have := setSeg_in (x := setSeg 0 Z.1 (0 : Fin l.p → ℝ)) (r := 0)
      (b := (l.B * Z.2)ᵀ *ᵥ (l.B *ᵥ y + l.b) + l.H.elim 0 fun H => (Z.2ᵀ * H) *ᵥ y) i
    simp only [zero_add] at this
    simp only [finSumFinEquiv_apply_left, Fin.val_castAdd]
    rw [this]
    rfl
  · rw [setSeg_out (by simp)]
    have := setSeg_in (x := 0) (r := Z.1) (b := (0 : Fin l.p → ℝ)) i
    simp only [finSumFinEquiv_apply_right, Fin.val_natAdd]
    rw [this]
    rfl

theorem coldBuf_cost (Z : Basis V) (y : V → ℝ) (done : List (SizedAnswer V)) (l : SizedLevel V) (x : Fin (Z.1 + l.p) → ℝ) :
    (coldBuf Z y done l).qp.cost x = (levelQP Z y (done.map (·.toAnswer)) l.toLevel).cost (x ∘ place Z.1 l.p) :=
  cost_reindex (place Z.1 l.p) (levelQP Z y (done.map (·.toAnswer)) l.toLevel) (coldBuf Z y done l).qp
    (coldBuf_H Z y done l) (coldBuf_g Z y done l) x

theorem sum_place {k p : ℕ} (f : Fin (k + p) → ℝ) : ∑ i, f i = (∑ i : Fin k, f (place k p (.inl i))) + ∑ i : Fin p, f (place k p (.inr i)) := by
  rw [← Equiv.sum_comp (place k p), Fintype.sum_sum_type]

theorem coldBuf_feasible (Z : Basis V) (y : V → ℝ) (done : List (SizedAnswer V)) (l : SizedLevel V) (x : Fin (Z.1 + l.p) → ℝ) :
    (coldBuf Z y done l).qp.Feasible x ↔ (levelQP Z y (done.map (·.toAnswer)) l.toLevel).Feasible (x ∘ place Z.1 l.p) := by
  rw [levelQP_feasible_iff]
  set u : Fin Z.1 → ℝ := (x ∘ place Z.1 l.p) ∘ Sum.inl with hu
  have hval : ∀ {p : ℕ} (A : Matrix (Fin p) V ℝ) (r : Fin p), ∑ i, (A * Z.2) r i * u i = (A *ᵥ (Z.2 *ᵥ u)) r := by
    intro p A r
    rw [mulVec_mulVec]; rfl
  have own : ∀ r : Fin l.p, (∑ i : Fin (Z.1 + l.p), (coldBuf Z y done l).A r i * x i ≤ (coldBuf Z y done l).ub r ↔
      (l.A *ᵥ (y + Z.2 *ᵥ u)) r + l.a r ≤ x (place Z.1 l.p (Sum.inr r))) := by
    intro r
    have h1 : ∀ i : Fin Z.1, (coldBuf Z y done l).A r (place Z.1 l.p (.inl i)) = (l.A * Z.2) r i := by
      intro i
      simp only [coldBuf]
      rw [earlierRows_out _ _ (by omega), setBlock_out (by simp)]
      simpa using setBlock_in (M := 0) (r := 0) (c := 0) (B := l.A * Z.2) r i
    have h2 : ∀ i : Fin l.p, (coldBuf Z y done l).A r (place Z.1 l.p (.inr i)) = -(if r = i then 1 else 0) := by
      intro i
      simp only [coldBuf]
      rw [earlierRows_out _ _ (by simp)]
      have := setBlock_in (M := setBlock 0 0 0 (l.A * Z.2)) (r := 0) (c := Z.1) (B := (-1 : Matrix (Fin l.p) (Fin l.p) ℝ)) r i
      simp only [zero_add] at this
      simp only [finSumFinEquiv_apply_right, Fin.val_natAdd]
      rw [this]
      simp [one_apply]
    have h3 : (coldBuf Z y done l).ub r = -(l.A *ᵥ y) r - l.a r := by
      simp only [coldBuf]
      rw [earlierBounds_out _ _ (by omega)]
      simpa using setSeg_in (x := 0) (r := 0) (b := -(l.A *ᵥ y) - l.a) r
    rw [sum_place]
    simp only [h1, h2, h3, neg_mul, ite_mul, one_mul, zero_mul, Finset.sum_neg_distrib, Finset.sum_ite_eq, Finset.mem_univ, if_true]
    have h4 : ∑ i, (l.A * Z.2) r i * x (place Z.1 l.p (.inl i)) = (l.A *ᵥ (Z.2 *ᵥ u)) r := hval l.A r
    rw [h4]
    rw [mulVec_add, Pi.add_apply]
    constructor <;> intro h <;> linarith
  have prev : ∀ pre d post, done = pre ++ d :: post → ∀ t : Fin d.l.p,
      (∑ i : Fin (Z.1 + l.p), (coldBuf Z y done l).A (l.p + rowsBefore pre + t) i * x i ≤ (coldBuf Z y done l).ub (l.p + rowsBefore pre + t) ↔
      (d.l.A *ᵥ (y + Z.2 *ᵥ u)) t + d.l.a t ≤ d.v t) := by
    rintro pre d post rfl t
    have h1 : ∀ i : Fin Z.1, (coldBuf Z y (pre ++ d :: post) l).A (l.p + rowsBefore pre + t) (place Z.1 l.p (.inl i)) = (d.l.A * Z.2) t i := by
      intro i
      simp only [coldBuf, finSumFinEquiv_apply_left, Fin.val_castAdd]
      exact earlierRows_in Z pre d post t i
    have h2 : ∀ i : Fin l.p, (coldBuf Z y (pre ++ d :: post) l).A (l.p + rowsBefore pre + t) (place Z.1 l.p (.inr i)) = 0 := by
      intro i
      simp only [coldBuf]
      rw [earlierRows_out _ _ (by simp), setBlock_out (by omega), setBlock_out (by omega)]
      rfl
    have h3 : (coldBuf Z y (pre ++ d :: post) l).ub (l.p + rowsBefore pre + t) = (-(d.l.A *ᵥ y) + d.v - d.l.a) t := earlierBounds_in y pre d post t
    rw [sum_place]
    simp only [h1, h2, h3, zero_mul, Finset.sum_const_zero, add_zero]
    have h4 : ∑ i, (d.l.A * Z.2) t i * x (place Z.1 l.p (.inl i)) = (d.l.A *ᵥ (Z.2 *ᵥ u)) t := hval d.l.A t
    rw [h4]
    rw [mulVec_add, Pi.add_apply, Pi.sub_apply, Pi.add_apply, Pi.neg_apply]
    constructor <;> intro h <;> linarith
  constructor
  · intro h
    refine ⟨fun (r : Fin l.p) => (own r).mp (h ⟨r, by simp only [coldBuf]; omega⟩), ?_⟩
    intro d' hd'
    obtain ⟨d, hd, rfl⟩ := List.mem_map.mp hd'
    intro (t : Fin d.l.p)
    obtain ⟨pre, post, hsplit⟩ := List.append_of_mem hd
    refine (prev pre d post hsplit t).mp (h ⟨l.p + rowsBefore pre + t, ?_⟩)
    have ht : (t : ℕ) < d.l.p := t.2
    simp only [coldBuf, hsplit, rowsBefore_append, rowsBefore_cons]
    omega
  · rintro ⟨h1, h2⟩ ⟨r, hr⟩
    simp only [coldBuf] at hr
    by_cases hrp : r < l.p
    · exact (own ⟨r, hrp⟩).mpr (h1 ⟨r, hrp⟩)
    · obtain ⟨pre, d, post, hsplit, t, ht⟩ := rowsBefore_split done (i := r - l.p) (by omega)
      obtain rfl : r = l.p + rowsBefore pre + t := by omega
      exact (prev pre d post hsplit t).mpr (h2 d.toAnswer (List.mem_map.mpr ⟨d, by simp [hsplit], rfl⟩) t)

/-- the two parts of a vector of variables, as one -/
def joinVars {k p : ℕ} (x : Fin k ⊕ Fin p → ℝ) : Fin (k + p) → ℝ := x ∘ (place k p).symm

theorem joinVars_place {k p : ℕ} (x : Fin k ⊕ Fin p → ℝ) : joinVars x ∘ place k p = x := by
  funext i
  simp [joinVars]

theorem coldBuf_solution (Z : Basis V) (y : V → ℝ) (done : List (SizedAnswer V)) (l : SizedLevel V) (x : Fin (Z.1 + l.p) → ℝ) :
    (coldBuf Z y done l).qp.IsSolution x ↔ (levelQP Z y (done.map (·.toAnswer)) l.toLevel).IsSolution (x ∘ place Z.1 l.p) := by
  constructor
  · rintro ⟨h1, h2⟩
    refine ⟨(coldBuf_feasible ..).mp h1, fun z hz => ?_⟩
    have h3 := h2 (joinVars z) ((coldBuf_feasible Z y done l (joinVars z)).mpr (Eq.mpr (congrArg (LeQP.Feasible _) (joinVars_place z)) hz))
    have e1 := coldBuf_cost Z y done l x
    have e2 := (coldBuf_cost Z y done l (joinVars z)).trans (congrArg (LeQP.cost _) (joinVars_place z))
    rw [← e1, ← e2]
    exact h3
  · rintro ⟨h1, h2⟩
    refine ⟨(coldBuf_feasible ..).mpr h1, fun z hz => ?_⟩
    have e1 := coldBuf_cost Z y done l x
    have e2 := coldBuf_cost Z y done l z
    have h3 := h2 _ ((coldBuf_feasible Z y done l z).mp hz)
    rw [← e1, ← e2] at h3
    exact h3

/-! ## Runs -/

theorem bufAnswer_toAnswer (Z : Basis V) (y : V → ℝ) (l : SizedLevel V) (x : Fin (Z.1 + l.p) → ℝ) :
    (bufAnswer Z y l x).toAnswer = levelAnswer Z y l.toLevel (x ∘ place Z.1 l.p) := by
  have h1 : (fun i : Fin Z.1 => entry x i) = (x ∘ place Z.1 l.p) ∘ Sum.inl := by
    funext i
    simp only [entry, Function.comp_apply]
    rw [dif_pos (by omega)]
    rfl
  have h2 : (fun r : Fin l.p => entry x (Z.1 + l.p - l.p + r)) = (x ∘ place Z.1 l.p) ∘ Sum.inr := by
    funext i
    simp only [entry, Function.comp_apply, Nat.add_sub_cancel]
    rw [dif_pos (by omega)]
    rfl
  simp only [bufAnswer, SizedAnswer.toAnswer, h1, h2]
  rfl

/-- the answer of a level computed from zero data -/
noncomputable def coldAnswer (osqp : Osqp) (Z : Basis V) (y : V → ℝ) (done : List (SizedAnswer V)) (l : SizedLevel V) : SizedAnswer V :=
  bufAnswer Z y l (osqp _ (coldBuf Z y done l).qp)

/-- a run from zero data -/
noncomputable def coldRest (osqp : Osqp) (N : NullSpaceFn) : Basis V → (V → ℝ) → List (SizedAnswer V) → List (SizedLevel V) →
    List QpBuf × List (SizedAnswer V)
  | _, _, done, [] => ([], done)
  | Z, y, done, l :: ls =>
    let r := coldAnswer osqp Z y done l
    let t := coldRest osqp N (nextZ N Z l.toLevel) r.y (done ++ [r]) ls
    (coldBuf Z y done l :: t.1, t.2)

/-- null-space dimension before each level, and number of inequalities -/
def shapes (N : NullSpaceFn) : Basis V → List (SizedLevel V) → List (ℕ × ℕ)
  | _, [] => []
  | Z, l :: ls => (Z.1, l.p) :: shapes N (nextZ N Z l.toLevel) ls

def AllClean : ℕ → List (ℕ × ℕ) → List QpBuf → Prop
  | _, [], [] => True
  | b, (k, p) :: t, s :: ss => Clean k p b s ∧ AllClean (b + p) t ss
  | _, _, _ => False

theorem warmSingle_true (osqp : Osqp) (Z : Basis V) (y : V → ℝ) (done : List (SizedAnswer V)) (l : SizedLevel V) (s : QpBuf) :
    warmSingle osqp true Z y done l s = some (coldBuf Z y done l, coldAnswer osqp Z y done l) := by
  rw [warmSingle, if_pos rfl, fillBuf_zero]; rfl

theorem warmSingle_clean (osqp : Osqp) {Z : Basis V} (y : V → ℝ) {done : List (SizedAnswer V)} {l : SizedLevel V} {s : QpBuf}
    (hs : Clean Z.1 l.p (rowsBefore done) s) :
    warmSingle osqp false Z y done l s = some (coldBuf Z y done l, coldAnswer osqp Z y done l) ∧
      Clean Z.1 l.p (rowsBefore done) (coldBuf Z y done l) := by
  obtain ⟨s', h1, h2, h3⟩ := fillBuf_clean hs Z y done l rfl rfl rfl
  rw [fillBuf_zero, Option.some.injEq] at h2
  subst h2
  refine ⟨?_, h3⟩
  rw [warmSingle, if_neg (by simp), h1]; rfl

theorem coldBuf_clean (Z : Basis V) (y : V → ℝ) (done : List (SizedAnswer V)) (l : SizedLevel V) :
    Clean Z.1 l.p (rowsBefore done) (coldBuf Z y done l) :=
  (warmSingle_clean (fun _ _ _ _ => 0) y (clean_zero Z.1 l.p (rowsBefore done))).2

theorem rowsBefore_next (done : List (SizedAnswer V)) (r : SizedAnswer V) : rowsBefore (done ++ [r]) = rowsBefore done + r.l.p := by
  rw [rowsBefore_append, rowsBefore_cons, rowsBefore_nil, add_zero]

theorem coldRest_clean (osqp : Osqp) (N : NullSpaceFn) (ls : List (SizedLevel V)) : ∀ (Z : Basis V) (y : V → ℝ) (done : List (SizedAnswer V)),
    AllClean (rowsBefore done) (shapes N Z ls) (coldRest osqp N Z y done ls).1 := by
  induction ls with
  | nil => intro Z y done; trivial
  | cons l ls ih =>
    intro Z y done
    refine ⟨coldBuf_clean Z y done l, ?_⟩
    have := ih (nextZ N Z l.toLevel) (coldAnswer osqp Z y done l).y (done ++ [coldAnswer osqp Z y done l])
    rw [rowsBefore_next] at this
    exact this

theorem warmRest_true (osqp : Osqp) (N : NullSpaceFn) (ls : List (SizedLevel V)) : ∀ (bufs : List QpBuf) (Z : Basis V) (y : V → ℝ)
    (done : List (SizedAnswer V)), bufs.length = ls.length →
    warmRest osqp N true Z y done (ls.zip bufs) = some (coldRest osqp N Z y done ls) := by
  induction ls with
  | nil => intro bufs Z y done _; rfl
  | cons l ls ih =>
    intro bufs Z y done h
    cases bufs with
    | nil => simp at h
    | cons s ss =>
      simp only [List.length_cons, Nat.add_right_cancel_iff] at h
      simp only [List.zip_cons_cons, warmRest, warmSingle_true, ih ss _ _ _ h, coldRest]

theorem warmRest_clean (osqp : Osqp) (N : NullSpaceFn) (ls : List (SizedLevel V)) : ∀ (bufs : List QpBuf) (Z : Basis V) (y : V → ℝ)
    (done : List (SizedAnswer V)), AllClean (rowsBefore done) (shapes N Z ls) bufs →
    warmRest osqp N false Z y done (ls.zip bufs) = some (coldRest osqp N Z y done ls) := by
  induction ls with
  | nil => intro bufs Z y done _; rfl
  | cons l ls ih =>
    intro bufs Z y done h
    cases bufs with
    | nil => exact h.elim
    | cons s ss =>
      obtain ⟨h1, h2⟩ := h
      have h3 := ih ss (nextZ N Z l.toLevel) (coldAnswer osqp Z y done l).y (done ++ [coldAnswer osqp Z y done l])
        (by rw [rowsBefore_next]; exact h2)
      simp only [List.zip_cons_cons, warmRest, (warmSingle_clean osqp y h1).1, h3, coldRest]

/-! ## What the answers of a run from zero data achieve -/

theorem coldAnswer_solution {osqp : Osqp} (hs : OsqpExact osqp) (Z : Basis V) (y : V → ℝ) (done : List (SizedAnswer V)) (l : SizedLevel V)
    (hH : ∀ H ∈ l.H, CostOk H) (hw : Within (done.map (·.toAnswer)) y) :
    ∃ x, (levelQP Z y (done.map (·.toAnswer)) l.toLevel).IsSolution x ∧ (coldAnswer osqp Z y done l).toAnswer = levelAnswer Z y l.toLevel x := by
  obtain ⟨x₀, hx₀⟩ := levelQP_exists (Z := Z) (y := y) (l := l.toLevel) hH hw
  have hsol : (coldBuf Z y done l).qp.IsSolution (joinVars x₀) :=
    (coldBuf_solution Z y done l (joinVars x₀)).mpr (Eq.mpr (congrArg (LeQP.IsSolution _) (joinVars_place x₀)) hx₀)
  exact ⟨_, (coldBuf_solution Z y done l _).mp (hs _ (coldBuf Z y done l).qp ⟨_, hsol⟩), bufAnswer_toAnswer Z y l _⟩

end Verif.Lemmas
