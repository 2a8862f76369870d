import Verif.Lemmas.HqpWarm
import Verif.Props.HQP
import Mathlib.LinearAlgebra.Dimension.Constructions
import Mathlib.LinearAlgebra.Matrix.ToLin

/-! # C66: solving a hierarchy again without initialisation -/

set_option linter.unusedSectionVars false

namespace Verif.Props
open Matrix Verif Verif.Spec Verif.Model Verif.Lemmas

variable {V : Type} [Fintype V] [DecidableEq V]

/-- The layout of the problems a hierarchy poses: the inequalities of level 0, and for every later level the number of free directions left
by the levels above it and its number of inequalities. -/
def layout (N : NullSpaceFn) (d : WarmData V) : ℕ × List (ℕ × ℕ) := (d.first.l.p, shapes N (firstZ N d.first.l.toLevel) d.levels)

theorem warmCall_true (osqp : Osqp) (N : NullSpaceFn) (d : WarmData V) :
    warmCall osqp N true (noBufs d) d = some (coldRest osqp N (firstZ N d.first.l.toLevel) d.first.y [d.first] d.levels) :=
  warmRest_true osqp N d.levels _ _ _ _ (by simp [noBufs])

theorem rowsBefore_one (r : SizedAnswer V) : rowsBefore [r] = r.l.p := by simp [rowsBefore]

theorem warmCall_false (osqp : Osqp) (N : NullSpaceFn) (d : WarmData V) {bufs : List QpBuf} {L : ℕ × List (ℕ × ℕ)} (hL : layout N d = L)
    (h : AllClean L.1 L.2 bufs) :
    warmCall osqp N false bufs d = some (coldRest osqp N (firstZ N d.first.l.toLevel) d.first.y [d.first] d.levels) := by
  subst hL
  exact warmRest_clean osqp N d.levels _ _ _ _ (by rw [rowsBefore_one]; exact h)

theorem coldRest_layout (osqp : Osqp) (N : NullSpaceFn) (d : WarmData V) {L : ℕ × List (ℕ × ℕ)} (hL : layout N d = L) :
    AllClean L.1 L.2 (coldRest osqp N (firstZ N d.first.l.toLevel) d.first.y [d.first] d.levels).1 := by
  subst hL
  have := coldRest_clean osqp N d.levels (firstZ N d.first.l.toLevel) d.first.y [d.first]
  rw [rowsBefore_one] at this
  exact this

theorem warmAfter_clean (osqp : Osqp) (N : NullSpaceFn) (d : WarmData V) (ds : List (WarmData V)) (h : ∀ e ∈ ds, layout N e = layout N d) :
    ∃ bufs, warmAfter osqp N d ds = some bufs ∧ AllClean (layout N d).1 (layout N d).2 bufs := by
  rw [warmAfter, warmCall_true]
  show ∃ bufs, ds.foldlM _ (coldRest osqp N (firstZ N d.first.l.toLevel) d.first.y [d.first] d.levels).1 = some bufs ∧ _
  have key : ∀ (ds : List (WarmData V)) (bufs : List QpBuf), (∀ e ∈ ds, layout N e = layout N d) →
      AllClean (layout N d).1 (layout N d).2 bufs →
      ∃ bufs', ds.foldlM (fun bufs d' => (warmCall osqp N false bufs d').map (·.1)) bufs = some bufs' ∧
        AllClean (layout N d).1 (layout N d).2 bufs' := by
    intro ds
    induction ds with
    | nil => intro bufs _ hb; exact ⟨bufs, rfl, hb⟩
    | cons e ds ih =>
      intro bufs he hb
      have h1 := warmCall_false osqp N e (he e (by simp)) hb
      rw [List.foldlM_cons, h1]
      exact ih _ (fun e' h' => he e' (by simp [h'])) (coldRest_layout osqp N e (he e (by simp)))
  exact key ds _ h (coldRest_layout osqp N d rfl)

/-- **C66 (same layout).**  Solve once with initialisation and then any number of times without, each time with new matrices.  As long as the
layout of the problems stays the same, the next solve without initialisation is defined and gives exactly what a new object would. -/
theorem C66_same_as_fresh_partial (osqp : Osqp) (N : NullSpaceFn) (d : WarmData V) (ds : List (WarmData V)) (d' : WarmData V)
    (h : ∀ e ∈ d' :: ds, layout N e = layout N d) :
    ∃ bufs, warmAfter osqp N d ds = some bufs ∧ ∃ out, warmCall osqp N false bufs d' = some out ∧
      warmCall osqp N true (noBufs d') d' = some out := by
  obtain ⟨bufs, h1, h2⟩ := warmAfter_clean osqp N d ds fun e he => h e (by simp [he])
  exact ⟨bufs, h1, _, warmCall_false osqp N d' (h d' (by simp)) h2, warmCall_true osqp N d'⟩

/-! ## What the answers achieve -/

theorem coldRest_prefix (osqp : Osqp) (N : NullSpaceFn) (ls : List (SizedLevel V)) : ∀ (Z : Basis V) (y : V → ℝ) (done : List (SizedAnswer V)),
    done <+: (coldRest osqp N Z y done ls).2 := by
  induction ls with
  | nil => intro Z y done; exact List.prefix_rfl
  | cons l ls ih => intro Z y done; exact (List.prefix_append _ _).trans (ih _ _ _)

theorem coldRest_levels (osqp : Osqp) (N : NullSpaceFn) (ls : List (SizedLevel V)) : ∀ (Z : Basis V) (y : V → ℝ) (done : List (SizedAnswer V)),
    (coldRest osqp N Z y done ls).2.map (·.l) = done.map (·.l) ++ ls := by
  induction ls with
  | nil => intro Z y done; simp [coldRest]
  | cons l ls ih =>
    intro Z y done
    rw [coldRest]
    simp only [ih, List.map_append, List.map_cons, List.map_nil, List.append_assoc, List.singleton_append]
    rfl

theorem coldRest_exact {osqp : Osqp} (hs : OsqpExact osqp) {N : NullSpaceFn} (hN : N.Correct) (ls : List (SizedLevel V))
    (hH : ∀ l ∈ ls, ∀ H ∈ l.H, CostOk H) : ∀ (Z : Basis V) (y : V → ℝ) (done : List (SizedAnswer V)),
    ZInv Z (done.map (·.toAnswer)) → SameResiduals (done.map (·.toAnswer)) y → Within (done.map (·.toAnswer)) y →
    ∀ pre r post, (coldRest osqp N Z y done ls).2 = pre ++ r :: post → done.length ≤ pre.length →
      (∀ i, r.v i = max (r.l.toLevel.value r.y i) 0) ∧ (∀ e ∈ pre, Keeps e.toAnswer r.y) ∧
        ∀ y', (∀ e ∈ pre, Keeps e.toAnswer y') → r.l.toLevel.objective r.y ≤ r.l.toLevel.objective y' := by
  induction ls with
  | nil =>
    intro Z y done _ _ _ pre r post h hlen
    simp only [coldRest] at h
    rw [h] at hlen
    simp at hlen
  | cons l ls ih =>
    intro Z y done hZ hS hW pre r post h hlen
    have hHl := hH l (by simp)
    obtain ⟨x, hx, hr⟩ := coldAnswer_solution hs Z y done l hHl hW
    have hsym : ∀ H ∈ l.toLevel.H, Hᵀ = H := fun H h => (hHl H h).1
    have h2 := (levelQP_feasible_iff ..).mp hx.1
    have hm := SameResiduals.move hZ hS (x ∘ Sum.inl)
    have hy : (coldAnswer osqp Z y done l).y = y + Z.2 *ᵥ (x ∘ Sum.inl) := congrArg LevelAnswer.y hr
    set a := coldAnswer osqp Z y done l with ha
    have hmap : (done ++ [a]).map (·.toAnswer) = done.map (·.toAnswer) ++ [a.toAnswer] := by simp
    have hS' : SameResiduals ((done ++ [a]).map (·.toAnswer)) a.y := by
      rw [hmap]
      intro d hd
      rcases List.mem_append.mp hd with hd | hd
      · rw [hy]; exact hm d hd
      · obtain rfl := List.mem_singleton.mp hd
        rfl
    have hW' : Within ((done ++ [a]).map (·.toAnswer)) a.y := by
      rw [hmap, hr]
      intro d hd
      rcases List.mem_append.mp hd with hd | hd
      · rw [hy]; exact h2.2 d hd
      · obtain rfl := List.mem_singleton.mp hd
        rw [hy]; exact h2.1
    have hZ' : ZInv (nextZ N Z l.toLevel) ((done ++ [a]).map (·.toAnswer)) := by
      rw [hmap]
      exact hZ.next hN a.toAnswer
    simp only [coldRest, ← ha] at h
    rcases Nat.lt_or_ge done.length pre.length with hlt | hge
    · exact ih (fun l hl => hH l (by simp [hl])) _ _ _ hZ' hS' hW' pre r post h (by simp; omega)
    · have hlen' : done.length = pre.length := le_antisymm hlen hge
      obtain ⟨t, ht⟩ := coldRest_prefix osqp N ls (nextZ N Z l.toLevel) a.y (done ++ [a])
      rw [h, List.append_assoc] at ht
      obtain ⟨e1, e2⟩ := List.append_inj ht hlen'
      simp only [List.singleton_append, List.cons.injEq] at e2
      rw [← e1, ← e2.1]
      refine ⟨?_, ?_, ?_⟩
      · have hv : ∀ i, a.toAnswer.v i = max (a.toAnswer.l.value a.toAnswer.y i) 0 := by
          rw [hr]; exact fun i => exact_violation hsym hx i
        exact hv
      · intro e he
        have hd : e.toAnswer ∈ done.map (·.toAnswer) := List.mem_map.mpr ⟨e, he, rfl⟩
        rw [hy]
        exact ⟨hm _ hd, h2.2 _ hd⟩
      · intro y' hy'
        have hk : ∀ d ∈ done.map (·.toAnswer), Keeps d y' := by
          intro d hd
          obtain ⟨e, he, rfl⟩ := List.mem_map.mp hd
          exact hy' e he
        have := exact_optimal hsym hZ hS hx (fun d hd => (hk d hd).1) (fun d hd => (hk d hd).2)
        rw [← hy] at this
        exact this

/-- **C66 (what the answers achieve, same layout).**  With an exact solver the answers of a solve without initialisation are, level by level,
best for the level among all vectors that keep what the levels above achieved: their residuals, and inequalities within the recorded
violations. -/
theorem C66_answers_partial (osqp : Osqp) (hs : OsqpExact osqp) (N : NullSpaceFn) (hN : N.Correct) (d : WarmData V) (ds : List (WarmData V))
    (d' : WarmData V) (h : ∀ e ∈ d' :: ds, layout N e = layout N d) (hH : ∀ l ∈ d'.levels, ∀ H ∈ l.H, CostOk H)
    (h₀ : ∀ i, d'.first.l.toLevel.value d'.first.y i ≤ d'.first.v i) :
    ∃ bufs, warmAfter osqp N d ds = some bufs ∧ ∃ bufs' rs, warmCall osqp N false bufs d' = some (bufs', rs) ∧
      rs.map (·.l) = d'.first.l :: d'.levels ∧ rs.head? = some d'.first ∧
      ∀ pre r post, rs = pre ++ r :: post → pre ≠ [] →
        (∀ i, r.v i = max (r.l.toLevel.value r.y i) 0) ∧ (∀ e ∈ pre, Keeps e.toAnswer r.y) ∧
          ∀ y', (∀ e ∈ pre, Keeps e.toAnswer y') → r.l.toLevel.objective r.y ≤ r.l.toLevel.objective y' := by
  obtain ⟨bufs, h1, h2⟩ := warmAfter_clean osqp N d ds fun e he => h e (by simp [he])
  refine ⟨bufs, h1, _, _, warmCall_false osqp N d' (h d' (by simp)) h2, ?_, ?_, ?_⟩
  · rw [coldRest_levels]; rfl
  · obtain ⟨t, ht⟩ := coldRest_prefix osqp N d'.levels (firstZ N d'.first.l.toLevel) d'.first.y [d'.first]
    rw [← ht]; rfl
  · intro pre r post hsplit hpre
    refine coldRest_exact hs hN d'.levels hH _ _ [d'.first] (ZInv.first hN d'.first.toAnswer) ?_ ?_ pre r post hsplit
      (List.length_pos_iff.mpr hpre)
    · intro e he
      obtain rfl := List.mem_singleton.mp he
      rfl
    · intro e he
      obtain rfl := List.mem_singleton.mp he
      exact h₀

/-! ## Another layout -/

/-- The members have the sizes of the layout of the last call with initialisation. -/
def Sized : ℕ → List (ℕ × ℕ) → List QpBuf → Prop
  | _, [], [] => True
  | b, (k, p) :: t, s :: ss => (s.nv = k + p ∧ s.nc = p + b) ∧ Sized (b + p) t ss
  | _, _, _ => False

theorem AllClean.sized : ∀ (t : List (ℕ × ℕ)) (bufs : List QpBuf) {b : ℕ}, AllClean b t bufs → Sized b t bufs
  | [], [], _, _ => trivial
  | (_, _) :: t, _ :: ss, _, h => ⟨⟨h.1.nv, h.1.nc⟩, AllClean.sized t ss h.2⟩
  | [], _ :: _, _, h => h.elim
  | _ :: _, [], _, h => h.elim

theorem fillBuf_none_iff {s : QpBuf} {Z : Basis V} {y : V → ℝ} {done : List (SizedAnswer V)} {l : SizedLevel V} {k : ℕ}
    (h1 : s.nv = k + l.p) (h2 : s.nc = l.p + rowsBefore done) : fillBuf s Z y done l = none ↔ k + l.p < Z.1 := by
  rw [fillBuf]
  by_cases h : Z.1 ≤ s.nv ∧ l.p ≤ s.nv ∧ l.p + rowsBefore done ≤ s.nc
  · simp only [if_pos h, reduceCtorEq, false_iff, not_lt]; omega
  · simp only [if_neg h, true_iff]; omega

theorem fillBuf_sized {s s' : QpBuf} {Z : Basis V} {y : V → ℝ} {done : List (SizedAnswer V)} {l : SizedLevel V}
    (h : fillBuf s Z y done l = some s') : s'.nv = s.nv ∧ s'.nc = s.nc := by
  simp only [fillBuf] at h
  split_ifs at h
  obtain rfl := Option.some.inj h
  exact ⟨rfl, rfl⟩

/-- a call without initialisation: sizes stay, and when it is undefined -/
theorem warmRest_sized (osqp : Osqp) (N : NullSpaceFn) : ∀ (ls : List (SizedLevel V)) (bufs : List QpBuf) (t : List (ℕ × ℕ)) (Z : Basis V)
    (y : V → ℝ) (done : List (SizedAnswer V)), Sized (rowsBefore done) t bufs → ls.map (·.p) = t.map (·.2) →
    (∀ bufs' rs, warmRest osqp N false Z y done (ls.zip bufs) = some (bufs', rs) → Sized (rowsBefore done) t bufs') ∧
    (warmRest osqp N false Z y done (ls.zip bufs) = none ↔
      ∃ x ∈ t.zip (shapes N Z ls), x.1.1 + x.1.2 < x.2.1) := by
  intro ls
  induction ls with
  | nil =>
    intro bufs t Z y done hs hp
    cases t with
    | cons _ _ => simp at hp
    | nil =>
      cases bufs with
      | cons _ _ => exact hs.elim
      | nil =>
        refine ⟨fun bufs' rs h => ?_, ?_⟩
        · simp only [List.zip_nil_left, warmRest, Option.some.injEq, Prod.mk.injEq] at h
          rw [← h.1]; trivial
        · simp [warmRest]
  | cons l ls ih =>
    intro bufs t Z y done hs hp
    cases t with
    | nil => simp at hp
    | cons x t =>
      obtain ⟨k, p⟩ := x
      cases bufs with
      | nil => exact hs.elim
      | cons s ss =>
        obtain ⟨⟨hv, hc⟩, hss⟩ := hs
        simp only [List.map_cons, List.cons.injEq] at hp
        obtain ⟨rfl, hp⟩ := hp
        simp only [List.zip_cons_cons, warmRest, warmSingle, shapes, Bool.false_eq_true, if_false, List.mem_cons, exists_eq_or_imp]
        have hn := fillBuf_none_iff (Z := Z) (y := y) hv hc
        rcases hf : fillBuf s Z y done l with _ | s'
        · simp only [reduceCtorEq, false_implies, implies_true, true_and, true_iff]
          exact .inl (hn.mp hf)
        · have hk : ¬(k + l.p < Z.1) := by rw [← hn, hf]; simp
          obtain ⟨e1, e2⟩ := fillBuf_sized hf
          simp only [hk, false_or]
          set r := bufAnswer Z y l (osqp _ s'.qp) with hr
          have hrow : rowsBefore (done ++ [r]) = rowsBefore done + l.p := rowsBefore_next done r
          have h3 := ih ss t (nextZ N Z l.toLevel) r.y (done ++ [r]) (by rw [hrow]; exact hss) hp
          rcases hw : warmRest osqp N false (nextZ N Z l.toLevel) r.y (done ++ [r]) (ls.zip ss) with _ | ⟨b2, rs2⟩
          · exact ⟨by simp, iff_of_true rfl (h3.2.mp hw)⟩
          · simp only [Option.some.injEq, Prod.mk.injEq, reduceCtorEq, false_iff]
            refine ⟨?_, ?_⟩
            · rintro bufs' rs ⟨rfl, rfl⟩
              refine ⟨⟨e1.trans hv, e2.trans hc⟩, ?_⟩
              rw [← hrow]
              exact h3.1 _ _ hw
            · rw [← h3.2, hw]; simp

theorem shapes_ps (N : NullSpaceFn) : ∀ (ls : List (SizedLevel V)) (Z : Basis V), (shapes N Z ls).map (·.2) = ls.map (·.p) := by
  intro ls
  induction ls with
  | nil => intro Z; rfl
  | cons l ls ih => intro Z; simp [shapes, ih]

/-- **C66 (when a solve without initialisation is undefined).**  Solve once with initialisation and then any number of times without, always
with as many inequalities per level.  The next solve without initialisation writes outside its matrices exactly if some level has more
free directions than it had variables (free directions and inequalities) at the solve with initialisation: for instance if a level
without inequalities gains a free direction because the level above became singular. -/
theorem C66_undefined_iff (osqp : Osqp) (N : NullSpaceFn) (d : WarmData V) (ds : List (WarmData V)) (d' : WarmData V)
    (h : ∀ e ∈ d' :: ds, e.first.l.p = d.first.l.p ∧ e.levels.map (·.p) = d.levels.map (·.p)) {bufs : List QpBuf}
    (hb : warmAfter osqp N d ds = some bufs) :
    warmCall osqp N false bufs d' = none ↔ ∃ x ∈ (layout N d).2.zip (layout N d').2, x.1.1 + x.1.2 < x.2.1 := by
  have hS : ∀ (ds : List (WarmData V)) (b0 bufs : List QpBuf),
      (∀ e ∈ ds, e.first.l.p = d.first.l.p ∧ e.levels.map (·.p) = d.levels.map (·.p)) →
      Sized (layout N d).1 (layout N d).2 b0 →
      ds.foldlM (fun bufs d' => (warmCall osqp N false bufs d').map (·.1)) b0 = some bufs →
      Sized (layout N d).1 (layout N d).2 bufs := by
    intro ds
    induction ds with
    | nil =>
      intro b0 bufs _ h0 hf
      obtain rfl := Option.some.inj hf
      exact h0
    | cons e ds ih =>
      intro b0 bufs he h0 hf
      rw [List.foldlM_cons] at hf
      obtain ⟨hp1, hp2⟩ := he e (by simp)
      rcases hw : warmCall osqp N false b0 e with _ | ⟨b1, rs⟩
      · rw [hw] at hf; cases hf
      · rw [hw] at hf
        refine ih b1 bufs (fun e' h' => he e' (by simp [h'])) ?_ hf
        have := (warmRest_sized osqp N e.levels b0 (layout N d).2 (firstZ N e.first.l.toLevel) e.first.y [e.first]
          (by rw [rowsBefore_one, hp1]; exact h0) (by rw [hp2]; exact (shapes_ps N d.levels _).symm)).1 b1 rs hw
        rw [rowsBefore_one, hp1] at this
        exact this
  rw [warmAfter, warmCall_true] at hb
  have h1 := hS ds _ bufs (fun e he => h e (by simp [he])) (AllClean.sized _ _ (coldRest_layout osqp N d rfl)) hb
  obtain ⟨hp1, hp2⟩ := h d' (by simp)
  exact (warmRest_sized osqp N d'.levels bufs (layout N d).2 (firstZ N d'.first.l.toLevel) d'.first.y [d'.first]
    (by rw [rowsBefore_one, hp1]; exact h1) (by rw [hp2]; exact (shapes_ps N d.levels _).symm)).2

/-! ## Variables that are no longer there -/

/-- the columns of the basis are independent (they are columns of an orthogonal matrix) -/
def _root_.Verif.Model.NullSpaceFn.Independent (N : NullSpaceFn) : Prop :=
  ∀ (E W : Type) [Fintype E] [Fintype W] (M : Matrix E W ℝ) (u : Fin (N E W M).1 → ℝ), (N E W M).2 *ᵥ u = 0 → u = 0

/-- level 0 of a hierarchy in two unknowns: one inequality and one equation, answered by zero -/
def twoFirst (A : Fin 2 → ℝ) (a : ℝ) (B : Fin 2 → ℝ) : SizedAnswer (Fin 2) :=
  { l := { p := 1, q := 1, A := Matrix.of fun _ => A, a := fun _ => a, B := Matrix.of fun _ => B, b := 0, H := none }, y := 0, v := 0, w := 0 }

/-- a level with one equation -/
def twoLevel (B : Fin 2 → ℝ) (b : ℝ) : SizedLevel (Fin 2) :=
  { p := 0, q := 1, A := 0, a := 0, B := Matrix.of fun _ => B, b := fun _ => b, H := none }

theorem basis_all {N : NullSpaceFn} (hN : N.Correct) (hI : N.Independent) : (N (Fin 1) (Fin 2) 0).1 = 2 := by
  have hbij : Function.Bijective (Matrix.mulVecLin (N (Fin 1) (Fin 2) 0).2) := by
    refine ⟨(injective_iff_map_eq_zero _).mpr fun u hu => hI _ _ _ u hu, fun x => ?_⟩
    obtain ⟨u, hu⟩ := hN.span (Fin 1) (Fin 2) 0 x (zero_mulVec _)
    exact ⟨u, hu.symm⟩
  have := (LinearEquiv.ofBijective _ hbij).finrank_eq
  simpa using this

theorem basis_first {N : NullSpaceFn} (hN : N.Correct) (hI : N.Independent) :
    ∃ ζ : ℝ, ζ ≠ 0 ∧ N (Fin 1) (Fin 2) (Matrix.of fun _ => ![0, 1]) = ⟨1, Matrix.of fun i _ => ![ζ, 0] i⟩ := by
  set M : Matrix (Fin 1) (Fin 2) ℝ := Matrix.of fun _ => ![0, 1] with hM
  have hMx : ∀ x : Fin 2 → ℝ, M *ᵥ x = 0 ↔ x 1 = 0 := by
    intro x
    constructor
    · intro h
      have := congrFun h 0
      simpa [M, mulVec, dotProduct] using this
    · intro h
      funext i
      simp [M, mulVec, dotProduct, h]
  have h1 : ∀ u, ((N _ _ M).2 *ᵥ u) 1 = 0 := by
    intro u
    rw [← hMx, mulVec_mulVec, hN.ann, zero_mulVec]
  have hbij : Function.Bijective ((LinearMap.proj (R := ℝ) (φ := fun _ : Fin 2 => ℝ) 0).comp (Matrix.mulVecLin (N _ _ M).2)) := by
    refine ⟨(injective_iff_map_eq_zero _).mpr fun u hu => hI _ _ _ u ?_, fun x => ?_⟩
    · funext i
      fin_cases i
      · exact hu
      · exact h1 u
    · obtain ⟨u, hu⟩ := hN.span _ _ M ![x, 0] ((hMx _).mpr rfl)
      refine ⟨u, ?_⟩
      show ((N _ _ M).2 *ᵥ u) 0 = x
      rw [← hu]; rfl
  have hk := (LinearEquiv.ofBijective _ hbij).finrank_eq
  simp only [Module.finrank_fin_fun, Module.finrank_self] at hk
  have hinj := hI _ _ M
  generalize N _ _ M = Z at hk h1 hinj
  obtain ⟨k, Z⟩ := Z
  simp only at hk
  subst hk
  have hz1 : Z 1 0 = 0 := by simpa [mulVec, dotProduct] using h1 1
  refine ⟨Z 0 0, fun h0 => ?_, ?_⟩
  · have := hinj 1 (by funext i; fin_cases i <;> simp [mulVec, dotProduct, h0, hz1])
    exact one_ne_zero (congrFun this 0)
  · congr 1
    ext i j
    obtain rfl := Subsingleton.elim j 0
    fin_cases i <;> simp [hz1]

theorem row_mul {k : ℕ} (A : Fin 2 → ℝ) (Z : Matrix (Fin 2) (Fin k) ℝ) (j : Fin k) :
    ((Matrix.of fun _ : Fin 1 => A) * Z) 0 j = A ⬝ᵥ fun i => Z i j := rfl

theorem row_gram {k : ℕ} (A : Fin 2 → ℝ) (Z : Matrix (Fin 2) (Fin k) ℝ) (i j : Fin k) :
    (((Matrix.of fun _ : Fin 1 => A) * Z)ᵀ * ((Matrix.of fun _ : Fin 1 => A) * Z)) i j = (A ⬝ᵥ fun t => Z t i) * (A ⬝ᵥ fun t => Z t j) := by
  rw [Matrix.mul_apply, Fin.sum_univ_one, transpose_apply, row_mul, row_mul]

theorem fillBuf_pos {s : QpBuf} {Z : Basis V} {y : V → ℝ} {done : List (SizedAnswer V)} {l : SizedLevel V} (h1 : Z.1 ≤ s.nv) (h2 : l.p ≤ s.nv)
    (h3 : l.p + rowsBefore done ≤ s.nc) : ∃ t, fillBuf s Z y done l = some t ∧ t.nv = s.nv ∧ t.nc = s.nc ∧
      t.H = setBlock (setBlock s.H (s.nv - l.p) (s.nv - l.p) (1 : Matrix (Fin l.p) (Fin l.p) ℝ)) 0 0
        ((l.B * Z.2)ᵀ * (l.B * Z.2) + l.H.elim 0 fun H => Z.2ᵀ * H * Z.2) ∧
      t.g = setSeg (setSeg s.g (s.nv - l.p) (0 : Fin l.p → ℝ)) 0
        ((l.B * Z.2)ᵀ *ᵥ (l.B *ᵥ y + l.b) + l.H.elim 0 fun H => (Z.2ᵀ * H) *ᵥ y) ∧
      t.A = earlierRows Z (setBlock (setBlock s.A 0 0 (l.A * Z.2)) 0 (s.nv - l.p) (-1 : Matrix (Fin l.p) (Fin l.p) ℝ)) l.p done ∧
      t.ub = earlierBounds y (setSeg s.ub 0 (-(l.A *ᵥ y) - l.a)) l.p done :=
  ⟨_, if_pos ⟨h1, h2, h3⟩, rfl, rfl, rfl, rfl, rfl, rfl⟩

/-- a problem in two variables, one of which no longer stands for anything -/
theorem stale_answer {osqp : Osqp} (hs : OsqpExact osqp) {ζ σ : ℝ} (hζ : ζ ≠ 0) (hσ : σ ≠ 0) (s : QpBuf) (hv : s.nv = 2) (hc : s.nc = 1)
    (h00 : s.H 0 0 = ζ * ζ) (h01 : s.H 0 1 = 0) (h10 : s.H 1 0 = 0) (h11 : s.H 1 1 = 0) (g0 : s.g 0 = -5 * ζ) (g1 : s.g 1 = 0)
    (a1 : s.A 0 1 = σ) (a0 : s.A 0 0 = ζ) (u0 : s.ub 0 = 1) : ζ * entry (osqp _ s.qp) 0 = 5 := by
  obtain ⟨nv, nc, H, g, A, ub⟩ := s
  simp only at hv hc h00 h01 h10 h11 g0 g1 a0 a1 u0
  subst hv hc
  have hcost : ∀ x : Fin 2 → ℝ, (QpBuf.mk 2 1 H g A ub).qp.cost x = 1 / 2 * (ζ * x 0) ^ 2 - 5 * (ζ * x 0) := by
    intro x
    simp only [LeQP.cost, QpBuf.qp, dotProduct, mulVec, Fin.sum_univ_two, of_apply, Fin.val_zero, Fin.val_one, h00, h01, h10, h11, g0, g1]
    ring
  have hfeas : ∀ x : Fin 2 → ℝ, (QpBuf.mk 2 1 H g A ub).qp.Feasible x ↔ ζ * x 0 + σ * x 1 ≤ 1 := by
    intro x
    constructor
    · intro h
      have := h (0 : Fin 1)
      simpa [QpBuf.qp, dotProduct, Fin.sum_univ_two, a0, a1, u0] using this
    · intro h (r : Fin 1)
      obtain rfl := Subsingleton.elim r 0
      simpa [QpBuf.qp, dotProduct, Fin.sum_univ_two, a0, a1, u0] using h
  have hbest : (QpBuf.mk 2 1 H g A ub).qp.Feasible ![5 / ζ, -4 / σ] := by
    rw [hfeas]
    simp only [cons_val_zero, cons_val_one]
    rw [mul_div_cancel₀ _ hζ, mul_div_cancel₀ _ hσ]
    norm_num
  have hsol : (QpBuf.mk 2 1 H g A ub).qp.IsSolution (osqp _ (QpBuf.mk 2 1 H g A ub).qp) := by
    refine hs _ _ ⟨_, hbest, fun z _ => ?_⟩
    rw [hcost, hcost]
    simp only [cons_val_zero]
    rw [mul_div_cancel₀ _ hζ]
    nlinarith [sq_nonneg (ζ * z 0 - 5)]
  have h := hsol.2 _ hbest
  rw [hcost, hcost] at h
  simp only [cons_val_zero] at h
  rw [mul_div_cancel₀ _ hζ] at h
  show ζ * (osqp _ (QpBuf.mk 2 1 H g A ub).qp) 0 = 5
  generalize (osqp _ (QpBuf.mk 2 1 H g A ub).qp) 0 = t at h ⊢
  have : (ζ * t - 5) ^ 2 ≤ 0 := by nlinarith
  have := pow_eq_zero_iff (two_ne_zero) |>.mp (le_antisymm this (sq_nonneg _))
  linarith

/-- **C66 (negation).**  For every exact solver and null-space routine there are two hierarchies in two unknowns, with as many rows
everywhere, such that solving the first with initialisation and then the second without gives an answer that violates the inequality of
the level above by 4, although that level reported no violation; a new object satisfies it.  (Level 0 asks `y₀ ≤ 1`; it has no
equation at first and gets `y₁ = 0` then, which takes one free direction away.  Level 1 asks `y₀ = 5`.) -/
theorem C66_constraint_violated (osqp : Osqp) (hs : OsqpExact osqp) (N : NullSpaceFn) (hN : N.Correct) (hI : N.Independent) :
    ∃ A : Fin 2 → ℝ, ∃ bufs,
      warmAfter osqp N ⟨twoFirst A 0 0, [twoLevel 0 0]⟩ [] = some bufs ∧
      (∃ bufs' r, warmCall osqp N false bufs ⟨twoFirst ![1, 0] (-1) ![0, 1], [twoLevel ![1, 0] (-5)]⟩ =
          some (bufs', [twoFirst ![1, 0] (-1) ![0, 1], r]) ∧ r.y 0 = 5) ∧
      ∃ bufs' r, warmCall osqp N true bufs ⟨twoFirst ![1, 0] (-1) ![0, 1], [twoLevel ![1, 0] (-5)]⟩ =
          some (bufs', [twoFirst ![1, 0] (-1) ![0, 1], r]) ∧ r.y 0 ≤ 1 := by

  obtain ⟨Z, hZ⟩ : ∃ Z : Matrix (Fin 2) (Fin 2) ℝ, N (Fin 1) (Fin 2) 0 = ⟨2, Z⟩ := by
    have h := basis_all hN hI
    generalize N (Fin 1) (Fin 2) 0 = Z at h
    obtain ⟨k, Z⟩ := Z
    simp only at h
    subst h
    exact ⟨Z, rfl⟩
  obtain ⟨ζ, hζ, hZ'⟩ := basis_first hN hI
  obtain ⟨i, hi⟩ : ∃ i, Z i 1 ≠ 0 := by
    by_contra hne
    push Not at hne
    have h := hI (Fin 1) (Fin 2) 0
    rw [hZ] at h
    have := h (Pi.single 1 1) (by funext j; simp [hne])
    simpa using congrFun this 1
  refine ⟨Pi.single i 1, [coldBuf ⟨2, Z⟩ 0 [twoFirst (Pi.single i 1) 0 0] (twoLevel 0 0)], ?_, ?_, ?_⟩
  · have e : firstZ N (twoFirst (Pi.single i 1) 0 0).l.toLevel = ⟨2, Z⟩ := hZ
    rw [warmAfter, warmCall_true]
    show some (coldRest osqp N (firstZ N (twoFirst (Pi.single i 1) 0 0).l.toLevel) 0 _ _).1 = _
    rw [e]
    rfl
  · have e : firstZ N (twoFirst ![1, 0] (-1) ![0, 1]).l.toLevel = ⟨1, Matrix.of fun i _ => ![ζ, 0] i⟩ := hZ'
    set s := coldBuf ⟨2, Z⟩ 0 [twoFirst (Pi.single i 1) 0 0] (twoLevel 0 0) with hs'
    set Z' : Basis (Fin 2) := ⟨1, Matrix.of fun i _ => ![ζ, 0] i⟩ with hZZ
    obtain ⟨t, ht, hsol⟩ : ∃ t, fillBuf s Z' 0 [twoFirst ![1, 0] (-1) ![0, 1]] (twoLevel ![1, 0] (-5)) = some t ∧
        ζ * entry (osqp _ t.qp) 0 = 5 := by
      obtain ⟨t, ht, e1, e2, e3, e4, e5, e6⟩ := fillBuf_pos (s := s) (Z := Z') (y := 0) (done := [twoFirst ![1, 0] (-1) ![0, 1]])
        (l := twoLevel ![1, 0] (-5)) (by simp [hs', coldBuf, hZZ, twoLevel]) (by simp [hs', coldBuf, twoLevel])
        (by simp [hs', coldBuf, twoLevel, rowsBefore, twoFirst])
      refine ⟨t, ht, stale_answer hs hζ hi t ?_ ?_ ?_ ?_ ?_ ?_ ?_ ?_ ?_ ?_ ?_⟩
      all_goals
        simp only [e1, e2, e3, e4, e5, e6]
        clear_value s Z'
        subst hs' hZZ
        simp [coldBuf, twoLevel, twoFirst, setBlock, setSeg, earlierRows, earlierBounds, mulVec, dotProduct, rowsBefore]
      · exact (row_gram _ _ 0 0).trans (by simp [vec2_dotProduct])
      · exact (row_gram _ _ 0 1).trans (by simp)
      · exact (row_gram _ _ 1 0).trans (by simp)
      · exact (row_gram _ _ 1 1).trans (by simp)
      · refine (Fin.sum_univ_one _).trans ?_
        show ((Matrix.of fun _ : Fin 1 => ![(1 : ℝ), 0]) * Matrix.of fun i (_ : Fin 1) => ![ζ, 0] i) 0 0 * (0 + -5) = -(5 * ζ)
        rw [row_mul]
        simp [vec2_dotProduct, mul_comm]
      · refine (Fin.sum_univ_one _).trans ?_
        show ((Matrix.of fun _ : Fin 1 => (0 : Fin 2 → ℝ)) * Z) 0 1 * (0 + 0) = 0
        simp
      · exact (row_mul _ _ 1).trans (by simp)
      · exact (row_mul _ _ 0).trans (by simp [vec2_dotProduct])
      · show -(0 : ℝ) + 0 - -1 = 1
        norm_num
    have hw : warmCall osqp N false [s] ⟨twoFirst ![1, 0] (-1) ![0, 1], [twoLevel ![1, 0] (-5)]⟩ =
        some ([t], [twoFirst ![1, 0] (-1) ![0, 1], bufAnswer Z' 0 (twoLevel ![1, 0] (-5)) (osqp _ t.qp)]) := by
      rw [warmCall, e]
      show warmRest osqp N false Z' 0 [twoFirst ![1, 0] (-1) ![0, 1]] [(twoLevel ![1, 0] (-5), s)] = _
      rw [warmRest, warmSingle, if_neg (by simp), ht]
      rfl
    refine ⟨_, _, hw, ?_⟩
    show (0 : Fin 2 → ℝ) 0 + (Z'.2 *ᵥ fun i => entry (osqp _ t.qp) i) 0 = 5
    refine Eq.trans ?_ hsol
    clear_value s Z'
    subst hZZ
    simp [mulVec, dotProduct]
  · refine ⟨_, coldAnswer osqp _ 0 [twoFirst ![1, 0] (-1) ![0, 1]] (twoLevel ![1, 0] (-5)),
      warmRest_true osqp N [twoLevel ![1, 0] (-5)] _ _ _ _ rfl, ?_⟩
    obtain ⟨x, hx, hr⟩ := coldAnswer_solution hs (firstZ N (twoFirst ![1, 0] (-1) ![0, 1]).l.toLevel) 0
      [twoFirst ![1, 0] (-1) ![0, 1]] (twoLevel ![1, 0] (-5)) (by simp [twoLevel]) (by
        intro d hd
        obtain rfl := List.mem_singleton.mp hd
        intro (t : Fin 1)
        show ((Matrix.of fun _ => ![(1 : ℝ), 0]) *ᵥ (0 : Fin 2 → ℝ)) t + -1 ≤ 0
        simp)
    have h2 := ((levelQP_feasible_iff ..).mp hx.1).2 _ (List.mem_singleton.mpr rfl) (0 : Fin 1)
    have hy : (coldAnswer osqp (firstZ N (twoFirst ![1, 0] (-1) ![0, 1]).l.toLevel) 0
      [twoFirst ![1, 0] (-1) ![0, 1]] (twoLevel ![1, 0] (-5))).y = 0 + (firstZ N (twoFirst ![1, 0] (-1) ![0, 1]).l.toLevel).2 *ᵥ (x ∘ Sum.inl) :=
      congrArg LevelAnswer.y hr
    rw [hy]
    generalize 0 + (firstZ N (twoFirst ![1, 0] (-1) ![0, 1]).l.toLevel).2 *ᵥ (x ∘ Sum.inl) = y at h2 ⊢
    have h3 : ((Matrix.of fun _ : Fin 1 => ![(1 : ℝ), 0]) *ᵥ y) 0 + -1 ≤ 0 := h2
    simp [mulVec, dotProduct] at h3
    linarith

/-- **C66 (negation, undefined).**  The other way round: initialised with `y₁ = 0` on level 0 and then solved without initialisation when that
equation has become `0 = 0` (a singular configuration), the solver writes outside its matrices.  A new object solves the same problem. -/
theorem C66_writes_outside (osqp : Osqp) (N : NullSpaceFn) (hN : N.Correct) (hI : N.Independent) (A : Fin 2 → ℝ) (a : ℝ)
    (B : Fin 2 → ℝ) (b : ℝ) :
    ∃ bufs, warmAfter osqp N ⟨twoFirst A a ![0, 1], [twoLevel B b]⟩ [] = some bufs ∧
      warmCall osqp N false bufs ⟨twoFirst A a 0, [twoLevel B b]⟩ = none ∧
      warmCall osqp N true bufs ⟨twoFirst A a 0, [twoLevel B b]⟩ ≠ none := by
  obtain ⟨bufs, h1, h2⟩ := warmAfter_clean osqp N ⟨twoFirst A a ![0, 1], [twoLevel B b]⟩ [] (by simp)
  refine ⟨bufs, h1, ?_, ?_⟩
  · rw [C66_undefined_iff osqp N _ [] _ (by simp [twoFirst]) h1]
    obtain ⟨ζ, -, hζ⟩ := basis_first hN hI
    refine ⟨((1, 0), (2, 0)), ?_, by norm_num⟩
    have e1 : (layout N ⟨twoFirst A a ![0, 1], [twoLevel B b]⟩).2 = [(1, 0)] := by
      show [((N (Fin 1) (Fin 2) (Matrix.of fun _ => ![0, 1])).1, 0)] = _
      rw [hζ]
    have e2 : (layout N ⟨twoFirst A a 0, [twoLevel B b]⟩).2 = [(2, 0)] := by
      show [((N (Fin 1) (Fin 2) 0).1, 0)] = _
      rw [basis_all hN hI]
    rw [e1, e2]
    simp
  · have hl : bufs.length = 1 := by
      have e : ∃ k p, (layout N ⟨twoFirst A a ![0, 1], [twoLevel B b]⟩).2 = [(k, p)] := ⟨_, _, rfl⟩
      obtain ⟨k, p, e⟩ := e
      rw [e] at h2
      match bufs, h2 with
      | [_], _ => rfl
      | _ :: _ :: _, h => exact h.2.elim
    have := warmRest_true osqp N [twoLevel B b] bufs (firstZ N (twoFirst A a 0).l.toLevel) (twoFirst A a 0).y [twoFirst A a 0] (by simp [hl])
    rw [warmCall, this]
    simp

/-! ## The hypotheses are met -/

/-- a null-space routine with independent columns -/
noncomputable def basisNull : NullSpaceFn := fun _ _ _ _ M =>
  ⟨Module.finrank ℝ (LinearMap.ker M.mulVecLin), Matrix.of fun i j => (Module.finBasis ℝ (LinearMap.ker M.mulVecLin) j : _ → ℝ) i⟩

theorem basisNull_mulVec (E W : Type) [Fintype E] [Fintype W] (M : Matrix E W ℝ) (u : Fin (basisNull E W M).1 → ℝ) :
    (basisNull E W M).2 *ᵥ u = ((∑ j, u j • Module.finBasis ℝ (LinearMap.ker M.mulVecLin) j : LinearMap.ker M.mulVecLin) : W → ℝ) := by
  funext i
  simp only [Submodule.coe_sum, Submodule.coe_smul, Finset.sum_apply, Pi.smul_apply, smul_eq_mul, mulVec, dotProduct, basisNull, of_apply]
  exact Finset.sum_congr rfl fun j _ => mul_comm _ _

theorem basisNull_correct : basisNull.Correct where
  ann E W _ _ M := by
    classical
    ext i j
    have h := (Module.finBasis ℝ (LinearMap.ker M.mulVecLin) j).2
    exact congrFun (LinearMap.mem_ker.mp h) i
  span E W _ _ M x hx := by
    have hk : x ∈ LinearMap.ker M.mulVecLin := hx
    refine ⟨fun j => (Module.finBasis ℝ (LinearMap.ker M.mulVecLin)).repr ⟨x, hk⟩ j, Eq.symm ((basisNull_mulVec E W M _).trans ?_)⟩
    exact congrArg Subtype.val (Module.Basis.sum_repr (Module.finBasis ℝ (LinearMap.ker M.mulVecLin)) ⟨x, hk⟩)

theorem basisNull_independent : basisNull.Independent := by
  intro E W _ _ M u hu
  rw [basisNull_mulVec] at hu
  have h := Submodule.coe_eq_zero.mp hu
  funext j
  exact (Fintype.linearIndependent_iff.mp (Module.finBasis ℝ (LinearMap.ker M.mulVecLin)).linearIndependent) u h j

example : OsqpExact chooseSolution ∧ basisNull.Correct ∧ basisNull.Independent :=
  ⟨chooseSolution_exact, basisNull_correct, basisNull_independent⟩

/-- Equal layouts while every matrix changes: the rank of the equations stays. -/
example (A A' : Fin 2 → ℝ) (a a' b b' : ℝ) : layout basisNull ⟨twoFirst A a ![0, 1], [twoLevel ![1, 0] b]⟩ =
    layout basisNull ⟨twoFirst A' a' ![0, 1], [twoLevel ![2, 3] b']⟩ := rfl

end Verif.Props
