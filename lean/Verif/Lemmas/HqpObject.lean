import Verif.Model.HqpObject
import Verif.Lemmas.HQP

/-!
# The levels of an `HQP` object that is configured several times
-/
set_option linter.unusedSectionVars false

namespace Verif.Lemmas
open Matrix Verif Verif.Spec Verif.Model

section Slots
variable {V : Type} [Fintype V] [DecidableEq V]

/-- the sizes of a level -/
def sizes (s : Slot V) : ℕ × ℕ := (s.ineq, s.eq)

theorem writeSlot_some {o : List (Slot V)} {i ra re : ℕ} {la lb : Level V} {H : Option (Matrix V V ℝ)} {s : Slot V} (h : o[i]? = some s)
    (h1 : 0 < s.ineq → ra = s.ineq) (h2 : re = s.eq) :
    writeSlot o i ra la re lb H = some (o.set i { s with l := normalizeRows (storedLevel s.ineq la lb (H.or s.l.H)) }) := by
  simp only [writeSlot, h]
  rw [if_pos ⟨h1, h2⟩]

theorem writeSlot_none {o : List (Slot V)} {i ra re : ℕ} {la lb : Level V} {H : Option (Matrix V V ℝ)} {s : Slot V} (h : o[i]? = some s)
    (h1 : (0 < s.ineq → ra = s.ineq) → re ≠ s.eq) : writeSlot o i ra la re lb H = none := by
  simp only [writeSlot, h]
  rw [if_neg fun hc => h1 hc.1 hc.2]

end Slots

variable {n c m : ℕ}

/-- the levels a configuration writes -/
noncomputable def dynSlot (R : LqpRobot n c m) : Slot (LqpVar (Fin n) c) := ⟨2 * n, 6, normalizeRows (storedLevel (2 * n) (lqpDynamics R.conf) (lqpDynamics R.conf) none)⟩
noncomputable def contactSlot (R : LqpRobot n c m) : Slot (LqpVar (Fin n) c) :=
  ⟨m + 2 * n, c, normalizeRows (storedLevel (m + 2 * n) (lqpContact R.conf) (lqpContact R.conf) (some (lqpCost R.conf)))⟩
noncomputable def taskSlot (R : LqpRobot n c m) (t : Σ t : ℕ, Matrix (Fin t) (Fin 6 ⊕ Fin n) ℝ × (Fin t → ℝ)) : Slot (LqpVar (Fin n) c) :=
  ⟨0, t.1, normalizeRows (lqpTask R.conf t)⟩

/-- the levels of a new object after one configuration -/
noncomputable def freshSlots (R : LqpRobot n c m) : List (Slot (LqpVar (Fin n) c)) :=
  dynSlot R :: contactSlot R :: R.tasks.map (taskSlot R)

/-- the levels a configuration adds -/
def blankSlots (R : LqpRobot n c m) : List (Slot (LqpVar (Fin n) c)) :=
  blankSlot (2 * n) 6 :: blankSlot (m + 2 * n) c :: R.tasks.map fun t => blankSlot 0 t.1

/-- the row counts of the tasks -/
def dims (R : LqpRobot n c m) : List ℕ := R.tasks.map (·.1)

theorem getElem?_append_len {α : Type*} (A B : List α) (b : α) {i : ℕ} (h : A.length = i) : (A ++ b :: B)[i]? = some b := by
  subst h; simp

theorem set_append_len {α : Type*} (A B : List α) (b b' : α) {i : ℕ} (h : A.length = i) : (A ++ b :: B).set i b' = A ++ b' :: B := by
  subst h; simp

/-- writing a task where it fits -/
theorem configureTasks_step (R : LqpRobot n c m) (A B : List (Slot (LqpVar (Fin n) c))) (b : Slot (LqpVar (Fin n) c)) (i : ℕ)
    (hA : A.length = 2 + i) (t : Σ t : ℕ, Matrix (Fin t) (Fin 6 ⊕ Fin n) ℝ × (Fin t → ℝ)) (ts)
    (o : List (Slot (LqpVar (Fin n) c))) (ho : o ++ [blankSlot 0 t.1] = A ++ b :: B) (h1 : b.ineq = 0) (h2 : t.1 = b.eq) :
    configureTasks R o i (t :: ts) = configureTasks R (A ++ [taskSlot R t] ++ B) (i + 1) ts := by
  obtain ⟨bi, be, bl⟩ := b
  simp only at h1 h2
  subst h1 h2
  have e : (⟨0, t.1, normalizeRows (storedLevel 0 (lqpContact R.conf) (lqpTask R.conf t) ((some (lqpCost R.conf)).or bl.H))⟩ :
      Slot (LqpVar (Fin n) c)) = taskSlot R t := by
    simp only [storedLevel, lt_irrefl, if_false, Option.some_or]
    rfl
  rw [configureTasks, ho, writeSlot_some (getElem?_append_len A B _ hA) (fun h => absurd h (lt_irrefl 0)) rfl]
  simp only [set_append_len A B _ _ hA, e]
  simp

/-- tasks on a new object -/
theorem configureTasks_new (R : LqpRobot n c m) (ts) : ∀ (A : List (Slot (LqpVar (Fin n) c))) (i : ℕ), A.length = 2 + i →
    configureTasks R A i ts = some (A ++ ts.map (taskSlot R)) := by
  induction ts with
  | nil => intro A i _; simp [configureTasks]
  | cons t ts ih =>
    intro A i hA
    rw [configureTasks_step R A [] (blankSlot 0 t.1) i hA t ts A rfl rfl rfl, List.append_nil, ih _ _ (by simp [hA]; omega)]
    simp

/-- tasks that fit the levels present -/
theorem configureTasks_fit (R : LqpRobot n c m) (ts) : ∀ (A B : List (Slot (LqpVar (Fin n) c))) (i : ℕ) (d : List ℕ) (D : List (ℕ × ℕ)),
    A.length = 2 + i → B.map sizes = d.map (fun e => (0, e)) ++ D → ts.map (·.1) <+: d →
    configureTasks R (A ++ B) i ts = some (A ++ ts.map (taskSlot R) ++ B.drop ts.length ++ ts.map fun t => blankSlot 0 t.1) := by
  induction ts with
  | nil => intro A B i d D _ _ _; simp [configureTasks]
  | cons t ts ih =>
    intro A B i d D hA hB hp
    obtain ⟨e, rfl⟩ := hp
    match B, hB with
    | b :: B', hB =>
      simp only [List.map_cons, List.cons_append, List.cons.injEq, sizes, Prod.mk.injEq] at hB
      obtain ⟨⟨h1, h2⟩, h3⟩ := hB
      rw [configureTasks_step R A (B' ++ [blankSlot 0 t.1]) b i hA t ts (A ++ b :: B') (by simp) h1 h2.symm]
      rw [ih (A ++ [taskSlot R t]) (B' ++ [blankSlot 0 t.1]) (i + 1) (ts.map (·.1) ++ e) (D ++ [(0, t.1)]) (by simp [hA]; omega)
        (by rw [List.map_append, h3]; simp [sizes, blankSlot]) (List.prefix_append _ _)]
      have hl : ts.length ≤ B'.length := by
        have := congrArg List.length h3
        simp at this
        omega
      simp [List.drop_append_of_le_length hl]

/-- tasks that do not fit -/
theorem configureTasks_misfit (R : LqpRobot n c m) (hn : 0 < n) (hm : 0 < m) (ts) : ∀ (A B : List (Slot (LqpVar (Fin n) c))) (i : ℕ)
    (d : List ℕ) (D : List (ℕ × ℕ)), A.length = 2 + i → B.map sizes = d.map (fun e => (0, e)) ++ (2 * n, 6) :: D → ¬ ts.map (·.1) <+: d →
    configureTasks R (A ++ B) i ts = none := by
  induction ts with
  | nil => intro A B i d D _ _ h; exact absurd List.nil_prefix h
  | cons t ts ih =>
    intro A B i d D hA hB hp
    match d, B, hB with
    | [], b :: B', hB =>
      simp only [List.map_nil, List.nil_append, List.map_cons, List.cons.injEq, sizes, Prod.mk.injEq] at hB
      rw [configureTasks, show A ++ b :: B' ++ [blankSlot 0 t.1] = A ++ b :: (B' ++ [blankSlot 0 t.1]) by simp,
        writeSlot_none (getElem?_append_len A _ b hA) (fun h => by have := h (by rw [hB.1.1]; omega); rw [hB.1.1] at this; omega)]
    | e :: d, b :: B', hB =>
      simp only [List.map_cons, List.cons_append, List.cons.injEq, sizes, Prod.mk.injEq] at hB
      obtain ⟨⟨h1, h2⟩, h3⟩ := hB
      by_cases ht : t.1 = e
      · rw [configureTasks_step R A (B' ++ [blankSlot 0 t.1]) b i hA t ts (A ++ b :: B') (by simp) h1 (ht.trans h2.symm)]
        refine ih (A ++ [taskSlot R t]) (B' ++ [blankSlot 0 t.1]) (i + 1) d (D ++ [(0, t.1)]) (by simp [hA]; omega)
          (by rw [List.map_append, h3]; simp [sizes, blankSlot]) fun hq => hp ?_
        rw [List.map_cons, ht]
        exact (List.prefix_cons_inj e).mpr hq
      · rw [configureTasks, show A ++ b :: B' ++ [blankSlot 0 t.1] = A ++ b :: (B' ++ [blankSlot 0 t.1]) by simp,
          writeSlot_none (getElem?_append_len A _ b hA) (fun _ => by rw [h2]; exact ht)]

theorem configureAt_new (R : LqpRobot n c m) : configureAt [] R = some (freshSlots R) := by
  have h1 : writeSlot ([] ++ [blankSlot (2 * n) 6]) 0 (2 * n) (lqpDynamics R.conf) 6 (lqpDynamics R.conf) none = some [dynSlot R] :=
    writeSlot_some (s := blankSlot (2 * n) 6) rfl (fun _ => rfl) rfl
  have h2 : writeSlot ([dynSlot R] ++ [blankSlot (m + 2 * n) c]) 1 (m + 2 * n) (lqpContact R.conf) c (lqpContact R.conf)
      (some (lqpCost R.conf)) = some [dynSlot R, contactSlot R] :=
    writeSlot_some (s := blankSlot (m + 2 * n) c) rfl (fun _ => rfl) rfl
  simp only [configureAt, h1, h2]
  rw [configureTasks_new R _ _ 0 rfl]
  rfl

/-- The levels of an object whose first configuration had `m` contact rows and tasks of `d` rows. -/
def Shaped (m : ℕ) (d : List ℕ) (o : List (Slot (LqpVar (Fin n) c))) : Prop :=
  ∃ s₀ s₁ rest E, o = s₀ :: s₁ :: rest ∧ sizes s₀ = (2 * n, 6) ∧ sizes s₁ = (m + 2 * n, c) ∧ s₀.l.H = none ∧
    rest.map sizes = d.map (fun e => (0, e)) ++ E ∧ (E = [] ∨ ∃ E', E = (2 * n, 6) :: E')

theorem shaped_new (R : LqpRobot n c m) : Shaped m (dims R) (freshSlots R) := by
  refine ⟨dynSlot R, contactSlot R, _, [], rfl, rfl, rfl, ?_, ?_, Or.inl rfl⟩
  · simp only [dynSlot, normalizeRows, storedLevel]; split_ifs <;> rfl
  · simp [dims, sizes, taskSlot, Function.comp_def]

/-- the first two levels -/
theorem configureAt_two {m₁ : ℕ} (R : LqpRobot n c m) {s₀ s₁ : Slot (LqpVar (Fin n) c)} {rest} (h₀ : sizes s₀ = (2 * n, 6))
    (h₁ : sizes s₁ = (m₁ + 2 * n, c)) (hH : s₀.l.H = none) :
    configureAt (s₀ :: s₁ :: rest) R = if 0 < m₁ + 2 * n → m = m₁ then
      configureTasks R ([dynSlot R, ⟨m₁ + 2 * n, c, normalizeRows (storedLevel (m₁ + 2 * n) (lqpContact R.conf) (lqpContact R.conf)
        (some (lqpCost R.conf)))⟩] ++ (rest ++ [blankSlot (2 * n) 6, blankSlot (m + 2 * n) c])) 0 R.tasks else none := by
  obtain ⟨i₀, e₀, l₀⟩ := s₀
  obtain ⟨i₁, e₁, l₁⟩ := s₁
  simp only [sizes, Prod.mk.injEq] at h₀ h₁
  obtain ⟨rfl, rfl⟩ := h₀
  obtain ⟨rfl, h₁⟩ := h₁
  have h₁ := h₁.symm
  subst h₁
  have h1 : writeSlot (⟨2 * n, 6, l₀⟩ :: ⟨m₁ + 2 * n, c, l₁⟩ :: rest ++ [blankSlot (2 * n) 6]) 0 (2 * n) (lqpDynamics R.conf) 6 (lqpDynamics R.conf) none
      = some (dynSlot R :: ⟨m₁ + 2 * n, c, l₁⟩ :: (rest ++ [blankSlot (2 * n) 6])) := by
    rw [writeSlot_some (s := ⟨2 * n, 6, l₀⟩) rfl (fun _ => rfl) rfl]
    have hH' : l₀.H = none := hH
    simp only [Option.none_or, hH']
    rfl
  simp only [configureAt, h1]
  split_ifs with hm
  · have h2 : writeSlot (dynSlot R :: ⟨m₁ + 2 * n, c, l₁⟩ :: (rest ++ [blankSlot (2 * n) 6]) ++ [blankSlot (m + 2 * n) c]) 1 (m + 2 * n)
        (lqpContact R.conf) c (lqpContact R.conf) (some (lqpCost R.conf)) = some ([dynSlot R, ⟨m₁ + 2 * n, c,
          normalizeRows (storedLevel (m₁ + 2 * n) (lqpContact R.conf) (lqpContact R.conf) (some (lqpCost R.conf)))⟩] ++
            (rest ++ [blankSlot (2 * n) 6, blankSlot (m + 2 * n) c])) := by
      rw [writeSlot_some (s := ⟨m₁ + 2 * n, c, l₁⟩) rfl (fun h => by rw [hm h]) rfl]
      simp [List.set]
    simp only [h2]
  · rw [writeSlot_none (s := ⟨m₁ + 2 * n, c, l₁⟩) rfl (fun h => absurd (fun h' => Nat.add_right_cancel (h h')) hm)]

theorem configureAt_fit {d : List ℕ} {o : List (Slot (LqpVar (Fin n) c))} (R : LqpRobot n c m) (hs : Shaped m d o) (hd : dims R <+: d) :
    configureAt o R = some (freshSlots R ++ o.drop (2 + R.tasks.length) ++ blankSlots R) := by
  obtain ⟨s₀, s₁, rest, E, rfl, h₀, h₁, hH, hr, -⟩ := hs
  rw [configureAt_two R h₀ h₁ hH, if_pos fun _ => rfl]
  have hl : R.tasks.length ≤ rest.length := by
    have h1 := congrArg List.length hr
    have h2 := hd.length_le
    simp [dims] at h1 h2
    omega
  rw [configureTasks_fit R _ _ _ 0 d (E ++ [(2 * n, 6), (m + 2 * n, c)]) rfl (by simp [hr, sizes, blankSlot]) hd]
  rw [List.drop_append_of_le_length hl]
  have : 2 + R.tasks.length = R.tasks.length + 1 + 1 := by omega
  simp [freshSlots, blankSlots, contactSlot, this]

theorem configureAt_misfit {m₁ : ℕ} {d : List ℕ} {o : List (Slot (LqpVar (Fin n) c))} (R : LqpRobot n c m) (hn : 0 < n) (hm : 0 < m₁)
    (hs : Shaped m₁ d o) (h : ¬ (m = m₁ ∧ dims R <+: d)) : configureAt o R = none := by
  obtain ⟨s₀, s₁, rest, E, rfl, h₀, h₁, hH, hr, hE⟩ := hs
  rw [configureAt_two R h₀ h₁ hH]
  split_ifs with h1
  · have hmm := h1 (by omega)
    subst hmm
    obtain ⟨E', hE'⟩ : ∃ E', E ++ [(2 * n, 6), (m + 2 * n, c)] = (2 * n, 6) :: E' := by
      rcases hE with rfl | ⟨E', rfl⟩
      · exact ⟨_, rfl⟩
      · exact ⟨_, rfl⟩
    exact configureTasks_misfit R hn hm _ _ _ 0 d E' rfl (by simp [hr, sizes, blankSlot, ← hE']) fun hd => h ⟨rfl, hd⟩
  · rfl

theorem shaped_next {d : List ℕ} {o : List (Slot (LqpVar (Fin n) c))} (R : LqpRobot n c m) (hs : Shaped m d o) (hd : dims R <+: d) :
    Shaped m d (freshSlots R ++ o.drop (2 + R.tasks.length) ++ blankSlots R) := by
  obtain ⟨s₀, s₁, rest, E, rfl, -, -, -, hr, hE⟩ := hs
  obtain ⟨d', rfl⟩ := hd
  refine ⟨dynSlot R, contactSlot R, R.tasks.map (taskSlot R) ++ rest.drop R.tasks.length ++ blankSlots R, E ++ (blankSlots R).map sizes, ?_, rfl, rfl, ?_, ?_, ?_⟩
  · have : 2 + R.tasks.length = R.tasks.length + 1 + 1 := by omega
    simp [freshSlots, this]
  · simp only [dynSlot, normalizeRows, storedLevel]; split_ifs <;> rfl
  · have h1 : (rest.drop R.tasks.length).map sizes = d'.map (fun e => (0, e)) ++ E := by
      rw [List.map_drop, hr, List.map_append, List.append_assoc]
      exact List.drop_left' (by simp [dims])
    simp only [List.map_append, h1]
    simp [dims, sizes, taskSlot, Function.comp_def]
  · right
    rcases hE with rfl | ⟨E', rfl⟩
    · exact ⟨_, rfl⟩
    · exact ⟨_, rfl⟩

end Verif.Lemmas
