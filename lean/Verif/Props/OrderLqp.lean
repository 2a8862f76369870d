import Verif.Props.MirrorLqp

/-!
# C81, C82: order of contacts and of task rows in the hierarchical controller
-/

set_option linter.unusedSectionVars false

namespace Verif.Props
open Matrix Verif Verif.Spec Verif.Model

variable {n k m m' : ℕ}

/-- The same task, with its rows in other units (rows of zeros at most turned round) and in another order. -/
def SameRows (T T' : Σ t : ℕ, Matrix (Fin t) (Fin 6 ⊕ Fin n) ℝ × (Fin t → ℝ)) : Prop :=
  ∃ (w : Fin T.1 → ℝ) (p : Equiv.Perm (Fin T.1)), (∀ a, w a ≠ 0 ∧ (T.2.1 (p a) ≠ 0 ∨ |w a| = 1)) ∧
    T' = ⟨T.1, Matrix.of fun a r => w a * T.2.1 (p a) r, fun a => w a * T.2.2 (p a)⟩

theorem oneSigns : Signs (fun _ : Fin n => (1 : ℝ)) := fun _ => .inl rfl

theorem plainSigns_twice (r : Fin 6 ⊕ Fin n) : mirrorSigns (fun _ : Fin n => (1 : ℝ)) r * mirrorSigns (fun _ : Fin n => (1 : ℝ)) r = 1 :=
  mirrorSigns_sq oneSigns r

theorem counted_id (r : Fin 6 ⊕ Fin n) : counted (1 : Equiv.Perm (Fin n)) r = r := by
  rcases r with r | r <;> rfl

theorem plainAll_twice (q : Fin 6 ⊕ Fin n → ℝ) : mirrorAll 1 (fun _ => 1) (mirrorAll 1 (fun _ => 1) q) = q := by
  funext r
  show mirrorSigns _ r * (mirrorSigns _ (counted 1 r) * q (counted 1 (counted 1 r))) = q r
  rw [counted_id, counted_id, ← mul_assoc, plainSigns_twice, one_mul]

theorem plainCols_twice {κ : Type*} (J : Matrix κ (Fin 6 ⊕ Fin n) ℝ) : mirrorCols 1 (fun _ => 1) (mirrorCols 1 (fun _ => 1) J) = J := by
  funext a
  exact plainAll_twice (J a)

theorem plainMass_twice (A : Matrix (Fin 6 ⊕ Fin n) (Fin 6 ⊕ Fin n) ℝ) : mirrorMass 1 (fun _ => 1) (mirrorMass 1 (fun _ => 1) A) = A := by
  ext r q
  show mirrorSigns _ r * mirrorSigns _ q * (mirrorSigns _ (counted 1 r) * mirrorSigns _ (counted 1 q) * A (counted 1 (counted 1 r)) (counted 1 (counted 1 q))) = A r q
  simp only [counted_id]
  have h1 := plainSigns_twice r
  have h2 := plainSigns_twice q
  linear_combination (mirrorSigns (fun _ => 1) q * mirrorSigns (fun _ => 1) q * A r q) * h1 + A r q * h2

theorem mirrorContact_twice (l : ContactLink) : mirrorContact (mirrorContact l) = l := by
  have h : mirror3 * mirror3 = 1 := by
    ext i j
    fin_cases i <;> fin_cases j <;> simp [mirror3]
  have : mirror3 * (mirror3 * l.rotm * mirror3) * mirror3 = l.rotm := by
    rw [Matrix.mul_assoc mirror3 l.rotm, ← Matrix.mul_assoc mirror3 mirror3, h, Matrix.one_mul, Matrix.mul_assoc, h, Matrix.mul_one]
  unfold mirrorContact
  simp only [this]

theorem plainFoot_twice (f : Foot (Fin n)) : mirrorFoot 1 (fun _ => 1) (mirrorFoot 1 (fun _ => 1) f) = f := by
  have hj : (mirrorFoot 1 (fun _ => 1) (mirrorFoot 1 (fun _ => 1) f)).jac = f.jac := by
    ext a r
    show mirrorSign a * (mirrorSigns _ r * (mirrorSign a * (mirrorSigns _ (counted 1 r) * f.jac a (counted 1 (counted 1 r))))) = f.jac a r
    simp only [counted_id]
    have h1 := plainSigns_twice r
    have h2 := mirrorSign_sq a
    linear_combination (mirrorSigns (fun _ => 1) r * mirrorSigns (fun _ => 1) r * f.jac a r) * h2 + f.jac a r * h1
  have hl : (mirrorFoot 1 (fun _ => 1) (mirrorFoot 1 (fun _ => 1) f)).link = f.link := mirrorContact_twice f.link
  cases h : mirrorFoot 1 (fun _ => 1) (mirrorFoot 1 (fun _ => 1) f) with
  | mk l j =>
    rw [h] at hj hl
    cases f
    simp only at hj hl
    rw [hj, hl]

section
variable {A : Matrix (Fin 6 ⊕ Fin n) (Fin 6 ⊕ Fin n) ℝ} {G : Fin 6 ⊕ Fin n → ℝ} {g : Fin k → Foot (Fin n)}
  {C : Matrix (Fin m) (Fin (6 * k)) ℝ} {C' : Matrix (Fin m') (Fin (6 * k)) ℝ}
  {tasks tasks' : List (Σ t : ℕ, Matrix (Fin t) (Fin 6 ⊕ Fin n) ℝ × (Fin t → ℝ))}

/-- **C81, C82 (hierarchical controller).**  A robot on 6-D contacts that could stand still: the contacts registered in another order, and the rows of every
task in another order, turned round or in other units, leave the accelerations of every task as they are. -/
theorem C81_lqp (osqp osqp' : Osqp) (ho : OsqpExact osqp) (ho' : OsqpExact osqp') (N N' : NullSpaceFn) (hN : N.Correct) (hN' : N'.Correct)
    (π : Equiv.Perm (Fin k)) (hA : IsSPD A) {cs cs' : List ContactLink}
    (ha : active cs = List.ofFn fun i => (g i).link) (ha' : active cs' = List.ofFn fun i => (g (π i)).link)
    (h6 : ∀ l ∈ cs, l.type = .c6d) (h6' : ∀ l ∈ cs', l.type = .c6d) (hp : ∀ l ∈ cs, 0 < l.planeX ∧ 0 < l.planeY)
    (hp' : ∀ l ∈ cs', 0 < l.planeX ∧ 0 < l.planeY) (hC : jContactRows cs (6 * k) = some ⟨m, C⟩) (hC' : jContactRows cs' (6 * k) = some ⟨m', C'⟩)
    (htasks : List.Forall₂ SameRows tasks tasks') (hstand : CanStand (feetRobot A G g C tasks).conf) :
    ∃ a b rs a' b' rs', calcControlTorqueLQP osqp N (feetRobot A G g C tasks) = a :: b :: rs ∧
      calcControlTorqueLQP osqp' N' (feetRobot A G (g ∘ π) C' tasks') = a' :: b' :: rs' ∧
      rs.length = tasks.length ∧ rs'.length = tasks.length ∧ qddOf b.y = 0 ∧ qddOf b'.y = 0 ∧
      ∀ (j : ℕ) (r r' : LevelAnswer (LqpVar (Fin n) (6 * k))), rs[j]? = some r → rs'[j]? = some r' → qddOf r'.y = qddOf r.y := by
  -- the robot in the mirror
  let ds := (active cs).map mirrorContact
  have hds : active ds = ds := by
    refine List.filter_eq_self.mpr fun l hl => ?_
    obtain ⟨l0, h0, rfl⟩ := List.mem_map.mp hl
    exact (List.mem_filter.mp h0).2
  have hd : active ds = List.ofFn fun i => (mirrorFoot 1 (fun _ => 1) (g ((1 : Equiv.Perm (Fin k)) i))).link := by
    rw [hds]
    show (active cs).map mirrorContact = _
    rw [ha, List.map_ofFn]
    rfl
  have d6 : ∀ l ∈ ds, l.type = .c6d := fun l hl => by
    obtain ⟨l0, h0, rfl⟩ := List.mem_map.mp hl
    exact h6 l0 (List.mem_filter.mp h0).1
  have dp : ∀ l ∈ ds, 0 < l.planeX ∧ 0 < l.planeY := fun l hl => by
    obtain ⟨l0, h0, rfl⟩ := List.mem_map.mp hl
    exact hp l0 (List.mem_filter.mp h0).1
  have hc : 6 * k = 6 * (active ds).length := by rw [hd, List.length_ofFn]
  obtain ⟨D, hD, -⟩ := jContactRows_six d6 dp hc
  let tasks1 : List (Σ t : ℕ, Matrix (Fin t) (Fin 6 ⊕ Fin n) ℝ × (Fin t → ℝ)) := tasks.map fun T => ⟨T.1, mirrorCols 1 (fun _ => 1) T.2.1, T.2.2⟩
  have t1 : List.Forall₂ (MirrorRows 1 fun _ => 1) tasks tasks1 := by
    refine List.forall₂_map_right_iff.mpr (List.forall₂_same.mpr fun T _ => ⟨fun _ => 1, 1, fun _ => ⟨one_ne_zero, .inr abs_one⟩, ?_⟩)
    simp only [one_mul, Equiv.Perm.coe_one, id_eq]
    rfl
  have t2 : List.Forall₂ (MirrorRows 1 fun _ => 1) tasks1 tasks' := by
    refine List.forall₂_map_left_iff.mpr (htasks.imp fun T T' h => ?_)
    obtain ⟨w, p, hw, rfl⟩ := h
    have hz : ∀ v : Fin 6 ⊕ Fin n → ℝ, mirrorAll 1 (fun _ => 1) v = 0 → v = 0 := fun v h0 => by
      rw [← plainAll_twice v, h0]
      funext r
      simp [mirrorAll]
    refine ⟨w, p, fun a => ⟨(hw a).1, (hw a).2.imp (fun h h0 => h (hz _ h0)) id⟩, ?_⟩
    simp only [plainCols_twice]
  have hstand' := mirrored_stands (e := 1) (π := 1) oneSigns ha hd h6 d6 hp dp hC hD (tasks' := tasks1) hstand
  obtain ⟨a, b, rs, a1, b1, rs1, h1, h2, h3, h4, h5, -, h7⟩ := C91_lqp_mirror (e := 1) (π := 1) osqp osqp ho ho N N hN hN oneSigns hA ha hd h6 d6 hp dp hC hD t1 hstand
  have hfeet : mirrorFoot 1 (fun _ => 1) ∘ (mirrorFoot 1 (fun _ => 1) ∘ g ∘ (1 : Equiv.Perm (Fin k))) ∘ π = g ∘ π := by
    funext i
    exact plainFoot_twice (g (π i))
  have ha2 : active cs' = List.ofFn fun i => (mirrorFoot 1 (fun _ => 1) ((mirrorFoot 1 (fun _ => 1) ∘ g ∘ (1 : Equiv.Perm (Fin k))) (π i))).link :=
    ha'.trans (congrArg List.ofFn (funext fun i => congrArg Foot.link (plainFoot_twice (g (π i))).symm))
  obtain ⟨a2, b2, rs2, a3, b3, rs3, k1, k2, k3, k4, -, k6, k7⟩ := C91_lqp_mirror (e := 1) (π := π)
    (g := mirrorFoot 1 (fun _ => 1) ∘ g ∘ (1 : Equiv.Perm (Fin k))) osqp osqp' ho ho' N N' hN hN' oneSigns
    (mirrored_spd oneSigns hA) hd ha2 d6 h6' dp hp' hD hC' t2 hstand'
  rw [plainMass_twice, plainAll_twice, hfeet] at k2
  have e0 := h2.symm.trans k1
  simp only [List.cons.injEq] at e0
  obtain ⟨rfl, rfl, rfl⟩ := e0
  refine ⟨a, b, rs, a3, b3, rs3, h1, k2, h3, k4.trans (List.length_map _), h5, k6, fun j r r' hr hr' => ?_⟩
  have hlt := (List.getElem?_eq_some_iff.mp hr).1
  have hm := List.getElem?_eq_getElem (l := rs1) (i := j) (by omega)
  rw [k7 j _ r' hm hr', h7 j r _ hr hm, plainAll_twice]

end

/-- The hypotheses are met: the two-legged robot that is to raise both arms, with its feet and arms told in the other order, and
the accelerations of the arms in half the unit. -/
example (osqp : Osqp) (ho : OsqpExact osqp) (N : NullSpaceFn) (hN : N.Correct) : ∃ (m : ℕ) (C : Matrix (Fin m) (Fin (6 * 2)) ℝ),
    jContactRows Pair.cs (6 * 2) = some ⟨m, C⟩ ∧ ∃ a b r a' b' r',
      calcControlTorqueLQP osqp N (feetRobot 1 Twin.G Twin.feet C [⟨2, Twin.armJ, ![3, 1]⟩]) = [a, b, r] ∧
      calcControlTorqueLQP osqp N (feetRobot 1 Twin.G (Twin.feet ∘ Equiv.swap 0 1) C
        [⟨2, Matrix.of fun a r => -2 * Twin.armJ (Equiv.swap 0 1 a) r, fun a => -2 * ![3, 1] (Equiv.swap 0 1 a)⟩]) = [a', b', r'] ∧
      qddOf r'.y = qddOf r.y := by
  obtain ⟨m, C, hC, hst⟩ := Twin.lqp_stands [⟨2, Twin.armJ, ![3, 1]⟩]
  have h6 : ∀ l ∈ Pair.cs, l.type = .c6d := by simp [Pair.cs, exContact]
  have hp : ∀ l ∈ Pair.cs, 0 < l.planeX ∧ 0 < l.planeY := by simp [Pair.cs, exContact]
  have hl : ∀ i, (Twin.feet i).link = exContact true := fun i => by fin_cases i <;> rfl
  have hrow : ∀ a, Twin.armJ a ≠ 0 := fun a h => by
    have h6 := congrFun h (.inr 6)
    have h7 := congrFun h (.inr 7)
    fin_cases a <;> simp [Twin.armJ] at h6 h7
  obtain ⟨a, b, rs, a', b', rs', h1, h2, h3, h4, -, -, h5⟩ := C81_lqp (cs := Pair.cs) (cs' := Pair.cs) osqp osqp ho ho N N hN hN (Equiv.swap 0 1) isSPD_one
    (by simp [hl, active, Pair.cs, exContact]) (by simp [hl, active, Pair.cs, exContact]) h6 h6 hp hp hC hC
    (List.Forall₂.cons ⟨fun _ => -2, Equiv.swap 0 1, fun a => ⟨by norm_num, .inl (hrow _)⟩, rfl⟩ List.Forall₂.nil) hst
  obtain ⟨r, rfl⟩ := List.length_eq_one_iff.mp h3
  obtain ⟨r', rfl⟩ := List.length_eq_one_iff.mp h4
  exact ⟨m, C, hC, a, b, r, a', b', r', h1, h2, h5 0 r r' rfl rfl⟩

end Verif.Props
