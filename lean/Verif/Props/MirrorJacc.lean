import Verif.Props.TwinJacc
import Verif.Props.MirrorLqp

/-!
# C81, C91: order of contacts and mirror images in the joint-acceleration QP
-/

set_option linter.unusedSectionVars false

namespace Verif.Props
open Matrix Verif Verif.Spec Verif.Model

variable {n k : ℕ} {e : Equiv.Perm (Fin n)} {s : Fin n → ℝ} {A : Matrix (Fin 6 ⊕ Fin n) (Fin 6 ⊕ Fin n) ℝ} {G : Fin 6 ⊕ Fin n → ℝ}
  {g : Fin k → Foot (Fin n)} {π : Equiv.Perm (Fin k)} {limit limit' : Option (Fin n → ℝ)} {cs cs' : List ContactLink}

/-- The robot on its feet, as the joint-acceleration QP sees it. -/
abbrev feetJ (A : Matrix (Fin 6 ⊕ Fin n) (Fin 6 ⊕ Fin n) ℝ) (G : Fin 6 ⊕ Fin n → ℝ) (g : Fin k → Foot (Fin n)) (cs : List ContactLink)
    (limit : Option (Fin n → ℝ)) : JRobot (Fin n) (6 * k) := ⟨A, G, stackFn g, cs, limit⟩

/-! ### order of contacts -/

/-- The same motion, with the contacts in another order. -/
def reorder (π : Equiv.Perm (Fin k)) (o : JAnswer (Fin n) (6 * k)) : JAnswer (Fin n) (6 * k) := ⟨o.acc, o.torque, o.force ∘ rowPerm π⟩

def reorderBack (π : Equiv.Perm (Fin k)) (o : JAnswer (Fin n) (6 * k)) : JAnswer (Fin n) (6 * k) := ⟨o.acc, o.torque, o.force ∘ (rowPerm π).symm⟩

theorem reorder_back (o : JAnswer (Fin n) (6 * k)) : reorder π (reorderBack π o) = o := by
  unfold reorder reorderBack
  simp only [Function.comp_assoc, Equiv.symm_comp_self, Function.comp_id]

theorem reorder_row (r : Fin (6 * k)) : stackFn (g ∘ π) r = stackFn g (rowPerm π r) := by
  rw [stackFn_perm, permRows_mul]
  rfl

theorem reorder_admissible (ha : active cs = List.ofFn fun i => (g i).link) (ha' : active cs' = List.ofFn fun i => (g (π i)).link)
    (hc : 6 * k = 6 * (active cs).length) (hc' : 6 * k = 6 * (active cs').length) (o : JAnswer (Fin n) (6 * k)) :
    JAdmissible (feetJ A G (g ∘ π) cs' limit') hc' (reorder π o) ↔ JAdmissible (feetJ A G g cs limit) hc o := by
  have e1 : (stackFn (g ∘ π))ᵀ *ᵥ (o.force ∘ rowPerm π) = (stackFn g)ᵀ *ᵥ o.force := by
    funext q
    show ∑ r, stackFn (g ∘ π) r q * o.force (rowPerm π r) = ∑ r, stackFn g r q * o.force r
    rw [← Equiv.sum_comp (rowPerm π) fun r => stackFn g r q * o.force r]
    exact Finset.sum_congr rfl fun r _ => by rw [reorder_row]
  have e2 : stackFn (g ∘ π) *ᵥ o.acc = 0 ↔ stackFn g *ᵥ o.acc = 0 := by
    have key : ∀ r, (stackFn (g ∘ π) *ᵥ o.acc) r = (stackFn g *ᵥ o.acc) (rowPerm π r) := fun r => by
      show stackFn (g ∘ π) r ⬝ᵥ o.acc = stackFn g (rowPerm π r) ⬝ᵥ o.acc
      rw [reorder_row]
    constructor
    · intro h
      funext r
      have := key ((rowPerm π).symm r)
      rw [h, Equiv.apply_symm_apply] at this
      exact this.symm
    · intro h
      funext r
      rw [key, h]
      rfl
  have e3 : ContactsHold cs' ((o.force ∘ rowPerm π) ∘ Fin.cast hc'.symm) ↔ ContactsHold cs (o.force ∘ Fin.cast hc.symm) := by
    rw [contactsHold_feet g ha hc, contactsHold_feet (g ∘ π) ha' hc']
    have key : ∀ i, wrenchOf (o.force ∘ rowPerm π) i = wrenchOf o.force (π i) := fun i => by rw [← permRows_mulVec, wrenchOf_perm]
    simp only [key, Function.comp_apply]
    refine ⟨fun h i => ?_, fun h i => h (π i)⟩
    have := h (π.symm i)
    rwa [Equiv.apply_symm_apply] at this
  constructor
  · rintro ⟨⟨m1, m2⟩, m3, m4, m5⟩
    refine ⟨⟨?_, e2.mp m2⟩, m3, m4, e3.mp m5⟩
    have : A *ᵥ o.acc + (stackFn (g ∘ π))ᵀ *ᵥ (o.force ∘ rowPerm π) + G = actuate o.torque := m1
    rw [e1] at this
    exact this
  · rintro ⟨⟨m1, m2⟩, m3, m4, m5⟩
    refine ⟨⟨?_, e2.mpr m2⟩, m3, m4, e3.mpr m5⟩
    show A *ᵥ o.acc + (stackFn (g ∘ π))ᵀ *ᵥ (o.force ∘ rowPerm π) + G = actuate o.torque
    rw [e1]
    exact m1

/-- **C81 (joint-acceleration QP).**  6-D contacts, exact solvers: with the contacts registered in another order, the answers of all levels accelerate the
robot alike. -/
theorem C81_jacc (hA : IsSPD A) (ha : active cs = List.ofFn fun i => (g i).link) (ha' : active cs' = List.ofFn fun i => (g (π i)).link)
    (h6 : ∀ l ∈ cs, l.type = .c6d) (h6' : ∀ l ∈ cs', l.type = .c6d) (hp : ∀ l ∈ cs, 0 < l.planeX ∧ 0 < l.planeY)
    (hp' : ∀ l ∈ cs', 0 < l.planeX ∧ 0 < l.planeY) {solve solve' : JSolver} (hs : solve.Exact) (hs' : solve'.Exact)
    {ts t1 t2 : List (JTask (Fin n) (6 * k))} {N : ℕ} (h : jaccPass (feetJ A G g cs limit) solve ts N = some (true, t1))
    (h' : jaccPass (feetJ A G (g ∘ π) cs' limit') solve' ts N = some (true, t2)) :
    ∃ o o' : ℕ → JAnswer (Fin n) (6 * k), (∀ j < N, ∃ T', t1[j]? = some T' ∧ T'.out = some (o j)) ∧
      (∀ j < N, ∃ T', t2[j]? = some T' ∧ T'.out = some (o' j)) ∧ ∀ j < N, (o' j).acc = (o j).acc := by
  have hc : 6 * k = 6 * (active cs).length := by rw [ha, List.length_ofFn]
  have hc' : 6 * k = 6 * (active cs').length := by rw [ha', List.length_ofFn]
  obtain ⟨⟨o, o1, o2⟩, hl, -⟩ := jbest_of_pass (R := feetJ A G g cs limit) h6 hp hc hs h
  obtain ⟨⟨o', o1', o2'⟩, -, hmid⟩ := jbest_of_pass (R := feetJ A G (g ∘ π) cs' limit') h6' hp' hc' hs' h'
  refine ⟨o, o', o1, o1', jbest_twin (R' := feetJ A G (g ∘ π) cs' limit') hA o2 o2' hmid (Φ := reorder π) (Ψ := reorderBack π) (φ := id)
    (fun x hx => (reorder_admissible ha ha' hc hc' x).mpr hx)
    (fun x hx => (reorder_admissible (π := π) ha ha' hc hc' _).mp (by rw [reorder_back]; exact hx)) (fun _ => rfl) (fun _ => rfl) fun i hi => ?_⟩
  obtain ⟨T, hT⟩ := hl i hi
  exact ⟨T, T, hT, hT, fun _ _ => Iff.rfl, fun _ => rfl⟩

/-- **C81 (joint-acceleration QP, return values).** -/
theorem C81_jacc_success (hA : IsSPD A) (ha : active cs = List.ofFn fun i => (g i).link) (ha' : active cs' = List.ofFn fun i => (g (π i)).link)
    (h6 : ∀ l ∈ cs, l.type = .c6d) (h6' : ∀ l ∈ cs', l.type = .c6d) (hp : ∀ l ∈ cs, 0 < l.planeX ∧ 0 < l.planeY)
    (hp' : ∀ l ∈ cs', 0 < l.planeX ∧ 0 < l.planeY) {solve solve' : JSolver} (hs : solve.Exact) (hs' : solve'.Exact) (hf : JSolver.Complete solve)
    (hf' : JSolver.Complete solve') {ts : List (JTask (Fin n) (6 * k))} {N : ℕ} (hN : 0 < N) (hl : N ≤ ts.length) :
    (∃ t1, jaccPass (feetJ A G g cs limit) solve ts N = some (true, t1)) ↔
      ∃ t2, jaccPass (feetJ A G (g ∘ π) cs' limit') solve' ts N = some (true, t2) := by
  have hc : 6 * k = 6 * (active cs).length := by rw [ha, List.length_ofFn]
  have hc' : 6 * k = 6 * (active cs').length := by rw [ha', List.length_ofFn]
  rw [C35_succeeds_iff (R := feetJ A G g cs limit) hA h6 hp hc hs hf hN hl,
    C35_succeeds_iff (R := feetJ A G (g ∘ π) cs' limit') hA h6' hp' hc' hs' hf' hN hl]
  exact ⟨fun ⟨x, hx⟩ => ⟨_, (reorder_admissible ha ha' hc hc' x).mpr hx⟩,
    fun ⟨x, hx⟩ => ⟨_, (reorder_admissible (π := π) ha ha' hc hc' _).mp (by rw [reorder_back]; exact hx)⟩⟩

/-! ### mirror images -/

/-- A motion in the mirror. -/
def mirrorAnswer (e : Equiv.Perm (Fin n)) (s : Fin n → ℝ) (π : Equiv.Perm (Fin k)) (o : JAnswer (Fin n) (6 * k)) : JAnswer (Fin n) (6 * k) :=
  ⟨mirrorAll e s o.acc, recount e s o.torque, mirrorForces π o.force⟩

def unmirrorAnswer (e : Equiv.Perm (Fin n)) (s : Fin n → ℝ) (π : Equiv.Perm (Fin k)) (o : JAnswer (Fin n) (6 * k)) : JAnswer (Fin n) (6 * k) :=
  ⟨mirrorBack e s o.acc, recount e.symm (s ∘ e.symm) o.torque, mirrorStack o.force ∘ (rowPerm π).symm⟩

theorem mirrorAnswer_back (hs : Signs s) (o : JAnswer (Fin n) (6 * k)) : mirrorAnswer e s π (unmirrorAnswer e s π o) = o := by
  have h1 := mirrored_back (e := e) hs o.acc
  have h2 : recount e s (recount e.symm (s ∘ e.symm) o.torque) = o.torque := by
    funext i
    show s i * (s (e.symm (e i)) * o.torque (e.symm (e i))) = o.torque i
    rw [Equiv.symm_apply_apply]
    rcases hs i with h | h <;> simp [h]
  have h3 : mirrorForces π (mirrorStack o.force ∘ (rowPerm π).symm) = o.force := by
    unfold mirrorForces
    rw [Function.comp_assoc, Equiv.symm_comp_self, Function.comp_id, mirrorStack_twice]
  unfold mirrorAnswer unmirrorAnswer
  simp only [h1, h2, h3]

theorem mirrored_actuate (τ : Fin n → ℝ) : actuate (recount e s τ) = mirrorAll e s (actuate τ) := by
  funext r
  rcases r with r | r
  · simp [actuate, mirrorAll, counted]
  · rfl

theorem mirrored_admissible (hs : Signs s) (ha : active cs = List.ofFn fun i => (g i).link)
    (ha' : active cs' = List.ofFn fun i => (mirrorFoot e s (g (π i))).link)
    (hc : 6 * k = 6 * (active cs).length) (hc' : 6 * k = 6 * (active cs').length) (o : JAnswer (Fin n) (6 * k)) :
    JAdmissible (feetJ (mirrorMass e s A) (mirrorAll e s G) (mirrorFoot e s ∘ g ∘ π) cs' limit') hc' (mirrorAnswer e s π o) ↔
      JAdmissible (feetJ A G g cs limit) hc o := by
  have inj : ∀ x y : Fin 6 ⊕ Fin n → ℝ, mirrorAll e s x = mirrorAll e s y → x = y := fun x y h => by
    rw [← back_mirror (e := e) hs x, h, back_mirror hs]
  have e1 : mirrorMass e s A *ᵥ mirrorAll e s o.acc + (stackFn (mirrorFoot e s ∘ g ∘ π))ᵀ *ᵥ mirrorForces π o.force + mirrorAll e s G
      = mirrorAll e s (A *ᵥ o.acc + (stackFn g)ᵀ *ᵥ o.force + G) := by
    rw [mirrored_mass hs, mirrored_feetT]
    funext r
    simp only [mirrorAll, Pi.add_apply]
    ring
  have z : mirrorForces π (0 : Fin (6 * k) → ℝ) = 0 := by
    funext r
    simp [mirrorForces, mirrorStack]
  have e2 : stackFn (mirrorFoot e s ∘ g ∘ π) *ᵥ mirrorAll e s o.acc = 0 ↔ stackFn g *ᵥ o.acc = 0 := by
    rw [mirrored_feet hs]
    refine ⟨fun h => ?_, fun h => by rw [h, z]⟩
    have h2 : mirrorStack (mirrorStack ((stackFn g *ᵥ o.acc) ∘ rowPerm π)) = mirrorStack 0 := congrArg mirrorStack h
    rw [mirrorStack_twice] at h2
    funext r
    have := congrFun h2 ((rowPerm π).symm r)
    simp only [Function.comp_apply, Equiv.apply_symm_apply] at this
    rw [this]
    simp [mirrorStack]
  have e3 := contactsHold_mirror g π ha ha' hc hc' o.force
  constructor
  · rintro ⟨⟨m1, m2⟩, m3, m4, m5⟩
    refine ⟨⟨inj _ _ ?_, e2.mp m2⟩, fun i => ?_, fun i => ?_, e3.mp m5⟩
    · rw [← mirrored_actuate]
      exact e1.symm.trans m1
    · have : |s (e.symm i) * o.torque (e (e.symm i))| ≤ 200 := m3 (e.symm i)
      rw [Equiv.apply_symm_apply] at this
      rcases hs (e.symm i) with h | h <;> simpa [h] using this
    · have : |mirrorAll e s o.acc (.inr (e.symm i))| ≤ 10 := m4 (e.symm i)
      rwa [mirrored_abs hs, Equiv.apply_symm_apply] at this
  · rintro ⟨⟨m1, m2⟩, m3, m4, m5⟩
    refine ⟨⟨?_, e2.mpr m2⟩, fun i => ?_, fun i => ?_, e3.mpr m5⟩
    · refine e1.trans ?_
      show _ = actuate (recount e s o.torque)
      rw [mirrored_actuate]
      exact congrArg _ m1
    · have := m3 (e i)
      show |s i * o.torque (e i)| ≤ 200
      rcases hs i with h | h <;> simpa [h] using this
    · show |mirrorAll e s o.acc (.inr i)| ≤ 10
      rw [mirrored_abs hs]
      exact m4 (e i)

/-- A task in the mirror, its rows in any orthonormal frame. -/
def MirrorTask (e : Equiv.Perm (Fin n)) (s : Fin n → ℝ) (T T' : JTask (Fin n) (6 * k)) : Prop :=
  ∃ Q : Matrix (Fin T.t) (Fin T.t) ℝ, Qᵀ * Q = 1 ∧ T' = ⟨T.t, Q * mirrorCols e s T.J, Q *ᵥ T.f, none, none⟩

/-- **C91 (joint-acceleration QP, mirror image).**  The mirror image of a robot on 6-D contacts, with mirrored tasks and its contacts in any order, is given
the mirrored accelerations on every level. -/
theorem C91_jacc_mirror (hsg : Signs s) (hA : IsSPD A) (ha : active cs = List.ofFn fun i => (g i).link)
    (ha' : active cs' = List.ofFn fun i => (mirrorFoot e s (g (π i))).link)
    (h6 : ∀ l ∈ cs, l.type = .c6d) (h6' : ∀ l ∈ cs', l.type = .c6d) (hp : ∀ l ∈ cs, 0 < l.planeX ∧ 0 < l.planeY)
    (hp' : ∀ l ∈ cs', 0 < l.planeX ∧ 0 < l.planeY) {solve solve' : JSolver} (hs : solve.Exact) (hs' : solve'.Exact)
    {ts ts' t1 t2 : List (JTask (Fin n) (6 * k))} {N : ℕ} (hts : List.Forall₂ (MirrorTask e s) ts ts')
    (h : jaccPass (feetJ A G g cs limit) solve ts N = some (true, t1))
    (h' : jaccPass (feetJ (mirrorMass e s A) (mirrorAll e s G) (mirrorFoot e s ∘ g ∘ π) cs' limit') solve' ts' N = some (true, t2)) :
    ∃ o o' : ℕ → JAnswer (Fin n) (6 * k), (∀ j < N, ∃ T', t1[j]? = some T' ∧ T'.out = some (o j)) ∧
      (∀ j < N, ∃ T', t2[j]? = some T' ∧ T'.out = some (o' j)) ∧ ∀ j < N, (o' j).acc = mirrorAll e s (o j).acc := by
  have hc : 6 * k = 6 * (active cs).length := by rw [ha, List.length_ofFn]
  have hc' : 6 * k = 6 * (active cs').length := by rw [ha', List.length_ofFn]
  obtain ⟨⟨o, o1, o2⟩, hl, -⟩ := jbest_of_pass (R := feetJ A G g cs limit) h6 hp hc hs h
  obtain ⟨⟨o', o1', o2'⟩, -, hmid⟩ := jbest_of_pass (R := feetJ (mirrorMass e s A) (mirrorAll e s G) (mirrorFoot e s ∘ g ∘ π) cs' limit') h6' hp' hc' hs' h'
  refine ⟨o, o', o1, o1', jbest_twin (R' := feetJ (mirrorMass e s A) (mirrorAll e s G) (mirrorFoot e s ∘ g ∘ π) cs' limit') (mirrored_spd hsg hA) o2 o2' hmid
    (Φ := mirrorAnswer e s π) (Ψ := unmirrorAnswer e s π) (φ := mirrorAll e s)
    (fun x hx => (mirrored_admissible hsg ha ha' hc hc' x).mpr hx)
    (fun x hx => (mirrored_admissible (e := e) (π := π) hsg ha ha' hc hc' _).mp (by rw [mirrorAnswer_back hsg]; exact hx)) (fun _ => rfl)
    (fun x => mirrored_back hsg x.acc) fun i hi => ?_⟩
  obtain ⟨T, hT⟩ := hl i hi
  obtain ⟨T', hT', Q, hQ, rfl⟩ := (mirrored_get hts i).1 T hT
  have back : ∀ v : Fin T.t → ℝ, Qᵀ *ᵥ (Q *ᵥ v) = v := fun v => by rw [mulVec_mulVec, hQ, one_mulVec]
  have hq : ∀ v : Fin T.t → ℝ, (Q *ᵥ v) ⬝ᵥ (Q *ᵥ v) = v ⬝ᵥ v := fun v => by rw [dotProduct_mulVec, ← mulVec_transpose, back]
  have val : ∀ a, (Q * mirrorCols e s T.J) *ᵥ mirrorAll e s a = Q *ᵥ (T.J *ᵥ a) := fun a => by rw [← mulVec_mulVec, mirrored_cols hsg]
  refine ⟨T, _, hT, hT', fun a b => ?_, fun a => ?_⟩
  · show (Q * mirrorCols e s T.J) *ᵥ mirrorAll e s a = (Q * mirrorCols e s T.J) *ᵥ mirrorAll e s b ↔ _
    rw [val, val]
    exact ⟨fun h => by rw [← back (T.J *ᵥ a), h, back], fun h => by rw [h]⟩
  · show (1 / 2) * (mirrorAll e s a ⬝ᵥ (mirrorMass e s A *ᵥ mirrorAll e s a)) + 50 * (((Q * mirrorCols e s T.J) *ᵥ mirrorAll e s a - Q *ᵥ T.f) ⬝ᵥ
      ((Q * mirrorCols e s T.J) *ᵥ mirrorAll e s a - Q *ᵥ T.f)) = _
    rw [val, ← mulVec_sub, hq, mirrored_mass hsg, mirrored_dot hsg]
    rfl

/-- **C91 (joint-acceleration QP, symmetric robot).**  A robot that looks the same in the mirror is accelerated symmetrically by every level of a stack that
looks the same in the mirror. -/
theorem C91_jacc (hsg : Signs s) (hA : IsSPD A) (hmass : mirrorMass e s A = A) (hweight : mirrorAll e s G = G) (hfeet : ∀ i, mirrorFoot e s (g (π i)) = g i)
    (ha : active cs = List.ofFn fun i => (g i).link) (h6 : ∀ l ∈ cs, l.type = .c6d) (hp : ∀ l ∈ cs, 0 < l.planeX ∧ 0 < l.planeY)
    {solve : JSolver} (hs : solve.Exact) {ts t1 : List (JTask (Fin n) (6 * k))} {N : ℕ} (hts : List.Forall₂ (MirrorTask e s) ts ts)
    (h : jaccPass (feetJ A G g cs limit) solve ts N = some (true, t1)) :
    ∃ o : ℕ → JAnswer (Fin n) (6 * k), (∀ j < N, ∃ T', t1[j]? = some T' ∧ T'.out = some (o j)) ∧ ∀ j < N, mirrorAll e s (o j).acc = (o j).acc := by
  have hg : mirrorFoot e s ∘ g ∘ π = g := funext hfeet
  obtain ⟨o, o', o1, o1', h2⟩ := C91_jacc_mirror (e := e) (s := s) (π := π) (limit' := limit) hsg hA ha
    (ha.trans (congrArg List.ofFn (funext fun i => by rw [hfeet]))) h6 h6 hp hp hs hs hts h (by rw [hmass, hweight, hg]; exact h)
  refine ⟨o, o1, fun j hj => ?_⟩
  obtain ⟨T, a1, a2⟩ := o1 j hj
  obtain ⟨T', b1, b2⟩ := o1' j hj
  obtain rfl : T = T' := Option.some.inj (a1.symm.trans b1)
  rw [← h2 j hj, Option.some.inj (a2.symm.trans b2)]

/-- The hypotheses are met: the two-legged robot that is to raise both arms, its feet registered in either order, raises them alike. -/
theorem C91_jacc_hypotheses_met : ∃ t1 t2, jaccPass (feetJ 1 Twin.G Twin.feet Pair.cs none) bestSolver [⟨2, Twin.armJ, ![3, 3], none, none⟩] 1 = some (true, t1) ∧
    jaccPass (feetJ 1 Twin.G (Twin.feet ∘ Equiv.swap 0 1) Pair.cs none) bestSolver [⟨2, Twin.armJ, ![3, 3], none, none⟩] 1 = some (true, t2) ∧
    ∃ T o, t1[0]? = some T ∧ T.out = some o ∧ o.acc (.inr 6) = o.acc (.inr 7) := by
  have hc : 6 * 2 = 6 * (active Pair.cs).length := by simp [active, Pair.cs, exContact]
  have h6 : ∀ l ∈ Pair.cs, l.type = .c6d := by simp [Pair.cs, exContact]
  have hp : ∀ l ∈ Pair.cs, 0 < l.planeX ∧ 0 < l.planeY := by simp [Pair.cs, exContact]
  have hq : Twin.arms 0 = 0 := by
    ext r
    rcases r with r | r
    · rfl
    · fin_cases r <;> simp [Twin.arms]
  have hm := Twin.motion 0
  have hadm : JAdmissible (feetJ 1 Twin.G Twin.feet Pair.cs none) hc ⟨Twin.arms 0, Twin.τ + 0, Twin.force 0⟩ := by
    refine ⟨hm, fun i => ?_, fun i => ?_, Twin.hold 0 (fun i => by simp) hc⟩
    · show |Twin.τ i + 0| ≤ 200
      fin_cases i <;> simp [Twin.τ] <;> norm_num
    · rw [hq]; simp
  have ha : active Pair.cs = List.ofFn fun i => (Twin.feet i).link := by simp [Twin.feet, active, Pair.cs, Twin.left, Twin.right, exContact]
  have ha' : active Pair.cs = List.ofFn fun i => (Twin.feet (Equiv.swap 0 1 i)).link := by simp [Twin.feet, active, Pair.cs, Twin.left, Twin.right, exContact]
  obtain ⟨t1, e1⟩ := (C35_succeeds_iff (R := feetJ 1 Twin.G Twin.feet Pair.cs none) isSPD_one h6 hp hc bestSolver_exact bestSolver_complete
    (ts := [⟨2, Twin.armJ, ![3, 3], none, none⟩]) (k := 1) one_pos (by simp)).mpr ⟨_, hadm⟩
  obtain ⟨t2, e2⟩ := (C81_jacc_success (π := Equiv.swap 0 1) (limit' := none) isSPD_one ha ha' h6 h6 hp hp bestSolver_exact bestSolver_exact bestSolver_complete
    bestSolver_complete one_pos (by simp)).mp ⟨t1, e1⟩
  have hT : List.Forall₂ (MirrorTask (k := 2) Twin.e Twin.s) [⟨2, Twin.armJ, ![3, 3], none, none⟩] [⟨2, Twin.armJ, ![3, 3], none, none⟩] := by
    refine List.Forall₂.cons ⟨!![0, 1; 1, 0], ?_, ?_⟩ List.Forall₂.nil
    · ext a b
      fin_cases a <;> fin_cases b <;> simp [Matrix.mul_apply, Fin.sum_univ_two]
    have h1 : (!![0, 1; 1, 0] : Matrix (Fin 2) (Fin 2) ℝ) * mirrorCols Twin.e Twin.s Twin.armJ = Twin.armJ := by
      ext a r
      rcases r with r | r
      · fin_cases a <;> simp [Matrix.mul_apply, Fin.sum_univ_two, mirrorCols, counted, Twin.armJ]
      · fin_cases a <;> fin_cases r <;> simp [Matrix.mul_apply, Fin.sum_univ_two, mirrorCols, counted, Twin.armJ, mirrorSigns, Twin.s, Twin.e]
    have h2 : (!![0, 1; 1, 0] : Matrix (Fin 2) (Fin 2) ℝ) *ᵥ (![3, 3] : Fin 2 → ℝ) = ![3, 3] := by
      ext a
      fin_cases a <;> simp
    show (⟨2, Twin.armJ, ![3, 3], none, none⟩ : JTask (Fin 8) (6 * 2)) = ⟨2, _, _, none, none⟩
    rw [h1, h2]
  obtain ⟨o, o1, o2⟩ := C91_jacc (π := Equiv.swap 0 1) Twin.signs isSPD_one Twin.looks.mass Twin.looks.weight (fun i => by
    fin_cases i
    · exact Twin.mirror_right
    · exact Twin.mirror_left) ha h6 hp bestSolver_exact hT e1
  obtain ⟨T, g1, g2⟩ := o1 0 one_pos
  refine ⟨t1, t2, e1, e2, T, o 0, g1, g2, ?_⟩
  have := congrFun (o2 0 one_pos) (.inr 6)
  simpa [mirrorAll, mirrorSigns, counted, Twin.s, Twin.e] using this.symm

end Verif.Props
