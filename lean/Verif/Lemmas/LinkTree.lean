import Verif.Spec.LinkTree
import Verif.Lemmas.Body
import Mathlib.Tactic.Linarith

set_option linter.unusedSectionVars false

namespace Verif
open Matrix Verif.Model Verif.Spec

/-- extensive quantities of a body -/
def bodyExt (b : Body) : ℝ × Vec3 × Mat3 := (b.mass, b.mass • b.com, originInertia b)

/-- the action of a rigid motion on extensive quantities -/
def extMove (R : Mat3) (x : Vec3) (e : ℝ × Vec3 × Mat3) : ℝ × Vec3 × Mat3 :=
  (e.1, R *ᵥ e.2.1 + e.1 • x, R * e.2.2 * Rᵀ + e.1 • pointInertia x + mixInertia (R *ᵥ e.2.1) x)

theorem extMove_add (R : Mat3) (x : Vec3) (e f) : extMove R x (e + f) = extMove R x e + extMove R x f := by
  simp only [extMove, Prod.fst_add, Prod.snd_add, Prod.mk_add_mk, mulVec_add, Matrix.mul_add, Matrix.add_mul,
    mixInertia_add, add_smul]
  refine Prod.ext rfl (Prod.ext ?_ ?_)
  · simp only; abel
  · simp only; abel

theorem pointInertia_add (x c : Vec3) : pointInertia (x + c) = pointInertia x + pointInertia c + mixInertia x c := by
  ext i j
  simp [pointInertia, mixInertia, vecMulVec_apply, dotProduct, Fin.sum_univ_three]
  ring

theorem bodyExt_moved {R : Mat3} (hR : Rᵀ * R = 1) (x : Vec3) (b : Body) :
    bodyExt (b.moved R x) = extMove R x (bodyExt b) := by
  refine Prod.ext rfl (Prod.ext ?_ ?_)
  · simp only [bodyExt, extMove, Model.Body.moved, mulVec_smul]; module
  · simp only [bodyExt, extMove, Model.Body.moved, originInertia, mulVec_smul, mixInertia_smul]
    rw [pointInertia_add, pointInertia_rot hR, Matrix.mul_add, Matrix.add_mul, Matrix.mul_smul, Matrix.smul_mul]
    module

theorem moved_moved (b : Body) (R S : Mat3) (x y : Vec3) :
    (b.moved S y).moved R x = b.moved (R * S) (x + R *ᵥ y) := by
  refine Body.ext rfl ?_ ?_
  · simp only [Model.Body.moved, mulVec_add, mulVec_mulVec]; abel
  · simp only [Model.Body.moved, transpose_mul, Matrix.mul_assoc]

theorem addLink_bodyExt {a b c : Body} {S : Mat3} {y : Vec3} (h : addLink a b S y = some c) :
    bodyExt c = bodyExt a + bodyExt (b.moved S y) := by
  obtain ⟨h1, -, h3, h4⟩ := addLink_ext h
  exact Prod.ext h1 (Prod.ext h3 h4)

theorem addLink_moved {a b c : Body} {S : Mat3} {y : Vec3} (h : addLink a b S y = some c) {R : Mat3} (hR : Rᵀ * R = 1)
    (x : Vec3) : bodyExt (c.moved R x) = bodyExt (a.moved R x) + bodyExt (b.moved (R * S) (x + R *ᵥ y)) := by
  rw [bodyExt_moved hR, addLink_bodyExt h, extMove_add, ← bodyExt_moved hR, ← bodyExt_moved hR, moved_moved]

theorem sum_set {α β : Type*} [AddCommGroup β] (f : α → β) (L : List α) (p : ℕ) (a b : α) (h : L[p]? = some a) :
    ((L.set p b).map f).sum = (L.map f).sum - f a + f b := by
  induction L generalizing p with
  | nil => simp at h
  | cons x L ih =>
    cases p with
    | zero =>
      simp only [List.getElem?_cons_zero, Option.some.injEq] at h
      subst h
      simp only [List.set_cons_zero, List.map_cons, List.sum_cons]; abel
    | succ p =>
      simp only [List.getElem?_cons_succ] at h
      simp only [List.set_cons_succ, List.map_cons, List.sum_cons, ih p h]; abel

/-- world extensive quantities of a list of links -/
def treeExt (links : List VLink) : ℝ × Vec3 × Mat3 := (links.map fun l => bodyExt (l.body.moved l.rotm l.xpos)).sum

theorem find_last (links : List VLink) (last : VLink) (h : last.children = []) :
    ((List.range (links ++ [last]).length).reverse.find? fun i =>
      (((links ++ [last])[i]?).elim false fun l => l.children.isEmpty)) = some links.length := by
  rw [List.length_append, List.length_singleton, List.range_succ, List.reverse_append]
  simp [h]

/-- One round on a well-formed tree with at least two links. -/
theorem mergeLeaf_ok {joints : List (Mat3 × Vec3)} {links : List VLink} {last : VLink} (hne : links ≠ [])
    (ht : TreeOk (links ++ [last])) (hp : PosesOk joints (links ++ [last]))
    (hm : ∀ l ∈ links ++ [last], 0 < l.body.mass) :
    ∃ links', mergeLeaf joints (links ++ [last]) = some links' ∧ links'.length = links.length ∧ TreeOk links' ∧
      PosesOk joints links' ∧ (∀ l ∈ links', 0 < l.body.mass) ∧ treeExt links' = treeExt (links ++ [last]) ∧
      (links'.head?.map fun l => (l.rotm, l.xpos)) = (links.head?.map fun l => (l.rotm, l.xpos)) := by
  have hn : 0 < links.length := List.length_pos_of_ne_nil hne
  have hlast : (links ++ [last])[links.length]? = some last := by simp
  have hpl := ht.parent_lt _ _ hlast hn
  have hch : last.children = [] := by
    rw [List.eq_nil_iff_forall_not_mem]
    intro j hj
    obtain ⟨h0, c, hc, hcp⟩ := (ht.children _ _ hlast j).mp hj
    have h1 := ht.parent_lt _ _ hc h0
    have h2 : j < (links ++ [last]).length := by
      by_contra h
      rw [List.getElem?_eq_none (by omega)] at hc; simp at hc
    simp at h2
    omega
  obtain ⟨p, hpp⟩ : ∃ p, links[last.parent]? = some p := ⟨_, List.getElem?_eq_getElem hpl⟩
  have hpp' : (links ++ [last])[last.parent]? = some p := by rw [List.getElem?_append_left hpl, hpp]
  have hpm : p ∈ links ++ [last] := List.mem_of_getElem? hpp'
  obtain ⟨j, hj⟩ : ∃ j, joints[links.length]? = some j := by
    have := hp.len
    simp only [List.length_append, List.length_singleton] at this
    exact ⟨_, List.getElem?_eq_getElem (by omega)⟩
  have hmp := hm p hpm
  have hml := hm last (by simp)
  obtain ⟨b, hb⟩ := addLink_isSome (a := p.body) (b := last.body) (by linarith : p.body.mass + last.body.mass ≠ 0) j.1 j.2
  set new : VLink := { p with body := b, children := p.children.erase links.length } with hnew
  have hrel := hp.rel _ _ _ _ hlast hn hpp' hj
  have hstep : mergeLeaf joints (links ++ [last]) = some (links.set last.parent new) := by
    unfold mergeLeaf
    rw [find_last _ _ hch]
    simp only [hlast, hj, hpp', hb]
    congr 1
    rw [List.set_append_left _ _ hpl, ← hnew]
    have : links.length = (links.set last.parent new).length := by simp
    rw [List.eraseIdx_append_of_length_le (by simp)]
    simp
  have hget : ∀ i, (links.set last.parent new)[i]? = if i = last.parent then some new else links[i]? := by
    intro i
    rw [List.getElem?_set]
    by_cases h : last.parent = i
    · subst h; simp [hpl]
    · rw [if_neg h, if_neg (Ne.symm h)]
  have hget' : ∀ {i l}, (links.set last.parent new)[i]? = some l → ∃ l0, (links ++ [last])[i]? = some l0 ∧ i < links.length ∧
      l.parent = l0.parent ∧ l.rotm = l0.rotm ∧ l.xpos = l0.xpos ∧
      l.children = if i = last.parent then l0.children.erase links.length else l0.children := by
    intro i l h
    rw [hget] at h
    split_ifs at h with hi
    · obtain rfl := Option.some.inj h
      subst hi
      exact ⟨p, hpp', hpl, rfl, rfl, rfl, by simp [hnew]⟩
    · have hlt : i < links.length := by
        by_contra hh
        rw [List.getElem?_eq_none (by omega)] at h; simp at h
      exact ⟨l, by rw [List.getElem?_append_left hlt, h], hlt, rfl, rfl, rfl, by simp [hi]⟩
  have hget2 : ∀ {i l0}, i < links.length → (links ++ [last])[i]? = some l0 →
      ∃ l, (links.set last.parent new)[i]? = some l ∧ l.parent = l0.parent := by
    intro i l0 hi h
    rw [List.getElem?_append_left hi] at h
    rw [hget]
    split_ifs with h1
    · subst h1; rw [hpp] at h; obtain rfl := Option.some.inj h
      exact ⟨_, rfl, rfl⟩
    · exact ⟨_, h, rfl⟩
  refine ⟨_, hstep, by simp, ?_, ?_, ?_, ?_, ?_⟩
  · constructor
    · intro i l h h0
      obtain ⟨l0, h1, h2, h3, -⟩ := hget' h
      rw [h3]; exact ht.parent_lt _ _ h1 h0
    · intro i l h
      obtain ⟨l0, h1, h2, h3, -, -, h6⟩ := hget' h
      rw [h6]
      split_ifs
      · exact (ht.nodup _ _ h1).erase _
      · exact ht.nodup _ _ h1
    · intro i l h c
      obtain ⟨l0, h1, h2, h3, -, -, h6⟩ := hget' h
      have hc := ht.children _ _ h1 c
      have hnd := ht.nodup _ _ h1
      have hR : (0 < c ∧ ∃ d, (links.set last.parent new)[c]? = some d ∧ d.parent = i) ↔
          c ≠ links.length ∧ (0 < c ∧ ∃ d, (links ++ [last])[c]? = some d ∧ d.parent = i) := by
        constructor
        · rintro ⟨h0, d, hd, hdp⟩
          obtain ⟨d0, e1, e2, e3, -⟩ := hget' hd
          exact ⟨by omega, h0, d0, e1, e3 ▸ hdp⟩
        · rintro ⟨hcn, h0, d, hd, hdp⟩
          have hlt : c < links.length := by
            have : c < (links ++ [last]).length := by
              by_contra hh
              rw [List.getElem?_eq_none (by omega)] at hd; simp at hd
            simp at this; omega
          obtain ⟨d', e1, e2⟩ := hget2 hlt hd
          exact ⟨h0, d', e1, e2 ▸ hdp⟩
      rw [hR, ← hc, h6]
      split_ifs with hi
      · rw [hnd.mem_erase_iff]
      · refine ⟨fun hm => ⟨?_, hm⟩, fun hm => hm.2⟩
        rintro rfl
        obtain ⟨-, d, hd, hdp⟩ := hc.mp hm
        rw [hlast] at hd
        obtain rfl := Option.some.inj hd
        exact hi hdp.symm
  · refine ⟨?_, ?_, ?_⟩
    · have := hp.len; simp at this ⊢; omega
    · intro l hl
      obtain ⟨i, hi⟩ := List.mem_iff_getElem?.mp hl
      obtain ⟨l0, h1, h2, h3, h4, -⟩ := hget' hi
      rw [h4]; exact hp.rot _ (List.mem_of_getElem? h1)
    · intro i l q k hl h0 hq hk
      obtain ⟨l0, h1, h2, h3, h4, h5, -⟩ := hget' hl
      obtain ⟨q0, g1, g2, g3, g4, g5, -⟩ := hget' hq
      rw [h3] at g1
      rw [h4, h5, g4, g5]
      exact hp.rel _ _ _ _ h1 h0 g1 hk
  · intro l hl
    rcases List.mem_or_eq_of_mem_set hl with h | h
    · exact hm l (by simp [h])
    · rw [h]
      have := (addLink_ext hb).1
      simp only [hnew]
      rw [this]; linarith
  · unfold treeExt
    rw [sum_set _ _ _ _ _ hpp, List.map_append, List.sum_append]
    simp only [List.map_cons, List.map_nil, List.sum_cons, List.sum_nil, add_zero, hnew]
    rw [addLink_moved hb (hp.rot p hpm).orth, ← hrel.1, ← hrel.2]
    abel
  · cases links with
    | nil => simp at hn
    | cons l0 rest =>
      by_cases h : last.parent = 0
      · rw [h] at hpp ⊢
        simp only [List.getElem?_cons_zero, Option.some.injEq] at hpp
        simp [hnew, hpp]
      · obtain ⟨k, hk⟩ := Nat.exists_eq_succ_of_ne_zero h
        rw [hk]; simp

theorem collapse_ok (joints : List (Mat3 × Vec3)) (n : ℕ) (links : List VLink) (hl : links.length = n + 1)
    (ht : TreeOk links) (hp : PosesOk joints links) (hm : ∀ l ∈ links, 0 < l.body.mass) (fuel : ℕ) (hf : n ≤ fuel) :
    ∃ l, collapse joints fuel links = some [l] ∧ IsRot l.rotm ∧ 0 < l.body.mass ∧
      bodyExt (l.body.moved l.rotm l.xpos) = treeExt links ∧
      (links.head?.map fun l => (l.rotm, l.xpos)) = some (l.rotm, l.xpos) := by
  induction n generalizing links fuel with
  | zero =>
    obtain ⟨l, rfl⟩ := List.length_eq_one_iff.mp hl
    refine ⟨l, ?_, hp.rot l (by simp), hm l (by simp), by simp [treeExt], rfl⟩
    cases fuel <;> simp [collapse]
  | succ n ih =>
    obtain ⟨init, last, rfl⟩ : ∃ init last, links = init ++ [last] := by
      rcases List.eq_nil_or_concat links with h | ⟨a, b, h⟩
      · simp [h] at hl
      · exact ⟨a, b, by simpa using h⟩
    have hlen : init.length = n + 1 := by simpa using hl
    have hne : init ≠ [] := by rintro rfl; simp at hlen
    obtain ⟨links', h1, h2, h3, h4, h5, h6, h7⟩ := mergeLeaf_ok hne ht hp hm
    obtain ⟨fuel', rfl⟩ : ∃ f, fuel = f + 1 := ⟨fuel - 1, by omega⟩
    obtain ⟨l, g1, g2, g3, g4, g5⟩ := ih links' (by rw [h2, hlen]) h3 h4 h5 fuel' (by omega)
    refine ⟨l, ?_, g2, g3, by rw [g4, h6], ?_⟩
    · rw [collapse, if_neg (by rw [hl]; omega), h1]; exact g1
    · rw [List.head?_append_of_ne_nil _ hne, ← h7, g5]

end Verif
