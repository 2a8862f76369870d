import Verif.Lemmas.LinkTree
import Verif.Lemmas.Kinematics
import Mathlib.Data.List.GetD

/-!
# C26: collapsing a kinematic tree
-/
set_option linter.unusedSectionVars false

namespace Verif.Props
open Matrix Verif Verif.Spec Verif.Model

theorem placed_shift (L : List Placed) (c : Vec3) :
    (L.map fun l => l.I + l.m • pointInertia (l.x - c)).sum
      = (L.map fun l => l.I + l.m • pointInertia l.x).sum + (L.map fun l => l.m).sum • pointInertia c
        - mixInertia (L.map fun l => l.m • l.x).sum c := by
  induction L with
  | nil => ext i j; simp [mixInertia, dotProduct, vecMulVec_apply]
  | cons l L ih =>
    simp only [List.map_cons, List.sum_cons]
    rw [ih, pointInertia_sub, mixInertia_add, mixInertia_smul]
    unfold mixInertia
    module

/-- A body whose extensive quantities are those of the set is the union. -/
theorem isUnion_of_ext {L : List Placed} {b : Body}
    (h : bodyExt b = (L.map fun l => ((l.m, l.m • l.x, l.I + l.m • pointInertia l.x) : ℝ × Vec3 × Mat3)).sum) :
    IsUnion L b.mass b.com b.inertia := by
  have e : (L.map fun l => ((l.m, l.m • l.x, l.I + l.m • pointInertia l.x) : ℝ × Vec3 × Mat3)).sum
      = ((L.map fun l => l.m).sum, (L.map fun l => l.m • l.x).sum, (L.map fun l => l.I + l.m • pointInertia l.x).sum) := by
    clear h
    induction L with
    | nil => rfl
    | cons l L ih => simp only [List.map_cons, List.sum_cons, ih, Prod.mk_add_mk]
  rw [e] at h
  simp only [bodyExt, Prod.mk.injEq] at h
  obtain ⟨h1, h2, h3⟩ := h
  refine ⟨h1, h2, ?_⟩
  rw [placed_shift, ← h1, ← h2, ← h3, mixInertia_smul, mixInertia_self, originInertia]
  module

/-- C26.  For every tree of links of positive mass, numbered parent before child with matching child lists and with joint
poses that agree with the link poses, `CalcVirtualInertia` ends and returns total mass, true centre of mass (world
coordinates) and the total inertia about it (in the axes of the base link). -/
theorem C26_virtual_inertia {links : List VLink} {joints : List (Mat3 × Vec3)} (hne : links ≠ []) (ht : TreeOk links)
    (hp : PosesOk joints links) (hm : ∀ l ∈ links, 0 < l.body.mass) :
    ∃ I c M base, calcVirtualInertia links joints = some (I, c, M) ∧ links[0]? = some base ∧
      IsUnion (links.map placedLink) M c (base.rotm * I * base.rotmᵀ) := by
  obtain ⟨n, hn⟩ : ∃ n, links.length = n + 1 := ⟨links.length - 1, by
    have := List.length_pos_of_ne_nil hne; omega⟩
  obtain ⟨l, h1, h2, h3, h4, h5⟩ := collapse_ok joints n links hn ht hp hm links.length (by omega)
  obtain ⟨base, rest, rfl⟩ : ∃ b r, links = b :: r := List.exists_cons_of_ne_nil hne
  simp only [List.head?_cons, Option.map_some, Option.some.injEq, Prod.mk.injEq] at h5
  refine ⟨l.body.inertia, l.xpos + l.rotm *ᵥ l.body.com, l.body.mass, base, ?_, rfl, ?_⟩
  · unfold calcVirtualInertia; rw [h1]
  · have := isUnion_of_ext (L := (base :: rest).map placedLink) (b := l.body.moved l.rotm l.xpos) (by
      rw [h4, treeExt, List.map_map]
      refine sum_congr' fun a _ => ?_
      simp only [Function.comp, placedLink, bodyExt, originInertia, Model.Body.moved]
      rw [add_comm a.xpos])
    rw [h5.1]
    simp only [Model.Body.moved] at this
    rwa [add_comm] at this

/-! The numbering made by `InitModelData` satisfies the hypotheses. -/

theorem mem_linkIds {bodies : List RBody} {i : ℕ} :
    i ∈ linkIds bodies ↔ ∃ b, bodies[i]? = some b ∧ b.mass ≠ 0 := by
  simp only [linkIds, List.mem_filter, List.mem_range, decide_eq_true_eq]
  constructor
  · rintro ⟨h, h2⟩
    rw [List.getElem?_eq_getElem h] at h2 ⊢
    exact ⟨_, rfl, h2⟩
  · rintro ⟨b, hb, h2⟩
    have : i < bodies.length := by
      by_contra hh
      rw [List.getElem?_eq_none (by omega)] at hb; simp at hb
    rw [hb]; exact ⟨this, h2⟩

theorem linkIds_sorted (bodies : List RBody) : (linkIds bodies).Pairwise (· < ·) :=
  List.Pairwise.filter _ List.pairwise_lt_range

theorem linkIds_getD {bodies : List RBody} {j : ℕ} (h : j < (linkIds bodies).length) :
    ∃ b, bodies[(linkIds bodies).getD j 0]? = some b ∧ b.mass ≠ 0 := by
  rw [← mem_linkIds, List.getD_eq_getElem _ _ h]
  exact List.getElem_mem h

theorem linkIds_lt {bodies : List RBody} {j k : ℕ} (hk : k < (linkIds bodies).length) (h : j < k) :
    (linkIds bodies).getD j 0 < (linkIds bodies).getD k 0 := by
  rw [List.getD_eq_getElem _ _ hk, List.getD_eq_getElem _ _ (h.trans hk)]
  exact List.pairwise_iff_getElem.mp (linkIds_sorted bodies) _ _ _ _ h

theorem linkIds_inj {bodies : List RBody} {j k : ℕ} (hj : j < (linkIds bodies).length) (hk : k < (linkIds bodies).length)
    (h : (linkIds bodies).getD j 0 = (linkIds bodies).getD k 0) : j = k := by
  rcases lt_trichotomy j k with h1 | h1 | h1
  · have := linkIds_lt hk h1; omega
  · exact h1
  · have := linkIds_lt hj h1; omega

/-- parent number by the loops of `InitModelData` when the RBDL parent is link `j` -/
theorem parentIds_of {bodies : List RBody} {j k : ℕ} (hj : j < (linkIds bodies).length) (hk : k < (linkIds bodies).length)
    (h : lambdaOf bodies (linkIds bodies) k = (linkIds bodies).getD j 0) : (parentIds bodies).getD k 0 = j := by
  have e : (parentIds bodies).getD k 0 = ((List.range (linkIds bodies).length).filter fun j =>
      lambdaOf bodies (linkIds bodies) k = (linkIds bodies).getD j 0).getLastD 0 := by
    rw [List.getD_eq_getElem _ _ (by simpa [parentIds] using hk)]
    simp [parentIds]
  rw [e]
  set F := (List.range (linkIds bodies).length).filter fun j =>
      lambdaOf bodies (linkIds bodies) k = (linkIds bodies).getD j 0 with hF
  have hmem : ∀ i ∈ F, i = j := by
    intro i hi
    simp only [hF, List.mem_filter, List.mem_range, decide_eq_true_eq] at hi
    exact linkIds_inj hi.1 hj (hi.2.symm.trans h)
  have hjF : j ∈ F := by simp only [hF, List.mem_filter, List.mem_range, decide_eq_true_eq]; exact ⟨hj, h⟩
  have hne : F ≠ [] := List.ne_nil_of_mem hjF
  rw [List.getLastD_eq_getLast?, List.getLast?_eq_some_getLast hne]
  exact hmem _ (List.getLast_mem hne)

/-- C26.  If every body with mass except the first hangs directly on a body with mass, the numbering made by
`InitModelData` is a tree numbered parent before child, with matching child lists. -/
theorem C26_tree_of_model {bodies : List RBody} (hm : ModelOk bodies) (hn : NoMasslessParents bodies)
    (data : ℕ → Body × Mat3 × Vec3) : TreeOk (buildLinks bodies data) := by
  have hget : ∀ {i l}, (buildLinks bodies data)[i]? = some l → i < (linkIds bodies).length ∧
      l.parent = (parentIds bodies).getD i 0 ∧ l.children = (childIds bodies).getD i [] := by
    intro i l h
    have hi : i < (linkIds bodies).length := by
      by_contra hh
      rw [List.getElem?_eq_none (by simp [buildLinks]; omega)] at h; simp at h
    refine ⟨hi, ?_⟩
    simp only [buildLinks, List.getElem?_map, List.getElem?_range hi, Option.map_some, Option.some.injEq] at h
    subst h
    exact ⟨rfl, rfl⟩
  have hchild : ∀ {p}, p < (linkIds bodies).length → (childIds bodies).getD p [] =
      (List.range (linkIds bodies).length).filter fun k =>
        lambdaOf bodies (linkIds bodies) k = (linkIds bodies).getD p 0 := by
    intro p hp
    rw [List.getD_eq_getElem _ _ (by simpa [childIds] using hp)]
    simp [childIds]
  -- the RBDL parent of a link
  have hlam : ∀ {k}, k < (linkIds bodies).length →
      lambdaOf bodies (linkIds bodies) k < (linkIds bodies).getD k 0 := by
    intro k hk
    obtain ⟨b, hb, hbm⟩ := linkIds_getD hk
    have h0 : 0 < (linkIds bodies).getD k 0 := by
      rcases Nat.eq_zero_or_pos ((linkIds bodies).getD k 0) with h | h
      · rw [h] at hb; exact absurd (hm.root b hb) hbm
      · exact h
    simp only [lambdaOf, hb, Option.elim]
    exact hm.order _ _ hb h0
  have hpar : ∀ {k}, k < (linkIds bodies).length → 0 < k →
      ∃ j, j < k ∧ lambdaOf bodies (linkIds bodies) k = (linkIds bodies).getD j 0 ∧ (parentIds bodies).getD k 0 = j := by
    intro k hk h0
    obtain ⟨b, hb, hbm⟩ := linkIds_getD hk
    obtain ⟨c, hc, hcm⟩ := linkIds_getD (h0.trans hk)
    obtain ⟨p, hp, hpm⟩ := hn _ _ _ _ hb hc hbm hcm (linkIds_lt hk h0)
    have : b.lambda ∈ linkIds bodies := mem_linkIds.mpr ⟨p, hp, hpm⟩
    obtain ⟨j, hj, hje⟩ := List.mem_iff_getElem.mp this
    have he : lambdaOf bodies (linkIds bodies) k = (linkIds bodies).getD j 0 := by
      simp only [lambdaOf, hb, Option.elim]
      rw [List.getD_eq_getElem _ _ hj, hje]
    refine ⟨j, ?_, he, parentIds_of hj hk he⟩
    have h1 := hlam hk
    rw [he] at h1
    by_contra hjk
    rcases Nat.lt_or_ge k j with h | h
    · have := linkIds_lt hj h; omega
    · have : j = k := by omega
      subst this; omega
  constructor
  · intro i l h h0
    obtain ⟨hi, hp, -⟩ := hget h
    obtain ⟨j, hj, -, he⟩ := hpar hi h0
    rw [hp, he]; exact hj
  · intro p l h
    obtain ⟨hi, -, hc⟩ := hget h
    rw [hc, hchild hi]
    exact List.Nodup.filter _ List.nodup_range
  · intro p l h j
    obtain ⟨hi, -, hc⟩ := hget h
    rw [hc, hchild hi]
    simp only [List.mem_filter, List.mem_range, decide_eq_true_eq]
    constructor
    · rintro ⟨hj, he⟩
      have h0 : 0 < j := by
        rcases Nat.eq_zero_or_pos j with h0 | h0
        · subst h0
          have h1 := hlam hj
          rw [he] at h1
          rcases Nat.eq_zero_or_pos p with h2 | h2
          · subst h2; omega
          · have := linkIds_lt hi h2; omega
        · exact h0
      exact ⟨h0, ⟨(data j).1, (data j).2.1, (data j).2.2, (parentIds bodies).getD j 0, (childIds bodies).getD j []⟩,
        by simp only [buildLinks, List.getElem?_map, List.getElem?_range hj, Option.map_some], parentIds_of hi hj he⟩
    · rintro ⟨h0, c, hc, hcp⟩
      obtain ⟨hj, hcp', -⟩ := hget hc
      obtain ⟨q, -, he, hq⟩ := hpar hj h0
      refine ⟨hj, ?_⟩
      rw [he, ← hq, ← hcp', hcp]

/-- A unit point mass on a link. -/
def unitBody : Body := ⟨1, 0, 1⟩

/-- Three bodies: base and tip of unit mass with a massless body in between, each 1 away from the previous one along the
first axis. -/
def masslessChain : List RBody := [⟨0, 0⟩, ⟨1, 0⟩, ⟨0, 1⟩, ⟨1, 2⟩]

/-- the same chain without the massless body -/
def plainChain : List RBody := [⟨0, 0⟩, ⟨1, 0⟩, ⟨1, 1⟩]

theorem linkIds_massless : linkIds masslessChain = [1, 3] := by
  simp [linkIds, masslessChain, List.range_succ]

theorem linkIds_plain : linkIds plainChain = [1, 2] := by
  simp [linkIds, plainChain, List.range_succ]

/-- C26, disagreement.  A link that hangs on a massless body is numbered as a child of the base (its `parent_id_` stays 0)
while the pose used for merging is relative to the massless body.  For two unit masses at `0` and `(2, 0, 0)` the
function reports the centre of mass `(1/2, 0, 0)` instead of `(1, 0, 0)`. -/
theorem C26_massless_link :
    let data : ℕ → Body × Mat3 × Vec3 := fun k => (unitBody, 1, if k = 0 then 0 else ![2, 0, 0])
    let joints : List (Mat3 × Vec3) := [(1, 0), (1, ![1, 0, 0])]
    ModelOk masslessChain ∧
    ∃ I c M, calcVirtualInertia (buildLinks masslessChain data) joints = some (I, c, M) ∧
      ¬ IsUnion ((buildLinks masslessChain data).map placedLink) M c I := by
  intro data joints
  refine ⟨⟨?_, ?_⟩, ?_⟩
  · intro b hb; simp [masslessChain] at hb; simp [← hb]
  · intro i b hb h0
    match i, hb, h0 with
    | 1, hb, _ => simp [masslessChain] at hb; simp [← hb]
    | 2, hb, _ => simp [masslessChain] at hb; simp [← hb]
    | 3, hb, _ => simp [masslessChain] at hb; simp [← hb]
    | (n + 4), hb, _ => simp [masslessChain] at hb
  · have hpar : parentIds masslessChain = [0, 0] := by
      simp only [parentIds, linkIds_massless]
      simp [List.range_succ, lambdaOf, masslessChain]
    have hchi : childIds masslessChain = [[], []] := by
      simp only [childIds, linkIds_massless]
      simp [List.range_succ, lambdaOf, masslessChain]
    have hl : buildLinks masslessChain data =
        [⟨unitBody, 1, 0, 0, []⟩, ⟨unitBody, 1, ![2, 0, 0], 0, []⟩] := by
      simp [buildLinks, linkIds_massless, List.range_succ, hpar, hchi, data]
    rw [hl]
    obtain ⟨b, hb⟩ := addLink_isSome (a := unitBody) (b := unitBody) (by norm_num [unitBody]) 1 ![1, 0, 0]
    have hstep : mergeLeaf joints [⟨unitBody, 1, 0, 0, []⟩, ⟨unitBody, 1, ![2, 0, 0], 0, []⟩] =
        some [⟨b, 1, 0, 0, []⟩] := by
      simp [mergeLeaf, List.range_succ, joints, hb]
    refine ⟨b.inertia, b.com, b.mass, ?_, ?_⟩
    · simp [calcVirtualInertia, collapse, hstep]
    · intro hU
      obtain ⟨h1, -, h3, -⟩ := addLink_ext hb
      have h4 := hU.com
      rw [h3] at h4
      have := congrFun h4 0
      simp [placedLink, unitBody, Model.Body.moved] at this

/-- hypotheses met: the two-link chain without the massless body -/
example :
    let data : ℕ → Body × Mat3 × Vec3 := fun k => (unitBody, 1, if k = 0 then 0 else ![2, 0, 0])
    let joints : List (Mat3 × Vec3) := [(1, 0), (1, ![2, 0, 0])]
    ModelOk plainChain ∧ NoMasslessParents plainChain ∧ PosesOk joints (buildLinks plainChain data) ∧
      (∀ l ∈ buildLinks plainChain data, 0 < l.body.mass) ∧ (buildLinks plainChain data).length = 2 := by
  intro data joints
  have hpar : parentIds plainChain = [0, 0] := by
    simp only [parentIds, linkIds_plain]
    simp [List.range_succ, lambdaOf, plainChain]
  have hchi : childIds plainChain = [[1], []] := by
    simp only [childIds, linkIds_plain]
    simp [List.range_succ, lambdaOf, plainChain]
  have hl : buildLinks plainChain data =
      [⟨unitBody, 1, 0, 0, [1]⟩, ⟨unitBody, 1, ![2, 0, 0], 0, []⟩] := by
    simp [buildLinks, linkIds_plain, List.range_succ, hpar, hchi, data]
  refine ⟨⟨?_, ?_⟩, ?_, ?_, ?_, ?_⟩
  · intro b hb; simp [plainChain] at hb; simp [← hb]
  · intro i b hb h0
    match i, hb, h0 with
    | 1, hb, _ => simp [plainChain] at hb; simp [← hb]
    | 2, hb, _ => simp [plainChain] at hb; simp [← hb]
    | (n + 3), hb, _ => simp [plainChain] at hb
  · intro i j b c hb hc hbm hcm hji
    match i, hb with
    | 0, hb => omega
    | 1, hb =>
      obtain rfl : j = 0 := by omega
      simp [plainChain] at hc; simp [← hc] at hcm
    | 2, hb => simp [plainChain] at hb; subst hb; exact ⟨⟨1, 0⟩, rfl, one_ne_zero⟩
    | (n + 3), hb => simp [plainChain] at hb
  · rw [hl]
    refine ⟨by simp [joints], ?_, ?_⟩
    · simp only [List.mem_cons, List.not_mem_nil, or_false]
      rintro l (rfl | rfl) <;> exact IsRot.one
    · intro i l p j h1 h2 h3 h4
      match i, h1, h2 with
      | 1, h1, _ =>
        simp at h1; subst h1
        simp at h3; subst h3
        simp [joints] at h4; subst h4
        simp
      | (n + 2), h1, _ => simp at h1
  · rw [hl]; simp [unitBody]
  · rw [hl]; rfl

/-! ## `CalcCOMInertia` -/

theorem baseInertia_eq {l : LinkState} (hR : IsRot l.rotm) (com : Vec3) :
    baseInertia com l = fromBlocks
      (l.rotm * l.body.inertia * l.rotmᵀ + l.body.mass • pointInertia (l.xipos - com))
      (l.body.mass • skew (l.xipos - com)) (l.body.mass • (skew (l.xipos - com))ᵀ) (l.body.mass • 1) := by
  set D := skew (l.rotm *ᵥ l.body.com) with hD
  set S := skew (l.xpos - com) with hS
  have hsum : skew (l.xipos - com) = S + D := by
    rw [hS, hD, ← skew_add, LinkState.xipos]; congr 1; abel
  have h1 : skew (-(l.rotmᵀ *ᵥ (l.xpos - com))) * l.rotmᵀ = -(l.rotmᵀ * S) := by
    rw [skew_neg, skew_rot (IsRot.transpose hR), transpose_transpose, Matrix.neg_mul, Matrix.mul_assoc, IsRot.orth' hR,
      mul_one]
  have hSt : Sᵀ = -S := skew_transpose _
  have hDt : Dᵀ = -D := skew_transpose _
  have hct : (skew l.body.com)ᵀ = -skew l.body.com := skew_transpose _
  have hDe : l.rotm * skew l.body.com * l.rotmᵀ = D := (skew_rot hR _).symm
  have hDe' : l.rotm * (skew l.body.com * l.rotmᵀ) = D := by rw [← Matrix.mul_assoc, hDe]
  have hpi : l.rotm * (skew l.body.com * (skew l.body.com * l.rotmᵀ)) = D * D := by
    rw [← hDe]
    simp only [Matrix.mul_assoc]
    rw [← Matrix.mul_assoc l.rotmᵀ, hR.orth, Matrix.one_mul]
  have hRR : ∀ X : Mat3, l.rotm * (l.rotmᵀ * X) = X := fun X => by
    rw [← Matrix.mul_assoc, IsRot.orth' hR, Matrix.one_mul]
  have hDX : ∀ X : Mat3, l.rotm * (skew l.body.com * (l.rotmᵀ * X)) = D * X := fun X => by
    rw [← hDe]; simp only [Matrix.mul_assoc]
  rw [← skew_sq, hsum]
  simp only [baseInertia, adTinv, spatialInertia, if_true, h1, fromBlocks_transpose, fromBlocks_multiply, transpose_zero,
    Matrix.zero_mul, Matrix.mul_zero, add_zero, zero_add, skew_sq, transpose_neg, transpose_mul, transpose_transpose, transpose_add,
    hSt, hDt, hct]
  congr 1
  · simp only [Matrix.mul_add, Matrix.add_mul, Matrix.mul_assoc, Matrix.smul_mul, Matrix.mul_smul, hpi, Matrix.neg_mul,
      Matrix.mul_neg, hDe', hDX, hRR, Matrix.one_mul, neg_neg, smul_neg, neg_add, smul_add]
    abel
  · simp only [Matrix.mul_add, Matrix.add_mul, Matrix.mul_assoc, Matrix.smul_mul, Matrix.mul_smul, Matrix.neg_mul,
      Matrix.mul_neg, hDe', hDX, hRR, Matrix.one_mul, neg_neg, smul_neg, neg_add, smul_add, IsRot.orth' hR, Matrix.mul_one]
    abel
  · simp only [Matrix.mul_add, Matrix.add_mul, Matrix.mul_assoc, Matrix.smul_mul, Matrix.mul_smul, Matrix.neg_mul,
      Matrix.mul_neg, hDe', hDX, hRR, Matrix.one_mul, neg_neg, smul_neg, neg_add, smul_add, IsRot.orth' hR, Matrix.mul_one]
    abel
  · simp only [Matrix.smul_mul, Matrix.mul_smul, Matrix.one_mul, Matrix.mul_one, IsRot.orth' hR]

/-- C26.  `CalcCOMInertia` over any set of links with nonzero total mass: the 6×6 inertia is block diagonal, the total
inertia about the centre of mass and the total mass; the momentum is the angular momentum about the centre of mass and
the linear momentum. -/
theorem C26_com_inertia {links : List LinkState} (hR : ∀ l ∈ links, IsRot l.rotm)
    (hM : (links.map fun l => l.body.mass).sum ≠ 0) :
    ∃ (M : ℝ) (c : Vec3) (I : Mat3),
      IsUnion (links.map fun l => ⟨l.body.mass, l.xipos, l.rotm * l.body.inertia * l.rotmᵀ⟩) M c I ∧
      (calcCOMInertia links).1 = fromBlocks I 0 0 (M • 1) ∧
      (calcCOMInertia links).2 = Sum.elim
        (links.map fun l => (l.rotm * l.body.inertia * l.rotmᵀ) *ᵥ l.w + l.body.mass • crossProduct (l.xipos - c) l.vi).sum
        (links.map fun l => l.body.mass • l.vi).sum := by
  set M := (links.map fun l => l.body.mass).sum with hMdef
  have hcom : M • comOf links = (links.map fun l => l.body.mass • l.xipos).sum := by
    simp only [comOf]
    rw [linMap_sum (fun v : Vec3 => M • v) (smul_zero _) (fun _ _ => smul_add _ _ _)]
    refine sum_congr' fun l _ => ?_
    rw [smul_smul, ← hMdef, mul_one_div_cancel hM, one_smul]
  have hzero : (links.map fun l => l.body.mass • (l.xipos - comOf links)).sum = 0 := by
    have : ∀ (L : List LinkState) (c : Vec3), (L.map fun l => l.body.mass • (l.xipos - c)).sum
        = (L.map fun l => l.body.mass • l.xipos).sum - (L.map fun l => l.body.mass).sum • c := by
      intro L c
      induction L with
      | nil => simp
      | cons l L ih => simp only [List.map_cons, List.sum_cons, ih]; module
    rw [this, ← hcom, ← hMdef, sub_self]
  refine ⟨M, comOf links, _, ⟨?_, ?_, rfl⟩, ?_, ?_⟩
  · rw [List.map_map]; rfl
  · rw [List.map_map]; exact hcom
  · simp only [calcCOMInertia]
    rw [List.map_map, sum_congr' fun l hl => baseInertia_eq (hR l hl) _]
    have : ∀ (L : List LinkState) (a b c d : LinkState → Mat3),
        (L.map fun l => fromBlocks (a l) (b l) (c l) (d l)).sum =
          fromBlocks (L.map a).sum (L.map b).sum (L.map c).sum (L.map d).sum := by
      intro L a b c d
      induction L with
      | nil => simp
      | cons l L ih => simp only [List.map_cons, List.sum_cons, ih, fromBlocks_add]
    rw [this]
    congr 1
    · rw [sum_congr' (g := fun l : LinkState => skew (l.body.mass • (l.xipos - comOf links))) fun l _ => (skew_smul _ _).symm,
        ← linMap_sum skew skew_zero skew_add, hzero, skew_zero]
    · rw [sum_congr' (g := fun l : LinkState => (skew (l.body.mass • (l.xipos - comOf links)))ᵀ) fun l _ => by
          rw [skew_smul, transpose_smul],
        ← linMap_sum (fun v => (skew v)ᵀ) (by simp [skew_zero]) (fun _ _ => by simp [skew_add]), hzero, skew_zero,
        transpose_zero]
    · rw [← linMap_sum (fun m : ℝ => m • (1 : Mat3)) (zero_smul _ _) (fun _ _ => add_smul _ _ _)]
  · simp only [calcCOMInertia]
    rw [sum_congr' (g := fun l : LinkState => Sum.elim
        ((l.rotm * l.body.inertia * l.rotmᵀ) *ᵥ l.w + l.body.mass • crossProduct (l.xipos - comOf links) l.vi)
        (l.body.mass • l.vi)) ?_]
    · have : ∀ (L : List LinkState) (a b : LinkState → Vec3),
          (L.map fun l => Sum.elim (a l) (b l)).sum = Sum.elim (L.map a).sum (L.map b).sum := by
        intro L a b
        induction L with
        | nil => ext (i | i) <;> rfl
        | cons l L ih => simp only [List.map_cons, List.sum_cons, ih]; ext (i | i) <;> rfl
      rw [this]
    · intro l hl
      have hR' := hR l hl
      have hA : adT (comOf links) l * fromBlocks l.rotmᵀ 0 0 l.rotmᵀ = fromBlocks 1 0 (skew (l.xpos - comOf links)) 1 := by
        simp only [adT, fromBlocks_multiply, Matrix.mul_zero, Matrix.zero_mul, add_zero, zero_add, IsRot.orth' hR',
          Matrix.mul_assoc, Matrix.mul_one]
      rw [Matrix.mul_assoc, hA, baseInertia_eq hR', fromBlocks_multiply, fromBlocks_mulVec]
      have hx : l.xipos - comOf links = (l.xpos - comOf links) + l.rotm *ᵥ l.body.com := by
        rw [LinkState.xipos]; abel
      have hv : l.vi = l.v + crossProduct l.w (l.rotm *ᵥ l.body.com) := rfl
      rw [← skew_sq, hx, hv]
      generalize l.rotm *ᵥ l.body.com = d
      generalize l.xpos - comOf links = e
      simp only [Sum.elim_inl, Sum.elim_inr, Sum.elim_comp_inl, Sum.elim_comp_inr]
      simp only [Matrix.mul_zero, Matrix.mul_one, add_zero, zero_add, skew_transpose, add_mulVec, smul_mulVec,
        ← mulVec_mulVec, Matrix.smul_mul, Matrix.one_mul, skew_mulVec, Matrix.mul_neg, neg_mulVec, map_add,
        LinearMap.add_apply, one_mulVec, Matrix.neg_mul, Matrix.mul_add, Matrix.add_mul, skew_add,
        ← cross_anticomm d l.w, map_neg, transpose_add]
      congr 1
      · module
      · module

/-- hypotheses met: one spinning link -/
example : (∀ l ∈ [(⟨unitBody, 1, ![1, 0, 0], ![0, 0, 1], 0⟩ : LinkState)], IsRot l.rotm) ∧
    ([(⟨unitBody, 1, ![1, 0, 0], ![0, 0, 1], 0⟩ : LinkState)].map fun l => l.body.mass).sum ≠ 0 := by
  simp [unitBody, IsRot.one]

end Verif.Props
