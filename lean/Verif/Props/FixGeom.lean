import Verif.Lemmas.FixGeom
import Verif.Props.Rotation

/-!
# C71: making a link fixed, or deleting and adding it again, keeps frames and bodies
-/

set_option linter.unusedSectionVars false

namespace Verif.Props
open Matrix Verif Verif.Spec Verif.Model

variable {turn : Vec3 → ℝ → Mat3} {r r' : GRobot} {c c₀ : GCfg} {d : ℕ} {ld : GLink}

/-- C71, where a link is.  A sliding joint moves its link along the joint axis and does not turn it; a revolute joint turns it
about the origin of the joint frame and does not move that. -/
theorem C71_pose (hr : GOk r) (hd : r.links[d]? = some ld) (hd0 : 0 < d) :
    r.rotm turn c d = r.rotm turn c ld.parent * ld.XT.Eᵀ * (if ld.slides then 1 else (turn ld.axis (c.θ d))ᵀ) ∧
    r.xpos turn c d = r.xpos turn c ld.parent + r.rotm turn c ld.parent *ᵥ
      (ld.XT.r + if ld.slides then ld.XT.Eᵀ *ᵥ (c.θ d • ld.axis) else 0) := by
  obtain ⟨e1, e2⟩ := xbase_child (turn := turn) (c := c) hr hd hd0
  rw [e1, e2]
  cases hs : ld.slides <;> simp [GLink.xlam, GLink.xj, XForm.mul, hs, transpose_mul, Matrix.mul_assoc, add_comm]

/-- C71, making a link fixed.  A link without children, on a revolute or a sliding joint, is changed to a fixed joint after a kinematics update with `c₀`.  Then in
every configuration in which that joint has the angle (or the shift) of the update, every other link is where it would be without the
change, all bodies but that of the parent are as before, and the body of the parent is the union of the two.  Missing: links
with children, which are lost (`C37_fixed_drops_children`), and the case without an update (`C71_fixed_before_update`). -/
theorem C71_fixed_partial (hr : GOk r) (ht : ∀ a θ, (turn a θ)ᵀ * turn a θ = 1) (hd : r.links[d]? = some ld) (hd0 : 0 < d)
    (hj : r.joints.length = r.links.length)
    (hleaf : ∀ (i : ℕ) (l : GLink), r.links[i]? = some l → 0 < i → l.parent ≠ d)
    (hm : ∀ lp, r.links[ld.parent]? = some lp → lp.body.mass + ld.body.mass ≠ 0) :
    ∃ r', (r.update turn c₀).toFixed d = some r' ∧ r'.links.length + 1 = r.links.length ∧
      ∀ c : GCfg, c.R0ᵀ * c.R0 = 1 → c.θ d = c₀.θ d →
        (∀ i < r.links.length, i ≠ d → r'.rotm turn (c.without d) (lower d i) = r.rotm turn c i ∧
          r'.xpos turn (c.without d) (lower d i) = r.xpos turn c i) ∧
        (∀ i l, r.links[i]? = some l → i ≠ d → i ≠ ld.parent → ∃ l', r'.links[lower d i]? = some l' ∧ l'.body = l.body) ∧
        ∃ lp lp', r.links[ld.parent]? = some lp ∧ r'.links[lower d ld.parent]? = some lp' ∧
          let P := GRobot.placed turn r' (c.without d) (lower d ld.parent) lp'
          IsUnion [GRobot.placed turn r c ld.parent lp, GRobot.placed turn r c d ld] P.m P.x P.I := by
  have hdl := (List.getElem?_eq_some_iff.mp hd).1
  have hlt := hr.parent_lt d ld hd hd0
  have hlow : lower d ld.parent = ld.parent := by unfold lower; split_ifs <;> omega
  have hraise : raise d ld.parent = ld.parent := by unfold raise; split_ifs <;> omega
  obtain ⟨j, hjd⟩ : ∃ j, r.joints[d]? = some j := ⟨_, List.getElem?_eq_getElem (by omega)⟩
  have hpl : ld.parent < r.links.length := by omega
  have hlp : r.links[ld.parent]? = some r.links[ld.parent] := List.getElem?_eq_getElem hpl
  set lp := r.links[ld.parent] with hlpdef
  set X := ld.xlam turn (c₀.θ d) with hX
  obtain ⟨jn, hjn⟩ := addLink_isSome (hm lp hlp) X.Eᵀ X.r
  have hgp : (r.removeLeaf d).links[ld.parent]? = some { lp with parent := lower d lp.parent } := by
    rw [removeLeaf_get, hraise, hlp]; rfl
  let r' : GRobot := { (r.update turn c₀).removeLeaf d with
    links := ((r.removeLeaf d).links).set ld.parent { lp with parent := lower d lp.parent, body := jn } }
  have hres : (r.update turn c₀).toFixed d = some r' := by
    unfold GRobot.toFixed
    have e1 : (r.update turn c₀).links[d]? = some ld := hd
    rw [e1, update_pose hd hjd hd0]
    simp only [GRobot.addFixed]
    have e2 : ((r.update turn c₀).removeLeaf d).links = (r.removeLeaf d).links := rfl
    rw [e2, hgp]
    simp only [transpose_transpose]
    rw [← hX, hjn]
  have hlen' : r'.links.length = r.links.length - 1 := by
    show (((r.removeLeaf d).links).set _ _).length = _
    rw [List.length_set, length_removeLeaf hdl]
  have hget : ∀ k, k ≠ ld.parent → r'.links[k]? = (r.removeLeaf d).links[k]? := by
    intro k hk
    show (((r.removeLeaf d).links).set _ _)[k]? = _
    rw [List.getElem?_set_ne (Ne.symm hk)]
  have hgetp : r'.links[ld.parent]? = some { lp with parent := lower d lp.parent, body := jn } := by
    show (((r.removeLeaf d).links).set _ _)[ld.parent]? = _
    rw [List.getElem?_set_self (List.getElem?_eq_some_iff.mp hgp).1]
  have hp' : ∀ (i : ℕ) (l : GLink), r'.links[i]? = some l → 0 < i → l.parent < i := by
    intro i l hl hi
    by_cases hk : i = ld.parent
    · subst hk
      rw [hgetp] at hl
      obtain rfl := Option.some.inj hl
      have := hr.parent_lt _ _ hlp hi
      have := lower_le d lp.parent
      simp only
      omega
    · rw [hget i hk] at hl
      exact removeLeaf_parent hr.parent_lt hleaf hd0 i l hl hi
  refine ⟨r', hres, by omega, ?_⟩
  intro c h0 hθ
  have hpose : ∀ i < r.links.length, i ≠ d → r'.xbase turn (c.without d) r'.links.length (lower d i) =
      r.xbase turn c r.links.length i := by
    intro i hi hid
    refine xbase_map (r₁ := r) (r₂ := r') (c₁ := c) (c₂ := c.without d) (lower d) (fun i => i ≠ d) rfl rfl
      (by simp [lower]) ?_ hr.parent_lt hp' ?_ i _ _ hid hi hi.le ?_
    · intro i hi h0
      unfold lower
      split_ifs <;> omega
    · intro i l hS hi hl
      refine ⟨hleaf i l hl hi, ?_⟩
      have hθi : (c.without d).θ (lower d i) = c.θ i := by
        show c.θ (raise d (lower d i)) = c.θ i
        rw [raise_lower hS]
      by_cases hk : i = ld.parent
      · subst hk
        rw [hlp] at hl
        obtain rfl := Option.some.inj hl
        rw [hlow] at hθi ⊢
        exact ⟨jn, hgetp, hθi⟩
      · have hk' : lower d i ≠ ld.parent := by
          intro e
          apply hk
          rw [← raise_lower hS, e, hraise]
        refine ⟨l.body, ?_, hθi⟩
        rw [hget _ hk', removeLeaf_get, raise_lower hS, hl]
        rfl
    · rw [hlen']
      unfold lower
      split_ifs <;> omega
  refine ⟨fun i hi hid => ?_, ?_, ?_⟩
  · unfold GRobot.rotm GRobot.xpos
    rw [hpose i hi hid]
    exact ⟨rfl, rfl⟩
  · intro i l hl hid hip
    have hk' : lower d i ≠ ld.parent := by
      intro e
      apply hip
      rw [← raise_lower hid, e, hraise]
    refine ⟨{ l with parent := lower d l.parent }, ?_, rfl⟩
    rw [hget _ hk', removeLeaf_get, raise_lower hid, hl]
    rfl
  · refine ⟨lp, _, hlp, by rw [hlow]; exact hgetp, ?_⟩
    have hr1 : r'.rotm turn (c.without d) (lower d ld.parent) = r.rotm turn c ld.parent := by
      unfold GRobot.rotm; rw [hpose _ hpl (by omega)]
    have hx1 : r'.xpos turn (c.without d) (lower d ld.parent) = r.xpos turn c ld.parent := by
      unfold GRobot.xpos; rw [hpose _ hpl (by omega)]
    obtain ⟨hrd, hxd⟩ := xbase_child (turn := turn) (c := c) hr hd hd0
    rw [hθ, ← hX] at hrd hxd
    simp only [GRobot.placed]
    rw [hr1, hx1, hrd, hxd]
    refine join_placed hjn ?_ _
    unfold GRobot.rotm
    rw [transpose_transpose]
    exact rotm_orth hr ht h0 _ _

/-- C71, negation.  Without a kinematics update after loading, the pose used for the fixed joint was never written. -/
theorem C71_fixed_before_update (links : List GLink) (d : ℕ) : (GRobot.load links).toFixed d = none := by
  unfold GRobot.toFixed
  split
  · rename_i l j _ hj
    have : j.pose = none := by
      simp only [GRobot.load, List.getElem?_mapIdx] at hj
      obtain ⟨l', -, rfl⟩ := Option.map_eq_some_iff.mp hj
      rfl
    rw [this]
  · rfl

/-- C71, deleting a link without children, on a revolute joint, of a loaded robot and adding it again with its own records: every link is where it
was and has the body it had, in every configuration; the link is the last one now. -/
theorem C71_readd_partial {links : List GLink} (hr : GOk (GRobot.load links)) (hd : links[d]? = some ld) (hd0 : 0 < d)
    (hs : ld.slides = false) (hleaf : ∀ (i : ℕ) (l : GLink), links[i]? = some l → 0 < i → l.parent ≠ d) :
    ∃ r', (GRobot.load links).readd d = some r' ∧ r'.links.length = links.length ∧
      ∀ (c : GCfg) (i : ℕ) (l : GLink), links[i]? = some l →
        let k := if i = d then links.length - 1 else lower d i
        r'.rotm turn (c.toEnd d (links.length - 1)) k = (GRobot.load links).rotm turn c i ∧
          r'.xpos turn (c.toEnd d (links.length - 1)) k = (GRobot.load links).xpos turn c i ∧
          ∃ l', r'.links[k]? = some l' ∧ l'.body = l.body ∧ l'.axis = l.axis ∧ l'.XT = l.XT ∧ l'.slides = l.slides := by
  have hdl := (List.getElem?_eq_some_iff.mp hd).1
  have hlt := hr.parent_lt d ld hd hd0
  set r := GRobot.load links with hrdef
  have hrl : r.links = links := rfl
  have hjd : r.joints[d]? = some ⟨some (ld.XT.Eᵀ, ld.XT.r), ld.axis, none, .revolute⟩ := by
    simp only [hrdef, GRobot.load, List.getElem?_mapIdx, hd, Option.map_some]
    simp [Nat.pos_iff_ne_zero.mp hd0, hs]
  have hlen : (r.removeLeaf d).links.length = links.length - 1 := length_removeLeaf hdl
  let r' : GRobot := { r.removeLeaf d with
    links := (r.removeLeaf d).links ++ [{ parent := ld.parent, XT := ld.XT, axis := ld.axis, body := ld.body, slides := false }] }
  have hres : r.readd d = some r' := by
    unfold GRobot.readd
    have e1 : r.links[d]? = some ld := hd
    rw [e1, hjd]
    simp only [GRobot.addRevolute]
    rw [if_pos (by rw [hlen]; omega)]
    simp only [transpose_transpose]
    rfl
  have hlen' : r'.links.length = links.length := by
    show ((r.removeLeaf d).links ++ _).length = _
    rw [List.length_append, hlen]; simp; omega
  have hlast : r'.links[links.length - 1]? = some ⟨ld.parent, ld.XT, ld.axis, ld.body, ld.slides⟩ := by
    show ((r.removeLeaf d).links ++ _)[_]? = _
    rw [List.getElem?_append_right (by omega), hlen, Nat.sub_self, hs]
    rfl
  have hget : ∀ k < links.length - 1, r'.links[k]? = (r.removeLeaf d).links[k]? := by
    intro k hk
    show ((r.removeLeaf d).links ++ _)[k]? = _
    rw [List.getElem?_append_left (by omega)]
  have hp' : ∀ (i : ℕ) (l : GLink), r'.links[i]? = some l → 0 < i → l.parent < i := by
    intro i l hl hi
    have hil := (List.getElem?_eq_some_iff.mp hl).1
    rw [hlen'] at hil
    by_cases hk : i = links.length - 1
    · subst hk
      rw [hlast] at hl
      obtain rfl := Option.some.inj hl
      simp only
      omega
    · rw [hget i (by omega)] at hl
      exact removeLeaf_parent hr.parent_lt hleaf hd0 i l hl hi
  let φ : ℕ → ℕ := fun i => if i = d then links.length - 1 else lower d i
  have hφlt : ∀ i < links.length, i ≠ d → lower d i < links.length - 1 := by
    intro i hi hid
    unfold lower
    split_ifs <;> omega
  have hφne : ∀ i < links.length, i ≠ d → φ i = lower d i := fun i _ hid => if_neg hid
  have hlink : ∀ i l, 0 < i → links[i]? = some l → r'.links[φ i]? = some
      { parent := φ l.parent, XT := l.XT, axis := l.axis, body := l.body, slides := l.slides } := by
    intro i l hi hl
    have hil := (List.getElem?_eq_some_iff.mp hl).1
    have hpi := hr.parent_lt i l hl hi
    have hpd := hleaf i l hl hi
    have e : φ l.parent = lower d l.parent := if_neg hpd
    rw [e]
    by_cases hid : i = d
    · subst hid
      rw [hd] at hl
      obtain rfl := Option.some.inj hl
      have : lower i ld.parent = ld.parent := by unfold lower; split_ifs <;> omega
      rw [this]
      have : φ i = links.length - 1 := if_pos rfl
      rw [this, hlast]
    · rw [hφne i hil hid, hget _ (hφlt i hil hid), removeLeaf_get, raise_lower hid, hrl, hl]
      rfl
  refine ⟨r', hres, hlen', ?_⟩
  intro c i l hl
  have hil := (List.getElem?_eq_some_iff.mp hl).1
  have hφle : ∀ i < links.length, φ i < links.length := by
    intro i hi
    by_cases hid : i = d
    · have : φ i = links.length - 1 := if_pos hid
      omega
    · rw [hφne i hi hid]
      have := hφlt i hi hid
      omega
  have hpose : r'.xbase turn (c.toEnd d (links.length - 1)) r'.links.length (φ i) = r.xbase turn c r.links.length i := by
    refine xbase_map (r₁ := r) (r₂ := r') (c₁ := c) (c₂ := c.toEnd d (links.length - 1)) φ (fun i => i < links.length) rfl rfl
      ?_ ?_ hr.parent_lt hp' ?_ i _ _ hil hil (by rw [hrl]; omega) (by rw [hlen']; exact (hφle i hil).le)
    · have : φ 0 = lower d 0 := if_neg (by omega)
      rw [this]
      simp [lower]
    · intro k hk h0
      by_cases hid : k = d
      · have : φ k = links.length - 1 := if_pos hid
        omega
      · rw [hφne k hk hid]
        unfold lower
        split_ifs <;> omega
    · intro k lk hS hk hlk
      refine ⟨by have := hr.parent_lt k lk hlk hk; omega, lk.body, hlink k lk hk hlk, ?_⟩
      show (if φ k = links.length - 1 then c.θ d else c.θ (raise d (φ k))) = c.θ k
      by_cases hid : k = d
      · have : φ k = links.length - 1 := if_pos hid
        rw [if_pos this, hid]
      · have h1 := hφlt k hS hid
        rw [hφne k hS hid, if_neg (by omega), raise_lower hid]
  refine ⟨?_, ?_, ?_⟩
  · unfold GRobot.rotm; exact congrArg (fun X => X.Eᵀ) hpose
  · unfold GRobot.xpos; exact congrArg XForm.r hpose
  · by_cases h0 : i = 0
    · have hi0 : φ i = 0 := by
        rw [hφne i hil (by omega), h0]; simp [lower]
      refine ⟨{ l with parent := lower d l.parent }, ?_, rfl, rfl, rfl, rfl⟩
      show r'.links[φ i]? = _
      rw [hi0, hget 0 (by omega), removeLeaf_get]
      have : raise d 0 = 0 := by unfold raise; rw [if_pos hd0]
      rw [this, hrl, ← h0, hl]
      rfl
    · exact ⟨_, hlink i l (by omega) hl, rfl, rfl, rfl, rfl⟩

/-- C71, negation.  A link on a sliding joint (deleted and added again with its own records) is lost: the robot has one link less
and lighter by its mass, and the call reports no failure. -/
theorem C71_readd_sliding {links : List GLink} (hd : links[d]? = some ld) (hd0 : 0 < d) (hs : ld.slides = true) :
    ∃ r', (GRobot.load links).readd d = some r' ∧ r'.links.length + 1 = links.length ∧
      (r'.links.map (·.body.mass)).sum + ld.body.mass = (links.map (·.body.mass)).sum := by
  have hdl := (List.getElem?_eq_some_iff.mp hd).1
  refine ⟨(GRobot.load links).removeLeaf d, ?_, ?_, ?_⟩
  · unfold GRobot.readd
    have e1 : (GRobot.load links).links[d]? = some ld := hd
    have e2 : (GRobot.load links).joints[d]? = some ⟨none, ld.axis, none, .undefined⟩ := by
      simp only [GRobot.load, List.getElem?_mapIdx, hd, Option.map_some]
      simp [Nat.pos_iff_ne_zero.mp hd0, hs]
    rw [e1, e2]
  · rw [length_removeLeaf hdl]
    show links.length - 1 + 1 = links.length
    omega
  · have e : ((GRobot.load links).removeLeaf d).links.map (·.body.mass) = (links.map (·.body.mass)).eraseIdx d := by
      simp only [GRobot.removeLeaf, GRobot.load, List.map_map, List.eraseIdx_map]
      rfl
    rw [e, sum_eraseIdx_sub _ d ld.body.mass (by rw [List.getElem?_map, hd]; rfl)]
    ring

/-- C71, negation.  No model can be built from the records of a robot with a sliding joint, before or after updates, whatever is
put into the record of the base. -/
theorem C71_rebuild_sliding {links : List GLink} (hd : links[d]? = some ld) (hd0 : 0 < d) (hs : ld.slides = true)
    (cs : List GCfg) (j0 : GJoint) :
    let r := cs.foldl (fun r c => r.update turn c) (GRobot.load links)
    rebuild r.links (r.joints.set 0 j0) = none := by
  have hdl := (List.getElem?_eq_some_iff.mp hd).1
  have key : ∀ (cs : List GCfg) (r : GRobot), r.links = links → (∃ j, r.joints[d]? = some j ∧ j.kind = .undefined) →
      (cs.foldl (fun r c => r.update turn c) r).links = links ∧
        ∃ j, (cs.foldl (fun r c => r.update turn c) r).joints[d]? = some j ∧ j.kind = .undefined := by
    intro cs
    induction cs with
    | nil => intro r h1 h2; exact ⟨h1, h2⟩
    | cons c cs ih =>
      intro r h1 ⟨j, h2, h3⟩
      refine ih (r.update turn c) h1 ⟨_, update_pose (by rw [h1]; exact hd) h2 hd0, h3⟩
  obtain ⟨h1, j, h2, h3⟩ := key cs (GRobot.load links) rfl
    ⟨⟨none, ld.axis, none, .undefined⟩, by
      simp only [GRobot.load, List.getElem?_mapIdx, hd, Option.map_some]
      simp [Nat.pos_iff_ne_zero.mp hd0, hs], rfl⟩
  intro r
  exact rebuild_untyped _ _ d j (by rw [h1]; exact hdl) (by rw [List.getElem?_set_ne (by omega)]; exact h2) h3

/-- C71, negation.  A model built from the link and joint records of a loaded robot: the frame of the base was never written. -/
theorem C71_rebuild_undefined (l : GLink) (ls : List GLink) :
    rebuild (GRobot.load (l :: ls)).links (GRobot.load (l :: ls)).joints = none := by
  simp [GRobot.load, rebuild, List.mapIdx_cons]

/-- C71, negation.  A model built, for a robot without sliding joints, from records that hold the frames of the links as loading stores them (the base's filled in):
the links are where the robot has them in every configuration if and only if every frame rotation is symmetric, because the
rotations are put in without transposing them. -/
theorem C71_rebuild_iff {links : List GLink} (hr : GOk (GRobot.load links)) (ht : ∀ a θ, (turn a θ)ᵀ * turn a θ = 1)
    (hs : ∀ l ∈ links, l.slides = false) :
    ∃ L, rebuild links (links.mapIdx fun i l =>
        ⟨some (l.XT.Eᵀ, l.XT.r), l.axis, none, if i = 0 then .base else .revolute⟩) = some L ∧ L.length = links.length ∧
      ((∀ c : GCfg, c.R0ᵀ * c.R0 = 1 → ∀ i < links.length,
          (GRobot.load L).rotm turn c i = (GRobot.load links).rotm turn c i ∧
            (GRobot.load L).xpos turn c i = (GRobot.load links).xpos turn c i) ↔
        ∀ (i : ℕ) (l : GLink), 0 < i → links[i]? = some l → l.XT.Eᵀ = l.XT.E) := by
  refine ⟨_, rebuild_eq links hs (fun i => if i = 0 then .base else .revolute) (by intro i; split_ifs <;> simp), by simp, ?_⟩
  set L := links.map fun l => { l with XT := ⟨l.XT.Eᵀ, l.XT.r⟩ } with hL
  have hget : ∀ i : ℕ, L[i]? = (links[i]?).map fun l : GLink => { l with XT := ⟨l.XT.Eᵀ, l.XT.r⟩ } := by
    intro i; rw [hL, List.getElem?_map]
  have hok : GOk (GRobot.load L) := by
    constructor
    · intro i l hl hi
      have hl' : L[i]? = some l := hl
      rw [hget] at hl'
      obtain ⟨l0, h0, rfl⟩ := Option.map_eq_some_iff.mp hl'
      exact hr.parent_lt i l0 h0 hi
    · intro i l hl
      have hl' : L[i]? = some l := hl
      rw [hget] at hl'
      obtain ⟨l0, h0, rfl⟩ := Option.map_eq_some_iff.mp hl'
      simp only [transpose_transpose]
      exact mul_eq_one_comm.mp (hr.rot i l0 h0)
  constructor
  · intro h i l hi hl
    have hil := (List.getElem?_eq_some_iff.mp hl).1
    have hpl := hr.parent_lt i l hl hi
    let c : GCfg := ⟨1, 0, fun _ => 0⟩
    have h0 : c.R0ᵀ * c.R0 = 1 := by simp [c]
    have hl' : (GRobot.load L).links[i]? = some { l with XT := ⟨l.XT.Eᵀ, l.XT.r⟩ } := by
      show L[i]? = _
      rw [hget, hl]; rfl
    have e1 := (xbase_child (turn := turn) (c := c) hr hl hi).1
    have e2 := (xbase_child (turn := turn) (c := c) hok hl' hi).1
    rw [(h c h0 i hil).1, (h c h0 l.parent (by omega)).1, e1] at e2
    have hP : ((GRobot.load links).rotm turn c l.parent)ᵀ * (GRobot.load links).rotm turn c l.parent = 1 := by
      unfold GRobot.rotm
      rw [transpose_transpose]
      exact rotm_orth hr ht h0 _ _
    have e3 := congrArg (fun M => ((GRobot.load links).rotm turn c l.parent)ᵀ * M) e2
    simp only [← Matrix.mul_assoc, hP, Matrix.one_mul] at e3
    have e4 := congrArg Matrix.transpose e3
    simp only [transpose_transpose, GLink.xlam, XForm.mul] at e4
    have e5 := congrArg (fun M => (l.xj turn (c.θ i)).Eᵀ * M) e4
    have e6 : ({ l with XT := ⟨l.XT.Eᵀ, l.XT.r⟩ } : GLink).xj turn (c.θ i) = l.xj turn (c.θ i) := rfl
    rw [e6] at e5
    simp only [← Matrix.mul_assoc, xj_orth ht, Matrix.one_mul] at e5
    exact e5.symm
  · intro h c _ i hi
    have key : (GRobot.load L).xbase turn c L.length i = (GRobot.load links).xbase turn c links.length i := by
      refine xbase_map (r₁ := GRobot.load links) (r₂ := GRobot.load L) (c₁ := c) (c₂ := c) id (fun _ => True) rfl rfl rfl
        (fun _ _ h => h) hr.parent_lt hok.parent_lt ?_ i _ _ trivial hi (le_of_lt hi) ?_
      · intro k l _ hk hl
        refine ⟨trivial, l.body, ?_, rfl⟩
        show L[k]? = _
        have hl' : links[k]? = some l := hl
        rw [hget, hl', Option.map_some, h k l hk hl']
        rfl
      · simp only [id, hL, List.length_map]; exact le_of_lt hi
    unfold GRobot.rotm GRobot.xpos
    exact ⟨congrArg (fun X => X.Eᵀ) key, congrArg XForm.r key⟩

/-! ## A robot that meets the hypotheses -/

/-- A quarter turn. -/
def exQuarter : Mat3 := !![0, 1, 0; -1, 0, 0; 0, 0, 1]

theorem exQuarter_orth : exQuarterᵀ * exQuarter = 1 := by
  ext i j; fin_cases i <;> fin_cases j <;> simp [exQuarter, Matrix.mul_apply, Fin.sum_univ_three]

/-- A trunk, an arm and a hand on the arm; the hand is turned by a quarter against the arm. -/
def exGeom : List GLink :=
  [⟨0, ⟨1, 0⟩, ![0, 0, 1], ⟨10, ![0, 0, 1], 1⟩, false⟩, ⟨0, ⟨1, ![0, 0, 1]⟩, ![0, 0, 1], ⟨2, ![1, 0, 0], 1⟩, false⟩,
    ⟨1, ⟨exQuarter, ![1, 0, 0]⟩, ![0, 0, 1], ⟨1, ![0, 1, 0], 1⟩, false⟩]

theorem exGeom_cases {P : ℕ → GLink → Prop} (h0 : P 0 ⟨0, ⟨1, 0⟩, ![0, 0, 1], ⟨10, ![0, 0, 1], 1⟩, false⟩)
    (h1 : P 1 ⟨0, ⟨1, ![0, 0, 1]⟩, ![0, 0, 1], ⟨2, ![1, 0, 0], 1⟩, false⟩)
    (h2 : P 2 ⟨1, ⟨exQuarter, ![1, 0, 0]⟩, ![0, 0, 1], ⟨1, ![0, 1, 0], 1⟩, false⟩) :
    ∀ (i : ℕ) (l : GLink), exGeom[i]? = some l → P i l
  | 0, _, h => by obtain rfl := Option.some.inj h; exact h0
  | 1, _, h => by obtain rfl := Option.some.inj h; exact h1
  | 2, _, h => by obtain rfl := Option.some.inj h; exact h2
  | _ + 3, _, h => by simp [exGeom] at h

theorem exGeom_ok : GOk (GRobot.load exGeom) where
  parent_lt := exGeom_cases (P := fun i l => 0 < i → l.parent < i) (by simp) (by simp) (by simp)
  rot := exGeom_cases (P := fun _ l => l.XT.Eᵀ * l.XT.E = 1) (by simp) (by simp) exQuarter_orth

theorem exTurn_orth (_ : Vec3) (θ : ℝ) : ((rotateWithZ θ)ᵀ)ᵀ * (rotateWithZ θ)ᵀ = 1 := by
  rw [transpose_transpose]
  exact mul_eq_one_comm.mp (C18_axis_rotations θ 0).2.2.1.orth

/-- The hypotheses of `C71_fixed_partial`, `C71_readd_partial` and `C71_rebuild_iff` are met by the hand of this robot. -/
example : ∃ r', ((GRobot.load exGeom).update (fun _ θ => (rotateWithZ θ)ᵀ) ⟨1, 0, fun _ => 1⟩).toFixed 2 = some r' ∧
    r'.links.length = 2 := by
  obtain ⟨r', h, hl, -⟩ := C71_fixed_partial (turn := fun _ θ => (rotateWithZ θ)ᵀ) (c₀ := ⟨1, 0, fun _ => 1⟩) (d := 2)
    exGeom_ok exTurn_orth rfl (by norm_num) rfl
    (exGeom_cases (P := fun i l => 0 < i → l.parent ≠ 2) (by simp) (by simp) (by simp))
    (by
      intro lp hlp
      have : exGeom[1]? = some lp := hlp
      obtain rfl := Option.some.inj this
      norm_num)
  exact ⟨r', h, by have : (GRobot.load exGeom).links.length = 3 := rfl; omega⟩

example : ∃ r', (GRobot.load exGeom).readd 2 = some r' := by
  obtain ⟨r', h, -⟩ := C71_readd_partial (turn := fun _ θ => (rotateWithZ θ)ᵀ) (d := 2) exGeom_ok rfl (by norm_num) rfl
    (exGeom_cases (P := fun i l => 0 < i → l.parent ≠ 2) (by simp) (by simp) (by simp))
  exact ⟨r', h⟩

/-- The same robot with a hand that slides out of the arm: it can be made fixed, but not added again, and no model can be built
from its records. -/
def exSlide : List GLink := exGeom.set 2 ⟨1, ⟨exQuarter, ![1, 0, 0]⟩, ![0, 0, 1], ⟨1, ![0, 1, 0], 1⟩, true⟩

theorem exSlide_cases {P : ℕ → GLink → Prop} (h0 : P 0 ⟨0, ⟨1, 0⟩, ![0, 0, 1], ⟨10, ![0, 0, 1], 1⟩, false⟩)
    (h1 : P 1 ⟨0, ⟨1, ![0, 0, 1]⟩, ![0, 0, 1], ⟨2, ![1, 0, 0], 1⟩, false⟩)
    (h2 : P 2 ⟨1, ⟨exQuarter, ![1, 0, 0]⟩, ![0, 0, 1], ⟨1, ![0, 1, 0], 1⟩, true⟩) :
    ∀ (i : ℕ) (l : GLink), exSlide[i]? = some l → P i l
  | 0, _, h => by obtain rfl := Option.some.inj h; exact h0
  | 1, _, h => by obtain rfl := Option.some.inj h; exact h1
  | 2, _, h => by obtain rfl := Option.some.inj h; exact h2
  | _ + 3, _, h => by simp [exSlide, exGeom] at h

example : (∃ r', ((GRobot.load exSlide).update (fun _ θ => (rotateWithZ θ)ᵀ) ⟨1, 0, fun _ => 1⟩).toFixed 2 = some r' ∧
      r'.links.length = 2) ∧
    (∃ r', (GRobot.load exSlide).readd 2 = some r' ∧ r'.links.length = 2 ∧ (r'.links.map (·.body.mass)).sum = 12) ∧
    ∀ j0, rebuild exSlide (((GRobot.load exSlide).update (fun _ θ => (rotateWithZ θ)ᵀ) ⟨1, 0, fun _ => 1⟩).joints.set 0 j0) =
      none := by
  have hlen : (GRobot.load exSlide).links.length = 3 := rfl
  have hlen' : exSlide.length = 3 := rfl
  refine ⟨?_, ?_, fun j0 => ?_⟩
  · obtain ⟨r', h, hl, -⟩ := C71_fixed_partial (turn := fun _ θ => (rotateWithZ θ)ᵀ) (c₀ := ⟨1, 0, fun _ => 1⟩) (d := 2)
      (r := GRobot.load exSlide)
      ⟨exSlide_cases (P := fun i l => 0 < i → l.parent < i) (by simp) (by simp) (by simp),
        exSlide_cases (P := fun _ l => l.XT.Eᵀ * l.XT.E = 1) (by simp) (by simp) exQuarter_orth⟩
      exTurn_orth rfl (by norm_num) rfl
      (exSlide_cases (P := fun i l => 0 < i → l.parent ≠ 2) (by simp) (by simp) (by simp))
      (by
        intro lp hlp
        have : exSlide[1]? = some lp := hlp
        obtain rfl := Option.some.inj this
        norm_num)
    exact ⟨r', h, by omega⟩
  · obtain ⟨r', h, hl, hm⟩ := C71_readd_sliding (links := exSlide) (d := 2) rfl (by norm_num) rfl
    refine ⟨r', h, by omega, ?_⟩
    norm_num [exSlide, exGeom] at hm
    linarith
  · exact C71_rebuild_sliding (turn := fun _ θ => (rotateWithZ θ)ᵀ) (links := exSlide) (d := 2) rfl (by norm_num) rfl
      [⟨1, 0, fun _ => 1⟩] j0

/-- C71, negation, on a concrete robot: rebuilt from its records, some link stands elsewhere in some configuration. -/
theorem C71_rebuild_wrong : ∃ L, rebuild exGeom (exGeom.mapIdx fun i l =>
        ⟨some (l.XT.Eᵀ, l.XT.r), l.axis, none, if i = 0 then .base else .revolute⟩) = some L ∧
    ∃ c : GCfg, c.R0ᵀ * c.R0 = 1 ∧ ∃ i < exGeom.length,
      ¬ ((GRobot.load L).rotm (fun _ θ => (rotateWithZ θ)ᵀ) c i = (GRobot.load exGeom).rotm (fun _ θ => (rotateWithZ θ)ᵀ) c i ∧
        (GRobot.load L).xpos (fun _ θ => (rotateWithZ θ)ᵀ) c i = (GRobot.load exGeom).xpos (fun _ θ => (rotateWithZ θ)ᵀ) c i) := by
  obtain ⟨L, hL, -, hiff⟩ := C71_rebuild_iff (turn := fun _ θ => (rotateWithZ θ)ᵀ) exGeom_ok exTurn_orth
    (by simp [exGeom])
  refine ⟨L, hL, ?_⟩
  by_contra hne
  push Not at hne
  have hs := hiff.mp (fun c h0 i hi => by
    by_contra hc
    exact hc ⟨(hne c h0 i hi).1, (hne c h0 i hi).2⟩) 2 _ (by norm_num) rfl
  have := congrFun (congrFun hs 0) 1
  simp [exQuarter] at this
  norm_num at this

end Verif.Props
