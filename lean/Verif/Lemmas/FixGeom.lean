import Verif.Spec.FixGeom
import Verif.Props.Body
import Verif.Props.Rotation

/-!
# Helper lemmas for C71
-/

set_option linter.unusedSectionVars false

namespace Verif
open Matrix Spec Model Props

variable {turn : Vec3 → ℝ → Mat3} {r r' : GRobot} {c c₀ : GCfg} {d : ℕ} {ld : GLink}

/-- fuel does not matter -/
theorem xbase_fuel (hp : ∀ (i : ℕ) (l : GLink), r.links[i]? = some l → 0 < i → l.parent < i) :
    ∀ (i f g : ℕ), i ≤ f → i ≤ g → r.xbase turn c f i = r.xbase turn c g i := by
  intro i
  induction i using Nat.strong_induction_on with
  | _ i ih =>
    intro f g hf hg
    by_cases h0 : i = 0
    · subst h0
      cases f <;> cases g <;> simp [GRobot.xbase]
    · obtain ⟨f, rfl⟩ : ∃ f', f = f' + 1 := ⟨f - 1, by omega⟩
      obtain ⟨g, rfl⟩ : ∃ g', g = g' + 1 := ⟨g - 1, by omega⟩
      simp only [GRobot.xbase, if_neg h0]
      cases hl : r.links[i]? with
      | none => rfl
      | some l =>
        have hlt := hp i l hl (by omega)
        simp only
        rw [ih l.parent hlt f g (by omega) (by omega)]

/-- Two robots whose link `i` and link `φ i` have the same frame and angle, and parents that correspond, place them alike. -/
theorem xbase_map {r₁ r₂ : GRobot} {c₁ c₂ : GCfg} (φ : ℕ → ℕ) (S : ℕ → Prop) (hR : c₂.R0 = c₁.R0) (hx : c₂.x0 = c₁.x0)
    (h0 : φ 0 = 0) (hφ : ∀ i, S i → i ≠ 0 → φ i ≠ 0)
    (hp₁ : ∀ (i : ℕ) (l : GLink), r₁.links[i]? = some l → 0 < i → l.parent < i)
    (hp₂ : ∀ (i : ℕ) (l : GLink), r₂.links[i]? = some l → 0 < i → l.parent < i)
    (h : ∀ i l, S i → 0 < i → r₁.links[i]? = some l → S l.parent ∧ ∃ b, r₂.links[φ i]? = some
      { parent := φ l.parent, XT := l.XT, axis := l.axis, body := b, slides := l.slides } ∧ c₂.θ (φ i) = c₁.θ i) :
    ∀ (i f g : ℕ), S i → i < r₁.links.length → i ≤ f → φ i ≤ g → r₂.xbase turn c₂ g (φ i) = r₁.xbase turn c₁ f i := by
  intro i
  induction i using Nat.strong_induction_on with
  | _ i ih =>
    intro f g hS hl hf hg
    by_cases hi : i = 0
    · subst hi
      rw [h0]
      cases f <;> cases g <;> simp [GRobot.xbase, hR, hx]
    · have hφi := hφ i hS hi
      obtain ⟨f, rfl⟩ : ∃ f', f = f' + 1 := ⟨f - 1, by omega⟩
      obtain ⟨g, rfl⟩ : ∃ g', g = g' + 1 := ⟨g - 1, by omega⟩
      have hget : r₁.links[i]? = some r₁.links[i] := List.getElem?_eq_getElem hl
      obtain ⟨hSp, b, hb, hθ⟩ := h i _ hS (by omega) hget
      have hlt := hp₁ i _ hget (by omega)
      have hlt₂ := hp₂ (φ i) _ hb (by omega)
      simp only [GRobot.xbase, if_neg hi, if_neg hφi, hget, hb]
      rw [ih _ hlt f g hSp (by omega) (by omega) (by simp only at hlt₂; omega)]
      simp only [GLink.xlam, GLink.xj, hθ]

theorem removeLeaf_get (k : ℕ) : (r.removeLeaf d).links[k]? =
    (r.links[raise d k]?).map fun l => { l with parent := lower d l.parent } := by
  simp only [GRobot.removeLeaf, List.getElem?_map, getElem?_eraseIdx_raise]

theorem removeLeaf_parent (hr : ∀ (i : ℕ) (l : GLink), r.links[i]? = some l → 0 < i → l.parent < i)
    (hleaf : ∀ (i : ℕ) (l : GLink), r.links[i]? = some l → 0 < i → l.parent ≠ d) (hd0 : 0 < d)
    (i : ℕ) (l : GLink) (h : (r.removeLeaf d).links[i]? = some l) (hi : 0 < i) : l.parent < i := by
  rw [removeLeaf_get] at h
  obtain ⟨l0, hl0, rfl⟩ := Option.map_eq_some_iff.mp h
  have hpos : 0 < raise d i := by unfold raise; split_ifs <;> omega
  have h1 := hr _ _ hl0 hpos
  have h2 := hleaf _ _ hl0 hpos
  simp only [lower]
  unfold raise at h1
  split_ifs at h1 ⊢ <;> omega

theorem length_removeLeaf (hd : d < r.links.length) : (r.removeLeaf d).links.length = r.links.length - 1 := by
  simp only [GRobot.removeLeaf, List.length_map, List.length_eraseIdx, if_pos hd]

theorem lower_le (d k : ℕ) : lower d k ≤ k := by
  unfold lower; split_ifs <;> omega

/-- the pose noted by the kinematics update -/
theorem update_pose {j : GJoint} (hd : r.links[d]? = some ld) (hj : r.joints[d]? = some j) (hd0 : 0 < d) :
    (r.update turn c).joints[d]? =
      some { j with pose := some ((ld.xlam turn (c.θ d)).Eᵀ, (ld.xlam turn (c.θ d)).r) } := by
  simp only [GRobot.update, List.getElem?_mapIdx, hj, Option.map_some, hd]
  rw [if_neg (by omega)]

/-- Where a link hangs. -/
theorem xbase_child (hr : GOk r) (hd : r.links[d]? = some ld) (hd0 : 0 < d) :
    r.rotm turn c d = r.rotm turn c ld.parent * (ld.xlam turn (c.θ d)).Eᵀ ∧
      r.xpos turn c d = r.xpos turn c ld.parent + r.rotm turn c ld.parent *ᵥ (ld.xlam turn (c.θ d)).r := by
  have hlen := (List.getElem?_eq_some_iff.mp hd).1
  obtain ⟨n, hn⟩ : ∃ n, r.links.length = n + 1 := ⟨r.links.length - 1, by omega⟩
  have hlt := hr.parent_lt d ld hd hd0
  have e : r.xbase turn c r.links.length d = (ld.xlam turn (c.θ d)).mul (r.xbase turn c r.links.length ld.parent) := by
    conv_lhs => rw [hn]
    simp only [GRobot.xbase, if_neg (Nat.pos_iff_ne_zero.mp hd0), hd]
    rw [xbase_fuel hr.parent_lt ld.parent n r.links.length (by omega) (by omega)]
  unfold GRobot.rotm GRobot.xpos
  rw [e]
  simp only [XForm.mul, transpose_mul]
  exact ⟨trivial, trivial⟩

theorem xj_orth (ht : ∀ a θ, (turn a θ)ᵀ * turn a θ = 1) (l : GLink) (θ : ℝ) : (l.xj turn θ).Eᵀ * (l.xj turn θ).E = 1 := by
  unfold GLink.xj
  split_ifs
  · simp
  · exact ht _ _

/-- All link rotations are rotations. -/
theorem rotm_orth (hr : GOk r) (ht : ∀ a θ, (turn a θ)ᵀ * turn a θ = 1) (h0 : c.R0ᵀ * c.R0 = 1) (f : ℕ) : ∀ i,
    (r.xbase turn c f i).E * (r.xbase turn c f i).Eᵀ = 1 := by
  induction f with
  | zero => intro i; simp only [GRobot.xbase, transpose_transpose]; exact h0
  | succ f ih =>
    intro i
    simp only [GRobot.xbase]
    by_cases hi : i = 0
    · rw [if_pos hi]; simp only [transpose_transpose]; exact h0
    · rw [if_neg hi]
      cases hl : r.links[i]? with
      | none => simp only [transpose_transpose]; exact h0
      | some l =>
        have h1 : l.XT.E * l.XT.Eᵀ = 1 := mul_eq_one_comm.mp (hr.rot i l hl)
        have h2 : (l.xj turn (c.θ i)).E * (l.xj turn (c.θ i)).Eᵀ = 1 := mul_eq_one_comm.mp (xj_orth ht l _)
        simp only [XForm.mul, GLink.xlam, transpose_mul]
        calc (l.xj turn (c.θ i)).E * l.XT.E * (r.xbase turn c f l.parent).E *
              ((r.xbase turn c f l.parent).Eᵀ * (l.XT.Eᵀ * (l.xj turn (c.θ i)).Eᵀ))
            = (l.xj turn (c.θ i)).E * (l.XT.E * ((r.xbase turn c f l.parent).E * (r.xbase turn c f l.parent).Eᵀ) *
                l.XT.Eᵀ) * (l.xj turn (c.θ i)).Eᵀ := by simp only [Matrix.mul_assoc]
          _ = 1 := by rw [ih, Matrix.mul_one, h1, Matrix.mul_one, h2]

/-- Joining two bodies in the frame of the first and putting the result somewhere is the union of the two put there. -/
theorem join_placed {a b j : Body} {R : Mat3} {x : Vec3} (h : addLink a b R x = some j) {S : Mat3} (hS : Sᵀ * S = 1) (y : Vec3) :
    IsUnion [⟨a.mass, S *ᵥ a.com + y, S * a.inertia * Sᵀ⟩,
        ⟨b.mass, (S * R) *ᵥ b.com + (y + S *ᵥ x), (S * R) * b.inertia * (S * R)ᵀ⟩]
      j.mass (S *ᵥ j.com + y) (S * j.inertia * Sᵀ) := by
  obtain ⟨h1, h2, h3⟩ := C22_inertia_adds h j.com
  rw [sub_self] at h3
  have hz : pointInertia (0 : Vec3) = 0 := by
    ext i k; simp [pointInertia, vecMulVec_apply]
  rw [hz, smul_zero, add_zero] at h3
  refine ⟨?_, ?_, ?_⟩
  · simp [h1]
  · simp only [List.map_cons, List.map_nil, List.sum_cons, List.sum_nil, add_zero]
    rw [smul_add, ← mulVec_smul, h2, mulVec_add, mulVec_smul, mulVec_smul, h1, mulVec_add, mulVec_mulVec]
    module
  · simp only [List.map_cons, List.map_nil, List.sum_cons, List.sum_nil, add_zero]
    have e1 : S *ᵥ a.com + y - (S *ᵥ j.com + y) = S *ᵥ (a.com - j.com) := by rw [mulVec_sub]; abel
    have e2 : (S * R) *ᵥ b.com + (y + S *ᵥ x) - (S *ᵥ j.com + y) = S *ᵥ (R *ᵥ b.com + x - j.com) := by
      rw [mulVec_sub, mulVec_add, mulVec_mulVec]; abel
    rw [e1, e2, pointInertia_rot hS, pointInertia_rot hS, h3, transpose_mul]
    simp only [Matrix.mul_add, Matrix.add_mul, Matrix.mul_smul, Matrix.smul_mul, Matrix.mul_assoc]

/-- What comes out of records that hold the frames as loading stores them. -/
theorem rebuild_eq (links : List GLink) (hs : ∀ l ∈ links, l.slides = false) (ks : ℕ → GKind) (hk : ∀ i, ks i ≠ .undefined) :
    rebuild links (links.mapIdx fun i l => ⟨some (l.XT.Eᵀ, l.XT.r), l.axis, none, ks i⟩) =
      some (links.map fun l => { l with XT := ⟨l.XT.Eᵀ, l.XT.r⟩ }) := by
  induction links generalizing ks with
  | nil => rfl
  | cons l ls ih =>
    have h := hs l (by simp)
    have h0 := hk 0
    have h1 := ih (fun l hl => hs l (by simp [hl])) (fun i => ks (i + 1)) fun i => hk _
    simp only [List.mapIdx_cons, List.map_cons, rebuild, h1]
    cases hk0 : ks 0
    · rfl
    · simp only [h]
    · exact absurd hk0 h0

/-- A record without a type stops the rebuilding. -/
theorem rebuild_untyped : ∀ (links : List GLink) (js : List GJoint) (i : ℕ) (j : GJoint), i < links.length → js[i]? = some j →
    j.kind = .undefined → rebuild links js = none
  | [], _, _, _, h, _, _ => by simp at h
  | _ :: _, [], _, _, _, _, _ => rfl
  | l :: ls, j0 :: js, 0, j, _, hj, hk => by
    obtain rfl := Option.some.inj hj
    simp only [rebuild, hk]
    cases j0.frame <;> cases rebuild ls js <;> rfl
  | l :: ls, j0 :: js, i + 1, j, hi, hj, hk => by
    have := rebuild_untyped ls js i j (by simpa using hi) (by simpa using hj) hk
    simp only [rebuild, this]
    split <;> simp_all

end Verif
