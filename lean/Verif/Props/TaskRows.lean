import Verif.Lemmas.TaskRows
import Verif.Props.TaskPD
import Verif.Props.Kinematics
import Mathlib.Analysis.SpecialFunctions.Trigonometric.Deriv

/-!
# C52: the rows of link tasks
-/
set_option linter.unusedSectionVars false

namespace Verif.Props
open Matrix Verif Verif.Model Verif.Spec

variable {σ : Type*} [Fintype σ]

/-- Assumption about RBDL: the link record holds the position, orientation and velocities of the motion `m` at time `t`, and
the point Jacobians map the generalised velocity `qd` to the angular velocity (rows 0-2) and the velocity of the point
(rows 3-5). -/
structure LinkKnown (l : RowLink σ) (m : LinkMotion) (qd : σ → ℝ) (t : ℝ) : Prop where
  stored : ∃ l0 : RowLink σ, l = l0.updatePos (m.x t) (m.R t) l.w l.v
  vel : ∀ i, HasDerivAt (fun s => m.x s i) (l.v i) t
  ang : AngularVelocity m.R l.w t
  jac : ∃ J : Vec3 → Fin 6 → σ → ℝ, l.pointJac = some J ∧
    ∀ p pos vel, m.PointAt p t pos vel →
      (J p 0 ⬝ᵥ qd = l.w 0 ∧ J p 1 ⬝ᵥ qd = l.w 1 ∧ J p 2 ⬝ᵥ qd = l.w 2) ∧
      J p 3 ⬝ᵥ qd = vel 0 ∧ J p 4 ⬝ᵥ qd = vel 1 ∧ J p 5 ⬝ᵥ qd = vel 2

omit [Fintype σ] in
theorem pointAt_of {m : LinkMotion} {v w : Vec3} {t : ℝ} (hv : ∀ i, HasDerivAt (fun s => m.x s i) (v i) t)
    (hw : AngularVelocity m.R w t) (p : Vec3) :
    m.PointAt p t (m.x t + m.R t *ᵥ p) (v + crossProduct w (m.R t *ᵥ p)) :=
  ⟨rfl, fun i => (hv i).add (hw p i)⟩

/-- C52, Jacobian rows.  After `UpdateTaskSpace`, for every link of every task that is not a custom task: the rows of that
link, placed behind the rows of the links registered before it, map the generalised velocity to the velocity of the tracked
point (link origin, centre of mass of the link, or the point given by the user) and to the angular velocity of the link. -/
theorem C52_rows {t : ℝ} {qd : σ → ℝ} {links links' : List (RowLink σ)} {ts ts' : List (RowTask σ)}
    (h : updateTaskSpace t links ts = some (links', ts')) {j : ℕ} {T T' : RowTask σ} (hT : ts[j]? = some T)
    (hT' : ts'[j]? = some T') (hc : T.custom = false) {pre post : List RowTaskLink} {k : RowTaskLink}
    (hk : T.links = pre ++ k :: post) {l : RowLink σ} (hl : links[k.link]? = some l) (hcom : l.isCom = false)
    {m : LinkMotion} (hm : LinkKnown l m qd t) :
    let o := (pre.map fun k => taskRows k.pd.mode).sum
    (TracksPosition k.pd.mode → ∃ pos vel, m.PointAt (taskFrame k.pd.mode l.com k.point) t pos vel ∧
      ∀ i : Fin 3, ∃ row, T'.J[o + i.val]? = some row ∧ row ⬝ᵥ qd = vel i) ∧
    (TracksRotation k.pd.mode → ∃ w, AngularVelocity m.R w t ∧
      ∀ i : Fin 3, ∃ row, T'.J[o + rotationRow k.pd.mode + i.val]? = some row ∧ row ⬝ᵥ qd = w i) := by
  intro o
  have H := updateTaskSpace_spec h hT hT' hc hk
  obtain ⟨l0, r, h0, hr, hJ, -, -⟩ := H.used
  rw [hl] at h0
  obtain rfl := Option.some.inj h0
  obtain ⟨J, hpj, hJac⟩ := hm.jac
  have hmode := H.mode
  have hu : usedLink l k.link = { l with jac := swapRows (J 0), jacCom := swapRows (J l.com) } := by
    rw [usedLink, if_neg (by simp [hcom]), freshLink, hpj]
  rw [hu] at hr
  have hP := fun p => hJac p _ _ (pointAt_of hm.vel hm.ang p)
  have ho : ∀ i, i < taskRows k.pd.mode → T'.J[o + i]? = r[i]? := hJ
  constructor
  · intro hp
    refine ⟨_, _, pointAt_of hm.vel hm.ang _, ?_⟩
    obtain ⟨-, P0, P1, P2⟩ := hP (taskFrame k.pd.mode l.com k.point)
    have hlt : ∀ i : Fin 3, i.val < taskRows k.pd.mode := fun i => by have := three_le_taskRows k.pd.mode; omega
    have hrow : r[0]? = some (J (taskFrame k.pd.mode l.com k.point) 3) ∧
        r[1]? = some (J (taskFrame k.pd.mode l.com k.point) 4) ∧
        r[2]? = some (J (taskFrame k.pd.mode l.com k.point) 5) := by
      unfold jacRows at hr
      unfold TracksPosition at hp
      generalize k.pd.mode = md at hr hp hmode ⊢
      interval_cases md <;> simp only [RowLink.getPointJac, hpj, Option.map_some, Option.some.injEq] at hr <;> subst hr <;>
        simp [rows6, rowsTop, swapRows, taskFrame]
    intro i
    rw [ho _ (hlt i)]
    fin_cases i
    · exact ⟨_, hrow.1, P0⟩
    · exact ⟨_, hrow.2.1, P1⟩
    · exact ⟨_, hrow.2.2, P2⟩
  · intro hp
    refine ⟨l.w, hm.ang, ?_⟩
    have hrow : ∃ p, r[rotationRow k.pd.mode]? = some (J p 0) ∧ r[rotationRow k.pd.mode + 1]? = some (J p 1) ∧
        r[rotationRow k.pd.mode + 2]? = some (J p 2) := by
      unfold jacRows at hr
      unfold TracksRotation at hp
      generalize k.pd.mode = md at hr hp hmode ⊢
      rcases hp with hp | rfl | rfl
      · interval_cases md <;> simp only [RowLink.getPointJac, hpj, Option.map_some, Option.some.injEq] at hr <;> subst hr
        · exact ⟨0, by simp [rows6, swapRows, rotationRow]⟩
        · exact ⟨l.com, by simp [rows6, swapRows, rotationRow]⟩
        · exact ⟨k.point, by simp [rows6, swapRows, rotationRow]⟩
      all_goals
        simp only [Option.some.injEq] at hr
        subst hr
        exact ⟨0, by simp [rowsBottom, swapRows, rotationRow]⟩
    obtain ⟨p, R0, R1, R2⟩ := hrow
    obtain ⟨⟨P0, P1, P2⟩, -⟩ := hP p
    intro i
    have := rotationRow_lt hp i
    rw [Nat.add_assoc, ho _ this]
    fin_cases i
    · exact ⟨_, R0, P0⟩
    · exact ⟨_, R1, P1⟩
    · exact ⟨_, R2, P2⟩

/-- C52, desired acceleration.  Where a trajectory is set, the entries are the feedback of that trajectory at the position and
velocity of the tracked point and at the orientation and angular velocity of the link; where none is set, they are left as
they were.  (Missing for the full property: a user-given point in a link that turns while it is not aligned with the world,
excluded by `hcustom`; see `C52_custom_point_velocity_wrong`.) -/
theorem C52_feedback_partial {t : ℝ} {qd : σ → ℝ} {links links' : List (RowLink σ)} {ts ts' : List (RowTask σ)}
    (h : updateTaskSpace t links ts = some (links', ts')) {j : ℕ} {T T' : RowTask σ} (hT : ts[j]? = some T)
    (hT' : ts'[j]? = some T') (hc : T.custom = false) {pre post : List RowTaskLink} {k : RowTaskLink}
    (hk : T.links = pre ++ k :: post) {l : RowLink σ} (hl : links[k.link]? = some l)
    {m : LinkMotion} (hm : LinkKnown l m qd t)
    (hcustom : k.pd.mode = 2 ∨ k.pd.mode = 5 → crossProduct l.w (l.rotm *ᵥ k.point) = crossProduct l.w k.point) :
    let o := (pre.map fun k => taskRows k.pd.mode).sum
    (TracksPosition k.pd.mode → k.posSet = true → ∃ pos vel a, m.PointAt (taskFrame k.pd.mode l.com k.point) t pos vel ∧
      k.pd.posPD t pos vel = some a ∧ ∀ i : Fin 3, T'.f[o + i.val]? = some (a i)) ∧
    (TracksPosition k.pd.mode → k.posSet = false → ∀ i : Fin 3, T'.f[o + i.val]? = T.f[o + i.val]?) ∧
    (TracksRotation k.pd.mode → k.rotSet = true → ∃ w a, AngularVelocity m.R w t ∧
      k.pd.rotPD t (m.R t) w = some a ∧ ∀ i : Fin 3, T'.f[o + rotationRow k.pd.mode + i.val]? = some (a i)) ∧
    (TracksRotation k.pd.mode → k.rotSet = false →
      ∀ i : Fin 3, T'.f[o + rotationRow k.pd.mode + i.val]? = T.f[o + rotationRow k.pd.mode + i.val]?) := by
  intro o
  have H := updateTaskSpace_spec h hT hT' hc hk
  obtain ⟨l0, r, h0, hr, -, hpos, hrot⟩ := H.used
  rw [hl] at h0
  obtain rfl := Option.some.inj h0
  obtain ⟨l1, h1⟩ := hm.stored
  have hx : l.xpos = m.x t := by rw [h1]; rfl
  have hR : l.rotm = m.R t := by rw [h1]; rfl
  have hcom : l.com = l1.com := by rw [h1]; rfl
  have hxi : l.xipos = m.x t + m.R t *ᵥ l.com := by rw [h1]; rfl
  have hvi : l.vi = l.v + crossProduct l.w (m.R t *ᵥ l.com) := by rw [h1]; rfl
  refine ⟨?_, H.noPos, ?_, H.noRot⟩
  · intro hp hs
    obtain ⟨a, ha, hf⟩ := hpos hp hs
    refine ⟨_, _, a, pointAt_of hm.vel hm.ang _, ?_, hf⟩
    rw [← ha]
    unfold TracksPosition at hp
    unfold posArgs taskFrame
    generalize k.pd.mode = md at hp hcustom ⊢
    interval_cases md <;> simp [hx, hR, hxi, hvi]
    · rw [← hR, hcustom (Or.inl rfl)]
    · rw [← hR, hcustom (Or.inr rfl)]
  · intro hp hs
    obtain ⟨a, ha, hf⟩ := hrot hp hs
    exact ⟨l.w, a, hm.ang, by rw [← hR]; exact ha, hf⟩

/-! ## A turning link -/

/-- A link turning about the vertical axis through its origin at unit rate. -/
noncomputable def turning : LinkMotion := ⟨fun _ => 0, fun s => rotateWithZ s⟩

theorem turning_angular (t : ℝ) : AngularVelocity turning.R ![0, 0, 1] t := by
  intro v i
  have hc := Real.hasDerivAt_cos t
  have hs := Real.hasDerivAt_sin t
  fin_cases i
  · have : HasDerivAt (fun s => Real.cos s * v 0 - Real.sin s * v 1) (-Real.sin t * v 0 - Real.cos t * v 1) t :=
      (hc.mul_const _).sub (hs.mul_const _)
    convert this using 1
    · ext s; simp [turning, rotateWithZ, mulVec, dotProduct, Fin.sum_univ_three]; ring
    · simp [turning, rotateWithZ, mulVec, dotProduct, Fin.sum_univ_three, cross_apply]; ring
  · have : HasDerivAt (fun s => Real.sin s * v 0 + Real.cos s * v 1) (Real.cos t * v 0 + -Real.sin t * v 1) t :=
      (hs.mul_const _).add (hc.mul_const _)
    convert this using 1
    · ext s; simp [turning, rotateWithZ, mulVec, dotProduct, Fin.sum_univ_three]
    · simp [turning, rotateWithZ, mulVec, dotProduct, Fin.sum_univ_three, cross_apply]
  · have : HasDerivAt (fun _ : ℝ => v 2) 0 t := hasDerivAt_const _ _
    convert this using 1
    · ext s; simp [turning, rotateWithZ, mulVec, dotProduct, Fin.sum_univ_three]
    · simp [cross_apply]

/-- Its record: one joint, moving at unit rate. -/
noncomputable def turningLink (t : ℝ) : RowLink (Fin 1) :=
  RowLink.updatePos
    { isCom := false, xpos := 0, rotm := 0, v := 0, w := 0, xipos := 0, vi := 0, com := ![0, 1, 0]
      jac := 0, jacCom := 0
      pointJac := some fun p =>
        let u := crossProduct ![0, 0, 1] (rotateWithZ t *ᵥ p)
        ![fun _ => 0, fun _ => 0, fun _ => 1, fun _ => u 0, fun _ => u 1, fun _ => u 2] }
    0 (rotateWithZ t) ![0, 0, 1] 0

theorem turningLink_known (t : ℝ) : LinkKnown (turningLink t) turning (fun _ => 1) t where
  stored := ⟨_, rfl⟩
  vel i := by
    have : HasDerivAt (fun _ : ℝ => (0 : ℝ)) 0 t := hasDerivAt_const _ _
    exact this
  ang := turning_angular t
  jac := by
    refine ⟨_, rfl, fun p pos vel hp => ?_⟩
    have e : vel = crossProduct ![0, 0, 1] (rotateWithZ t *ᵥ p) := by
      have h2 := pointAt_of (m := turning) (v := 0) (w := ![0, 0, 1]) (t := t)
        (fun i => (hasDerivAt_const t (0 : ℝ) : HasDerivAt (fun _ : ℝ => (0 : ℝ)) 0 t)) (turning_angular t) p
      funext i
      have := (hp.2 i).unique (h2.2 i)
      rw [this, zero_add]; rfl
    subst e
    refine ⟨⟨?_, ?_, ?_⟩, ?_, ?_, ?_⟩ <;> simp [dotProduct, turningLink, RowLink.updatePos]

/-- A task link whose position trajectory ends, at time `0`, in position `pf` with velocity `vf`; unit gains. -/
def endedTask (mode : ℕ) (point pf vf : Vec3) : RowTaskLink :=
  { pd := TaskLinkPD.setTrajectoryQuintic
      { mode := mode, tStart := 0, tEnd := 0, posInit := 0, velInit := 0, posDes := 0, velDes := 0, rotInit := 1, rotDes := 1
        posP := 1, posD := 1, posA := 1, rotP := 1, rotD := 1, rotA := 1 } (-1) 0 0 0 pf vf
    link := 0, point := point, posSet := true, rotSet := false }

theorem endedTask_pd {mode : ℕ} (hm : mode ≤ 5) (point pf vf pos vel : Vec3) {t : ℝ} (ht : 0 ≤ t) :
    (endedTask mode point pf vf).pd.posPD t pos vel = some (fun i => pf i - pos i + (vf i - vel i)) := by
  obtain ⟨P, V, A, hout, -, hhi, -⟩ := C44_position
    { mode := mode, tStart := 0, tEnd := 0, posInit := 0, velInit := 0, posDes := 0, velDes := 0, rotInit := 1, rotDes := 1
      posP := 1, posD := 1, posA := 1, rotP := 1, rotD := 1, rotA := 1 } hm (show (-1 : ℝ) < 0 by norm_num) 0 0 pf vf
  obtain ⟨e1, e2, e3⟩ := hhi t ht
  rw [endedTask, hout, e1, e2, e3]
  congr 1; ext i; simp

/-- A single position task on the turning link. -/
def oneTask (k : RowTaskLink) : RowTask (Fin 1) := { custom := false, dof := some 3, links := [k], J := [], f := [0, 0, 0] }

theorem oneTask_update {t : ℝ} (ht : 0 ≤ t) (mode : ℕ) (hm : mode = 3 ∨ mode = 4 ∨ mode = 5) (point pf vf : Vec3) :
    ∃ links' T', updateTaskSpace t [turningLink t] [oneTask (endedTask mode point pf vf)] = some (links', [T']) ∧
      T'.f = [0, 1, 2].map fun i : Fin 3 => pf i - (posArgs (turningLink t) (endedTask mode point pf vf)).1 i
        + (vf i - (posArgs (turningLink t) (endedTask mode point pf vf)).2 i) := by
  have hpd := fun pos vel => endedTask_pd (mode := mode) (by omega) point pf vf pos vel ht
  unfold updateTaskSpace
  have hj : ∃ l', (turningLink t).updateJac = some l' ∧ l'.isCom = false ∧ l'.pointJac = (turningLink t).pointJac ∧
      posArgs l' (endedTask mode point pf vf) = posArgs (turningLink t) (endedTask mode point pf vf) :=
    ⟨_, rfl, rfl, rfl, rfl⟩
  obtain ⟨l', h1, h2, h3, h4⟩ := hj
  have hm' : (endedTask mode point pf vf).pd.mode = mode := rfl
  have hdof : modeDof ((endedTask mode point pf vf).pd.mode : ℤ) = some 3 := by
    rw [hm']; rcases hm with rfl | rfl | rfl <;> rfl
  have hpj : ∃ J, l'.pointJac = some J := ⟨_, h3⟩
  obtain ⟨Jp, hJp⟩ := hpj
  have hjr : ∃ r, jacRows l' (endedTask mode point pf vf) = some r ∧ r.length = 3 := by
    unfold jacRows
    rw [hm']
    rcases hm with rfl | rfl | rfl
    · exact ⟨_, rfl, rfl⟩
    · exact ⟨_, rfl, rfl⟩
    · simp only [RowLink.getPointJac, hJp, Option.map_some]
      exact ⟨_, rfl, rfl⟩
  obtain ⟨r, hr, hrl⟩ := hjr
  have hwp : ∀ f : List ℝ, f.length = 3 → (writePos t l' (endedTask mode point pf vf) 0 f).bind
      (writeRot t l' (endedTask mode point pf vf) 0) = some ([0, 1, 2].map fun i : Fin 3 =>
        pf i - (posArgs (turningLink t) (endedTask mode point pf vf)).1 i
        + (vf i - (posArgs (turningLink t) (endedTask mode point pf vf)).2 i)) := by
    intro f hf
    unfold writePos
    rw [if_pos ⟨rfl, by rw [hm']; omega⟩, h4, hpd]
    simp only [writeVec, writeBlock, hf, List.length_cons, List.length_nil]
    simp [writeRot, endedTask, hf]
  have hwb : writeBlock (List.replicate 3 (0 : Fin 1 → ℝ)) 0 r = some r := by
    unfold writeBlock
    rw [if_pos (by simp [hrl])]
    simp [hrl]
  refine ⟨[l'], { oneTask (endedTask mode point pf vf) with
    J := r
    f := [0, 1, 2].map fun i : Fin 3 => pf i - (posArgs (turningLink t) (endedTask mode point pf vf)).1 i
        + (vf i - (posArgs (turningLink t) (endedTask mode point pf vf)).2 i) }, ?_, rfl⟩
  simp only [List.getElem?_cons_zero, h1, List.set_cons_zero, updateRowTasks, updateRowTask, oneTask, reduceCtorEq, if_false,
    taskLoop, refreshLink, endedTask, h2, Bool.not_false, Bool.true_and, bne_self_eq_false, Bool.false_eq_true]
  have e := hwp [0, 0, 0] rfl
  unfold endedTask at e hdof hr
  simp only [hdof, hr, hwb, e]

/-- A moving, turning link with position tasks in the three frames meets the hypotheses of the theorems above (for the custom
frame: a point on the turning axis). -/
example : (∃ r, updateTaskSpace 0 [turningLink 0] [oneTask (endedTask 4 0 0 0)] = some r) ∧
    (∃ r, updateTaskSpace 0 [turningLink 0] [oneTask (endedTask 5 ![0, 0, 1] 0 0)] = some r) ∧
    (turningLink 0).isCom = false ∧ LinkKnown (turningLink 0) turning (fun _ => 1) 0 ∧
    crossProduct (turningLink 0).w ((turningLink 0).rotm *ᵥ ![0, 0, 1]) = crossProduct (turningLink 0).w ![0, 0, 1] := by
  obtain ⟨l1, T1, h1, -⟩ := oneTask_update le_rfl 4 (by simp) 0 0 0
  obtain ⟨l2, T2, h2, -⟩ := oneTask_update le_rfl 5 (by simp) ![0, 0, 1] 0 0
  refine ⟨⟨_, h1⟩, ⟨_, h2⟩, rfl, turningLink_known 0, ?_⟩
  congr 1
  ext i; fin_cases i <;> simp [turningLink, RowLink.updatePos, rotateWithZ, mulVec, dotProduct, Fin.sum_univ_three]

/-- C52, disagreement.  A link turns about the vertical axis; the user-given point sits on the reference, with the velocity of
the reference, and the feedback law at its true position and velocity gives zero.  The desired acceleration written by
`UpdateTaskSpace` is not zero: the point was rotated into the world for its position but not for its velocity. -/
theorem C52_custom_point_velocity_wrong :
    ∃ (t : ℝ) (links links' : List (RowLink (Fin 1))) (l : RowLink (Fin 1)) (m : LinkMotion) (k : RowTaskLink)
      (T' : RowTask (Fin 1)) (pos vel : Vec3),
      links[k.link]? = some l ∧ l.isCom = false ∧ LinkKnown l m (fun _ => 1) t ∧ k.pd.mode = 5 ∧ k.posSet = true ∧
      m.PointAt k.point t pos vel ∧ k.pd.posPD t pos vel = some 0 ∧
      updateTaskSpace t links [oneTask k] = some (links', [T']) ∧ T'.f = [-1, -1, 0] := by
  have ht : (0 : ℝ) ≤ Real.pi / 2 := by positivity
  have hR : rotateWithZ (Real.pi / 2) *ᵥ ![1, 0, 0] = ![0, 1, 0] := by
    ext i; fin_cases i <;> simp [rotateWithZ, mulVec, dotProduct, Fin.sum_univ_three]
  obtain ⟨links', T', hu, hf⟩ := oneTask_update ht 5 (by simp) ![1, 0, 0] ![0, 1, 0] ![-1, 0, 0]
  refine ⟨Real.pi / 2, [turningLink (Real.pi / 2)], links', turningLink (Real.pi / 2), turning,
    endedTask 5 ![1, 0, 0] ![0, 1, 0] ![-1, 0, 0], T', ![0, 1, 0], ![-1, 0, 0], rfl, rfl, turningLink_known _, rfl, rfl,
    ?_, ?_, hu, ?_⟩
  · have := pointAt_of (m := turning) (v := 0) (w := ![0, 0, 1]) (t := Real.pi / 2)
      (fun i => (hasDerivAt_const (Real.pi / 2) (0 : ℝ) : HasDerivAt (fun _ : ℝ => (0 : ℝ)) 0 (Real.pi / 2)))
      (turning_angular _) ![1, 0, 0]
    have e1 : turning.x (Real.pi / 2) + turning.R (Real.pi / 2) *ᵥ ![1, 0, 0] = ![0, 1, 0] := by
      show (0 : Vec3) + rotateWithZ (Real.pi / 2) *ᵥ ![1, 0, 0] = _
      rw [hR, zero_add]
    have e2 : (0 : Vec3) + crossProduct ![0, 0, 1] (turning.R (Real.pi / 2) *ᵥ ![1, 0, 0]) = ![-1, 0, 0] := by
      show (0 : Vec3) + crossProduct ![0, 0, 1] (rotateWithZ (Real.pi / 2) *ᵥ ![1, 0, 0]) = _
      rw [hR, zero_add]
      ext i; fin_cases i <;> simp [cross_apply]
    rw [e1, e2] at this
    exact this
  · rw [endedTask_pd (by norm_num) _ _ _ _ _ ht]
    congr 1; ext i; simp
  · rw [hf]
    have hx : (turningLink (Real.pi / 2)).rotm = rotateWithZ (Real.pi / 2) := rfl
    have e : posArgs (turningLink (Real.pi / 2)) (endedTask 5 ![1, 0, 0] ![0, 1, 0] ![-1, 0, 0])
        = (![0, 1, 0], crossProduct ![0, 0, 1] ![1, 0, 0]) := by
      have : posArgs (turningLink (Real.pi / 2)) (endedTask 5 ![1, 0, 0] ![0, 1, 0] ![-1, 0, 0])
        = ((0 : Vec3) + rotateWithZ (Real.pi / 2) *ᵥ ![1, 0, 0], (0 : Vec3) + crossProduct ![0, 0, 1] ![1, 0, 0]) := rfl
      rw [this, hR, zero_add, zero_add]
    rw [e]
    simp [cross_apply]

/-! ## The centre of mass -/

variable {ι : Type*} [Fintype ι] [DecidableEq ι]

/-- C52, tasks on the centre of mass of the whole robot.  In every mode that tracks a position, except with a user-given
point, the rows map the generalised velocity to the velocity of the centre of mass (`mass · velocity = linear momentum`),
and the feedback is evaluated at the centre of mass and that velocity. -/
theorem C52_com {t : ℝ} {L : List (MovingLink (Sys ι))} {x0 : Vec3} {R0 : Mat3} (hR : IsRot R0) (hL : L ≠ [])
    (hmass : ∀ l ∈ L, 0 < l.m) (hI : ∀ l ∈ L, l.I.PosDef) (hb : ∀ l ∈ L, FloatingBase x0 R0 l) (qd : Sys ι → ℝ)
    {s : WholeBody ι} (hs : updateKinematics true (massMatrix L) x0 R0 (mass L) qd = some s)
    {links links' : List (RowLink (Sys ι))} {ts ts' : List (RowTask (Sys ι))}
    (h : updateTaskSpace t links ts = some (links', ts')) {j : ℕ} {T T' : RowTask (Sys ι)} (hT : ts[j]? = some T)
    (hT' : ts'[j]? = some T') (hc : T.custom = false) {pre post : List RowTaskLink} {k : RowTaskLink}
    (hk : T.links = pre ++ k :: post) (hl : links[k.link]? = some (comRow s R0)) (h0 : k.link ≠ 0)
    (hp : TracksPosition k.pd.mode) :
    let o := (pre.map fun k => taskRows k.pd.mode).sum
    ∃ pos vel : Vec3, IsCOM L pos ∧ mass L • vel = linearMomentum L qd ∧
      (∀ i : Fin 3, ∃ row, T'.J[o + i.val]? = some row ∧ row ⬝ᵥ qd = vel i) ∧
      (k.posSet = true → ∃ a, k.pd.posPD t pos vel = some a ∧ ∀ i : Fin 3, T'.f[o + i.val]? = some (a i)) := by
  intro o
  have H := updateTaskSpace_spec h hT hT' hc hk
  obtain ⟨l0, r, hl0, hr, hJ, hpos, -⟩ := H.used
  rw [hl] at hl0
  obtain rfl := Option.some.inj hl0
  obtain ⟨s', hs', hcom, -, hv, -, hmom, -⟩ := C25_com_partial hR hL hmass hI hb qd
  rw [hs] at hs'
  obtain rfl := Option.some.inj hs'
  have hu : usedLink (comRow s R0) k.link = comRow s R0 := by rw [usedLink, if_pos ⟨rfl, h0⟩]
  rw [hu] at hr
  have hmode : k.pd.mode = 0 ∨ k.pd.mode = 1 ∨ k.pd.mode = 3 ∨ k.pd.mode = 4 := by
    unfold TracksPosition at hp
    by_contra hn
    have : k.pd.mode = 2 ∨ k.pd.mode = 5 := by omega
    unfold jacRows at hr
    rcases this with e | e <;> rw [e] at hr <;> simp [RowLink.getPointJac, comRow] at hr
  refine ⟨s.comPos, s.v, hcom, hmom, ?_, ?_⟩
  · intro i
    have hlt : i.val < taskRows k.pd.mode := by have := three_le_taskRows k.pd.mode; omega
    have hJ' : T'.J[o + i.val]? = r[i.val]? := hJ _ hlt
    refine ⟨s.jacLin i, ?_, by rw [hv]; rfl⟩
    rw [hJ']
    unfold jacRows at hr
    rcases hmode with e | e | e | e <;> rw [e] at hr <;> obtain rfl := Option.some.inj hr <;> fin_cases i <;> rfl
  · intro hset
    obtain ⟨a, ha, hf⟩ := hpos hp hset
    refine ⟨a, ?_, hf⟩
    rw [← ha]
    unfold posArgs
    rcases hmode with e | e | e | e <;> rw [e] <;> rfl

/-- C52, disagreement.  A task with a user-given point on the centre of mass is undefined: RBDL is called with body
number -1. -/
theorem C52_com_custom_undefined {t : ℝ} {s : WholeBody ι} {R0 : Mat3} {links : List (RowLink (Sys ι))}
    {ts : List (RowTask (Sys ι))} {T : RowTask (Sys ι)} (hT : T ∈ ts) (hc : T.custom = false) {k : RowTaskLink}
    (hk : k ∈ T.links) (hl : links[k.link]? = some (comRow s R0)) (h0 : k.link ≠ 0)
    (hm : k.pd.mode = 2 ∨ k.pd.mode = 5) : updateTaskSpace t links ts = none := by
  by_contra hn
  obtain ⟨⟨links', ts'⟩, h⟩ := Option.ne_none_iff_exists'.mp hn
  obtain ⟨j, hj⟩ := List.getElem?_of_mem hT
  obtain ⟨pre, post, hk⟩ := List.append_of_mem hk
  have hlen : ∀ (ts : List (RowTask (Sys ι))) (ls ls' : List (RowLink (Sys ι))) (ts' : List (RowTask (Sys ι))),
      updateRowTasks t ls ts = some (ls', ts') → ts'.length = ts.length := by
    intro ts
    induction ts with
    | nil => intro ls ls' ts' h; simp only [updateRowTasks, Option.some.injEq, Prod.mk.injEq] at h; rw [← h.2]
    | cons T0 ts ih =>
      intro ls ls' ts' h
      unfold updateRowTasks at h
      cases h1 : updateRowTask t ls T0 with
      | none => simp [h1] at h
      | some q =>
        obtain ⟨l1, T1⟩ := q
        cases h2 : updateRowTasks t l1 ts with
        | none => simp [h1, h2] at h
        | some q =>
          obtain ⟨l2, ts2⟩ := q
          simp only [h1, h2, Option.some.injEq, Prod.mk.injEq] at h
          rw [← h.2, List.length_cons, List.length_cons, ih _ _ _ h2]
  have hlen' : ts'.length = ts.length := by
    unfold updateTaskSpace at h
    cases h0 : links[0]? with
    | none => simp [h0] at h
    | some l =>
      cases h1 : l.updateJac with
      | none => simp [h0, h1] at h
      | some l' => simp only [h0, h1] at h; exact hlen _ _ _ _ h
  have hjl := (List.getElem?_eq_some_iff.mp hj).1
  have hT' : ts'[j]? = some ts'[j] := List.getElem?_eq_getElem (by omega)
  obtain ⟨l0, r, hl0, hr, -⟩ := (updateTaskSpace_spec h hj hT' hc hk).used
  rw [hl] at hl0
  obtain rfl := Option.some.inj hl0
  have hu : usedLink (comRow s R0) k.link = comRow s R0 := by rw [usedLink, if_pos ⟨rfl, h0⟩]
  rw [hu] at hr
  unfold jacRows at hr
  rcases hm with e | e <;> rw [e] at hr <;> simp [RowLink.getPointJac, comRow] at hr

/-- A base and a wheel on it, both of unit mass and inertia and centred at the origin; the joint turns the wheel about the
vertical axis. -/
def wheelBase : MovingLink (Sys (Fin 1)) :=
  { m := 1, I := 1, x := 0
    Jv := Matrix.of fun i j => match j with | .inl (.inl k) => if i = k then 1 else 0 | _ => 0
    Jw := Matrix.of fun i j => match j with | .inl (.inr k) => if i = k then 1 else 0 | _ => 0 }

def wheel : MovingLink (Sys (Fin 1)) :=
  { wheelBase with
    Jw := Matrix.of fun i j => match j with
      | .inl (.inr k) => if i = k then 1 else 0
      | .inr _ => if i = 2 then 1 else 0
      | _ => 0 }

theorem wheels_floating : ∀ l ∈ [wheelBase, wheel], FloatingBase 0 1 l := by
  intro l hl
  simp only [List.mem_cons, List.not_mem_nil, or_false] at hl
  rcases hl with rfl | rfl <;> constructor <;> intro v ω
  · ext i; fin_cases i <;>
      simp [wheelBase, baseVelocity, mulVec, dotProduct, Fintype.sum_sum_type, Fin.sum_univ_three]
  · rw [one_mulVec]
    ext i; fin_cases i <;>
      simp [wheelBase, baseVelocity, mulVec, dotProduct, Fintype.sum_sum_type, Fin.sum_univ_three]
  · ext i; fin_cases i <;>
      simp [wheel, wheelBase, baseVelocity, mulVec, dotProduct, Fintype.sum_sum_type, Fin.sum_univ_three]
  · rw [one_mulVec]
    ext i; fin_cases i <;>
      simp [wheel, baseVelocity, mulVec, dotProduct, Fintype.sum_sum_type, Fin.sum_univ_three]

/-- C52, disagreement.  An orientation task on the centre of mass uses the orientation of the base but the mean angular
velocity of the whole robot: with the base at rest and only a wheel turning, the angular velocity handed to the feedback is
not zero, although the orientation handed to it does not change. -/
theorem C52_com_orientation_mixed :
    ∃ (qd : Sys (Fin 1) → ℝ) (s : WholeBody (Fin 1)), (∀ a, qd (.inl a) = 0) ∧
      updateKinematics true (massMatrix [wheelBase, wheel]) 0 1 (mass [wheelBase, wheel]) qd = some s ∧
      (∀ l ∈ [wheelBase, wheel], FloatingBase 0 1 l) ∧
      (comRow s 1).rotm = 1 ∧ wheelBase.Jw *ᵥ qd = 0 ∧ (comRow s 1).w ≠ 0 := by
  let qd : Sys (Fin 1) → ℝ := Sum.elim 0 1
  obtain ⟨s, hs, -, -, -, -, -, -, -, -, -, hang⟩ := C25_com_partial (L := [wheelBase, wheel]) (x0 := 0) (R0 := 1) IsRot.one
    (by simp) (by intro l hl; simp only [List.mem_cons, List.not_mem_nil, or_false] at hl
                  rcases hl with rfl | rfl <;> simp [wheel, wheelBase])
    (by intro l hl; simp only [List.mem_cons, List.not_mem_nil, or_false] at hl
        rcases hl with rfl | rfl <;> exact PosDef.one) wheels_floating qd
  refine ⟨qd, s, fun _ => rfl, hs, wheels_floating, rfl, ?_, ?_⟩
  · ext i; fin_cases i <;> simp [wheelBase, qd, mulVec, dotProduct, Fintype.sum_sum_type]
  · intro hw
    have hw' : s.w = 0 := hw
    rw [hw', mulVec_zero] at hang
    have e1 : wheelBase.Jw *ᵥ qd = 0 := by
      ext i; fin_cases i <;> simp [wheelBase, qd, mulVec, dotProduct, Fintype.sum_sum_type]
    have e2 : wheel.Jw *ᵥ qd = ![0, 0, 1] := by
      ext i; fin_cases i <;> simp [wheel, qd, mulVec, dotProduct, Fintype.sum_sum_type]
    have e3 : wheelBase.Jv *ᵥ qd = 0 := by
      ext i; fin_cases i <;> simp [wheelBase, qd, mulVec, dotProduct, Fintype.sum_sum_type]
    have e4 : wheel.Jv *ᵥ qd = 0 := e3
    have e5 : wheelBase.I = 1 := rfl
    have e6 : wheel.I = 1 := rfl
    simp only [angularMomentum, List.map_cons, List.map_nil, List.sum_cons, List.sum_nil, e1, e2, e3, e4, e5, e6] at hang
    have := congrFun hang 2
    simp at this

/-- The hypotheses of `C52_com` are met: the robot of base and wheel, moving, with a position task on its centre of mass. -/
example (qd : Sys (Fin 1) → ℝ) (base : RowLink (Sys (Fin 1))) (hbase : base.pointJac = some fun _ _ _ => 0) :
    ∃ (s : WholeBody (Fin 1)) (links' : List (RowLink (Sys (Fin 1)))) (ts' : List (RowTask (Sys (Fin 1)))),
      updateKinematics true (massMatrix [wheelBase, wheel]) 0 1 (mass [wheelBase, wheel]) qd = some s ∧
      updateTaskSpace 0 [base, comRow s 1]
        [{ custom := false, dof := some 3, links := [{ endedTask 4 0 0 0 with link := 1 }], J := [], f := [0, 0, 0] }]
        = some (links', ts') := by
  obtain ⟨s, hs, -⟩ := C25_com_partial (L := [wheelBase, wheel]) (x0 := 0) (R0 := 1) IsRot.one
    (by simp) (by intro l hl; simp only [List.mem_cons, List.not_mem_nil, or_false] at hl
                  rcases hl with rfl | rfl <;> simp [wheel, wheelBase])
    (by intro l hl; simp only [List.mem_cons, List.not_mem_nil, or_false] at hl
        rcases hl with rfl | rfl <;> exact PosDef.one) wheels_floating qd
  have hpd := fun pos vel => endedTask_pd (mode := 4) (by norm_num) 0 0 0 pos vel (le_refl (0 : ℝ))
  refine ⟨s, ?_⟩
  have : updateTaskSpace 0 [base, comRow s 1]
        [{ custom := false, dof := some 3, links := [{ endedTask 4 0 0 0 with link := 1 }], J := [], f := [0, 0, 0] }] ≠ none := by
    have hm : (endedTask 4 0 0 0).pd.mode = 4 := rfl
    have e : (endedTask 4 0 0 0).posSet = true := rfl
    have e' : (endedTask 4 0 0 0).rotSet = false := rfl
    have hc : (comRow s 1).isCom = true := rfl
    simp [updateTaskSpace, RowLink.updateJac, RowLink.getPointJac, hbase, updateRowTasks, updateRowTask, taskLoop, refreshLink, hm,
      hc, jacRows, modeDof, writePos, hpd, e, e', writeVec, writeRot, writeBlock, rowsTop, rows6]
  obtain ⟨⟨l, t⟩, h⟩ := Option.ne_none_iff_exists'.mp this
  exact ⟨l, t, hs, h⟩

/-- C52, disagreement.  A link added to a task that was created as a custom task makes every update zero the Jacobian that
the user has set for it. -/
theorem C52_custom_task_erased {t : ℝ} {links links' : List (RowLink σ)} {T T' : RowTask σ} (hc : T.custom = true)
    (hk : T.links ≠ []) (h : updateRowTask t links T = some (links', T')) :
    ∀ row ∈ T'.J, row = 0 := by
  unfold updateRowTask at h
  rw [if_neg hk] at h
  cases hd : T.dof with
  | none => simp [hd] at h
  | some d =>
    cases hl : taskLoop t T.custom T.links 0 links (List.replicate d 0) T.f with
    | none => simp [hd, hl] at h
    | some q =>
      obtain ⟨l3, J3, f3⟩ := q
      simp only [hd, hl, Option.some.injEq, Prod.mk.injEq] at h
      obtain ⟨-, rfl⟩ := h
      rw [hc] at hl
      obtain ⟨rfl, -⟩ := taskLoop_custom _ _ _ _ _ hl
      intro row hrow
      exact List.eq_of_mem_replicate hrow

/-- hypotheses met: a custom task with a Jacobian and one link -/
example : ∃ r, updateRowTask 0 [turningLink 0]
    { custom := true, dof := some 9, links := [endedTask 3 0 0 0], J := List.replicate 9 1, f := List.replicate 9 0 } = some r := by
  refine Option.ne_none_iff_exists'.mp ?_
  simp [updateRowTask, taskLoop, refreshLink, endedTask]

end Verif.Props
