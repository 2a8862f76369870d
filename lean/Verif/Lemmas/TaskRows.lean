import Verif.Model.TaskRows
import Verif.Spec.TaskRows
import Verif.Lemmas.TaskPD
import Mathlib.Tactic.IntervalCases

/-!
# Lemmas: assembling task rows
-/
set_option linter.unusedSectionVars false

namespace Verif
open Matrix Verif.Spec Verif.Model

variable {σ : Type*}

theorem writeBlock_length {α : Type*} {l r l' : List α} {k : ℕ} (h : writeBlock l k r = some l') :
    l'.length = l.length := by
  unfold writeBlock at h
  split at h
  · obtain rfl := Option.some.inj h
    simp; omega
  · cases h

theorem writeBlock_out {α : Type*} {l r l' : List α} {k : ℕ} (h : writeBlock l k r = some l') {i : ℕ}
    (hi : i < k ∨ k + r.length ≤ i) : l'[i]? = l[i]? := by
  unfold writeBlock at h
  split at h
  · rename_i hk
    obtain rfl := Option.some.inj h
    rcases hi with hi | hi
    · rw [List.append_assoc, List.getElem?_append_left (by simp; omega), List.getElem?_take_of_lt hi]
    · rw [List.getElem?_append_right (by simp; omega), List.getElem?_drop]
      congr 1
      simp; omega
  · cases h

theorem writeBlock_in {α : Type*} {l r l' : List α} {k : ℕ} (h : writeBlock l k r = some l') {i : ℕ} (hi : i < r.length) :
    l'[k + i]? = r[i]? := by
  unfold writeBlock at h
  split at h
  · rename_i hk
    obtain rfl := Option.some.inj h
    rw [List.append_assoc, List.getElem?_append_right (by simp), List.getElem?_append_left (by simp <;> omega)]
    congr 1
    simp <;> omega
  · cases h

theorem jacRows_length {l : RowLink σ} {k : RowTaskLink} {r : List (σ → ℝ)} (h : jacRows l k = some r)
    (hm : k.pd.mode ≤ 7) : r.length = taskRows k.pd.mode := by
  unfold jacRows at h
  unfold taskRows
  generalize k.pd.mode = m at h hm ⊢
  interval_cases m <;> simp only [Option.map_eq_some_iff] at h
  all_goals first
    | (obtain ⟨_, _, rfl⟩ := h; simp [rows6, rowsTop, rowsBottom]; done)
    | (obtain rfl := Option.some.inj h; simp [rows6, rowsTop, rowsBottom])

theorem modeDof_cast {m d : ℕ} (h : modeDof (m : ℤ) = some d) : m ≤ 7 ∧ d = taskRows m := by
  unfold modeDof at h
  unfold taskRows
  split at h
  · obtain rfl := Option.some.inj h
    exact ⟨by omega, by rw [if_pos (by omega)]⟩
  · split at h
    · obtain rfl := Option.some.inj h
      exact ⟨by omega, by rw [if_neg (by omega)]⟩
    · cases h

/-- What the writes of one link do to the desired acceleration. -/
structure LinkWrites (t : ℝ) (l : RowLink σ) (k : RowTaskLink) (o : ℕ) (f f' : List ℝ) : Prop where
  length : f'.length = f.length
  outside : ∀ i, i < o ∨ o + taskRows k.pd.mode ≤ i → f'[i]? = f[i]?
  pos : TracksPosition k.pd.mode → k.posSet = true →
    ∃ a, k.pd.posPD t (posArgs l k).1 (posArgs l k).2 = some a ∧ ∀ i : Fin 3, f'[o + i.val]? = some (a i)
  noPos : TracksPosition k.pd.mode → k.posSet = false → ∀ i : Fin 3, f'[o + i.val]? = f[o + i.val]?
  rot : TracksRotation k.pd.mode → k.rotSet = true →
    ∃ a, k.pd.rotPD t l.rotm l.w = some a ∧ ∀ i : Fin 3, f'[o + rotationRow k.pd.mode + i.val]? = some (a i)
  noRot : TracksRotation k.pd.mode → k.rotSet = false →
    ∀ i : Fin 3, f'[o + rotationRow k.pd.mode + i.val]? = f[o + rotationRow k.pd.mode + i.val]?

theorem writeVec_some {f f' : List ℝ} {o : ℕ} {u : Option Vec3} (h : writeVec f o u = some f') :
    ∃ a, u = some a ∧ writeBlock f o [a 0, a 1, a 2] = some f' := by
  unfold writeVec at h
  cases u with
  | none => cases h
  | some a => exact ⟨a, rfl, h⟩

theorem writeVec_get {f f' : List ℝ} {o : ℕ} {a : Vec3} (h : writeBlock f o [a 0, a 1, a 2] = some f') (i : Fin 3) :
    f'[o + i.val]? = some (a i) := by
  have := writeBlock_in h (i := i.val) (by simp)
  rw [this]
  fin_cases i <;> rfl

theorem linkWrites {t : ℝ} {l : RowLink σ} {k : RowTaskLink} {o : ℕ} {f f' : List ℝ} (hm : k.pd.mode ≤ 7)
    (h : (writePos t l k o f).bind (writeRot t l k o) = some f') : LinkWrites t l k o f f' := by
  obtain ⟨g, hg, hf⟩ := Option.bind_eq_some_iff.mp h
  unfold writePos at hg
  unfold writeRot at hf
  have hrows : ∀ a : Vec3, ([a 0, a 1, a 2] : List ℝ).length = 3 := fun _ => rfl
  -- position write
  have P : g.length = f.length ∧ (∀ i, i < o ∨ o + 3 ≤ i → g[i]? = f[i]?) ∧
      (k.pd.mode ≤ 5 → k.posSet = true →
        ∃ a, k.pd.posPD t (posArgs l k).1 (posArgs l k).2 = some a ∧ ∀ i : Fin 3, g[o + i.val]? = some (a i)) ∧
      ((k.posSet = false ∨ 5 < k.pd.mode) → g = f) := by
    split at hg
    · rename_i hc
      obtain ⟨a, ha, hb⟩ := writeVec_some hg
      refine ⟨writeBlock_length hb, fun i hi => writeBlock_out hb (by simpa using hi),
        fun _ _ => ⟨a, ha, fun i => writeVec_get hb i⟩, fun hn => ?_⟩
      rcases hn with hn | hn
      · simp [hn] at hc
      · omega
    · rename_i hc
      obtain rfl := Option.some.inj hg
      refine ⟨rfl, fun _ _ => rfl, fun h1 h2 => absurd ⟨h2, h1⟩ hc, fun _ => rfl⟩
  obtain ⟨Pl, Po, Pp, Pn⟩ := P
  split at hf
  · rename_i hc
    obtain ⟨a, ha, hb⟩ := writeVec_some hf
    have ho : ∀ i, i < o + 3 ∨ o + 6 ≤ i → f'[i]? = g[i]? := fun i hi =>
      writeBlock_out hb (by simpa [Nat.add_assoc] using hi)
    constructor <;> try simp only [TracksPosition, TracksRotation, rotationRow, taskRows]
    · rw [writeBlock_length hb, Pl]
    · intro i hi
      rw [if_pos hc.2] at hi
      rw [ho i (by omega), Po i (by omega)]
    · intro h1 h2
      obtain ⟨b, hb1, hb2⟩ := Pp h1 h2
      exact ⟨b, hb1, fun i => by rw [ho _ (by omega), hb2]⟩
    · intro h1 h2 i
      rw [ho _ (by omega), Pn (Or.inl h2)]
    · intro _ _
      refine ⟨a, ha, fun i => ?_⟩
      rw [if_pos hc.2]; exact writeVec_get hb i
    · intro _ h2; simp [h2] at hc
  · rename_i hc1
    split at hf
    · rename_i hc
      obtain ⟨a, ha, hb⟩ := writeVec_some hf
      have ho : ∀ i, i < o ∨ o + 3 ≤ i → f'[i]? = g[i]? := fun i hi => writeBlock_out hb (by simpa using hi)
      have hm2 : ¬ k.pd.mode ≤ 2 := by have := hc.2; omega
      constructor <;> try simp only [TracksPosition, TracksRotation, rotationRow, taskRows]
      · rw [writeBlock_length hb, Pl]
      · intro i hi
        rw [if_neg hm2] at hi
        rw [ho i hi, Po i hi]
      · intro h1; exfalso; have := hc.2; omega
      · intro h1; exfalso; have := hc.2; omega
      · intro _ _
        refine ⟨a, ha, fun i => ?_⟩
        rw [if_neg hm2]; exact writeVec_get hb i
      · intro _ h2; simp [h2] at hc
    · rename_i hc2
      obtain rfl := Option.some.inj hf
      constructor <;> try simp only [TracksPosition, TracksRotation, rotationRow, taskRows]
      · exact Pl
      · intro i hi
        refine Po i ?_
        split at hi <;> omega
      · exact Pp
      · intro h1 h2 i; rw [Pn (Or.inl h2)]
      · intro h1 h2
        exfalso
        rcases h1 with h1 | h1
        · exact hc1 ⟨h2, h1⟩
        · exact hc2 ⟨h2, h1⟩
      · intro h1 h2 i
        rcases h1 with h1 | h1
        · rw [if_pos h1]; exact Po _ (Or.inr (by omega))
        · rw [Pn (Or.inr (by omega))]

/-- A link after `UpdateJac`, where that is defined. -/
def freshLink (l : RowLink σ) : RowLink σ :=
  match l.pointJac with
  | none => l
  | some J => { l with jac := swapRows (J 0), jacCom := swapRows (J l.com) }

theorem freshLink_eq {l l' : RowLink σ} (h : l.updateJac = some l') : l' = freshLink l := by
  unfold RowLink.updateJac at h
  unfold freshLink
  cases e : l.pointJac with
  | none => simp [e] at h
  | some J => simp only [e] at h ⊢; exact (Option.some.inj h).symm

theorem freshLink_fresh (l : RowLink σ) : freshLink (freshLink l) = freshLink l := by
  unfold freshLink
  cases e : l.pointJac with
  | none => simp [e]
  | some J => simp

theorem freshLink_isCom (l : RowLink σ) : (freshLink l).isCom = l.isCom := by
  unfold freshLink; split <;> rfl

theorem freshLink_posArgs (l : RowLink σ) (k : RowTaskLink) : posArgs (freshLink l) k = posArgs l k := by
  unfold freshLink; split <;> rfl

theorem freshLink_rotm (l : RowLink σ) : (freshLink l).rotm = l.rotm := by
  unfold freshLink; split <;> rfl

theorem freshLink_w (l : RowLink σ) : (freshLink l).w = l.w := by
  unfold freshLink; split <;> rfl

/-- The link records during the update, compared with those at the start. -/
def LinksOk (links0 links : List (RowLink σ)) : Prop :=
  ∀ i l0, links0[i]? = some l0 → ∃ l, links[i]? = some l ∧
    ((l = l0 ∧ i ≠ 0) ∨ (l = freshLink l0 ∧ (i = 0 ∨ l0.isCom = false)))

/-- The record a task link reads. -/
def usedLink (l0 : RowLink σ) (i : ℕ) : RowLink σ := if l0.isCom = true ∧ i ≠ 0 then l0 else freshLink l0

theorem LinksOk.refresh {links0 links links' : List (RowLink σ)} (h : LinksOk links0 links) {k : ℕ}
    (hr : refreshLink links k = some links') {l0 : RowLink σ} (h0 : links0[k]? = some l0) :
    LinksOk links0 links' ∧ links'[k]? = some (usedLink l0 k) := by
  obtain ⟨l, hl, hc⟩ := h k l0 h0
  unfold refreshLink at hr
  rw [hl] at hr
  simp only at hr
  have hcom : l.isCom = l0.isCom := by rcases hc with ⟨rfl, -⟩ | ⟨rfl, -⟩ <;> simp [freshLink_isCom]
  have hfresh : freshLink l = freshLink l0 := by
    rcases hc with ⟨rfl, -⟩ | ⟨rfl, -⟩
    · rfl
    · exact freshLink_fresh l0
  by_cases hb : (!l.isCom && k != 0) = true
  · rw [if_pos hb] at hr
    cases e : l.updateJac with
    | none => rw [e] at hr; cases hr
    | some l' =>
      rw [e] at hr
      obtain rfl := Option.some.inj hr
      have hl' : l' = freshLink l0 := (freshLink_eq e).trans hfresh
      simp only [Bool.and_eq_true, Bool.not_eq_true', bne_iff_ne, ne_eq] at hb
      have hkl : k < links.length := (List.getElem?_eq_some_iff.mp hl).1
      refine ⟨?_, ?_⟩
      · intro i m0 hm
        by_cases hi : i = k
        · subst hi
          rw [h0] at hm
          obtain rfl := Option.some.inj hm
          exact ⟨l', List.getElem?_set_self hkl, Or.inr ⟨hl', Or.inr (hcom ▸ hb.1)⟩⟩
        · rw [List.getElem?_set_ne (Ne.symm hi)]
          exact h i m0 hm
      · rw [List.getElem?_set_self hkl, usedLink, if_neg (by rw [← hcom, hb.1]; simp), hl']
  · rw [if_neg hb] at hr
    obtain rfl := Option.some.inj hr
    refine ⟨h, ?_⟩
    rw [hl, usedLink]
    simp only [Bool.and_eq_true, Bool.not_eq_true', bne_iff_ne, ne_eq, not_and, not_not] at hb
    congr 1
    by_cases hk : k = 0
    · rw [if_neg (by simp [hk])]
      rcases hc with ⟨-, hn⟩ | ⟨h1, -⟩
      · exact absurd hk hn
      · exact h1
    · have hcl : l0.isCom = true := by
        rw [← hcom]
        by_contra hh
        exact hk (hb (by simpa using hh))
      rw [if_pos ⟨hcl, hk⟩]
      rcases hc with ⟨h1, -⟩ | ⟨-, h2⟩
      · exact h1
      · rcases h2 with h2 | h2
        · exact absurd h2 hk
        · rw [hcl] at h2; cases h2

theorem LinksOk.refresh' {links0 links links' : List (RowLink σ)} (h : LinksOk links0 links) (hlen : links.length = links0.length)
    {k : ℕ} (hr : refreshLink links k = some links') :
    links'.length = links0.length ∧ ∃ l0, links0[k]? = some l0 := by
  unfold refreshLink at hr
  cases hl : links[k]? with
  | none => rw [hl] at hr; cases hr
  | some l =>
    rw [hl] at hr
    have hk : k < links0.length := hlen ▸ (List.getElem?_eq_some_iff.mp hl).1
    refine ⟨?_, ⟨_, List.getElem?_eq_getElem hk⟩⟩
    simp only at hr
    split at hr
    · cases e : l.updateJac with
      | none => rw [e] at hr; cases hr
      | some l' => rw [e] at hr; obtain rfl := Option.some.inj hr; simpa using hlen
    · obtain rfl := Option.some.inj hr; exact hlen

/-- Offset of a task link: the rows of the links before it. -/
def rowOffset (pre : List RowTaskLink) : ℕ := (pre.map fun k => taskRows k.pd.mode).sum

/-- Outcome for one task link. -/
structure LinkOutcome (t : ℝ) (links0 : List (RowLink σ)) (k : RowTaskLink) (o : ℕ) (J' : List (σ → ℝ)) (f f' : List ℝ) :
    Prop where
  mode : k.pd.mode ≤ 7
  used : ∃ l0 r, links0[k.link]? = some l0 ∧ jacRows (usedLink l0 k.link) k = some r ∧
    (∀ i, i < taskRows k.pd.mode → J'[o + i]? = r[i]?) ∧
    (TracksPosition k.pd.mode → k.posSet = true →
      ∃ a, k.pd.posPD t (posArgs l0 k).1 (posArgs l0 k).2 = some a ∧ ∀ i : Fin 3, f'[o + i.val]? = some (a i)) ∧
    (TracksRotation k.pd.mode → k.rotSet = true →
      ∃ a, k.pd.rotPD t l0.rotm l0.w = some a ∧ ∀ i : Fin 3, f'[o + rotationRow k.pd.mode + i.val]? = some (a i))
  noPos : TracksPosition k.pd.mode → k.posSet = false → ∀ i : Fin 3, f'[o + i.val]? = f[o + i.val]?
  noRot : TracksRotation k.pd.mode → k.rotSet = false →
    ∀ i : Fin 3, f'[o + rotationRow k.pd.mode + i.val]? = f[o + rotationRow k.pd.mode + i.val]?

theorem usedLink_posArgs (l : RowLink σ) (i : ℕ) (k : RowTaskLink) : posArgs (usedLink l i) k = posArgs l k := by
  unfold usedLink; split
  · rfl
  · exact freshLink_posArgs l k

theorem usedLink_rotm (l : RowLink σ) (i : ℕ) : (usedLink l i).rotm = l.rotm := by
  unfold usedLink; split
  · rfl
  · exact freshLink_rotm l

theorem usedLink_w (l : RowLink σ) (i : ℕ) : (usedLink l i).w = l.w := by
  unfold usedLink; split
  · rfl
  · exact freshLink_w l

theorem rotationRow_lt {m : ℕ} (h : TracksRotation m) (i : Fin 3) : rotationRow m + i.val < taskRows m := by
  unfold rotationRow taskRows; split <;> omega

theorem three_le_taskRows (m : ℕ) : 3 ≤ taskRows m := by unfold taskRows; split <;> omega

theorem taskLoop_spec {t : ℝ} {links0 : List (RowLink σ)} : ∀ (ks : List RowTaskLink) (o : ℕ) (links : List (RowLink σ))
    (J : List (σ → ℝ)) (f : List ℝ) {links' : List (RowLink σ)} {J' : List (σ → ℝ)} {f' : List ℝ},
    LinksOk links0 links → links.length = links0.length → taskLoop t false ks o links J f = some (links', J', f') →
    LinksOk links0 links' ∧ links'.length = links0.length ∧ J'.length = J.length ∧ f'.length = f.length ∧
    (∀ i, i < o → J'[i]? = J[i]? ∧ f'[i]? = f[i]?) ∧
    ∀ pre k post, ks = pre ++ k :: post → LinkOutcome t links0 k (o + rowOffset pre) J' f f' := by
  intro ks
  induction ks with
  | nil =>
    intro o links J f links' J' f' hok hlen h
    simp only [taskLoop, Option.some.injEq, Prod.mk.injEq] at h
    obtain ⟨rfl, rfl, rfl⟩ := h
    refine ⟨hok, hlen, rfl, rfl, fun _ _ => ⟨rfl, rfl⟩, ?_⟩
    intro pre k post h; simp at h
  | cons k0 ks ih =>
    intro o links J f links' J' f' hok hlen h
    unfold taskLoop at h
    cases hr : refreshLink links k0.link with
    | none => rw [hr] at h; cases h
    | some links1 =>
      rw [hr] at h
      obtain ⟨hlen1, l0, hl0⟩ := hok.refresh' hlen hr
      obtain ⟨hok1, hused⟩ := hok.refresh hr hl0
      simp only [Bool.false_eq_true, if_false, hused] at h
      cases hd : modeDof (k0.pd.mode : ℤ) with
      | none => simp [hd] at h
      | some d =>
        cases hj : jacRows (usedLink l0 k0.link) k0 with
        | none => simp [hd, hj] at h
        | some r =>
          cases hJ : writeBlock J o r with
          | none => simp [hd, hj, hJ] at h
          | some J1 =>
            cases hf : (writePos t (usedLink l0 k0.link) k0 o f).bind (writeRot t (usedLink l0 k0.link) k0 o) with
            | none => simp [hd, hj, hJ, hf] at h
            | some f1 =>
              simp only [hd, hj, hJ, hf] at h
              obtain ⟨hm, rfl⟩ := modeDof_cast hd
              have hrl := jacRows_length hj hm
              have W := linkWrites hm hf
              obtain ⟨A1, A2, A3, A4, A5, A6⟩ := ih _ _ _ _ hok1 hlen1 h
              have h3 := three_le_taskRows k0.pd.mode
              refine ⟨A1, A2, A3.trans (writeBlock_length hJ), A4.trans W.length, ?_, ?_⟩
              · intro i hi
                obtain ⟨B1, B2⟩ := A5 i (by omega)
                exact ⟨B1.trans (writeBlock_out hJ (Or.inl hi)), B2.trans (W.outside i (Or.inl hi))⟩
              · intro pre k post hs
                cases pre with
                | nil =>
                  simp only [List.nil_append, List.cons.injEq] at hs
                  obtain ⟨rfl, rfl⟩ := hs
                  simp only [rowOffset, List.map_nil, List.sum_nil, Nat.add_zero]
                  refine ⟨hm, ⟨l0, r, hl0, hj, ?_, ?_, ?_⟩, ?_, ?_⟩
                  · intro i hi
                    rw [(A5 (o + i) (by omega)).1]
                    exact writeBlock_in hJ (by omega)
                  · intro h1 h2
                    obtain ⟨a, ha, hb⟩ := W.pos h1 h2
                    rw [usedLink_posArgs] at ha
                    exact ⟨a, ha, fun i => by rw [(A5 (o + i.val) (by omega)).2]; exact hb i⟩
                  · intro h1 h2
                    obtain ⟨a, ha, hb⟩ := W.rot h1 h2
                    rw [usedLink_rotm, usedLink_w] at ha
                    refine ⟨a, ha, fun i => ?_⟩
                    have := rotationRow_lt h1 i
                    rw [(A5 (o + rotationRow k0.pd.mode + i.val) (by omega)).2]; exact hb i
                  · intro h1 h2 i
                    rw [(A5 (o + i.val) (by omega)).2]; exact W.noPos h1 h2 i
                  · intro h1 h2 i
                    have := rotationRow_lt h1 i
                    rw [(A5 (o + rotationRow k0.pd.mode + i.val) (by omega)).2]; exact W.noRot h1 h2 i
                | cons k1 pre =>
                  simp only [List.cons_append, List.cons.injEq] at hs
                  obtain ⟨rfl, rfl⟩ := hs
                  have B := A6 pre k post rfl
                  have e : o + rowOffset (k0 :: pre) = o + taskRows k0.pd.mode + rowOffset pre := by
                    simp only [rowOffset, List.map_cons, List.sum_cons]; omega
                  rw [e]
                  refine ⟨B.mode, B.used, ?_, ?_⟩
                  · intro h1 h2 i
                    rw [B.noPos h1 h2 i]; exact W.outside _ (Or.inr (by omega))
                  · intro h1 h2 i
                    rw [B.noRot h1 h2 i]; exact W.outside _ (Or.inr (by omega))

/-- A task created as custom keeps its desired acceleration. -/
theorem taskLoop_custom {t : ℝ} : ∀ (ks : List RowTaskLink) (o : ℕ) (links : List (RowLink σ))
    (J : List (σ → ℝ)) (f : List ℝ) {links' : List (RowLink σ)} {J' : List (σ → ℝ)} {f' : List ℝ},
    taskLoop t true ks o links J f = some (links', J', f') → J' = J ∧ f' = f := by
  intro ks
  induction ks with
  | nil =>
    intro o links J f links' J' f' h
    simp only [taskLoop, Option.some.injEq, Prod.mk.injEq] at h
    exact ⟨h.2.1.symm, h.2.2.symm⟩
  | cons k0 ks ih =>
    intro o links J f links' J' f' h
    unfold taskLoop at h
    cases hr : refreshLink links k0.link with
    | none => rw [hr] at h; cases h
    | some links1 =>
      rw [hr] at h
      simp only [if_true] at h
      exact ih _ _ _ _ h

theorem taskLoop_linksOk_custom {t : ℝ} {links0 : List (RowLink σ)} : ∀ (ks : List RowTaskLink) (o : ℕ)
    (links : List (RowLink σ)) (J : List (σ → ℝ)) (f : List ℝ) {links' : List (RowLink σ)} {J' : List (σ → ℝ)} {f' : List ℝ},
    LinksOk links0 links → links.length = links0.length → taskLoop t true ks o links J f = some (links', J', f') →
    LinksOk links0 links' ∧ links'.length = links0.length := by
  intro ks
  induction ks with
  | nil =>
    intro o links J f links' J' f' hok hlen h
    simp only [taskLoop, Option.some.injEq, Prod.mk.injEq] at h
    obtain ⟨rfl, rfl, rfl⟩ := h
    exact ⟨hok, hlen⟩
  | cons k0 ks ih =>
    intro o links J f links' J' f' hok hlen h
    unfold taskLoop at h
    cases hr : refreshLink links k0.link with
    | none => rw [hr] at h; cases h
    | some links1 =>
      rw [hr] at h
      obtain ⟨hlen1, l0, hl0⟩ := hok.refresh' hlen hr
      obtain ⟨hok1, -⟩ := hok.refresh hr hl0
      simp only [if_true] at h
      exact ih _ _ _ _ hok1 hlen1 h

theorem updateRowTask_links {t : ℝ} {links0 links links' : List (RowLink σ)} {T T' : RowTask σ} (hok : LinksOk links0 links)
    (hlen : links.length = links0.length) (h : updateRowTask t links T = some (links', T')) :
    LinksOk links0 links' ∧ links'.length = links0.length := by
  unfold updateRowTask at h
  split at h
  · simp only [Option.some.injEq, Prod.mk.injEq] at h
    obtain ⟨rfl, -⟩ := h
    exact ⟨hok, hlen⟩
  · cases hd : T.dof with
    | none => simp [hd] at h
    | some d =>
      cases hl : taskLoop t T.custom T.links 0 links (List.replicate d 0) T.f with
      | none => simp [hd, hl] at h
      | some q =>
        obtain ⟨l1, J1, f1⟩ := q
        simp only [hd, hl, Option.some.injEq, Prod.mk.injEq] at h
        obtain ⟨rfl, -⟩ := h
        cases hc : T.custom with
        | true => rw [hc] at hl; exact taskLoop_linksOk_custom _ _ _ _ _ hok hlen hl
        | false =>
          rw [hc] at hl
          obtain ⟨A, B, -⟩ := taskLoop_spec _ _ _ _ _ hok hlen hl
          exact ⟨A, B⟩

/-- Every task was updated from link records that differ from the initial ones only by refreshed Jacobians. -/
theorem updateRowTasks_get {t : ℝ} {links0 : List (RowLink σ)} : ∀ (ts : List (RowTask σ)) (links : List (RowLink σ))
    {links' : List (RowLink σ)} {ts' : List (RowTask σ)}, LinksOk links0 links → links.length = links0.length →
    updateRowTasks t links ts = some (links', ts') → ∀ {j : ℕ} {T T' : RowTask σ}, ts[j]? = some T → ts'[j]? = some T' →
    ∃ l1 l2, LinksOk links0 l1 ∧ l1.length = links0.length ∧ updateRowTask t l1 T = some (l2, T') := by
  intro ts
  induction ts with
  | nil => intro links links' ts' _ _ _ j T T' hT; simp at hT
  | cons T0 ts ih =>
    intro links links' ts' hok hlen h j T T' hT hT'
    unfold updateRowTasks at h
    cases h1 : updateRowTask t links T0 with
    | none => simp [h1] at h
    | some q =>
      obtain ⟨l1, T1⟩ := q
      cases h2 : updateRowTasks t l1 ts with
      | none => simp [h1, h2] at h
      | some q =>
        obtain ⟨l2, ts2⟩ := q
        simp only [h1, h2, Option.some.injEq, Prod.mk.injEq] at h
        obtain ⟨rfl, rfl⟩ := h
        cases j with
        | zero =>
          simp only [List.getElem?_cons_zero, Option.some.injEq] at hT hT'
          subst hT hT'
          exact ⟨links, l1, hok, hlen, h1⟩
        | succ j =>
          simp only [List.getElem?_cons_succ] at hT hT'
          obtain ⟨hok1, hlen1⟩ := updateRowTask_links hok hlen h1
          exact ih l1 hok1 hlen1 h2 hT hT'

/-- `UpdateTaskSpace`, one task link. -/
theorem updateTaskSpace_spec {t : ℝ} {links links' : List (RowLink σ)} {ts ts' : List (RowTask σ)}
    (h : updateTaskSpace t links ts = some (links', ts')) {j : ℕ} {T T' : RowTask σ} (hT : ts[j]? = some T)
    (hT' : ts'[j]? = some T') (hc : T.custom = false) {pre post : List RowTaskLink} {k : RowTaskLink}
    (hk : T.links = pre ++ k :: post) : LinkOutcome t links k (rowOffset pre) T'.J T.f T'.f := by
  unfold updateTaskSpace at h
  cases h0 : links[0]? with
  | none => simp [h0] at h
  | some l =>
    cases h1 : l.updateJac with
    | none => simp [h0, h1] at h
    | some l' =>
      simp only [h0, h1] at h
      have h0l := (List.getElem?_eq_some_iff.mp h0).1
      have hok : LinksOk links (links.set 0 l') := by
        intro i m hm
        by_cases hi : i = 0
        · subst hi
          rw [h0] at hm
          obtain rfl := Option.some.inj hm
          exact ⟨l', List.getElem?_set_self h0l, Or.inr ⟨freshLink_eq h1, Or.inl rfl⟩⟩
        · exact ⟨m, by rw [List.getElem?_set_ne (Ne.symm hi)]; exact hm, Or.inl ⟨rfl, hi⟩⟩
      obtain ⟨l1, l2, hok1, hlen1, hu⟩ := updateRowTasks_get ts _ hok (by simp) h hT hT'
      unfold updateRowTask at hu
      rw [if_neg (by rw [hk]; simp)] at hu
      cases hd : T.dof with
      | none => simp [hd] at hu
      | some d =>
        cases hl : taskLoop t T.custom T.links 0 l1 (List.replicate d 0) T.f with
        | none => simp [hd, hl] at hu
        | some q =>
          obtain ⟨l3, J3, f3⟩ := q
          simp only [hd, hl, Option.some.injEq, Prod.mk.injEq] at hu
          obtain ⟨rfl, rfl⟩ := hu
          rw [hc] at hl
          obtain ⟨-, -, -, -, -, H⟩ := taskLoop_spec _ _ _ _ _ hok1 hlen1 hl
          have := H pre k post hk
          rwa [Nat.zero_add] at this

end Verif
