import Verif.Spec.TaskOrder
import Verif.Lemmas.TaskRows
import Verif.Lemmas.Order

set_option linter.unusedSectionVars false

namespace Verif
open Matrix Verif.Spec Verif.Model

section
variable {σ : Type*}

theorem writeBlock_block {α : Type*} (pre b post r : List α) {o : ℕ} (h : o + r.length ≤ b.length) :
    writeBlock (pre ++ b ++ post) (pre.length + o) r = (writeBlock b o r).map fun b => pre ++ b ++ post := by
  unfold writeBlock
  rw [if_pos (by simp; omega), if_pos h, Option.map_some]
  have e1 : (pre ++ b ++ post).take (pre.length + o) = pre ++ b.take o := by
    rw [List.append_assoc, List.take_length_add_append, List.take_append_of_le_length (by omega)]
  have e2 : (pre ++ b ++ post).drop (pre.length + o + r.length) = b.drop (o + r.length) ++ post := by
    rw [List.append_assoc, Nat.add_assoc, List.drop_length_add_append, List.drop_append_of_le_length h]
  rw [e1, e2]
  simp only [List.append_assoc]

theorem writeVec_block (pre b post : List ℝ) {o : ℕ} (h : o + 3 ≤ b.length) (u : Option Vec3) :
    writeVec (pre ++ b ++ post) (pre.length + o) u = (writeVec b o u).map fun b => pre ++ b ++ post := by
  unfold writeVec
  rcases u with _ | u
  · rfl
  · exact writeBlock_block pre b post _ h

theorem writePos_block (t : ℝ) (l : RowLink σ) (k : RowTaskLink) (pre b post : List ℝ) (hb : b.length = taskRows k.pd.mode) :
    writePos t l k pre.length (pre ++ b ++ post) = (writePos t l k 0 b).map fun b => pre ++ b ++ post := by
  unfold writePos
  have := three_le_taskRows k.pd.mode
  split_ifs
  · exact writeVec_block pre b post (o := 0) (by omega) _
  · rfl

theorem writeRot_block (t : ℝ) (l : RowLink σ) (k : RowTaskLink) (pre b post : List ℝ) (hb : b.length = taskRows k.pd.mode) :
    writeRot t l k pre.length (pre ++ b ++ post) = (writeRot t l k 0 b).map fun b => pre ++ b ++ post := by
  unfold writeRot
  have := three_le_taskRows k.pd.mode
  split_ifs with h1
  · rw [writeVec_block pre b post (o := 3) (by rw [hb, taskRows, if_pos h1.2]), Nat.zero_add]
  · exact writeVec_block pre b post (o := 0) (by omega) _
  · rfl

theorem writePos_length {t : ℝ} {l : RowLink σ} {k : RowTaskLink} {o : ℕ} {b b' : List ℝ} (h : writePos t l k o b = some b') :
    b'.length = b.length := by
  unfold writePos at h
  split_ifs at h
  · obtain ⟨a, -, h⟩ := writeVec_some h
    exact writeBlock_length h
  · rw [Option.some.inj h]

theorem writeRot_length {t : ℝ} {l : RowLink σ} {k : RowTaskLink} {o : ℕ} {b b' : List ℝ} (h : writeRot t l k o b = some b') :
    b'.length = b.length := by
  unfold writeRot at h
  split_ifs at h
  · obtain ⟨a, -, h⟩ := writeVec_some h
    exact writeBlock_length h
  · obtain ⟨a, -, h⟩ := writeVec_some h
    exact writeBlock_length h
  · rw [Option.some.inj h]

/-- The accelerations commanded for one link, whatever they were before. -/
noncomputable def linkBlock (t : ℝ) (l : RowLink σ) (k : RowTaskLink) (b : List ℝ) : Option (List ℝ) :=
  (writePos t l k 0 b).bind (writeRot t l k 0)

theorem linkBlock_length {t : ℝ} {l : RowLink σ} {k : RowTaskLink} {b b' : List ℝ} (h : linkBlock t l k b = some b') :
    b'.length = b.length := by
  obtain ⟨g, hg, hf⟩ := Option.bind_eq_some_iff.mp h
  rw [writeRot_length hf, writePos_length hg]

theorem link_writes_block (t : ℝ) (l : RowLink σ) (k : RowTaskLink) (pre b post : List ℝ) (hb : b.length = taskRows k.pd.mode) :
    (writePos t l k pre.length (pre ++ b ++ post)).bind (writeRot t l k pre.length)
      = (linkBlock t l k b).map fun b => pre ++ b ++ post := by
  rw [writePos_block t l k pre b post hb, linkBlock]
  rcases h : writePos t l k 0 b with _ | b'
  · rfl
  · simp only [Option.map_some, Option.bind_some]
    exact writeRot_block t l k pre b' post ((writePos_length h).trans hb)

/-- A link after the loop has passed it. -/
def passed (i : ℕ) (l : RowLink σ) : RowLink σ := if !l.isCom && i != 0 then freshLink l else l

theorem passed_passed (i : ℕ) (l : RowLink σ) : passed i (passed i l) = passed i l := by
  unfold passed
  split_ifs <;> simp_all [freshLink_fresh, freshLink_isCom]

/-- The links are those of the start, some of them refreshed. -/
def Kept (links0 links : List (RowLink σ)) : Prop :=
  ∀ i : ℕ, links[i]? = links0[i]? ∨ links[i]? = links0[i]?.map (passed i)

/-- Refreshing this link is undefined. -/
def Unrefreshable (i : ℕ) (l : RowLink σ) : Prop := (!l.isCom && i != 0) = true ∧ l.pointJac = none

theorem freshLink_pointJac (l : RowLink σ) : (freshLink l).pointJac = l.pointJac := by
  unfold freshLink; split <;> simp_all

theorem unrefreshable_passed (i : ℕ) (l : RowLink σ) : Unrefreshable i (passed i l) ↔ Unrefreshable i l := by
  unfold Unrefreshable passed
  split_ifs <;> simp_all [freshLink_isCom, freshLink_pointJac]

theorem refreshLink_spec (links : List (RowLink σ)) {i : ℕ} {l : RowLink σ} (hl : links[i]? = some l) :
    (Unrefreshable i l ∧ refreshLink links i = none) ∨
    (¬ Unrefreshable i l ∧ ∃ links1, refreshLink links i = some links1 ∧ links1[i]? = some (passed i l) ∧
      ∀ j, j ≠ i → links1[j]? = links[j]?) := by
  have hi : i < links.length := by
    by_contra hc
    rw [List.getElem?_eq_none (by omega)] at hl
    cases hl
  unfold refreshLink Unrefreshable passed
  rw [hl]
  simp only
  by_cases h : (!l.isCom && i != 0) = true
  · rw [if_pos h]
    unfold RowLink.updateJac
    rcases hj : l.pointJac with _ | P
    · left; exact ⟨⟨h, rfl⟩, rfl⟩
    · right
      refine ⟨by simp, _, rfl, ?_, ?_⟩
      · rw [List.getElem?_set_self hi, if_pos h, freshLink, hj]
      · intro j hji
        exact List.getElem?_set_ne (Ne.symm hji)
  · right
    rw [if_neg h]
    exact ⟨fun hc => h hc.1, links, rfl, by rw [hl, if_neg h], fun _ _ => rfl⟩

theorem Kept.refresh {links0 links : List (RowLink σ)} (hk : Kept links0 links) {i : ℕ} {l0 : RowLink σ} (h0 : links0[i]? = some l0) :
    (Unrefreshable i l0 ∧ refreshLink links i = none) ∨
    (¬ Unrefreshable i l0 ∧ ∃ links1, refreshLink links i = some links1 ∧ links1[i]? = some (passed i l0) ∧ Kept links0 links1 ∧
      ∀ j, j ≠ i → links1[j]? = links[j]?) := by
  have key : ∀ l, links[i]? = some l → passed i l = passed i l0 → (Unrefreshable i l ↔ Unrefreshable i l0) →
      (Unrefreshable i l0 ∧ refreshLink links i = none) ∨
      (¬ Unrefreshable i l0 ∧ ∃ links1, refreshLink links i = some links1 ∧ links1[i]? = some (passed i l0) ∧ Kept links0 links1 ∧
        ∀ j, j ≠ i → links1[j]? = links[j]?) := by
    intro l hl hp hu
    rcases refreshLink_spec links hl with ⟨h1, h2⟩ | ⟨h1, links1, h2, h3, h4⟩
    · exact Or.inl ⟨hu.mp h1, h2⟩
    · refine Or.inr ⟨fun h => h1 (hu.mpr h), links1, h2, h3.trans (congrArg some hp), fun j => ?_, h4⟩
      by_cases hj : j = i
      · subst hj
        right; rw [h3, hp, h0]; rfl
      · rw [h4 j hj]; exact hk j
  rcases hk i with h | h
  · exact key l0 (h.trans h0) rfl Iff.rfl
  · rw [h0, Option.map_some] at h
    exact key _ h (passed_passed i l0) (unrefreshable_passed i l0)

theorem refreshLink_out {links0 links : List (RowLink σ)} (hk : Kept links0 links) {i : ℕ} (h0 : links0[i]? = none) :
    refreshLink links i = none := by
  have : links[i]? = none := by
    rcases hk i with h | h
    · exact h.trans h0
    · rw [h, h0]; rfl
  unfold refreshLink
  rw [this]

open Classical in
/-- What one link contributes to its level: rows of the Jacobian and commanded accelerations. -/
noncomputable def levelStep (t : ℝ) (links0 : List (RowLink σ)) (p : RowTaskLink × List ℝ) :
    Option (RowTaskLink × List (σ → ℝ) × List ℝ) :=
  match links0[p.1.link]? with
  | none => none
  | some l0 =>
    if Unrefreshable p.1.link l0 then none
    else
      match modeDof p.1.pd.mode, jacRows (passed p.1.link l0) p.1, linkBlock t (passed p.1.link l0) p.1 p.2 with
      | some _, some r, some b => some (p.1, r, b)
      | _, _, _ => none

theorem levelStep_some {t : ℝ} {links0 : List (RowLink σ)} {p : RowTaskLink × List ℝ} {q : RowTaskLink × List (σ → ℝ) × List ℝ}
    (hp : p.2.length = taskRows p.1.pd.mode) (h : levelStep t links0 p = some q) :
    q.1 = p.1 ∧ q.2.1.length = taskRows q.1.pd.mode ∧ q.2.2.length = taskRows q.1.pd.mode := by
  unfold levelStep at h
  split at h
  · cases h
  · split_ifs at h
    split at h
    · rename_i d r b hd hr hb
      obtain rfl := Option.some.inj h
      exact ⟨rfl, jacRows_length hr (modeDof_cast hd).1, (linkBlock_length hb).trans hp⟩
    · cases h

/-- What the loop over the links of a level writes, link by link. -/
theorem taskLoop_blocks {t : ℝ} {links0 : List (RowLink σ)} : ∀ (ps : List (RowTaskLink × List ℝ)) (links : List (RowLink σ))
    (preJ : List (σ → ℝ)) (pref : List ℝ), Kept links0 links → (∀ p ∈ ps, p.2.length = taskRows p.1.pd.mode) →
    pref.length = preJ.length →
    (ps.mapM (levelStep t links0) = none ∧
      taskLoop t false (ps.map (·.1)) preJ.length links (preJ ++ List.replicate (ps.map fun p => taskRows p.1.pd.mode).sum 0)
        (pref ++ (ps.map (·.2)).flatten) = none) ∨
    ∃ qs links', ps.mapM (levelStep t links0) = some qs ∧
      taskLoop t false (ps.map (·.1)) preJ.length links (preJ ++ List.replicate (ps.map fun p => taskRows p.1.pd.mode).sum 0)
        (pref ++ (ps.map (·.2)).flatten) = some (links', preJ ++ (qs.map (·.2.1)).flatten, pref ++ (qs.map (·.2.2)).flatten) ∧
      (∀ q ∈ qs, q.2.1.length = taskRows q.1.pd.mode ∧ q.2.2.length = taskRows q.1.pd.mode) ∧
      qs.map (·.1) = ps.map (·.1) ∧
      (∀ i : ℕ, ((∃ p ∈ ps, p.1.link = i) → links'[i]? = links0[i]?.map (passed i)) ∧
        ((¬ ∃ p ∈ ps, p.1.link = i) → links'[i]? = links[i]?)) := by
  intro ps
  induction ps with
  | nil =>
    intro links preJ pref hk _ _
    right
    refine ⟨[], links, rfl, by simp [taskLoop], by simp, rfl, fun i => ⟨fun h => by simp at h, fun _ => rfl⟩⟩
  | cons p ps ih =>
    intro links preJ pref hk hlen hpre
    have hp := hlen p (List.mem_cons_self ..)
    have hps : ∀ q ∈ ps, q.2.length = taskRows q.1.pd.mode := fun q hq => hlen q (List.mem_cons_of_mem _ hq)
    simp only [List.map_cons, List.sum_cons, List.flatten_cons]
    unfold taskLoop
    rw [List.mapM_cons]
    rcases h0 : links0[p.1.link]? with _ | l0
    · left
      refine ⟨by simp [levelStep, h0], by rw [refreshLink_out hk h0]⟩
    rcases hk.refresh h0 with ⟨hu, hn⟩ | ⟨hu, links1, hr, h1, hk1, hoth⟩
    · left
      refine ⟨by simp [levelStep, h0, hu], by rw [hn]⟩
    rw [hr]
    simp only [Bool.false_eq_true, if_false, h1]
    rcases hd : modeDof (p.1.pd.mode : ℤ) with _ | d
    · left; exact ⟨by simp [levelStep, h0, hu, hd], rfl⟩
    rcases hj : jacRows (passed p.1.link l0) p.1 with _ | r
    · left; exact ⟨by simp [levelStep, h0, hu, hd, hj], rfl⟩
    obtain ⟨hm, rfl⟩ := modeDof_cast hd
    have hrl := jacRows_length hj hm
    have hJ : writeBlock (preJ ++ List.replicate (taskRows p.1.pd.mode + (ps.map fun p => taskRows p.1.pd.mode).sum) 0) preJ.length r
        = some ((preJ ++ r) ++ List.replicate (ps.map fun p => taskRows p.1.pd.mode).sum 0) := by
      have := writeBlock_block preJ (List.replicate (taskRows p.1.pd.mode) (0 : σ → ℝ))
        (List.replicate (ps.map fun p => taskRows p.1.pd.mode).sum 0) r (o := 0) (by simp [hrl])
      rw [List.append_assoc, ← List.replicate_add, Nat.add_zero] at this
      rw [this]
      unfold writeBlock
      rw [if_pos (by simp [hrl])]
      simp [hrl]
    have hf : (writePos t (passed p.1.link l0) p.1 preJ.length (pref ++ (p.2 ++ (ps.map (·.2)).flatten))).bind
        (writeRot t (passed p.1.link l0) p.1 preJ.length)
        = (linkBlock t (passed p.1.link l0) p.1 p.2).map fun b => pref ++ b ++ (ps.map (·.2)).flatten := by
      rw [← hpre, ← List.append_assoc]
      exact link_writes_block t _ _ _ _ _ hp
    rcases hb : linkBlock t (passed p.1.link l0) p.1 p.2 with _ | b
    · left
      refine ⟨by simp [levelStep, h0, hu, hd, hj, hb], ?_⟩
      simp only
      rw [hJ, hf, hb]
      rfl
    simp only
    rw [hJ, hf, hb]
    simp only [Option.map_some]
    have hst : levelStep t links0 p = some (p.1, r, b) := by simp [levelStep, h0, hu, hd, hj, hb]
    have hbl := (linkBlock_length hb).trans hp
    have hlen2 : (preJ ++ r).length = preJ.length + taskRows p.1.pd.mode := by simp [hrl]
    rw [← hlen2, hst]
    rcases ih links1 (preJ ++ r) (pref ++ b) hk1 hps (by simp [hpre, hrl, hbl]) with ⟨e1, e2⟩ | ⟨qs, links', e1, e2, e3, e4, e5⟩
    · left
      refine ⟨?_, e2⟩
      rw [e1]; rfl
    · right
      refine ⟨(p.1, r, b) :: qs, links', ?_, ?_, ?_, ?_, ?_⟩
      · rw [e1]; rfl
      · rw [e2]; simp
      · intro q hq
        rcases List.mem_cons.mp hq with rfl | hq
        · exact ⟨hrl, hbl⟩
        · exact e3 q hq
      · simp [e4]
      · intro i
        by_cases hi : ∃ q ∈ ps, q.1.link = i
        · refine ⟨fun _ => (e5 i).1 hi, fun hc => absurd ?_ hc⟩
          obtain ⟨q, hq, e⟩ := hi
          exact ⟨q, List.mem_cons_of_mem _ hq, e⟩
        · rw [(e5 i).2 hi]
          constructor
          · rintro ⟨q, hq, e⟩
            rcases List.mem_cons.mp hq with rfl | hq
            · subst e; rw [h1, h0]; rfl
            · exact absurd ⟨q, hq, e⟩ hi
          · intro hc
            refine hoth i fun e => hc ⟨p, List.mem_cons_self .., e.symm⟩

theorem mapM_perm {α β : Type*} (f : α → Option β) {l l' : List α} (h : l.Perm l') :
    (l.mapM f = none ∧ l'.mapM f = none) ∨ ∃ r r', l.mapM f = some r ∧ l'.mapM f = some r' ∧ r.Perm r' := by
  induction h with
  | nil => exact Or.inr ⟨[], [], rfl, rfl, List.Perm.nil⟩
  | @cons x l₁ l₂ _ ih =>
    rw [List.mapM_cons, List.mapM_cons]
    rcases f x with _ | y
    · exact Or.inl ⟨rfl, rfl⟩
    · rcases ih with ⟨e1, e2⟩ | ⟨r, r', e1, e2, e3⟩
      · left; rw [e1, e2]; exact ⟨rfl, rfl⟩
      · right; rw [e1, e2]; exact ⟨y :: r, y :: r', rfl, rfl, e3.cons y⟩
  | swap x y l =>
    simp only [List.mapM_cons]
    rcases hx : f x with _ | a <;> rcases hy : f y with _ | b
    · exact Or.inl ⟨rfl, rfl⟩
    · left; exact ⟨rfl, rfl⟩
    · left; exact ⟨rfl, rfl⟩
    · rcases hl : l.mapM f with _ | r
      · left; exact ⟨rfl, rfl⟩
      · right; exact ⟨b :: a :: r, a :: b :: r, rfl, rfl, List.Perm.swap _ _ _⟩
  | trans _ _ ih1 ih2 =>
    rcases ih1 with ⟨e1, e2⟩ | ⟨r, r', e1, e2, e3⟩ <;> rcases ih2 with ⟨d1, d2⟩ | ⟨s, s', d1, d2, d3⟩
    · exact Or.inl ⟨e1, d2⟩
    · rw [e2] at d1; cases d1
    · rw [e2] at d1; cases d1
    · rw [e2] at d1
      obtain rfl := Option.some.inj d1
      exact Or.inr ⟨r, s', e1, d2, e3.trans d3⟩

/-- After the update the rows of one level are those of the other in another order. -/
def SameRows (T T' : RowTask σ) : Prop :=
  T = T' ∨ (T.J.length = T.f.length ∧ T'.J.length = T'.f.length ∧ (T.J.zip T.f).Perm (T'.J.zip T'.f))

theorem zip_flatten {α β γ : Type*} (f : α → List β) (g : α → List γ) : ∀ l : List α, (∀ x ∈ l, (f x).length = (g x).length) →
    (l.map f).flatten.zip (l.map g).flatten = l.flatMap fun x => (f x).zip (g x)
  | [], _ => rfl
  | x :: l, h => by
    simp only [List.map_cons, List.flatten_cons, List.flatMap_cons]
    rw [List.zip_append (h x (List.mem_cons_self ..)), zip_flatten f g l fun y hy => h y (List.mem_cons_of_mem _ hy)]

theorem length_flatten_eq {α β γ : Type*} (f : α → List β) (g : α → List γ) : ∀ l : List α, (∀ x ∈ l, (f x).length = (g x).length) →
    (l.map f).flatten.length = (l.map g).flatten.length
  | [], _ => rfl
  | x :: l, h => by
    simp only [List.map_cons, List.flatten_cons, List.length_append]
    rw [h x (List.mem_cons_self ..), length_flatten_eq f g l fun y hy => h y (List.mem_cons_of_mem _ hy)]

/-- One level, updated: the same links refreshed, the same rows, and again a level that differs in the order only. -/
theorem updateRowTask_same (t : ℝ) (links : List (RowLink σ)) {T T' : RowTask σ} (h : SameLevel T T') :
    (updateRowTask t links T = none ∧ updateRowTask t links T' = none) ∨
    ∃ links' T1 T1', updateRowTask t links T = some (links', T1) ∧ updateRowTask t links T' = some (links', T1') ∧
      SameRows T1 T1' ∧ SameLevel T1 T1' := by
  rcases h with rfl | ⟨ps, ps', hne, hp, ⟨a1, a2, a3, a4, a5⟩, ⟨b1, b2, b3, b4, b5⟩⟩
  · rcases updateRowTask t links T with _ | ⟨links', T1⟩
    · exact Or.inl ⟨rfl, rfl⟩
    · exact Or.inr ⟨links', T1, T1, rfl, rfl, Or.inl rfl, Or.inl rfl⟩
  have hne' : ps' ≠ [] := fun h => hne (by rw [h] at hp; exact List.perm_nil.mp hp)
  have hkept : Kept links links := fun i => Or.inl rfl
  unfold updateRowTask
  rw [if_neg (by rw [a1]; simpa using hne), if_neg (by rw [b1]; simpa using hne'), a3, b3, a4, b4, a1, b1, a2, b2]
  simp only
  have A := taskLoop_blocks (t := t) ps links [] [] hkept a5 rfl
  have B := taskLoop_blocks (t := t) ps' links [] [] hkept b5 rfl
  simp only [List.length_nil, List.nil_append] at A B
  rcases mapM_perm (levelStep t links) hp with ⟨m1, m2⟩ | ⟨qs, qs', m1, m2, hq⟩
  · left
    rcases A with ⟨-, A⟩ | ⟨qs, links', A, -⟩
    · rcases B with ⟨-, B⟩ | ⟨qs, links', B, -⟩
      · rw [A, B]; exact ⟨rfl, rfl⟩
      · rw [m2] at B; cases B
    · rw [m1] at A; cases A
  right
  rcases A with ⟨A, -⟩ | ⟨qa, la, A1, A2, A3, A4, A5⟩
  · rw [m1] at A; cases A
  rcases B with ⟨B, -⟩ | ⟨qb, lb, B1, B2, B3, B4, B5⟩
  · rw [m2] at B; cases B
  rw [m1] at A1
  obtain rfl := Option.some.inj A1
  rw [m2] at B1
  obtain rfl := Option.some.inj B1
  have hl : la = lb := by
    apply List.ext_getElem?
    intro i
    have hiff : (∃ p ∈ ps, p.1.link = i) ↔ ∃ p ∈ ps', p.1.link = i := by
      constructor <;> rintro ⟨p, hm, e⟩
      · exact ⟨p, hp.mem_iff.mp hm, e⟩
      · exact ⟨p, hp.mem_iff.mpr hm, e⟩
    by_cases hi : ∃ p ∈ ps, p.1.link = i
    · rw [(A5 i).1 hi, (B5 i).1 (hiff.mp hi)]
    · rw [(A5 i).2 hi, (B5 i).2 fun h => hi (hiff.mpr h)]
  subst hl
  rw [A2, B2]
  refine ⟨la, _, _, rfl, rfl, Or.inr ⟨?_, ?_, ?_⟩, Or.inr ⟨qs.map fun q => (q.1, q.2.2), qs'.map fun q => (q.1, q.2.2), ?_, hq.map _, ?_, ?_⟩⟩
  · exact length_flatten_eq _ _ _ fun q hq => (A3 q hq).1.trans (A3 q hq).2.symm
  · exact length_flatten_eq _ _ _ fun q hq => (B3 q hq).1.trans (B3 q hq).2.symm
  · simp only
    rw [zip_flatten _ _ _ fun q hq => (A3 q hq).1.trans (A3 q hq).2.symm,
      zip_flatten _ _ _ fun q hq => (B3 q hq).1.trans (B3 q hq).2.symm]
    exact hq.flatMap_right _
  · intro h
    rw [List.map_eq_nil_iff] at h
    rw [h] at A4
    exact hne (by simpa using A4.symm)
  · have e : (qs.map fun q => taskRows q.1.pd.mode) = ps.map fun p => taskRows p.1.pd.mode := by
      have := congrArg (List.map fun k : RowTaskLink => taskRows k.pd.mode) A4
      simpa [List.map_map, Function.comp_def] using this
    refine ⟨?_, ?_, ?_, rfl, ?_⟩
    · simp only [List.map_map, Function.comp_def]; exact A4.symm
    · simp only [List.map_map, Function.comp_def]
    · simp only [List.map_map, Function.comp_def]; rw [e]
    · intro p hp
      obtain ⟨q, hq, rfl⟩ := List.mem_map.mp hp
      exact (A3 q hq).2
  · have e : (qs'.map fun q => taskRows q.1.pd.mode) = ps'.map fun p => taskRows p.1.pd.mode := by
      have := congrArg (List.map fun k : RowTaskLink => taskRows k.pd.mode) B4
      simpa [List.map_map, Function.comp_def] using this
    refine ⟨?_, ?_, ?_, rfl, ?_⟩
    · simp only [List.map_map, Function.comp_def]; exact B4.symm
    · simp only [List.map_map, Function.comp_def]
    · simp only [List.map_map, Function.comp_def]; rw [e]
    · intro p hp
      obtain ⟨q, hq, rfl⟩ := List.mem_map.mp hp
      exact (B3 q hq).2

theorem updateRowTasks_same (t : ℝ) {ts ts' : List (RowTask σ)} (h : List.Forall₂ SameLevel ts ts') :
    ∀ links : List (RowLink σ), (updateRowTasks t links ts = none ∧ updateRowTasks t links ts' = none) ∨
    ∃ links' us us', updateRowTasks t links ts = some (links', us) ∧ updateRowTasks t links ts' = some (links', us') ∧
      List.Forall₂ SameRows us us' ∧ List.Forall₂ SameLevel us us' := by
  induction h with
  | nil => intro links; exact Or.inr ⟨links, [], [], rfl, rfl, List.Forall₂.nil, List.Forall₂.nil⟩
  | @cons T T' l l' hT _ ih =>
    intro links
    simp only [updateRowTasks]
    rcases updateRowTask_same t links hT with ⟨e1, e2⟩ | ⟨links', T1, T1', e1, e2, e3, e4⟩
    · left; rw [e1, e2]; exact ⟨rfl, rfl⟩
    · rw [e1, e2]
      simp only
      rcases ih links' with ⟨d1, d2⟩ | ⟨links'', us, us', d1, d2, d3, d4⟩
      · left; rw [d1, d2]; exact ⟨rfl, rfl⟩
      · right; rw [d1, d2]
        exact ⟨links'', T1 :: us, T1' :: us', rfl, rfl, List.Forall₂.cons e3 d3, List.Forall₂.cons e4 d4⟩

theorem updateTaskSpace_same (t : ℝ) {ts ts' : List (RowTask σ)} (h : List.Forall₂ SameLevel ts ts') (links : List (RowLink σ)) :
    (updateTaskSpace t links ts = none ∧ updateTaskSpace t links ts' = none) ∨
    ∃ links' us us', updateTaskSpace t links ts = some (links', us) ∧ updateTaskSpace t links ts' = some (links', us') ∧
      List.Forall₂ SameRows us us' ∧ List.Forall₂ SameLevel us us' := by
  unfold updateTaskSpace
  rcases links[0]? with _ | l
  · exact Or.inl ⟨rfl, rfl⟩
  simp only
  rcases l.updateJac with _ | l
  · exact Or.inl ⟨rfl, rfl⟩
  exact updateRowTasks_same t h _

end

section
variable {ι : Type*} [Fintype ι] [DecidableEq ι]

/-- A level from its rows and accelerations. -/
def rowsIn (l : List ((Fin 6 ⊕ ι → ℝ) × ℝ)) : TaskIn ι := ⟨l.length, Matrix.of fun i => (l.get i).1, fun i => (l.get i).2⟩

theorem levelIn_zip {T : RowTask (Fin 6 ⊕ ι)} (h : T.J.length = T.f.length) : levelIn T = some (rowsIn (T.J.zip T.f)) := by
  unfold levelIn
  rw [dif_pos h.symm]
  congr 1
  have key : ∀ (l : List ((Fin 6 ⊕ ι → ℝ) × ℝ)) (n : ℕ) (hn : l.length = n),
      rowsIn l = ⟨n, Matrix.of fun i => (l.get (Fin.cast hn.symm i)).1, fun i => (l.get (Fin.cast hn.symm i)).2⟩ := by
    intro l n hn; subst hn; rfl
  rw [key (T.J.zip T.f) T.J.length (by simp [h])]
  congr 1
  · ext i j; simp
  · ext i; simp

/-- The matrix that rearranges rows. -/
def permMat {t : ℕ} (e : Equiv.Perm (Fin t)) : Matrix (Fin t) (Fin t) ℝ := (1 : Matrix _ _ ℝ).submatrix e id

theorem permMat_mul {t : ℕ} (e : Equiv.Perm (Fin t)) {m : Type*} (M : Matrix (Fin t) m ℝ) : permMat e * M = M.submatrix e id := by
  ext i j; simp [permMat, Matrix.mul_apply, Matrix.one_apply]

theorem permMat_mulVec {t : ℕ} (e : Equiv.Perm (Fin t)) (f : Fin t → ℝ) : permMat e *ᵥ f = f ∘ e := by
  ext i; simp [permMat, mulVec, dotProduct, Matrix.one_apply]

theorem permMat_orth {t : ℕ} (e : Equiv.Perm (Fin t)) : (permMat e)ᵀ * permMat e = 1 := by
  apply mul_eq_one_comm.mp
  rw [permMat_mul]
  ext i j
  simp [permMat, Matrix.one_apply, eq_comm]

theorem rowsIn_perm {l l' : List ((Fin 6 ⊕ ι → ℝ) × ℝ)} (h : l.Perm l') :
    ∃ Q : Matrix (Fin (rowsIn l).t) (Fin (rowsIn l).t) ℝ, Qᵀ * Q = 1 ∧ rowsIn l' = seenTask 1 (rowsIn l) Q := by
  obtain ⟨e, he⟩ := perm_get h.symm
  have key : ∀ (n : ℕ) (g : Fin n → (Fin 6 ⊕ ι → ℝ) × ℝ) (k : ℕ) (g' : Fin k → (Fin 6 ⊕ ι → ℝ) × ℝ) (hk : k = n) (e : Fin k ≃ Fin n),
      (∀ i, g' i = g (e i)) → ∃ Q : Matrix (Fin n) (Fin n) ℝ, Qᵀ * Q = 1 ∧
      (⟨k, Matrix.of fun i => (g' i).1, fun i => (g' i).2⟩ : TaskIn ι)
        = seenTask 1 ⟨n, Matrix.of fun i => (g i).1, fun i => (g i).2⟩ Q := by
    intro n g k g' hk e he
    subst hk
    refine ⟨permMat e, permMat_orth e, ?_⟩
    unfold seenTask
    simp only [baseChange_one, Matrix.mul_one, permMat_mul, permMat_mulVec]
    congr 1
    · ext i j; simp [he]
    · ext i; simp [he]
  exact key l.length l.get l'.length l'.get h.length_eq.symm e he

theorem levelIn_same {T T' : RowTask (Fin 6 ⊕ ι)} (h : SameRows T T') :
    (levelIn T = none ∧ levelIn T' = none) ∨ ∃ X X', levelIn T = some X ∧ levelIn T' = some X' ∧
      ∃ Q : Matrix (Fin X.t) (Fin X.t) ℝ, Qᵀ * Q = 1 ∧ X' = seenTask 1 X Q := by
  rcases h with rfl | ⟨h1, h2, hp⟩
  · rcases levelIn T with _ | X
    · exact Or.inl ⟨rfl, rfl⟩
    · refine Or.inr ⟨X, X, rfl, rfl, 1, by simp, ?_⟩
      unfold seenTask
      rw [baseChange_one, Matrix.mul_one, Matrix.one_mul, one_mulVec]
  · right
    exact ⟨_, _, levelIn_zip h1, levelIn_zip h2, rowsIn_perm hp⟩

theorem levels_same {us us' : List (RowTask (Fin 6 ⊕ ι))} (h : List.Forall₂ SameRows us us') :
    (us.mapM levelIn = none ∧ us'.mapM levelIn = none) ∨
    ∃ X X', us.mapM levelIn = some X ∧ us'.mapM levelIn = some X' ∧ SeenTasks 1 X X' := by
  induction h with
  | nil => exact Or.inr ⟨[], [], rfl, rfl, List.Forall₂.nil⟩
  | @cons T T' l l' hT _ ih =>
    rw [List.mapM_cons, List.mapM_cons]
    rcases levelIn_same hT with ⟨e1, e2⟩ | ⟨X, X', e1, e2, e3⟩
    · left; rw [e1, e2]; exact ⟨rfl, rfl⟩
    · rw [e1, e2]
      rcases ih with ⟨d1, d2⟩ | ⟨Y, Y', d1, d2, d3⟩
      · left; rw [d1, d2]; exact ⟨rfl, rfl⟩
      · right; rw [d1, d2]
        exact ⟨X :: Y, X' :: Y', rfl, rfl, List.Forall₂.cons e3 d3⟩

theorem cycleTasks_same (t : ℝ) {ts ts' : List (RowTask (Fin 6 ⊕ ι))} (h : List.Forall₂ SameLevel ts ts')
    (links : List (RowLink (Fin 6 ⊕ ι))) :
    (cycleTasks t links ts = none ∧ cycleTasks t links ts' = none) ∨
    ∃ X X', cycleTasks t links ts = some X ∧ cycleTasks t links ts' = some X' ∧ SeenTasks 1 X X' := by
  unfold cycleTasks
  rcases updateTaskSpace_same t h links with ⟨e1, e2⟩ | ⟨links', us, us', e1, e2, e3, -⟩
  · left; rw [e1, e2]; exact ⟨rfl, rfl⟩
  · rw [e1, e2]
    exact levels_same e3

end

end Verif
