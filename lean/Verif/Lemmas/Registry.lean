import Verif.Model.Registry
import Verif.Spec.Registry

set_option linter.unusedSectionVars false

namespace Verif
open Matrix Verif.Model Verif.Spec Verif.Model.Robot

variable {n : ℕ}

theorem strcaseEq_iff (a b : String) : strcaseEq a b = true ↔ SameName a b := by
  unfold strcaseEq SameName
  rw [beq_iff_eq]
  generalize a.toList = x
  generalize b.toList = y
  constructor
  · intro h
    rw [← List.forall₂_eq_eq_eq, List.forall₂_map_left_iff, List.forall₂_map_right_iff] at h
    exact h
  · intro h
    rw [← List.forall₂_eq_eq_eq, List.forall₂_map_left_iff, List.forall₂_map_right_iff]
    exact h

theorem findIdx_some {links : List (String × ℕ)} {name : String} {k : ℕ} :
    links.findIdx? (fun l => strcaseEq l.1 name) = some k ↔ FirstNamed (links.map Prod.fst) name k := by
  rw [List.findIdx?_eq_some_iff_getElem]
  unfold FirstNamed
  simp only [List.length_map, List.getElem_map, strcaseEq_iff]
  constructor
  · rintro ⟨h, a, b⟩
    exact ⟨⟨h, a⟩, fun j hj hk => by simpa [← strcaseEq_iff] using b j hk⟩
  · rintro ⟨⟨h, a⟩, b⟩
    exact ⟨h, a, fun j hj => by simpa [← strcaseEq_iff] using b j (hj.trans h) hj⟩

theorem findIdx_none {links : List (String × ℕ)} {name : String} :
    links.findIdx? (fun l => strcaseEq l.1 name) = none ↔ ∀ m ∈ links.map Prod.fst, ¬ SameName m name := by
  rw [List.findIdx?_eq_none_iff]
  simp [← strcaseEq_iff]

theorem any_link {cc : List (Contact n)} {k : ℕ} :
    cc.any (fun c => c.link == k) = true ↔ k ∈ cc.map Contact.link := by
  simp

theorem any_link_int {cc : List (Contact n)} {k : ℤ} :
    cc.any (fun c => (c.link : ℤ) == k) = true ↔ ∃ j ∈ cc.map Contact.link, (j : ℤ) = k := by
  simp

/-! ### updating the Jacobians -/

/-- identity of a contact: everything but its Jacobian -/
def SameContact (c d : Contact n) : Prop :=
  c.link = d.link ∧ c.body = d.body ∧ c.type = d.type ∧ c.point = d.point ∧ c.flag = d.flag

theorem updateContact_same {W : Rbdl n} {cfg : Option (List ℝ)} {c d : Contact n} (h : updateContact W cfg c = some d) :
    SameContact d c := by
  unfold updateContact at h
  split at h <;> simp at h <;> subst h <;> simp [SameContact]

theorem mapM_forall₂ {α β : Type*} {f : α → Option β} : ∀ {l : List α} {m : List β}, l.mapM f = some m →
    List.Forall₂ (fun a b => f a = some b) l m
  | [], m, h => by simp at h; subst h; exact .nil
  | a :: l, m, h => by
    simp only [List.mapM_cons, Option.pure_def, Option.bind_eq_bind, Option.bind_eq_some_iff, Option.some.injEq] at h
    obtain ⟨b, hb, m', hm, rfl⟩ := h
    exact .cons hb (mapM_forall₂ hm)

theorem updateContacts_frame {W : Rbdl n} {s t : Robot n} (h : s.updateContacts W = some t) :
    List.Forall₂ SameContact t.cc s.cc ∧ t.links = s.links ∧ t.qSize = s.qSize ∧ t.contactDof = s.contactDof ∧
      t.contactNum = s.contactNum ∧ t.q = s.q ∧ t.qdot = s.qdot ∧ t.qddot = s.qddot ∧ t.cache = s.cache := by
  unfold updateContacts at h
  split at h
  · rename_i cc d hm hd
    simp only at h
    split at h
    · simp at h
    · simp at h; subst h
      refine ⟨?_, rfl, rfl, rfl, rfl, rfl, rfl, rfl, rfl⟩
      exact ((mapM_forall₂ hm).imp fun a b hab => updateContact_same hab).flip
  · simp at h

theorem setFlags_link (cs : List (Contact n)) (v : List Bool) :
    List.Forall₂ (fun d c : Contact n => d.link = c.link ∧ d.body = c.body ∧ d.type = c.type ∧ d.point = c.point)
      (setFlags cs v) cs := by
  induction cs generalizing v with
  | nil => exact .nil
  | cons c cs ih => cases v with
    | nil => exact .cons ⟨rfl, rfl, rfl, rfl⟩ (ih [])
    | cons b v => exact .cons ⟨rfl, rfl, rfl, rfl⟩ (ih v)

/-- the identity of a contact without flag and Jacobian -/
def SameLink (c d : Contact n) : Prop :=
  c.link = d.link ∧ c.body = d.body ∧ c.type = d.type ∧ c.point = d.point

theorem SameContact.sameLink {c d : Contact n} (h : SameContact c d) : SameLink c d := ⟨h.1, h.2.1, h.2.2.1, h.2.2.2.1⟩

theorem forall₂_sameLink_refl (l : List (Contact n)) : List.Forall₂ SameLink l l :=
  List.forall₂_same.mpr fun _ _ => ⟨rfl, rfl, rfl, rfl⟩

theorem forall₂_sameLink_trans {a b c : List (Contact n)} (h : List.Forall₂ SameLink a b) (k : List.Forall₂ SameLink b c) :
    List.Forall₂ SameLink a c := by
  induction h generalizing c with
  | nil => exact k
  | cons x _ ih => cases k with
    | cons y ys => exact .cons ⟨x.1.trans y.1, x.2.1.trans y.2.1, x.2.2.1.trans y.2.2.1, x.2.2.2.trans y.2.2.2⟩ (ih ys)

theorem setContact_frame {W : Rbdl n} {s t : Robot n} {v : List Bool} (h : s.setContact W v = some t) :
    List.Forall₂ SameLink t.cc s.cc ∧ t.links = s.links ∧ t.qSize = s.qSize ∧
      t.q = s.q ∧ t.qdot = s.qdot ∧ t.qddot = s.qddot ∧ t.cache = s.cache := by
  unfold setContact at h
  split at h
  · obtain ⟨a, b, c, -, -, d, e, f, g⟩ := updateContacts_frame h
    exact ⟨a.imp fun _ _ h => h.sameLink, b, c, d, e, f, g⟩
  · split at h
    · simp at h
    · obtain ⟨a, b, c, -, -, d, e, f, g⟩ := updateContacts_frame h
      exact ⟨forall₂_sameLink_trans (a.imp fun _ _ h => h.sameLink) (setFlags_link s.cc v), b, c, d, e, f, g⟩

theorem updateKinematics_frame (s : Robot n) (q qd qdd : List ℝ) (u : Bool) :
    (s.updateKinematics q qd qdd u).cc = s.cc ∧ (s.updateKinematics q qd qdd u).links = s.links ∧
    (s.updateKinematics q qd qdd u).qSize = s.qSize ∧ (s.updateKinematics q qd qdd u).contactDof = s.contactDof ∧
    (s.updateKinematics q qd qdd u).contactNum = s.contactNum ∧ (s.updateKinematics q qd qdd u).jc = s.jc := by
  unfold Robot.updateKinematics
  split_ifs <;> simp

/-! ### one registration -/

/-- A registration either changes nothing or appends one new link. -/
theorem addByNumber_cases {s t : Robot n} {l : ℤ} {ty : ContactType} {p : Fin 3 → ℝ}
    (h : s.addByNumber l ty p = some t) :
    t = s ∨ ∃ (k body : ℕ) (name : String), (k : ℤ) = l ∧ s.links[k]? = some (name, body) ∧ k ∉ s.cc.map Contact.link ∧
      t = { s with cc := s.cc ++ [newContact k body ty p] } := by
  unfold addByNumber at h
  split at h
  · left; simpa using h.symm
  · rename_i hn
    split at h
    · simp at h
    · rename_i hl
      split at h
      · simp at h
      · rename_i nm body hb
        right
        have e : ((l.toNat : ℕ) : ℤ) = l := Int.toNat_of_nonneg (not_lt.mp hl)
        refine ⟨l.toNat, body, nm, e, hb, ?_, by simpa using h.symm⟩
        intro hm
        apply hn
        rw [any_link_int]
        exact ⟨_, hm, e⟩

theorem addByName_cases {s t : Robot n} {nm : String} {ty : ContactType} {p : Fin 3 → ℝ}
    (h : s.addByName nm ty p = some t) :
    t = s ∨ ∃ k body name, FirstNamed (s.links.map Prod.fst) nm k ∧ s.links[k]? = some (name, body) ∧
      k ∉ s.cc.map Contact.link ∧ t = { s with cc := s.cc ++ [newContact k body ty p] } := by
  unfold addByName at h
  split at h
  · left; simpa using h.symm
  · rename_i k hk
    split at h
    · left; simpa using h.symm
    · rename_i hn
      split at h
      · simp at h
      · rename_i nm' body hb
        right
        exact ⟨k, body, nm', findIdx_some.mp hk, hb, fun hm => hn (any_link.mpr hm), by simpa using h.symm⟩

/-! ### the registry invariant -/

/-- distinct links, each with the RBDL id of its link -/
structure RegOk (links : List (String × ℕ)) (cc : List (Contact n)) : Prop where
  nodup : (cc.map Contact.link).Nodup
  known : ∀ c : Contact n, c ∈ cc → ∃ name, links[c.link]? = some (name, c.body)

theorem map_link_eq {a b : List (Contact n)} (h : List.Forall₂ SameLink a b) :
    a.map Contact.link = b.map Contact.link := by
  induction h with
  | nil => rfl
  | cons x _ ih => simp [x.1, ih]

theorem RegOk.congr {links : List (String × ℕ)} {a b : List (Contact n)} (h : RegOk links b)
    (e : List.Forall₂ SameLink a b) : RegOk links a := by
  refine ⟨by rw [map_link_eq e]; exact h.nodup, fun c hc => ?_⟩
  have : ∀ c ∈ a, ∃ d ∈ b, SameLink c d := by
    clear h hc
    induction e with
    | nil => simp
    | cons x _ ih =>
      intro c hc
      rcases List.mem_cons.mp hc with rfl | hc
      · exact ⟨_, List.mem_cons_self, x⟩
      · obtain ⟨d, hd, k⟩ := ih c hc
        exact ⟨d, List.mem_cons_of_mem _ hd, k⟩
  obtain ⟨d, hd, k⟩ := this c hc
  obtain ⟨m, hm⟩ := h.known d hd
  exact ⟨m, by rw [k.1, hm, k.2.1]⟩

theorem RegOk.push {links : List (String × ℕ)} {cc : List (Contact n)} (h : RegOk links cc) {k body : ℕ} {name : String}
    (hk : links[k]? = some (name, body)) (hn : k ∉ cc.map Contact.link) (ty : ContactType) (p : Fin 3 → ℝ) :
    RegOk links (cc ++ [newContact k body ty p]) := by
  constructor
  · rw [List.map_append, List.nodup_append]
    refine ⟨h.nodup, by simp, ?_⟩
    intro a ha b hb
    simp [newContact] at hb
    subst hb
    exact fun e => hn (e ▸ ha)
  · intro c hc
    rcases List.mem_append.mp hc with hc | hc
    · exact h.known c hc
    · simp at hc; subst hc
      exact ⟨name, hk⟩

theorem call_links {W : Rbdl n} {s t : Robot n} {c : ContactCall} (h : s.call W c = some t) :
    t.links = s.links ∧ t.qSize = s.qSize := by
  cases c with
  | addByNumber l ty p =>
    rcases addByNumber_cases h with rfl | ⟨_, _, _, -, -, -, rfl⟩ <;> simp
  | addByName m ty p =>
    rcases addByName_cases h with rfl | ⟨_, _, _, -, -, -, rfl⟩ <;> simp
  | clear => simp [Robot.call, clearContacts] at h; subst h; simp
  | setContact v => have := setContact_frame h; exact ⟨this.2.1, this.2.2.1⟩
  | updateContacts => have := updateContacts_frame h; exact ⟨this.2.1, this.2.2.1⟩
  | updateKinematics q qd qdd u =>
    simp [Robot.call] at h; subst h
    have := updateKinematics_frame s q qd qdd u
    exact ⟨this.2.1, this.2.2.1⟩
  | refresh u =>
    simp [Robot.call] at h; subst h
    have := updateKinematics_frame s s.q s.qdot s.qddot u
    exact ⟨this.2.1, this.2.2.1⟩

theorem call_ok {W : Rbdl n} {s t : Robot n} {c : ContactCall} (h : s.call W c = some t) (ok : RegOk s.links s.cc) :
    RegOk t.links t.cc := by
  rw [(call_links h).1]
  cases c with
  | addByNumber l ty p =>
    rcases addByNumber_cases h with rfl | ⟨k, b, m, -, hb, hn, rfl⟩
    · exact ok
    · exact ok.push hb hn ty p
  | addByName m ty p =>
    rcases addByName_cases h with rfl | ⟨k, b, m, -, hb, hn, rfl⟩
    · exact ok
    · exact ok.push hb hn ty p
  | clear => simp [Robot.call, clearContacts] at h; subst h; exact ⟨by simp, by simp⟩
  | setContact v => exact ok.congr (setContact_frame h).1
  | updateContacts => exact ok.congr ((updateContacts_frame h).1.imp fun _ _ k => k.sameLink)
  | updateKinematics q qd qdd u =>
    simp [Robot.call] at h; subst h
    rw [(updateKinematics_frame s q qd qdd u).1]; exact ok
  | refresh u =>
    simp [Robot.call] at h; subst h
    rw [(updateKinematics_frame s s.q s.qdot s.qddot u).1]; exact ok

theorem calls_ok {W : Rbdl n} : ∀ {h : List ContactCall} {s t : Robot n}, s.calls W h = some t → RegOk s.links s.cc →
    RegOk t.links t.cc ∧ t.links = s.links ∧ t.qSize = s.qSize
  | [], s, t, e, ok => by simp [Robot.calls] at e; subst e; exact ⟨ok, rfl, rfl⟩
  | c :: cs, s, t, e, ok => by
    unfold Robot.calls at e
    split at e
    · simp at e
    · rename_i s' hs
      have k := calls_ok e (call_ok hs ok)
      exact ⟨k.1, k.2.1.trans (call_links hs).1, k.2.2.trans (call_links hs).2⟩

/-- Without a clearing call the registered links of an earlier state stay, in order, in front. -/
theorem call_prefix {W : Rbdl n} {s t : Robot n} {c : ContactCall} (h : s.call W c = some t) (hc : c ≠ .clear) :
    s.cc.map Contact.link <+: t.cc.map Contact.link := by
  cases c with
  | addByNumber l ty p =>
    rcases addByNumber_cases h with rfl | ⟨k, b, m, -, hb, hn, rfl⟩
    · exact List.prefix_rfl
    · simp
  | addByName m ty p =>
    rcases addByName_cases h with rfl | ⟨k, b, m, -, hb, hn, rfl⟩
    · exact List.prefix_rfl
    · simp
  | clear => exact absurd rfl hc
  | setContact v => rw [map_link_eq (setContact_frame h).1]
  | updateContacts => rw [map_link_eq ((updateContacts_frame h).1.imp fun _ _ k => k.sameLink)]
  | updateKinematics q qd qdd u =>
    simp [Robot.call] at h; subst h
    rw [(updateKinematics_frame s q qd qdd u).1]
  | refresh u =>
    simp [Robot.call] at h; subst h
    rw [(updateKinematics_frame s s.q s.qdot s.qddot u).1]

/-! ### the stacked Jacobian -/

/-- the rows the stacked Jacobian should have -/
def wantedRows (W : Rbdl n) (cfg : Option (List ℝ)) (cs : List (Contact n)) : List (Fin n → ℝ) :=
  cs.flatMap fun c => linearFirst (W.pointJacobian6D cfg c.body c.point)

theorem linearFirst_length (g : Matrix (Fin 6) (Fin n) ℝ) : (linearFirst g).length = 6 := rfl

theorem wantedRows_length (W : Rbdl n) (cfg : Option (List ℝ)) (cs : List (Contact n)) :
    (wantedRows W cfg cs).length = 6 * cs.length := by
  induction cs with
  | nil => rfl
  | cons c cs ih => simp only [wantedRows, List.flatMap_cons, List.length_append, linearFirst_length, List.length_cons] at ih ⊢; omega

/-- a contact after `Update` -/
def refreshed (W : Rbdl n) (cfg : Option (List ℝ)) (c : Contact n) : Contact n :=
  { c with jac := linearFirst (W.pointJacobian6D cfg c.body c.point) }

theorem mapM_refreshed (W : Rbdl n) (cfg : Option (List ℝ)) {cs : List (Contact n)} (h : ∀ c ∈ cs, c.type = .c6d) :
    cs.mapM (updateContact W cfg) = some (cs.map (refreshed W cfg)) := by
  induction cs with
  | nil => rfl
  | cons c cs ih =>
    have h1 := h c (by simp)
    simp only [List.mapM_cons, updateContact, h1, ih fun d hd => h d (by simp [hd])]
    simp [refreshed, linearFirst, h1]

theorem fillJc_refreshed (W : Rbdl n) (cfg : Option (List ℝ)) : ∀ (cs : List (Contact n)) (k : ℕ) (jc : List (Fin n → ℝ)),
    (∀ c ∈ cs, c.type = .c6d) → (∀ c ∈ cs, c.flag.isSome) → k + 6 * (activeContacts cs).length ≤ jc.length →
    fillJc (cs.map (refreshed W cfg)) k jc =
      some (jc.take k ++ wantedRows W cfg (activeContacts cs) ++ jc.drop (k + 6 * (activeContacts cs).length))
  | [], k, jc, _, _, hl => by
    simp [fillJc, activeContacts, wantedRows]
  | c :: cs, k, jc, h6, hf, hl => by
    have h6' : ∀ d ∈ cs, d.type = .c6d := fun d hd => h6 d (by simp [hd])
    have hf' : ∀ d ∈ cs, d.flag.isSome := fun d hd => hf d (by simp [hd])
    have hc6 := h6 c (by simp)
    obtain ⟨b, hb⟩ := Option.isSome_iff_exists.mp (hf c (by simp))
    rw [List.map_cons]
    cases b with
    | false =>
      have e : activeContacts (c :: cs) = activeContacts cs := by simp [activeContacts, hb]
      rw [e] at hl ⊢
      have ef : (refreshed W cfg c).flag = some false := hb
      simp only [fillJc, ef]
      exact fillJc_refreshed W cfg cs k jc h6' hf' hl
    | true =>
      have e : activeContacts (c :: cs) = c :: activeContacts cs := by simp [activeContacts, hb]
      rw [e] at hl ⊢
      simp only [List.length_cons] at hl ⊢
      have ef : (refreshed W cfg c).flag = some true := hb
      have et : (refreshed W cfg c).type = .c6d := hc6
      have ej : (refreshed W cfg c).jac.length = 6 := rfl
      simp only [fillJc, ef, et, ContactType.dof, ej, if_true, setRows]
      rw [if_pos (by omega)]
      simp only
      have key := fillJc_refreshed W cfg cs (k + 6)
        (jc.take k ++ (refreshed W cfg c).jac ++ jc.drop (k + 6)) h6' hf' (by
          simp [ej]; omega)
      rw [key]
      have l1 : (jc.take k ++ (refreshed W cfg c).jac).length = k + 6 := by simp [ej]; omega
      congr 1
      rw [List.take_append_of_le_length (by omega), List.take_of_length_le (by omega), List.drop_append,
        List.drop_of_length_le (by omega), l1, List.drop_drop]
      simp only [wantedRows, List.flatMap_cons, List.nil_append, List.append_assoc, refreshed]
      congr 4
      omega

theorem updateContacts_six (W : Rbdl n) {s : Robot n} (h6 : ∀ c ∈ s.cc, c.type = .c6d) (hf : ∀ c ∈ s.cc, c.flag.isSome)
    (hd : s.contactDof = some (6 * (activeContacts s.cc).length)) :
    s.updateContacts W = some { s with cc := s.cc.map (refreshed W s.cache), jc := wantedRows W s.cache (activeContacts s.cc) } := by
  unfold updateContacts
  rw [mapM_refreshed W s.cache h6, hd]
  simp only
  have hlen : ∀ jc : List (Fin n → ℝ), jc.length = 6 * (activeContacts s.cc).length →
      fillJc (s.cc.map (refreshed W s.cache)) 0 jc = some (wantedRows W s.cache (activeContacts s.cc)) := by
    intro jc hjc
    rw [fillJc_refreshed W s.cache s.cc 0 jc h6 hf (by omega)]
    simp [List.drop_of_length_le (Nat.le_of_eq hjc)]
  split_ifs with hif
  · rw [hlen _ hif]
  · rw [hlen _ (by simp)]

theorem activeContacts_setFlags (cs : List (Contact n)) (v : List Bool) :
    (activeContacts (setFlags cs v)).map (fun c => (c.link, c.body, c.type, c.point)) =
      (chosen cs v).map (fun c => (c.link, c.body, c.type, c.point)) := by
  induction cs generalizing v with
  | nil => cases v <;> simp [setFlags, activeContacts, chosen]
  | cons c cs ih =>
    cases v with
    | nil =>
      have := ih []
      simp only [activeContacts, setFlags] at this ⊢
      rw [List.filter_cons_of_neg (by simp), this]
      cases cs <;> simp [chosen]
    | cons b v =>
      have := ih v
      cases b <;> simp [activeContacts, setFlags, chosen] at this ⊢ <;> exact this

theorem setFlags_some (cs : List (Contact n)) (v : List Bool) : ∀ c ∈ setFlags cs v, c.flag.isSome := by
  induction cs generalizing v with
  | nil => simp [setFlags]
  | cons c cs ih => cases v <;> simp only [setFlags, List.mem_cons] <;> rintro d (rfl | hd) <;> first | rfl | exact ih _ d hd

theorem setFlags_six {cs : List (Contact n)} (h : ∀ c ∈ cs, c.type = .c6d) (v : List Bool) :
    ∀ c ∈ setFlags cs v, c.type = .c6d := by
  induction cs generalizing v with
  | nil => simp [setFlags]
  | cons c cs ih =>
    have ih' := ih fun d hd => h d (by simp [hd])
    cases v <;> simp only [setFlags, List.mem_cons] <;> rintro d (rfl | hd) <;>
      first | exact h c (by simp) | exact ih' _ d hd

theorem chosen_length {α : Type*} (cs : List α) (v : List Bool) (h : v.length ≤ cs.length) :
    (chosen cs v).length = v.count true := by
  induction cs generalizing v with
  | nil => simp at h; subst h; simp [chosen]
  | cons c cs ih =>
    cases v with
    | nil => simp [chosen]
    | cons b v =>
      have := ih v (by simpa using h)
      cases b <;> simp [chosen, this]

theorem sumDof_six {cs : List (Contact n)} (h : ∀ c ∈ cs, c.type = .c6d) (v : List Bool) :
    sumDof cs v = some (6 * (chosen cs v).length) := by
  induction cs generalizing v with
  | nil => cases v <;> simp [sumDof, chosen]
  | cons c cs ih =>
    have hc := h c (by simp)
    have ih' := ih fun d hd => h d (by simp [hd])
    cases v with
    | nil => simp [sumDof, chosen]
    | cons b v =>
      cases b
      · simpa [sumDof, chosen] using ih' v
      · simp only [sumDof, hc, ContactType.dof, ih' v, chosen, List.length_cons]
        congr 1; omega

/-- Sums over any contact types. -/
theorem sumDof_eq {cs : List (Contact n)} {v : List Bool} {d : ℕ} (h : sumDof cs v = some d) :
    (chosen cs v).map (fun c => c.type.dof) = ((chosen cs v).map fun c => (c.type.dof).getD 0).map some ∧
      d = ((chosen cs v).map fun c => (c.type.dof).getD 0).sum := by
  induction cs generalizing v d with
  | nil => cases v <;> simp [sumDof] at h <;> subst h <;> simp [chosen]
  | cons c cs ih =>
    cases v with
    | nil => simp [sumDof] at h; subst h; simp [chosen]
    | cons b v =>
      cases b
      · exact ih h
      · simp only [sumDof] at h
        split at h
        · rename_i a b ha hb
          simp at h
          have := ih hb
          simp only [chosen, List.map_cons, ha, Option.getD_some, List.sum_cons, ← this.2]
          exact ⟨by rw [this.1], h.symm⟩
        · simp at h

/-- flags and sizes agree with the registry -/
def Settled (s : Robot n) : Prop :=
  (∀ c ∈ s.cc, c.flag.isSome) ∧ s.contactDof = some (6 * (activeContacts s.cc).length)

theorem activeContacts_map_refreshed (W : Rbdl n) (cfg : Option (List ℝ)) (cs : List (Contact n)) :
    activeContacts (cs.map (refreshed W cfg)) = (activeContacts cs).map (refreshed W cfg) := by
  unfold activeContacts
  rw [List.filter_map]
  rfl

theorem settled_update (W : Rbdl n) {s : Robot n} (h6 : ∀ c ∈ s.cc, c.type = .c6d) (hs : Settled s) :
    ∃ t, s.updateContacts W = some t ∧ Settled t ∧ (∀ c ∈ t.cc, c.type = .c6d) ∧ t.cache = s.cache ∧
      t.jc = wantedRows W t.cache (activeContacts t.cc) := by
  refine ⟨_, updateContacts_six W h6 hs.1 hs.2, ⟨?_, ?_⟩, ?_, rfl, ?_⟩
  · intro c hc
    obtain ⟨d, hd, rfl⟩ := List.mem_map.mp hc
    exact hs.1 d hd
  · simp only [activeContacts_map_refreshed, List.length_map, hs.2]
  · intro c hc
    obtain ⟨d, hd, rfl⟩ := List.mem_map.mp hc
    exact h6 d hd
  · simp only [activeContacts_map_refreshed, wantedRows, List.flatMap_map]
    rfl

theorem settled_call (W : Rbdl n) {s : Robot n} (h6 : ∀ c ∈ s.cc, c.type = .c6d) (hs : Settled s) {c : ContactCall}
    (hc : KeepsRegistry c) : ∃ t, s.call W c = some t ∧ Settled t ∧ (∀ c ∈ t.cc, c.type = .c6d) ∧
      (∀ v, c = .setContact v → t.jc = wantedRows W t.cache (activeContacts t.cc)) := by
  cases c with
  | addByNumber | addByName | clear => exact hc.elim
  | setContact v =>
    by_cases hv : s.cc.length < v.length
    · obtain ⟨t, e, a, b, -, c⟩ := settled_update W h6 hs
      exact ⟨t, by simp [Robot.call, setContact, hv, e], a, b, fun _ _ => c⟩
    · have hact : (activeContacts (setFlags s.cc v)).length = (chosen s.cc v).length := by
        simpa using congrArg List.length (activeContacts_setFlags s.cc v)
      obtain ⟨t, e, a, b, -, c⟩ := settled_update W
        (s := { s with cc := setFlags s.cc v, contactDof := some (6 * (chosen s.cc v).length)
                       contactNum := some (v.count true) }) (setFlags_six h6 v) ⟨setFlags_some _ _, by simp [hact]⟩
      refine ⟨t, ?_, a, b, fun _ _ => c⟩
      simp only [Robot.call, setContact, if_neg hv, sumDof_six h6]
      exact e
  | updateContacts =>
    obtain ⟨t, e, a, b, -, c⟩ := settled_update W h6 hs
    exact ⟨t, e, a, b, fun _ _ => c⟩
  | updateKinematics q qd qdd u =>
    obtain ⟨a, b, c, d, e, f⟩ := updateKinematics_frame s q qd qdd u
    refine ⟨_, rfl, ⟨by rw [a]; exact hs.1, by rw [d, a]; exact hs.2⟩, by rw [a]; exact h6, fun v hv => by cases hv⟩
  | refresh u =>
    obtain ⟨a, b, c, d, e, f⟩ := updateKinematics_frame s s.q s.qdot s.qddot u
    refine ⟨_, rfl, ⟨by rw [a]; exact hs.1, by rw [d, a]; exact hs.2⟩, by rw [a]; exact h6, fun v hv => by cases hv⟩

theorem settled_calls (W : Rbdl n) : ∀ (h : List ContactCall) {s : Robot n}, (∀ c ∈ s.cc, c.type = .c6d) → Settled s →
    (∀ c ∈ h, KeepsRegistry c) → ∃ t, s.calls W h = some t ∧ Settled t ∧ (∀ c ∈ t.cc, c.type = .c6d)
  | [], s, h6, hs, _ => ⟨s, rfl, hs, h6⟩
  | c :: cs, s, h6, hs, hc => by
    obtain ⟨s', e, a, b, -⟩ := settled_call W h6 hs (hc c (by simp))
    obtain ⟨t, e', k⟩ := settled_calls W cs b a fun d hd => hc d (by simp [hd])
    exact ⟨t, by simp [Robot.calls, e, e'], k⟩

theorem calls_append (W : Rbdl n) (s : Robot n) (a b : List ContactCall) :
    s.calls W (a ++ b) = (s.calls W a).bind fun t => t.calls W b := by
  induction a generalizing s with
  | nil => rfl
  | cons c cs ih =>
    simp only [List.cons_append, Robot.calls]
    cases s.call W c with
    | none => rfl
    | some s' => exact ih s'

end Verif
