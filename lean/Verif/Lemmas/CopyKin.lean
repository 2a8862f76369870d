import Verif.Model.CopyKin

/-!
# Lemmas about the kinematics copy
-/

namespace Verif
open Verif.Model Verif.Spec

variable {V M L J C T Q : Type*} {l0 : L} {c0 : C} {t0 : T} {k0 : Q} {src target src' target' : KinState V M L J C T Q}

theorem resizeTo_length {α : Type*} (n : ℕ) (d : α) (v : List α) : (resizeTo n d v).length = n := by
  simp [resizeTo]; omega

theorem stdCopy_same {α : Type*} {a b : List α} (h : b.length = a.length) : stdCopy a b = some a := by
  unfold stdCopy
  rw [if_pos (by omega), ← h]
  simp

theorem stdCopy_ite {α : Type*} (a b : List α) (d : α) :
    stdCopy a (if b.length ≠ a.length then resizeTo a.length d b else b) = some a := by
  split_ifs with h
  · exact stdCopy_same (resizeTo_length _ _ _)
  · exact stdCopy_same (not_not.mp h)

theorem sourceContacts_length (src target : List (KinContact C)) :
    (sourceContacts c0 src target).length = src.length := by
  unfold sourceContacts
  split_ifs
  · simp [resizeTo_length]
  · rfl

theorem copyKinematics_some (h : copyKinematics l0 c0 t0 k0 src target = some (src', target')) :
    src' = { src with cc := sourceContacts c0 src.cc target.cc } ∧
    target' = { target with
        controlTime := src.controlTime, q := src.q, qdot := src.qdot, qddot := src.qddot
        torqueLimitSet := src.torqueLimitSet, torqueLimit := src.torqueLimit, model := src.model
        A := src.A, Ainv := src.Ainv, link := src.link, cc := sourceContacts c0 src.cc target.cc, ts := src.ts
        qp := target'.qp, G := src.G, CMM := src.CMM, B := src.B } := by
  unfold copyKinematics at h
  have hcc : stdCopy (sourceContacts c0 src.cc target.cc)
      (if target.cc.length ≠ src.cc.length then resizeTo src.cc.length ⟨c0, none⟩ target.cc else target.cc) =
      some (sourceContacts c0 src.cc target.cc) := by
    refine stdCopy_same ?_
    rw [sourceContacts_length]
    split_ifs with e
    · exact resizeTo_length _ _ _
    · exact not_not.mp e
  simp only [stdCopy_ite, hcc] at h
  split at h
  · rename_i q1 q2 q3 q4
    simp only [Option.some.injEq, Prod.mk.injEq] at h q1 q2 q3
    obtain ⟨rfl, rfl⟩ := h
    subst q1 q2 q3
    exact ⟨rfl, rfl⟩
  · cases h

end Verif
