import Verif.Model.Binary
import Mathlib.Tactic.Linarith
import Mathlib.Tactic.Ring

namespace Verif
open Verif.Model Verif.Spec

theorem bytes8_length (n : ℕ) : (bytes8 n).length = 8 := by simp [bytes8]

theorem ofBytes_bytes8 {n : ℕ} (h : n < 2 ^ 64) : ofBytes (bytes8 n) = n := by
  simp only [bytes8, List.range_succ, List.range_zero, List.nil_append, List.map_append, List.map_cons, List.map_nil,
    List.cons_append, ofBytes]
  omega

theorem readDoubles_flatMap (d : List (Fin (2 ^ 64))) (rest : List ℕ) :
    readDoubles d.length ((d.flatMap fun x => bytes8 x.val) ++ rest) = some d := by
  induction d with
  | nil => rfl
  | cons x xs ih =>
    have hl := bytes8_length x.val
    have e1 : (bytes8 x.val ++ ((xs.flatMap fun y => bytes8 y.val) ++ rest)).take 8 = bytes8 x.val := by
      rw [List.take_append_of_le_length (by omega), List.take_of_length_le (by omega)]
    have e2 : (bytes8 x.val ++ ((xs.flatMap fun y => bytes8 y.val) ++ rest)).drop 8 =
        (xs.flatMap fun y => bytes8 y.val) ++ rest := by
      rw [← hl, List.drop_left]
    simp only [List.flatMap_cons, List.append_assoc, List.length_cons, readDoubles]
    rw [if_neg (by simp [hl]), e1, e2, ofBytes_bytes8 x.isLt]
    simp
    exact ih

theorem readBinary_write (m : Stored) (hr : m.rows < 2 ^ 63) (hc : m.cols < 2 ^ 63) (rest : List ℕ) :
    readBinary (writeBinary m ++ rest) = some m := by
  have l1 := bytes8_length m.rows
  have l2 := bytes8_length m.cols
  have e1 : (writeBinary m ++ rest).take 8 = bytes8 m.rows := by
    unfold writeBinary
    rw [List.append_assoc, List.append_assoc, List.take_append_of_le_length (by omega), List.take_of_length_le (by omega)]
  have e2 : ((writeBinary m ++ rest).drop 8).take 8 = bytes8 m.cols := by
    unfold writeBinary
    rw [List.append_assoc, List.append_assoc, ← l1, List.drop_left, List.take_append_of_le_length (by omega),
      List.take_of_length_le (by omega)]
  have e3 : (writeBinary m ++ rest).drop 16 = (m.data.flatMap fun x => bytes8 x.val) ++ rest := by
    unfold writeBinary
    rw [List.append_assoc, List.drop_append_of_le_length (by simp [l1, l2]), List.drop_of_length_le (by simp [l1, l2])]
    rfl
  have hd := readDoubles_flatMap m.data rest
  rw [m.len] at hd
  unfold readBinary
  simp only [e1, e2, e3, ofBytes_bytes8 (show m.rows < 2 ^ 64 by omega), ofBytes_bytes8 (show m.cols < 2 ^ 64 by omega)]
  rw [if_pos ⟨hr, hc⟩]
  split
  · rename_i h
    rw [e1, e2, e3, ofBytes_bytes8 (show m.rows < 2 ^ 64 by omega), ofBytes_bytes8 (show m.cols < 2 ^ 64 by omega),
      hd] at h
    cases h
  · rename_i d h
    rw [e1, e2, e3, ofBytes_bytes8 (show m.rows < 2 ^ 64 by omega), ofBytes_bytes8 (show m.cols < 2 ^ 64 by omega),
      hd] at h
    cases h
    rfl

theorem sumSq_fin (a b : List ℝ) :
    sumSq (List.zipWith Fl.sub (a.map Fl.fin) (b.map Fl.fin)) =
      .fin ((List.zipWith (fun x y => (x - y) ^ 2) a b).sum) := by
  induction a generalizing b with
  | nil => simp [sumSq]
  | cons x xs ih =>
    cases b with
    | nil => simp [sumSq]
    | cons y ys => simp only [List.map_cons, List.zipWith_cons_cons, sumSq, ih, Fl.sub, List.sum_cons]

theorem zip_sum_nonneg (a b : List ℝ) : 0 ≤ (List.zipWith (fun x y => (x - y) ^ 2) a b).sum := by
  induction a generalizing b with
  | nil => simp
  | cons x xs ih =>
    cases b with
    | nil => simp
    | cons y ys => simp only [List.zipWith_cons_cons, List.sum_cons]; have := ih ys; positivity

theorem zip_sum_eq_zero {a b : List ℝ} (h : a.length = b.length) :
    (List.zipWith (fun x y => (x - y) ^ 2) a b).sum = 0 ↔ a = b := by
  induction a generalizing b with
  | nil => cases b with
    | nil => simp
    | cons => simp at h
  | cons x xs ih =>
    cases b with
    | nil => simp at h
    | cons y ys =>
      simp only [List.zipWith_cons_cons, List.sum_cons, List.cons.injEq]
      have h1 := zip_sum_nonneg xs ys
      have h2 := sq_nonneg (x - y)
      rw [← ih (by simpa using h)]
      constructor
      · intro e
        have e2 : (x - y) ^ 2 = 0 := by linarith
        exact ⟨sub_eq_zero.mp (pow_eq_zero_iff two_ne_zero |>.mp e2), by linarith⟩
      · rintro ⟨rfl, e⟩
        simp [e]

theorem zip_sum_ge (a b : List ℝ) (i : ℕ) (ha : i < a.length) (hb : i < b.length) :
    (a[i] - b[i]) ^ 2 ≤ (List.zipWith (fun x y => (x - y) ^ 2) a b).sum := by
  induction a generalizing b i with
  | nil => simp at ha
  | cons x xs ih =>
    cases b with
    | nil => simp at hb
    | cons y ys =>
      simp only [List.zipWith_cons_cons, List.sum_cons]
      cases i with
      | zero => simpa using zip_sum_nonneg xs ys
      | succ i =>
        have := ih ys i (by simpa using ha) (by simpa using hb)
        have h2 := sq_nonneg (x - y)
        simp only [List.getElem_cons_succ]
        linarith

/-- an infinite or NaN entry makes the sum of squares of differences with itself NaN -/
theorem sumSq_self_nan {l : List Fl} {x : Fl} (hx : x ∈ l) (h : ∀ r, x ≠ .fin r) :
    sumSq (List.zipWith Fl.sub l l) = .nan := by
  induction l with
  | nil => cases hx
  | cons y ys ih =>
    simp only [List.zipWith_cons_cons, sumSq]
    rcases List.mem_cons.mp hx with rfl | hx
    · cases x with
      | nan => simp [Fl.sub]
      | inf s => simp [Fl.sub]
      | fin r => exact absurd rfl (h r)
    · rw [ih hx]
      split <;> simp_all

theorem all_fin {l : List Fl} (h : ∀ x ∈ l, ∃ r, x = Fl.fin r) : ∃ v : List ℝ, l = v.map Fl.fin := by
  induction l with
  | nil => exact ⟨[], rfl⟩
  | cons x xs ih =>
    obtain ⟨r, rfl⟩ := h x (by simp)
    obtain ⟨v, rfl⟩ := ih fun y hy => h y (by simp [hy])
    exact ⟨r :: v, rfl⟩

theorem any_nan_map (v : List ℝ) [DecidablePred (fun x : Fl => x = .nan)] :
    ((v.map Fl.fin).any fun x => decide (x = .nan)) = false := by
  simp

end Verif
