import Verif.Lemmas.Binary

/-!
# C42: binary matrix files
-/

namespace Verif.Props
open Verif Verif.Model Verif.Spec

/-- C42.  A written matrix is read back bit for bit (also when the file has further bytes). -/
theorem C42_read_back (m : Stored) (hr : m.rows < 2 ^ 63) (hc : m.cols < 2 ^ 63) (rest : List ℕ) :
    readBinary (writeBinary m ++ rest) = some m := readBinary_write m hr hc rest

theorem checkBinary_same {m m' : Stored} (hr : m.rows < 2 ^ 63) (hc : m.cols < 2 ^ 63) (hr' : m'.rows = m.rows)
    (hc' : m'.cols = m.cols) {v v' : List ℝ} (hv : m.Values v) (hv' : m'.Values v') :
    checkBinary (writeBinary m') m =
      (open Classical in
      if √((List.zipWith (fun x y => (x - y) ^ 2) v' v).sum) = 0 then .ok
      else if √((List.zipWith (fun x y => (x - y) ^ 2) v' v).sum) < 1 / 10 ^ 6 then .similar else .error) := by
  have h := readBinary_write m' (by omega) (by omega) []
  rw [List.append_nil] at h
  unfold Stored.Values at hv hv'
  unfold checkBinary
  rw [h]
  simp only
  rw [if_pos ⟨hr', hc'⟩, hv, hv', sumSq_fin, any_nan_map]
  simp

/-- C42.  A written matrix is accepted by the check exactly when all its entries are finite. -/
theorem C42_round_trip_iff (m : Stored) (hr : m.rows < 2 ^ 63) (hc : m.cols < 2 ^ 63) :
    checkBinary (writeBinary m) m = .ok ↔ ∀ d ∈ m.data, ∃ r, ieee d = .fin r := by
  constructor
  · intro h d hd
    by_contra hn
    push Not at hn
    have hrb := readBinary_write m hr hc []
    rw [List.append_nil] at hrb
    unfold checkBinary at h
    rw [hrb] at h
    simp only [and_self, if_true] at h
    rw [sumSq_self_nan (List.mem_map.mpr ⟨d, hd, rfl⟩) hn] at h
    split_ifs at h
  · intro h
    obtain ⟨v, hv⟩ := all_fin (l := m.data.map ieee) (by simpa using h)
    rw [checkBinary_same hr hc rfl rfl hv hv]
    rw [(zip_sum_eq_zero rfl).mpr rfl]
    simp

/-- C42.  For a file holding a matrix of the same shape, finite entries: "OK" means the values are equal … -/
theorem C42_ok_iff {m m' : Stored} (hr : m.rows < 2 ^ 63) (hc : m.cols < 2 ^ 63) (hr' : m'.rows = m.rows)
    (hc' : m'.cols = m.cols) {v v' : List ℝ} (hv : m.Values v) (hv' : m'.Values v') :
    checkBinary (writeBinary m') m = .ok ↔ v' = v := by
  have hl : v'.length = v.length := by
    have h1 := congrArg List.length hv
    have h2 := congrArg List.length hv'
    simp only [List.length_map, m.len, m'.len] at h1 h2
    rw [← h1, ← h2, hr', hc']
  rw [checkBinary_same hr hc hr' hc' hv hv']
  rw [← zip_sum_eq_zero hl]
  have h0 := zip_sum_nonneg v' v
  rw [← Real.sqrt_eq_zero h0]
  split_ifs <;> simp_all

/-- … and an entry that is off by the tolerance or more is reported as an error. -/
theorem C42_detects {m m' : Stored} (hr : m.rows < 2 ^ 63) (hc : m.cols < 2 ^ 63) (hr' : m'.rows = m.rows)
    (hc' : m'.cols = m.cols) {v v' : List ℝ} (hv : m.Values v) (hv' : m'.Values v') (i : ℕ) (hi : i < v.length)
    (hi' : i < v'.length) (hd : 1 / 10 ^ 6 ≤ |v'[i] - v[i]|) :
    checkBinary (writeBinary m') m = .error := by
  rw [checkBinary_same hr hc hr' hc' hv hv']
  have h1 := zip_sum_ge v' v i hi' hi
  have h2 : 1 / 10 ^ 6 ≤ √((List.zipWith (fun x y => (x - y) ^ 2) v' v).sum) := by
    refine hd.trans ?_
    rw [← Real.sqrt_sq_eq_abs]
    exact Real.sqrt_le_sqrt h1
  rw [if_neg (ne_of_gt (lt_of_lt_of_le (by norm_num) h2)), if_neg (not_lt.mpr h2)]

/-- C42.  For a file of the same shape the check reports NaN exactly if the matrix in memory (not the file) has one. -/
theorem C42_nan_iff {m m' : Stored} (hr : m.rows < 2 ^ 63) (hc : m.cols < 2 ^ 63) (hr' : m'.rows = m.rows)
    (hc' : m'.cols = m.cols) : checkBinary (writeBinary m') m = .hasNaN ↔ ∃ d ∈ m.data, ieee d = .nan := by
  have h := readBinary_write m' (by omega) (by omega) []
  rw [List.append_nil] at h
  unfold checkBinary
  rw [h]
  simp only
  rw [if_pos ⟨hr', hc'⟩]
  split_ifs with hn
  · simpa using hn
  · have : ¬ ∃ d ∈ m.data, ieee d = .nan := by simpa using hn
    simp only [this, iff_false]
    split
    · split_ifs <;> simp
    · simp

/-- C42, negation.  A file of a different shape is not reported: the comparison is undefined. -/
theorem C42_shape_undefined {m m' : Stored} (hr : m'.rows < 2 ^ 63) (hc : m'.cols < 2 ^ 63)
    (h : m'.rows ≠ m.rows ∨ m'.cols ≠ m.cols) : checkBinary (writeBinary m') m = .undefined := by
  have hb := readBinary_write m' hr hc []
  rw [List.append_nil] at hb
  unfold checkBinary
  rw [hb]
  simp only
  rw [if_neg fun hh => h.elim (fun e => e hh.1) (fun e => e hh.2)]

/-- C42, negation.  A missing file is not reported either: it counts as an equal matrix when the matrix is `0 × 0`, and the
comparison is undefined otherwise. -/
theorem C42_missing_file (m : Stored) :
    (m.rows = 0 → m.cols = 0 → checkBinary [] m = .ok) ∧ (m.rows ≠ 0 ∨ m.cols ≠ 0 → checkBinary [] m = .undefined) := by
  have h : readBinary [] = some ⟨0, 0, [], rfl⟩ := by
    unfold readBinary
    simp only
    rw [if_pos (by simp [ofBytes])]
    split
    · rename_i h
      simp [ofBytes, readDoubles] at h
    · rename_i d h
      simp [ofBytes, readDoubles] at h
      subst h
      rfl
  constructor
  · intro h1 h2
    have hd : m.data = [] := List.length_eq_zero_iff.mp (by rw [m.len, h1, zero_mul])
    unfold checkBinary
    rw [h]
    simp [h1, h2, hd, sumSq]
  · intro hne
    unfold checkBinary
    rw [h]
    simp only
    rw [if_neg (by rintro ⟨a, b⟩; rcases hne with e | e <;> omega)]

/-- A `1 × 2` matrix with the entries 1 and -2. -/
def sampleMat : Stored := ⟨1, 2, [⟨0x3FF0000000000000, by norm_num⟩, ⟨0xC000000000000000, by norm_num⟩], rfl⟩

/-- A `1 × 2` matrix with the entries 1 and 2. -/
def sampleMat' : Stored := ⟨1, 2, [⟨0x3FF0000000000000, by norm_num⟩, ⟨0x4000000000000000, by norm_num⟩], rfl⟩

example : sampleMat.Values [1, -2] ∧ sampleMat'.Values [1, 2] := by
  constructor <;> simp [Stored.Values, sampleMat, sampleMat', ieee] <;> norm_num

/-- NaN is a double. -/
example : ieee ⟨0x7FF8000000000000, by norm_num⟩ = .nan := by
  simp [ieee]

/-- Infinity is a double that is not accepted back. -/
example : ieee ⟨0x7FF0000000000000, by norm_num⟩ = .inf false := by
  simp [ieee]

end Verif.Props
