import Verif.D3BufferLemmas
/-!
# Properties of word wise access (C26-C30)
-/

namespace Dyna.D3

/-- A family of two files with three words of four bytes, used for examples. -/
def twoFiles : Buf := ⟨[[1, 2, 3, 4, 5, 6, 7, 8], [9, 10, 11, 12]], 4, false⟩

/-! ## C26 -/

/-- C26. Reading `n` words at word `pos` inside of the family gives exactly those bytes of the
concatenation of all files, wherever the file boundaries are; no error is reported, and the
pointer is behind the words that have been read. -/
theorem c26_read_is_slice {b : Buf} (herr : b.err = false) (hws : 0 < b.ws)
    (hsize : b.files.flatten.length < u64) {pos n : Nat} (hpos : pos * b.ws < b.files.flatten.length)
    (hn : (pos + n) * b.ws ≤ b.files.flatten.length) :
    ∃ q, readWordsAt b n pos = .ok (b, some q, (b.files.flatten.drop (pos * b.ws)).take (n * b.ws)) ∧
      ((∀ f ∈ b.files, b.ws ∣ f.length) → q.word = pos + n) := by
  rw [Nat.add_mul] at hn
  obtain ⟨q, e1, e2, e3, e4⟩ := seek_inside (b := b) (w := pos) (Nat.lt_trans hpos hsize) hpos
  obtain ⟨q', f1, f2, f3, f4, f5, _⟩ := read_inside (n := n) e2 (by omega) (by rw [e3]; exact hn)
  refine ⟨q', ?_, ?_⟩
  · unfold readWordsAt
    rw [e1]
    simp only [herr, Bool.false_eq_true, if_false]
    rw [f1, e3]
    rfl
  · intro ha
    rw [f5 ha ?_ hws, e4]
    have h1 := aligned_base (b := b) ha q.file
    have h2 : b.ws ∣ absPos b q := by rw [e3]; exact ⟨pos, Nat.mul_comm _ _⟩
    unfold absPos at h2
    exact (Nat.dvd_add_right h1).1 h2

/-- A read over the boundary of two files. -/
example : readWordsAt twoFiles 2 1 =
    .ok (twoFiles, some ⟨1, 4, 3⟩, [5, 6, 7, 8, 9, 10, 11, 12]) := by decide +kernel

example : twoFiles.err = false ∧ 0 < twoFiles.ws ∧ twoFiles.files.flatten.length < u64 ∧
    1 * twoFiles.ws < twoFiles.files.flatten.length ∧
    (1 + 2) * twoFiles.ws ≤ twoFiles.files.flatten.length := by decide +kernel

/-! ## C27 -/

/-- C27 for positions and counts whose byte offsets fit into 64 bits: a seek fails exactly if the
position is not in front of the end, and a read fails exactly if its position is not in
front of the end or its end is behind it. Missing: positions whose byte offset does not fit
(`c27_huge_position_accepted`). -/
theorem c27_errors_partial {b : Buf} (herr : b.err = false) {pos n : Nat}
    (hpos : pos * b.ws < u64) (hn : n * b.ws < u64) :
    ((seek b pos).1.err = true ↔ b.files.flatten.length ≤ pos * b.ws) ∧
    ∃ b' p bytes, readWordsAt b n pos = .ok (b', p, bytes) ∧
      (b'.err = true ↔ b.files.flatten.length ≤ pos * b.ws ∨
        b.files.flatten.length < (pos + n) * b.ws) := by
  rw [Nat.add_mul]
  by_cases hp : pos * b.ws < b.files.flatten.length
  · obtain ⟨q, e1, e2, e3, e4⟩ := seek_inside (b := b) hpos hp
    refine ⟨by rw [e1, herr]; simp [-List.length_flatten]; omega, ?_⟩
    unfold readWordsAt
    rw [e1]
    simp only [herr, Bool.false_eq_true, if_false]
    by_cases hr : pos * b.ws + n * b.ws ≤ b.files.flatten.length
    · obtain ⟨q', f1, _⟩ := read_inside (n := n) e2 hn (by rw [e3]; exact hr)
      refine ⟨_, _, _, f1, by rw [herr]; simp [-List.length_flatten]; omega⟩
    · obtain ⟨bytes, f1⟩ := read_outside (n := n) e2 hn (by rw [e3]; exact Nat.lt_of_not_le hr)
      refine ⟨_, _, _, f1, by simp [-List.length_flatten]; omega⟩
  · have e1 := seek_outside (b := b) hpos (Nat.le_of_not_lt hp)
    refine ⟨by rw [e1]; simp [-List.length_flatten]; omega, ?_⟩
    unfold readWordsAt
    rw [e1]
    simp only [if_true]
    exact ⟨_, _, _, rfl, by simp [-List.length_flatten]; omega⟩

/-- Reads from an open pointer: an error exactly if the words are not there. -/
theorem c27_read_from_pointer {b : Buf} (herr : b.err = false) {q : Pos} {n : Nat}
    (hv : Valid b q) (hn : n * b.ws < u64) :
    ∃ b' p bytes, readWords b (some q) n = .ok (b', p, bytes) ∧
      (b'.err = true ↔ b.files.flatten.length < absPos b q + n * b.ws) := by
  by_cases hr : absPos b q + n * b.ws ≤ b.files.flatten.length
  · obtain ⟨q', f1, _⟩ := read_inside (n := n) hv hn hr
    refine ⟨_, _, _, f1, by rw [herr]; simp [-List.length_flatten]; omega⟩
  · obtain ⟨bytes, f1⟩ := read_outside (n := n) hv hn (Nat.lt_of_not_le hr)
    refine ⟨_, _, _, f1, by simp [-List.length_flatten]; omega⟩

/-- C27 fails for positions whose byte offset does not fit into 64 bits: seeking to word 2^62 of a
file with four byte words reports no error and reads the first word. -/
theorem c27_huge_position_accepted :
    (seek twoFiles (2 ^ 62)).1.err = false ∧
      (readWordsAt twoFiles 1 (2 ^ 62)) = .ok (twoFiles, some ⟨0, 4, 2 ^ 62 + 1⟩, [1, 2, 3, 4]) := by
  decide +kernel

example : (seek twoFiles 3).1.err = true ∧ (seek twoFiles 2).1.err = false ∧
    (∃ p bytes, readWordsAt twoFiles 2 2 = .ok ({ twoFiles with err := true }, p, bytes)) := by
  refine ⟨by decide +kernel, by decide +kernel, none, [9, 10, 11, 12], by decide +kernel⟩

/-- A pointer that a failed read leaves behind must not be used or closed: both are undefined
behaviour. -/
theorem c27_closed_pointer (b : Buf) (n : Nat) : readWords b none n = .ub ∧ close none = .ub :=
  ⟨rfl, rfl⟩

/-! ## C28 -/

/-- C28, first part. Reading `n` and then `m` words gives the same bytes, the same pointer and
no more errors than reading `n + m` words at once. -/
theorem c28_read_read {b : Buf} {q : Pos} {n m : Nat} (hws : 0 < b.ws) (hv : Valid b q)
    (ha : ∀ f ∈ b.files, b.ws ∣ f.length) (hq : b.ws ∣ q.pos)
    (hsize : b.files.flatten.length < u64)
    (hin : absPos b q + (n + m) * b.ws ≤ b.files.flatten.length) :
    ∃ q1 q2 d1 d2, readWords b (some q) n = .ok (b, some q1, d1) ∧
      readWords b (some q1) m = .ok (b, some q2, d2) ∧
      readWords b (some q) (n + m) = .ok (b, some q2, d1 ++ d2) ∧
      q2.word = q.word + n + m := by
  have hnm : (n + m) * b.ws = n * b.ws + m * b.ws := Nat.add_mul _ _ _
  obtain ⟨q1, f1, f2, f3, f4, f5, f6⟩ := read_inside (b := b) (n := n) hv (by omega)
    (by unfold Buf.bytes; omega)
  obtain ⟨q2, g1, g2, g3, g4, g5, g6⟩ := read_inside (b := b) (n := m) f2 (by omega)
    (by unfold Buf.bytes; omega)
  obtain ⟨q3, k1, k2, k3, k4, k5, k6⟩ := read_inside (b := b) (n := n + m) hv (by omega)
    (by unfold Buf.bytes; omega)
  have hq1 : b.ws ∣ q1.pos := by
    have h1 := aligned_base (b := b) ha q1.file
    have h2 := aligned_base (b := b) ha q.file
    have h3 : b.ws ∣ absPos b q1 := by
      rw [f3]
      exact Nat.dvd_add (Nat.dvd_add h2 hq) ⟨n, Nat.mul_comm _ _⟩
    exact (Nat.dvd_add_right h1).1 h3
  have w1 := f5 ha hq hws
  have w2 := g5 ha hq1 hws
  have w3 := k5 ha hq hws
  have heq : q3 = q2 := by
    by_cases hm : m = 0
    · subst hm
      rw [g6 rfl]
      simp only [Nat.add_zero] at k1
      rw [f1] at k1
      simp only [Res.ok.injEq, Prod.mk.injEq, Option.some.injEq, true_and] at k1
      exact k1.1.symm
    · have hm' : 0 < m * b.ws := Nat.mul_pos (Nat.pos_of_ne_zero hm) hws
      obtain ⟨u1, u2⟩ := pos_unique k2 g2 (k4 (by omega)) (g4 hm') (by omega)
      have u3 : q3.word = q2.word := by omega
      cases q2; cases q3; simp only at u1 u2 u3; subst u1; subst u2; subst u3; rfl
  refine ⟨q1, q2, _, _, f1, g1, ?_, by omega⟩
  rw [k1, heq, hnm, List.take_add, List.drop_drop, f3]

/-- C28, second part. Skipping `n` words and reading `m` gives what reading `m` words after
having read `n` gives. -/
theorem c28_skip_read {b : Buf} {q : Pos} {n m : Nat} (hws : 0 < b.ws) (hv : Valid b q)
    (ha : ∀ f ∈ b.files, b.ws ∣ f.length) (hq : absPos b q = q.word * b.ws)
    (hsize : b.files.flatten.length < u64) (hm : 0 < m)
    (hin : absPos b q + (n + m) * b.ws ≤ b.files.flatten.length) :
    ∃ q0 q1 q2 d1 d2, skipWords b (some q) n = .ok (b, some q0) ∧
      readWords b (some q) n = .ok (b, some q1, d1) ∧
      readWords b (some q1) m = .ok (b, some q2, d2) ∧
      readWords b (some q0) m = .ok (b, some q2, d2) := by
  have hnm : (n + m) * b.ws = n * b.ws + m * b.ws := Nat.add_mul _ _ _
  have hm' : 0 < m * b.ws := Nat.mul_pos hm hws
  have hqpos : b.ws ∣ q.pos := by
    have h1 := aligned_base (b := b) ha q.file
    have h3 : b.ws ∣ absPos b q := by rw [hq]; exact ⟨q.word, Nat.mul_comm _ _⟩
    exact (Nat.dvd_add_right h1).1 h3
  obtain ⟨q1, q2, d1, d2, r1, r2, r3, r4⟩ := c28_read_read hws hv ha hqpos hsize hin
  have hwn : (q.word + n) * b.ws = q.word * b.ws + n * b.ws := Nat.add_mul _ _ _
  obtain ⟨q0, s1, s2, s3, s4⟩ := seek_inside (b := b) (w := q.word + n) (by omega)
    (by unfold Buf.bytes; omega)
  have hle : q.word + n ≤ (q.word + n) * b.ws := Nat.le_mul_of_pos_right _ hws
  have hle' : q.word + n + m ≤ (q.word + n + m) * b.ws := Nat.le_mul_of_pos_right _ hws
  have hwnm : (q.word + n + m) * b.ws = q.word * b.ws + n * b.ws + m * b.ws := by
    rw [Nat.add_mul, Nat.add_mul]
  have hul : ulongMax = u64 - 1 := rfl
  refine ⟨q0, q1, q2, d1, d2, ?_, r1, r2, ?_⟩
  · unfold skipWords
    simp only
    rw [if_neg (by omega), s1]
  · obtain ⟨q3, k1, k2, k3, k4, k5, k6⟩ := read_inside (b := b) (n := m) s2 (by omega)
      (by unfold Buf.bytes; omega)
    obtain ⟨q1', f1, f2, f3, f4, f5, f6⟩ := read_inside (b := b) (n := n) hv (by omega)
      (by unfold Buf.bytes; omega)
    rw [r1] at f1
    simp only [Res.ok.injEq, Prod.mk.injEq, Option.some.injEq, true_and] at f1
    obtain ⟨rfl, e2⟩ := f1
    obtain ⟨q2', g1, g2, g3, g4, g5, g6⟩ := read_inside (b := b) (n := m) f2 (by omega)
      (by unfold Buf.bytes; omega)
    rw [r2] at g1
    simp only [Res.ok.injEq, Prod.mk.injEq, Option.some.injEq, true_and] at g1
    obtain ⟨rfl, e3⟩ := g1
    have hq0 : b.ws ∣ q0.pos := by
      have h1 := aligned_base (b := b) ha q0.file
      have h3 : b.ws ∣ absPos b q0 := by rw [s3]; exact ⟨q.word + n, Nat.mul_comm _ _⟩
      exact (Nat.dvd_add_right h1).1 h3
    have w := k5 ha hq0 hws
    obtain ⟨u1, u2⟩ := pos_unique k2 g2 (k4 hm') (g4 hm') (by omega)
    have u3 : q3.word = q2.word := by omega
    have heq : q3 = q2 := by
      cases q2; cases q3; simp only at u1 u2 u3; subst u1; subst u2; subst u3; rfl
    rw [k1, heq, e3]
    congr 5
    omega

example : ∃ q0 q1 q2 d1 d2, skipWords twoFiles (some ⟨0, 0, 0⟩) 2 = .ok (twoFiles, some q0) ∧
    readWords twoFiles (some ⟨0, 0, 0⟩) 2 = .ok (twoFiles, some q1, d1) ∧
    readWords twoFiles (some q1) 1 = .ok (twoFiles, some q2, d2) ∧
    readWords twoFiles (some q0) 1 = .ok (twoFiles, some q2, d2) ∧ q0 ≠ q1 :=
  ⟨⟨1, 0, 2⟩, ⟨0, 8, 2⟩, ⟨1, 4, 3⟩, [1, 2, 3, 4, 5, 6, 7, 8], [9, 10, 11, 12], by decide +kernel⟩

/-- Skipping exactly to the end of the family is an error, although reading up to the end is
none. -/
theorem c28_skip_to_end_is_error {b : Buf} {q : Pos} {n : Nat} (hsize : b.files.flatten.length < u64)
    (hend : (q.word + n) * b.ws = b.files.flatten.length) :
    ∃ b' p, skipWords b (some q) n = .ok (b', p) ∧ b'.err = true := by
  unfold skipWords
  simp only
  split
  · exact ⟨_, _, rfl, rfl⟩
  · rw [seek_outside (by omega) (by unfold Buf.bytes; omega)]
    exact ⟨_, _, rfl, rfl⟩

/-! ## C29 -/

/-- Specification: control word `k` of the data if a word has `ws` bytes. -/
def ctrl (data : Bytes) (ws k : Nat) : Nat := leNat ((data.drop (k * ws)).take ws)

/-- Specification: the control words look like those of a d3plot file. -/
structure Plausible (data : Bytes) (ws : Nat) : Prop where
  ndim : 2 ≤ ctrl data ws 15 ∧ ctrl data ws 15 ≤ 7
  icode : ctrl data ws 17 = 2 ∨ ctrl data ws 17 = 6
  inum : (1 ≤ ctrl data ws 11 ∧ ctrl data ws 11 ≤ 13) ∨ (21 ≤ ctrl data ws 11 ∧ ctrl data ws 11 ≤ 26) ∨
    (1001 ≤ ctrl data ws 11 ∧ ctrl data ws 11 ≤ 1013) ∨ (1021 ≤ ctrl data ws 11 ∧ ctrl data ws 11 ≤ 1026)
  it : ctrl data ws 19 ≤ 3 ∨ (10 ≤ ctrl data ws 19 ∧ ctrl data ws 19 ≤ 13)
  ia : ctrl data ws 22 = 0 ∨ ctrl data ws 22 = 1

theorem probe_inside {b : Buf} (herr : b.err = false) (hws : 0 < b.ws)
    (hsize : b.files.flatten.length < u64) {k d : Nat} (hk : (k + 1) * b.ws ≤ b.files.flatten.length) :
    probe b k d = .ok (ctrl b.files.flatten b.ws k) := by
  have hk' : k * b.ws < b.files.flatten.length := by
    rw [Nat.add_mul] at hk; omega
  obtain ⟨q, e1, _⟩ := c26_read_is_slice herr hws hsize hk' hk
  unfold probe
  rw [e1]
  simp [close, herr, ctrl]

theorem probe_outside {b : Buf} (herr : b.err = false) {k d : Nat} (h64 : k * b.ws < u64)
    (hw : b.ws < u64)
    (hk : b.files.flatten.length < (k + 1) * b.ws) : probe b k d = .ub := by
  rw [Nat.add_mul] at hk
  unfold probe readWordsAt
  by_cases hp : k * b.ws < b.files.flatten.length
  · obtain ⟨q, e1, e2, e3, e4⟩ := seek_inside (b := b) h64 hp
    rw [e1]
    simp only [herr, Bool.false_eq_true, if_false]
    obtain ⟨bytes, f1⟩ := read_outside (n := 1) e2 (by omega) (by unfold Buf.bytes; omega)
    rw [f1]
    rfl
  · rw [seek_outside (b := b) h64 (Nat.le_of_not_lt hp)]
    rfl

theorem makesSense_iff (data : Bytes) (ws : Nat) :
    makesSense (ctrl data ws 15) (ctrl data ws 17) (ctrl data ws 11) (ctrl data ws 19)
      (ctrl data ws 22) = true ↔ Plausible data ws := by
  unfold makesSense
  simp only [ge_iff_le, Bool.and_eq_true, decide_eq_true_eq, Bool.or_eq_true, beq_iff_eq]
  constructor
  · rintro ⟨⟨⟨⟨h1, h2⟩, h3⟩, h4⟩, h5⟩
    exact ⟨h1, h2, by omega, by omega, h5⟩
  · rintro ⟨h1, h2, h3, h4, h5⟩
    exact ⟨⟨⟨⟨h1, h2⟩, by omega⟩, by omega⟩, h5⟩

theorem probeAll_inside {b : Buf} (herr : b.err = false) (hws : 0 < b.ws)
    (hsize : b.files.flatten.length < u64) (hk : 23 * b.ws ≤ b.files.flatten.length) :
    ∃ s, probeAll b = .ok s ∧ (s = true ↔ Plausible b.files.flatten b.ws) := by
  refine ⟨_, ?_, makesSense_iff _ _⟩
  unfold probeAll
  have h : ∀ k, k < 23 → (k + 1) * b.ws ≤ b.files.flatten.length := fun k hlt =>
    Nat.le_trans (Nat.mul_le_mul_right _ hlt) hk
  rw [probe_inside herr hws hsize (h 15 (by omega)), probe_inside herr hws hsize (h 17 (by omega)),
    probe_inside herr hws hsize (h 11 (by omega)), probe_inside herr hws hsize (h 19 (by omega)),
    probe_inside herr hws hsize (h 22 (by omega))]
  rfl

/-- C29 for families of at least 23 eight byte words (184 bytes): the size of a word is the one
whose control values are plausible; if both or none are, opening fails with an error.
Missing: shorter families (`c29_short_family_is_ub`). -/
theorem c29_word_size_partial {files : List Bytes} (hlong : 184 ≤ files.flatten.length)
    (hsize : files.flatten.length < u64) :
    (Plausible files.flatten 4 → ¬ Plausible files.flatten 8 →
      openBuf files = .ok ⟨files, 4, false⟩) ∧
    (¬ Plausible files.flatten 4 → Plausible files.flatten 8 →
      openBuf files = .ok ⟨files, 8, false⟩) ∧
    ((Plausible files.flatten 4 ↔ Plausible files.flatten 8) → openBuf files = .err) := by
  have hne : files ≠ [] := by rintro rfl; simp at hlong
  obtain ⟨s4, a1, a2⟩ := probeAll_inside (b := ⟨files, 4, false⟩) rfl (by simp) hsize (by simp only; omega)
  obtain ⟨s8, b1, b2⟩ := probeAll_inside (b := ⟨files, 8, false⟩) rfl (by simp) hsize (by simp only; omega)
  simp only at a2 b2
  unfold openBuf
  rw [if_neg hne, a1, b1]
  simp only [Res.bind_ok]
  cases s4 <;> cases s8 <;> simp only [Bool.false_eq_true, false_iff, true_iff] at a2 b2 <;>
    simp [a2, b2]

/-- C29 fails for shorter families: instead of reporting an error the program closes a pointer
without a handle (`files[ULONG_MAX]`), which is undefined behaviour. -/
theorem c29_short_family_is_ub {files : List Bytes} (hne : files ≠ [])
    (hshort : files.flatten.length < 184) : openBuf files = .ub := by
  have hin : ∀ (b : Buf), b.err = false → 0 < b.ws → b.ws ≤ 8 → b.files.flatten.length < u64 →
      b.files.flatten.length < 23 * b.ws → probeAll b = .ub := by
    intro b herr hws hws8 hsize hlt
    have hu : (23 * 8 : Nat) < u64 := by decide
    have hk : ∀ k d, k < 23 → probe b k d = .ub ∨ ∃ v, probe b k d = .ok v := by
      intro k d hlt'
      have hkm : k * b.ws ≤ 23 * 8 := Nat.mul_le_mul (by omega) hws8
      by_cases h : (k + 1) * b.ws ≤ b.files.flatten.length
      · exact .inr ⟨_, probe_inside herr hws hsize h⟩
      · exact .inl (probe_outside herr (by omega) (by omega) (Nat.lt_of_not_le h))
    have h22 : probe b 22 999 = .ub := by
      have hkm : 22 * b.ws ≤ 23 * 8 := Nat.mul_le_mul (by omega) hws8
      exact probe_outside herr (by omega) (by omega) (by simpa using hlt)
    unfold probeAll
    rcases hk 15 0 (by omega) with h | ⟨v, h⟩
    · rw [h]; rfl
    rw [h]
    rcases hk 17 0 (by omega) with h | ⟨v, h⟩
    · rw [Res.bind_ok, h]; rfl
    rw [Res.bind_ok, h]
    rcases hk 11 0 (by omega) with h | ⟨v, h⟩
    · rw [Res.bind_ok, h]; rfl
    rw [Res.bind_ok, h]
    rcases hk 19 999 (by omega) with h | ⟨v, h⟩
    · rw [Res.bind_ok, h]; rfl
    rw [Res.bind_ok, h, Res.bind_ok, h22]
    rfl
  have hu : (184 : Nat) < u64 := by decide
  unfold openBuf
  rw [if_neg hne]
  by_cases h4 : files.flatten.length < 23 * 4
  · rw [hin ⟨files, 4, false⟩ rfl (by simp) (by simp) (by simp only; omega) (by simpa using h4)]
    rfl
  · obtain ⟨s4, a1, a2⟩ := probeAll_inside (b := ⟨files, 4, false⟩) rfl (by simp) (by simp only; omega)
      (by simp only; omega)
    rw [a1, Res.bind_ok,
      hin ⟨files, 8, false⟩ rfl (by simp) (by simp) (by simp only; omega) (by simpa using hshort)]
    rfl

/-- The bytes of a four byte word. -/
def word32 (n : Nat) : Bytes := [n % 256, n / 256 % 256, n / 65536 % 256, n / 16777216 % 256]

/-- A header with plausible four byte words and implausible eight byte words. -/
def sampleHeader : Bytes :=
  (List.range 64).flatMap fun k =>
    word32 (if k = 15 then 4 else if k = 17 then 6 else if k = 11 then 1 else if k = 30 then 77 else 0)

example : 184 ≤ [sampleHeader].flatten.length ∧ [sampleHeader].flatten.length < u64 ∧
    openBuf [sampleHeader] = .ok ⟨[sampleHeader], 4, false⟩ := by decide +kernel

/-- The same header without the value in word 30 is broken: no size of a word is plausible. -/
example : openBuf [List.replicate 256 0] = .err ∧ openBuf [] = .err := by decide +kernel

/-! ## C30 -/

/-- Specification: the name of file `i` of a family. -/
def fileName (root : Bytes) (i : Nat) : Bytes :=
  if i = 0 then root
  else if i < 100 then root ++ [48 + i / 10, 48 + i % 10]
  else root ++ [48 + i / 100, 48 + i / 10 % 10, 48 + i % 10]

theorem cStr_append {a : Bytes} (h : 0 ∉ a) (rest : Bytes) : cStr (a ++ 0 :: rest) = a := by
  unfold cStr
  induction a with
  | nil => simp
  | cons x xs ih =>
    simp only [List.mem_cons, not_or] at h
    have hx : x ≠ 0 := fun e => h.1 e.symm
    simp only [List.cons_append, List.takeWhile_cons, ne_eq, hx, not_false_eq_true, decide_true,
      if_true]
    rw [ih h.2]

theorem name_eq {root : Bytes} (h0 : 0 ∉ root) {i : Nat} (hi : i < 1000) :
    cStr (nameBuffer root i) = fileName root i := by
  unfold nameBuffer fileName
  by_cases h : i = 0
  · subst h
    simp only [if_true, List.append_assoc, List.cons_append, List.nil_append]
    exact cStr_append h0 _
  · simp only [h, if_false]
    have hd : indexString i = if i < 100 then [48 + i / 10, 48 + i % 10]
        else [48 + i / 100, 48 + i / 10 % 10, 48 + i % 10] := by
      unfold indexString
      by_cases h1 : i < 10
      · have a1 : i / 10 = 0 := by omega
        have a2 : i % 10 = i := by omega
        simp [decimal, h1, a1, a2, show i < 100 by omega]
      · by_cases h2 : i < 100
        · have a1 : i / 10 < 10 := by omega
          simp [decimal, h1, h2, a1]
        · have a1 : ¬ i / 10 < 10 := by omega
          have a2 : i / 10 / 10 < 10 := by omega
          have a3 : i / 10 / 10 = i / 100 := by omega
          have a4 : i / 100 < 10 := by omega
          simp [decimal, h1, h2, a1, a3, a4]
    rw [hd]
    by_cases h2 : i < 100
    · simp only [h2, if_true]
      have : (root ++ ([48 + i / 10, 48 + i % 10] ++ [0, 0]).take 3 ++ [0]) =
          (root ++ [48 + i / 10, 48 + i % 10]) ++ 0 :: [0] := by simp
      rw [this]
      apply cStr_append
      simp only [List.mem_append, List.mem_cons, List.not_mem_nil, or_false, not_or]
      exact ⟨h0, by omega, by omega⟩
    · simp only [h2, if_false]
      have : (root ++ ([48 + i / 100, 48 + i / 10 % 10, 48 + i % 10] ++ [0, 0]).take 3 ++ [0]) =
          (root ++ [48 + i / 100, 48 + i / 10 % 10, 48 + i % 10]) ++ 0 :: [] := by simp
      rw [this]
      apply cStr_append
      simp only [List.mem_append, List.mem_cons, List.not_mem_nil, or_false, not_or]
      exact ⟨h0, by omega, by omega, by omega⟩

theorem collect_get (isFile : Bytes → Bool) {root : Bytes} (h0 : 0 ∉ root) :
    ∀ (left i : Nat), i + left = 1000 → ∀ (k : Nat) (n : Bytes),
      (collect isFile root left i)[k]? = some n ↔
        i + k < 1000 ∧ n = fileName root (i + k) ∧ ∀ j, i ≤ j → j ≤ i + k → isFile (fileName root j) = true := by
  intro left
  induction left with
  | zero =>
    intro i hi k n
    simp only [collect, List.getElem?_nil, reduceCtorEq, false_iff]
    omega
  | succ left ih =>
    intro i hi k n
    unfold collect
    rw [name_eq h0 (by omega)]
    split
    · rename_i hf
      cases k with
      | zero =>
        simp only [List.getElem?_cons_zero, Option.some.injEq, Nat.add_zero]
        constructor
        · rintro rfl
          refine ⟨by omega, rfl, fun j h1 h2 => ?_⟩
          have : j = i := by omega
          subst this; exact hf
        · rintro ⟨_, rfl, _⟩; rfl
      | succ k =>
        rw [List.getElem?_cons_succ, ih (i + 1) (by omega) k n,
          show i + 1 + k = i + (k + 1) by omega]
        constructor
        · rintro ⟨a, b, c⟩
          refine ⟨a, b, fun j h1 h2 => ?_⟩
          by_cases hj : j = i
          · subst hj; exact hf
          · exact c j (by omega) h2
        · rintro ⟨a, b, c⟩
          exact ⟨a, b, fun j h1 h2 => c j (by omega) h2⟩
    · rename_i hf
      simp only [List.getElem?_nil, reduceCtorEq, false_iff]
      rintro ⟨_, _, c⟩
      exact hf (c i (by omega) (by omega))

/-- C30. The family consists of root, root01, ..., root99, root100, ..., root999 in this order, up to
the first name that is not a file: element `k` of the family is the `k`-th name if and only
if all names up to it are files. -/
theorem c30_family (isFile : Bytes → Bool) {root : Bytes} (h0 : 0 ∉ root) (k : Nat) (n : Bytes) :
    (family isFile root)[k]? = some n ↔
      k < 1000 ∧ n = fileName root k ∧ ∀ j, j ≤ k → isFile (fileName root j) = true := by
  have := collect_get isFile h0 1000 0 (by omega) k n
  simp only [Nat.zero_add, Nat.zero_le, true_implies] at this
  exact this

/-- Opening reads the files of the family in that order. -/
theorem c30_open (isFile : Bytes → Bool) (content : Bytes → Bytes) (root : Bytes) (b : Buf)
    (h : openFamily isFile content root = .ok b) : b.files = (family isFile root).map content := by
  unfold openFamily openBuf at h
  split at h
  · contradiction
  · cases h4 : probeAll ⟨(family isFile root).map content, 4, false⟩ <;> rw [h4] at h <;>
      simp only [Res.bind_ok, Res.bind_err, Res.bind_ub, Res.bind_abort, reduceCtorEq] at h
    cases h8 : probeAll ⟨(family isFile root).map content, 8, false⟩ <;> rw [h8] at h <;>
      simp only [Res.bind_ok, Res.bind_err, Res.bind_ub, Res.bind_abort, reduceCtorEq] at h
    split at h
    · contradiction
    · simp only [Res.ok.injEq] at h
      rw [← h]

/-- If the root file does not exist, opening is an error. -/
theorem c30_no_root (isFile : Bytes → Bool) (content : Bytes → Bytes) (root : Bytes)
    (h0 : 0 ∉ root) (h : isFile (fileName root 0) = false) :
    openFamily isFile content root = .err := by
  have hf : family isFile root = [] := by
    cases hfa : family isFile root with
    | nil => rfl
    | cons n t =>
      have := (c30_family isFile h0 0 n).1 (by rw [hfa]; rfl)
      rw [this.2.2 0 (Nat.le_refl 0)] at h
      cases h
  unfold openFamily openBuf
  rw [hf]
  rfl

example : family (fun n => n ∈ [bs "d3plot", bs "d3plot01", bs "d3plot02", bs "d3plot04"]) (bs "d3plot") =
    [bs "d3plot", bs "d3plot01", bs "d3plot02"] := by decide +kernel

end Dyna.D3
