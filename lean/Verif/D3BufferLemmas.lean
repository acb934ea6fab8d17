import Verif.D3Buffer
/-!
# Reads and seeks in terms of the concatenated family
-/

namespace Dyna.D3

/-- Number of bytes in front of file `i`. Part of the specification, models no code. -/
def base (files : List Bytes) (i : Nat) : Nat := (files.take i).flatten.length

/-- Position in the family, in bytes. Part of the specification, models no code. -/
def absPos (b : Buf) (q : Pos) : Nat := base b.files q.file + q.pos

/-- The pointer is inside of a file (or at its end). Part of the specification, models no code. -/
def Valid (b : Buf) (q : Pos) : Prop := ∃ cur, b.files[q.file]? = some cur ∧ q.pos ≤ cur.length

/-- Every file consists of whole words. Part of the specification, models no code. -/
def Aligned (b : Buf) : Prop := ∀ f ∈ b.files, b.ws ∣ f.length

theorem base_succ {files : List Bytes} {i : Nat} {cur : Bytes} (h : files[i]? = some cur) :
    base files (i + 1) = base files i + cur.length := by
  obtain ⟨hlt, he⟩ := List.getElem?_eq_some_iff.1 h
  unfold base
  rw [List.take_add_one, h]
  simp

theorem base_le {files : List Bytes} {i : Nat} {cur : Bytes} (h : files[i]? = some cur) :
    base files i + cur.length ≤ files.flatten.length := by
  rw [← base_succ h]
  unfold base
  conv => rhs; rw [← List.take_append_drop (i + 1) files]
  rw [List.flatten_append, List.length_append]
  omega

/-- What is behind a position. -/
theorem drop_absPos {files : List Bytes} {i pos : Nat} {cur : Bytes} (h : files[i]? = some cur)
    (hp : pos ≤ cur.length) :
    files.flatten.drop (base files i + pos) = cur.drop pos ++ (files.drop (i + 1)).flatten := by
  obtain ⟨hlt, he⟩ := List.getElem?_eq_some_iff.1 h
  have e : files = files.take i ++ cur :: files.drop (i + 1) := by
    rw [← he, ← List.drop_eq_getElem_cons hlt, List.take_append_drop]
  conv => lhs; rw [e]
  rw [List.flatten_append, List.flatten_cons]
  have hb : base (List.take i files ++ cur :: List.drop (i + 1) files) i = (files.take i).flatten.length := by
    rw [← e]; rfl
  rw [hb, List.drop_append, List.drop_of_length_le (by omega), List.nil_append,
    Nat.add_sub_cancel_left, List.drop_append_of_le_length hp]

theorem base_all (files : List Bytes) : base files files.length = files.flatten.length := by
  simp [base]

/-- The loop over the files reads the next bytes of the family, or runs out of files. -/
theorem readLoop_spec (b : Buf) (rest : List Bytes) : ∀ (cur : Bytes) (q : Pos) (need : Nat) (acc : Bytes),
    b.files[q.file]? = some cur → b.files.drop (q.file + 1) = rest → q.pos ≤ cur.length →
    (absPos b q + need ≤ b.bytes.length → ∃ q', readLoop b.ws rest cur q need acc =
        (some q', acc ++ (b.bytes.drop (absPos b q)).take need) ∧ Valid b q' ∧
        absPos b q' = absPos b q + need ∧ (0 < need → 0 < q'.pos) ∧
        (Aligned b → b.ws ∣ q.pos → 0 < b.ws → q'.word = q.word + need / b.ws)) ∧
    (b.bytes.length < absPos b q + need → (readLoop b.ws rest cur q need acc).1 = none) := by
  induction rest with
  | nil =>
    intro cur q need acc hf hd hp
    have hdrop := drop_absPos hf hp
    have hlen : b.bytes.length = base b.files q.file + cur.length := by
      rw [← base_succ hf]
      unfold Buf.bytes base
      have : b.files.length ≤ q.file + 1 := List.drop_eq_nil_iff.1 hd
      rw [List.take_of_length_le this]
    unfold readLoop
    constructor
    · intro h
      have hn : need ≤ cur.length - q.pos := by unfold absPos at h; omega
      rw [if_pos hn]
      refine ⟨⟨q.file, q.pos + need, q.word + need / b.ws⟩, ?_, ⟨cur, hf, by simp only; omega⟩,
        by simp only [absPos]; omega, by simp only; omega, by simp⟩
      unfold Buf.bytes absPos
      rw [hdrop, hd]
      simp
    · intro h
      have hn : ¬ need ≤ cur.length - q.pos := by unfold absPos at h; omega
      rw [if_neg hn]
  | cons f rest ih =>
    intro cur q need acc hf hd hp
    have hdrop := drop_absPos hf hp
    have hlt := (List.getElem?_eq_some_iff.1 hf).1
    have hnext : b.files[q.file + 1]? = some f := by
      have := congrArg (fun l => l[0]?) hd
      simpa using this
    have hrest : b.files.drop (q.file + 1 + 1) = rest := by
      have := congrArg List.tail hd
      simpa using this
    have hb := base_succ hf
    unfold readLoop
    by_cases hn : need ≤ cur.length - q.pos
    · rw [if_pos hn]
      have hle := base_le hf
      constructor
      · intro h
        refine ⟨⟨q.file, q.pos + need, q.word + need / b.ws⟩, ?_, ⟨cur, hf, by simp only; omega⟩,
          by simp only [absPos]; omega, by simp only; omega, by simp⟩
        unfold Buf.bytes absPos
        rw [hdrop, List.take_append_of_le_length (by simp; omega)]
      · intro h
        unfold absPos Buf.bytes at h
        omega
    · rw [if_neg hn]
      simp only
      have hab : absPos b ⟨q.file + 1, 0, q.word + (cur.length - q.pos) / b.ws⟩ =
          absPos b q + (cur.length - q.pos) := by
        simp only [absPos]; omega
      have := ih f ⟨q.file + 1, 0, q.word + (cur.length - q.pos) / b.ws⟩
        (need - (cur.length - q.pos)) (acc ++ cur.drop q.pos) hnext hrest (Nat.zero_le _)
      rw [hab] at this
      constructor
      · intro h
        obtain ⟨q', e1, e2, e3, e4, e5⟩ := this.1 (by omega)
        refine ⟨q', ?_, e2, by omega, fun _ => e4 (by omega), ?_⟩
        · rw [e1]
          congr 1
          rw [List.append_assoc]
          congr 1
          have h0 : b.bytes.drop (absPos b q) = cur.drop q.pos ++ (b.files.drop (q.file + 1)).flatten := hdrop
          have h1 : (cur.drop q.pos).length = cur.length - q.pos := by simp
          have h2 : b.bytes.drop (absPos b q + (cur.length - q.pos)) =
              (b.files.drop (q.file + 1)).flatten := by
            rw [← List.drop_drop, h0, ← h1, List.drop_left]
          rw [h0, h2, List.take_append, List.take_of_length_le (l := cur.drop q.pos) (by omega), h1]
        · intro ha hq hw
          have h1 : b.ws ∣ cur.length := ha cur (List.mem_of_getElem? hf)
          have h2 : b.ws ∣ cur.length - q.pos := Nat.dvd_sub h1 hq
          rw [e5 ha ⟨0, by simp⟩ hw]
          obtain ⟨k, hk⟩ := h2
          rw [hk, Nat.mul_div_cancel_left _ hw]
          have h3 : need = (need - b.ws * k) + b.ws * k := by omega
          have : need / b.ws = (need - b.ws * k) / b.ws + k := by
            conv => lhs; rw [h3]
            rw [Nat.add_mul_div_left _ _ hw]
          rw [this]
          simp only
          omega
      · intro h
        exact this.2 (by omega)

/-- Searching a position in the family. -/
theorem locate_spec (files : List Bytes) : ∀ (pre : List Bytes) (p : Nat),
    (p < files.flatten.length → ∃ i pos cur, locate files pre.length p = some (i, pos) ∧
      (pre ++ files)[i]? = some cur ∧ pos < cur.length ∧ base (pre ++ files) i + pos = pre.flatten.length + p) ∧
    (files.flatten.length ≤ p → locate files pre.length p = none) := by
  induction files with
  | nil => intro pre p; simp [locate]
  | cons f rest ih =>
    intro pre p
    have ih := ih (pre ++ [f]) (p - f.length)
    simp only [List.length_append, List.length_cons, List.length_nil, Nat.zero_add,
      List.append_assoc, List.singleton_append, List.flatten_append, List.flatten_cons,
      List.flatten_nil, List.append_nil] at ih
    unfold locate
    by_cases hp : p < f.length
    · rw [if_pos hp]
      constructor
      · intro _
        exact ⟨pre.length, p, f, rfl, by simp, hp, by simp [base]⟩
      · intro h
        simp only [List.flatten_cons, List.length_append] at h
        omega
    · rw [if_neg hp]
      simp only [List.flatten_cons, List.length_append]
      constructor
      · intro h
        obtain ⟨i, pos, cur, e1, e2, e3, e4⟩ := ih.1 (by omega)
        exact ⟨i, pos, cur, e1, e2, e3, by omega⟩
      · intro h
        exact ih.2 (by omega)

/-- Seeking to a word of the family. -/
theorem seek_inside {b : Buf} {w : Nat} (h64 : w * b.ws < u64) (h : w * b.ws < b.bytes.length) :
    ∃ q, seek b w = (b, some q) ∧ Valid b q ∧ absPos b q = w * b.ws ∧ q.word = w := by
  obtain ⟨i, pos, cur, e1, e2, e3, e4⟩ := (locate_spec b.files [] (w * b.ws)).1 h
  simp only [List.length_nil, List.nil_append, List.flatten_nil, Nat.zero_add] at e1 e2 e4
  refine ⟨⟨i, pos, w⟩, ?_, ⟨cur, e2, Nat.le_of_lt e3⟩, e4, rfl⟩
  unfold seek
  rw [Nat.mod_eq_of_lt h64, e1]

theorem seek_outside {b : Buf} {w : Nat} (h64 : w * b.ws < u64) (h : b.bytes.length ≤ w * b.ws) :
    seek b w = ({ b with err := true }, none) := by
  have := (locate_spec b.files [] (w * b.ws)).2 h
  simp only [List.length_nil] at this
  unfold seek
  rw [Nat.mod_eq_of_lt h64, this]

/-- Reading inside of the family. -/
theorem read_inside {b : Buf} {q : Pos} {n : Nat} (hv : Valid b q) (h64 : n * b.ws < u64)
    (h : absPos b q + n * b.ws ≤ b.bytes.length) :
    ∃ q', readWords b (some q) n =
        .ok (b, some q', (b.bytes.drop (absPos b q)).take (n * b.ws)) ∧ Valid b q' ∧
      absPos b q' = absPos b q + n * b.ws ∧ (0 < n * b.ws → 0 < q'.pos) ∧
      (Aligned b → b.ws ∣ q.pos → 0 < b.ws → q'.word = q.word + n) ∧ (n = 0 → q' = q) := by
  obtain ⟨cur, hf, hp⟩ := hv
  unfold readWords
  simp only [hf, Nat.mod_eq_of_lt h64]
  by_cases hn : n * b.ws ≤ cur.length - q.pos
  · rw [if_pos hn, if_pos hn]
    refine ⟨⟨q.file, q.pos + n * b.ws, q.word + n⟩, ?_, ⟨cur, hf, by simp only; omega⟩,
      by simp only [absPos]; omega, by simp only; omega, by simp, by rintro rfl; simp⟩
    congr 3
    unfold Buf.bytes absPos
    rw [drop_absPos hf hp, List.take_append_of_le_length (by simp; omega)]
  · rw [if_neg hn]
    obtain ⟨q', e1, e2, e3, e4, e5⟩ :=
      (readLoop_spec b _ cur q (n * b.ws) [] hf rfl hp).1 h
    refine ⟨q', by rw [e1]; simp, e2, e3, e4, ?_, by rintro rfl; simp at hn⟩
    intro a1 a2 a3
    rw [e5 a1 a2 a3, Nat.mul_div_cancel _ a3]

/-- Reading more than there is. -/
theorem read_outside {b : Buf} {q : Pos} {n : Nat} (hv : Valid b q) (h64 : n * b.ws < u64)
    (h : b.bytes.length < absPos b q + n * b.ws) :
    ∃ bytes, readWords b (some q) n = .ok ({ b with err := true }, none, bytes) := by
  obtain ⟨cur, hf, hp⟩ := hv
  have hle := base_le hf
  unfold readWords
  simp only [hf, Nat.mod_eq_of_lt h64]
  have hn : ¬ n * b.ws ≤ cur.length - q.pos := by
    unfold absPos Buf.bytes at h; omega
  rw [if_neg hn]
  have := (readLoop_spec b _ cur q (n * b.ws) [] hf rfl hp).2 h
  cases hr : readLoop b.ws (b.files.drop (q.file + 1)) cur q (n * b.ws) [] with
  | mk a bytes =>
    rw [hr] at this
    simp only at this
    subst this
    exact ⟨bytes, rfl⟩

theorem base_mono {files : List Bytes} {i j : Nat} (h : i ≤ j) : base files i ≤ base files j := by
  unfold base
  have : files.take j = files.take i ++ (files.take j).drop i := by
    conv => lhs; rw [← List.take_append_drop i (files.take j)]
    rw [List.take_take, Nat.min_eq_left h]
  rw [this, List.flatten_append, List.length_append]
  omega

/-- Two pointers behind the first byte of their file at the same position are equal. -/
theorem pos_unique {b : Buf} {q q' : Pos} (hv : Valid b q) (hv' : Valid b q') (hp : 0 < q.pos)
    (hp' : 0 < q'.pos) (ha : absPos b q = absPos b q') : q.file = q'.file ∧ q.pos = q'.pos := by
  obtain ⟨c, c1, c2⟩ := hv
  obtain ⟨c', c1', c2'⟩ := hv'
  have h1 := base_succ c1
  have h2 := base_succ c1'
  unfold absPos at ha
  rcases Nat.lt_trichotomy q.file q'.file with h | h | h
  · have := base_mono (files := b.files) (show q.file + 1 ≤ q'.file from h)
    omega
  · rw [h] at ha; exact ⟨h, by omega⟩
  · have := base_mono (files := b.files) (show q'.file + 1 ≤ q.file from h)
    omega

theorem seek_word {b : Buf} {w : Nat} {q : Pos} {b' : Buf} (h : seek b w = (b', some q)) :
    q.word = w := by
  unfold seek at h
  split at h
  · simp at h
  · simp only [Prod.mk.injEq, Option.some.injEq] at h
    rw [← h.2]

theorem aligned_bytes {b : Buf} (h : Aligned b) : b.ws ∣ b.bytes.length := by
  obtain ⟨files, ws, err⟩ := b
  unfold Aligned at h
  simp only at h
  unfold Buf.bytes
  simp only
  induction files with
  | nil => simp
  | cons f rest ih =>
    simp only [List.flatten_cons, List.length_append]
    exact Nat.dvd_add (h f (by simp)) (ih (fun g hg => h g (by simp [hg])))

theorem aligned_base {b : Buf} (h : Aligned b) (i : Nat) : b.ws ∣ base b.files i := by
  have : Aligned ⟨b.files.take i, b.ws, b.err⟩ := fun f hf => h f (List.mem_of_mem_take hf)
  have := aligned_bytes this
  exact this

end Dyna.D3
