import Verif.ExtraString
import Verif.KeyParse
import Verif.Props.LineReader
/-!
# C62: texts of key file lines and keyword names

The line reader and the parser keep lines and keyword names in strings with a fixed array of 82
bytes and a block for the rest. The theorems say what the functions on them compute, for every
text, and where they leave the memory.
-/

namespace Dyna.ExtraString

open Dyna

theorem holds_buffer {s : ES} {c : Bytes} {x : Byte} {r : Bytes} {e : Bytes}
    (hs : s.buffer.length = 82) (h : (c ++ x :: r) ++ e <+: s.buffer ++ s.extra)
    (hc : c.length < 82) :
    s.buffer[c.length]? = some x := by
  obtain ⟨t, ht⟩ := h
  have h1 : (s.buffer ++ s.extra)[c.length]? = some x := by
    rw [← ht]; simp
  rwa [List.getElem?_append_left (by omega)] at h1

theorem holds_buffer_at {s : ES} {c a : Bytes} (h : Holds s (c ++ a)) (hc : c.length < 82) :
    s.buffer[c.length]? = some (a.headD 0) := by
  cases a with
  | nil =>
    have := h.bytes
    exact holds_buffer (r := []) (e := []) h.size (by simpa using this) hc
  | cons x r =>
    exact holds_buffer h.size h.bytes hc

theorem cget_at (c b : Bytes) : cget (c ++ b) c.length = .ok (b.headD 0) := by
  cases b <;> simp [cget]

theorem headD_zero {a : Bytes} (h : 0 ∉ a) : a.headD 0 = 0 ↔ a = [] := by
  cases a with
  | nil => simp
  | cons x r =>
    simp only [List.mem_cons, not_or] at h
    simp; omega

theorem compareLoop_spec (s : ES) : ∀ (n : Nat) (c a b : Bytes), 82 - c.length = n →
    c.length ≤ 82 → Holds s (c ++ a) → 0 ∉ b →
    ∃ c' a' b' : Bytes, c ++ a = c' ++ a' ∧ c ++ b = c' ++ b' ∧ c'.length ≤ 82 ∧
      ((compareLoop s (c ++ b) c.length = .ok (.at_ c'.length) ∧
          (c'.length = 82 ∨ a' = [] ∨ b' = [])) ∨
       (∃ x y a'' b'', a' = x :: a'' ∧ b' = y :: b'' ∧ x ≠ y ∧ c'.length < 82 ∧
          compareLoop s (c ++ b) c.length = .ok (.ret (sc x - sc y)))) := by
  intro n
  induction n with
  | zero =>
    intro c a b hn hc h hb
    refine ⟨c, a, b, rfl, rfl, hc, Or.inl ⟨?_, Or.inl (by omega)⟩⟩
    rw [compareLoop]
    simp [bufSize, show ¬ c.length < 82 by omega]
  | succ n ih =>
    intro c a b hn hc h hb
    have hlt : c.length < 82 := by omega
    have ha0 : 0 ∉ a := fun hm => h.noNul (List.mem_append_right _ hm)
    have hbuf := holds_buffer_at h hlt
    rw [compareLoop]
    simp only [bufSize, hlt, dite_true, hbuf, Res.ofOption_some, Res.bind_ok, cget_at]
    cases a with
    | nil =>
      refine ⟨c, [], b, rfl, rfl, hc, Or.inl ⟨by simp, by simp⟩⟩
    | cons x a'' =>
      have hx : x ≠ 0 := by
        intro hx; exact ha0 (by simp [hx])
      cases b with
      | nil =>
        exact ⟨c, x :: a'', [], rfl, rfl, hc, Or.inl ⟨by simp [hx], by simp⟩⟩
      | cons y b'' =>
        have hy : y ≠ 0 := by
          intro hy; exact hb (by simp [hy])
        by_cases hxy : x = y
        · subst hxy
          have := ih (c ++ [x]) a'' b'' (by simp; omega) (by simp; omega) (by simpa using h)
            (fun hm => hb (List.mem_cons_of_mem _ hm))
          simpa [hx] using this
        · refine ⟨c, x :: a'', y :: b'', rfl, rfl, hc,
            Or.inr ⟨x, y, a'', b'', rfl, rfl, hxy, hlt, ?_⟩⟩
          simp [hx, hy, hxy]

theorem prefixLoop_spec (s : ES) : ∀ (n : Nat) (c a b : Bytes), 82 - c.length = n →
    c.length ≤ 82 → Holds s (c ++ a) → 0 ∉ b →
    ∃ c' a' b' : Bytes, c ++ a = c' ++ a' ∧ c ++ b = c' ++ b' ∧ c'.length ≤ 82 ∧
      ((prefixLoop s (c ++ b) c.length = .ok (.at_ c'.length) ∧
          (c'.length = 82 ∨ a' = [] ∨ b' = [])) ∨
       (∃ x y a'' b'', a' = x :: a'' ∧ b' = y :: b'' ∧ x ≠ y ∧ c'.length < 82 ∧
          prefixLoop s (c ++ b) c.length = .ok (.ret 0))) := by
  intro n
  induction n with
  | zero =>
    intro c a b hn hc h hb
    refine ⟨c, a, b, rfl, rfl, hc, Or.inl ⟨?_, Or.inl (by omega)⟩⟩
    rw [prefixLoop]
    simp [bufSize, show ¬ c.length < 82 by omega]
  | succ n ih =>
    intro c a b hn hc h hb
    have hlt : c.length < 82 := by omega
    have ha0 : 0 ∉ a := fun hm => h.noNul (List.mem_append_right _ hm)
    have hbuf := holds_buffer_at h hlt
    rw [prefixLoop]
    simp only [bufSize, hlt, dite_true, hbuf, Res.ofOption_some, Res.bind_ok, cget_at]
    cases a with
    | nil =>
      refine ⟨c, [], b, rfl, rfl, hc, Or.inl ⟨by simp, by simp⟩⟩
    | cons x a'' =>
      have hx : x ≠ 0 := by
        intro hx; exact ha0 (by simp [hx])
      cases b with
      | nil =>
        exact ⟨c, x :: a'', [], rfl, rfl, hc, Or.inl ⟨by simp [hx], by simp⟩⟩
      | cons y b'' =>
        have hy : y ≠ 0 := by
          intro hy; exact hb (by simp [hy])
        by_cases hxy : x = y
        · subst hxy
          have := ih (c ++ [x]) a'' b'' (by simp; omega) (by simp; omega) (by simpa using h)
            (fun hm => hb (List.mem_cons_of_mem _ hm))
          simpa [hx] using this
        · refine ⟨c, x :: a'', y :: b'', rfl, rfl, hc,
            Or.inr ⟨x, y, a'', b'', rfl, rfl, hxy, hlt, ?_⟩⟩
          simp [hx, hy, hxy]

theorem lexLt_append (c a b : Bytes) : LexLt (c ++ a) (c ++ b) ↔ LexLt a b := by
  induction c with
  | nil => rfl
  | cons x r ih => simp [LexLt, ih]

/-- C62: comparing the text of a line or of a keyword name with a C string never leaves the memory
and is 0 exactly when the two are the same text, unless both have at least 82 bytes and agree in
the first 82. For texts of 7 bit characters its sign is the lexicographic order. -/
theorem c62_compare (s : ES) (text rhs : Bytes) (h : Holds s text) (hr : 0 ∉ rhs)
    (hbytes : ∀ b ∈ text ++ rhs, b < 256)
    (hlong : text.length < 82 ∨ rhs.length < 82 ∨ text.take 82 ≠ rhs.take 82) :
    ∃ v : Int, compare s rhs = .ok v ∧ (v = 0 ↔ text = rhs) ∧
      ((∀ b ∈ text ++ rhs, b < 128) → (v < 0 ↔ LexLt text rhs)) := by
  obtain ⟨c, a, b, h1, h2, hc, hcase⟩ :=
    compareLoop_spec s 82 [] text rhs rfl (by simp) (by simpa using h) hr
  simp only [List.nil_append, List.length_nil] at h1 h2 hcase
  subst h1 h2
  have ha0 : 0 ∉ a := fun hm => h.noNul (List.mem_append_right _ hm)
  have hb0 : 0 ∉ b := fun hm => hr (List.mem_append_right _ hm)
  rcases hcase with ⟨hl, hend⟩ | ⟨x, y, a', b', rfl, rfl, hxy, _, hl⟩
  · have hlt : c.length < 82 := by
      rcases Nat.lt_or_ge c.length 82 with h' | h'
      · exact h'
      · exfalso
        have hce : c.length = 82 := by omega
        rcases hlong with hl | hl | hl
        · simp at hl; omega
        · simp at hl; omega
        · apply hl
          rw [← hce]; simp
    have hab : a = [] ∨ b = [] := by
      rcases hend with h' | h' | h'
      · omega
      · exact Or.inl h'
      · exact Or.inr h'
    have hbuf := holds_buffer_at h hlt
    unfold compare
    simp only [hl, Res.bind_ok, bufSize, show c.length ≠ 82 by omega, if_false, hbuf,
      Res.ofOption_some, cget_at, headD_zero ha0, headD_zero hb0]
    cases a with
    | nil =>
      cases b with
      | nil => exact ⟨0, by simp, by simp, by intro _; rw [lexLt_append]; simp [LexLt]⟩
      | cons y b' => exact ⟨-1, by simp, by simp, by intro _; rw [lexLt_append]; simp [LexLt]⟩
    | cons x a' =>
      cases b with
      | nil => exact ⟨1, by simp, by simp, by intro _; rw [lexLt_append]; simp [LexLt]⟩
      | cons y b' => simp at hab
  · unfold compare
    simp only [hl, Res.bind_ok]
    have hx := hbytes x (by simp)
    have hy := hbytes y (by simp)
    refine ⟨sc x - sc y, rfl, ?_, ?_⟩
    · simp only [List.append_cancel_left_eq, List.cons.injEq, hxy, false_and, iff_false]
      unfold sc
      split <;> split <;> omega
    · intro hb
      have hx := hb x (by simp)
      have hy := hb y (by simp)
      simp only [lexLt_append, LexLt, hxy, false_and, or_false, sc, hx, hy, if_true]
      omega

/-- C62: ... but a text of 82 to 163 bytes (in a block of the size the copying makes) cannot be
compared with a text that agrees in the first 82 bytes: the function reads behind the block, even
when the two texts are equal. -/
theorem c62_compare_long (s : ES) (text rhs : Bytes) (h : Holds s text) (hr : 0 ∉ rhs)
    (hl : 82 ≤ text.length) (heq : text.take 82 = rhs.take 82) (hr82 : 82 ≤ rhs.length)
    (hex : s.extra.length ≤ 82) :
    compare s rhs = .ub := by
  obtain ⟨c, a, b, h1, h2, hc, hcase⟩ :=
    compareLoop_spec s 82 [] text rhs rfl (by simp) (by simpa using h) hr
  simp only [List.nil_append, List.length_nil] at h1 h2 hcase
  subst h1 h2
  rcases hcase with ⟨hl', hend⟩ | ⟨x, y, a', b', rfl, rfl, hxy, h', hl'⟩
  · have hce : c.length = 82 := by
      rcases Nat.lt_or_ge c.length 82 with h' | h'
      · rcases hend with h'' | h'' | h''
        · omega
        · subst h''; simp at hl; omega
        · subst h''; simp at hr82; omega
      · omega
    unfold compare
    simp only [hl', Res.bind_ok, bufSize, hce, if_true, List.getElem?_eq_none hex,
      Res.ofOption_none, Res.bind_ub]
  · exfalso
    have := congrArg (fun l : List Nat => l[c.length]?) heq
    simp [List.getElem?_take, h'] at this
    exact hxy this

theorem holds_extra {s : ES} {c a : Bytes} (h : Holds s (c ++ a)) (hc : c.length = 82) :
    a ++ [0] <+: s.extra := by
  have := h.bytes
  rw [List.append_assoc] at this
  obtain ⟨t, ht⟩ := this
  have h1 := congrArg (List.drop 82) ht
  rw [List.append_assoc, ← hc, List.drop_left, hc, ← h.size, List.drop_left] at h1
  exact ⟨t, h1⟩

theorem cstrOf_prefix {e : List Byte} {a : Bytes} (h : a ++ [0] <+: e) (h0 : 0 ∉ a) :
    cstrOf e = .ok a := by
  obtain ⟨t, rfl⟩ := h
  induction a with
  | nil => simp [cstrOf]
  | cons x r ih =>
    have hx : x ≠ 0 := fun e => h0 (by simp [e])
    have := ih (fun hm => h0 (by simp [hm]))
    simp only [List.append_assoc, List.cons_append] at this ⊢
    simp only [cstrOf, hx, if_false, this, Res.bind_ok]

/-- C62: for texts of more than 164 bytes that agree in the first 82 bytes the comparison is exact
again: it is 0 exactly for equal texts and its sign is the order of the bytes. -/
theorem c62_compare_very_long (s : ES) (text rhs : Bytes) (h : Holds s text) (hr : 0 ∉ rhs)
    (hl : 164 < text.length) (heq : text.take 82 = rhs.take 82) (hr82 : 82 ≤ rhs.length) :
    ∃ v : Int, compare s rhs = .ok v ∧ (v = 0 ↔ text = rhs) ∧ (v < 0 ↔ LexLt text rhs) := by
  obtain ⟨c, a, b, h1, h2, hc, hcase⟩ :=
    compareLoop_spec s 82 [] text rhs rfl (by simp) (by simpa using h) hr
  simp only [List.nil_append, List.length_nil] at h1 h2 hcase
  subst h1 h2
  rcases hcase with ⟨hl', hend⟩ | ⟨x, y, a', b', rfl, rfl, hxy, h', hl'⟩
  · have hce : c.length = 82 := by
      rcases Nat.lt_or_ge c.length 82 with h' | h'
      · rcases hend with h'' | h'' | h''
        · omega
        · subst h''; simp at hl; omega
        · subst h''; simp at hr82; omega
      · omega
    have ha0 : 0 ∉ a := fun hm => h.noNul (List.mem_append_right _ hm)
    have hex := holds_extra h hce
    have hal : 82 < a.length := by simp at hl; omega
    have hx : s.extra[82]? = some a[82] := by
      obtain ⟨t, ht⟩ := hex
      rw [← ht, List.append_assoc, List.getElem?_append_left hal, List.getElem?_eq_getElem hal]
    have hx0 : a[82] ≠ 0 := fun e => ha0 (e ▸ List.getElem_mem hal)
    have hcg : cget (c ++ b) 82 = .ok ((b ++ [0]).headD 0) := by
      have := cget_at (c := c) (b := b); rw [hce] at this
      rw [this]
      cases b <;> rfl
    refine ⟨strcmp a b, ?_, ?_, ?_⟩
    · unfold compare
      simp only [hl', Res.bind_ok, bufSize, hce, if_true, hx, Res.ofOption_some, hcg, hx0,
        false_and, if_false, cstrOf_prefix hex ha0]
      rw [List.drop_left' hce]
    · rw [strcmp_eq_zero]; simp
    · rw [strcmp_neg, lexLt_append]
  · exfalso
    have := congrArg (fun l : List Nat => l[c.length]?) heq
    simp [List.getElem?_take, h'] at this
    exact hxy this

/-- C62: a text of exactly 164 bytes is said to be equal to its own first 82 bytes, and smaller than
every longer text that agrees in the first 82, itself included. -/
theorem c62_compare_164 (s : ES) (text rhs : Bytes) (h : Holds s text) (hr : 0 ∉ rhs)
    (hl : text.length = 164) (heq : text.take 82 = rhs.take 82) (hr82 : 82 ≤ rhs.length) :
    compare s rhs = .ok (if rhs.length = 82 then 0 else -1) := by
  obtain ⟨c, a, b, h1, h2, hc, hcase⟩ :=
    compareLoop_spec s 82 [] text rhs rfl (by simp) (by simpa using h) hr
  simp only [List.nil_append, List.length_nil] at h1 h2 hcase
  subst h1 h2
  rcases hcase with ⟨hl', hend⟩ | ⟨x, y, a', b', rfl, rfl, hxy, h', hl'⟩
  · have hce : c.length = 82 := by
      rcases Nat.lt_or_ge c.length 82 with h' | h'
      · rcases hend with h'' | h'' | h''
        · omega
        · subst h''; simp at hl; omega
        · subst h''; simp at hr82; omega
      · omega
    have hb0 : 0 ∉ b := fun hm => hr (List.mem_append_right _ hm)
    have hex := holds_extra h hce
    have hal : a.length = 82 := by simp at hl; omega
    have hx : s.extra[82]? = some 0 := by
      obtain ⟨t, ht⟩ := hex
      rw [← ht, List.append_assoc, List.getElem?_append_right (by omega), hal]
      rfl
    have hcg : cget (c ++ b) 82 = .ok ((b ++ [0]).headD 0) := by
      have := cget_at (c := c) (b := b); rw [hce] at this
      rw [this]
      cases b <;> rfl
    unfold compare
    simp only [hl', Res.bind_ok, bufSize, hce, if_true, hx, Res.ofOption_some, hcg, true_and]
    cases b with
    | nil => simp [hce]
    | cons y b' =>
      have : y ≠ 0 := fun e => hb0 (by simp [e])
      simp [hce, this]
  · exfalso
    have := congrArg (fun l : List Nat => l[c.length]?) heq
    simp [List.getElem?_take, h'] at this
    exact hxy this

theorem prefixExtra_spec (e : List Byte) : ∀ (c a b : Bytes), a ++ [0] <+: e → 0 ∉ a → 0 ∉ b →
    prefixExtra (c ++ b) e c.length = .ok (decide (a <+: b ∨ b <+: a)) := by
  induction e with
  | nil => intro c a b h; simp at h
  | cons z r ih =>
    intro c a b h ha hb
    cases a with
    | nil =>
      have : z = 0 := (List.cons_prefix_cons.1 h).1.symm
      simp [prefixExtra, this]
    | cons x a =>
      obtain ⟨rfl, h'⟩ := List.cons_prefix_cons.1 (by simpa using h)
      have hx : x ≠ 0 := by intro hx; exact ha (by simp [hx])
      simp only [prefixExtra, hx, if_false, cget_at, Res.bind_ok]
      cases b with
      | nil => simp
      | cons y b =>
        have hy : y ≠ 0 := by intro hy; exact hb (by simp [hy])
        by_cases hxy : x = y
        · subst hxy
          have := ih (c ++ [x]) a b h' (fun hm => ha (List.mem_cons_of_mem _ hm))
            (fun hm => hb (List.mem_cons_of_mem _ hm))
          simp only [List.length_append, List.length_cons, List.length_nil, List.append_assoc,
            List.cons_append, List.nil_append] at this
          simp [hx, this, List.cons_prefix_cons]
        · simp [hy, hxy, Ne.symm hxy, List.cons_prefix_cons]

/-- C62: for every text and prefix the test for a prefix stays in the memory, and its result is 1
exactly when the text starts with the prefix -- or when the text has at least 82 bytes and is
itself a beginning of the prefix (a defect), and 0 otherwise. -/
theorem c62_starts_with (s : ES) (text p : Bytes) (h : Holds s text) (hp : 0 ∉ p) :
    startsWith s p =
      .ok (if p <+: text ∨ (82 ≤ text.length ∧ text <+: p) then 1 else 0) := by
  obtain ⟨c, a, b, h1, h2, hc, hcase⟩ :=
    prefixLoop_spec s 82 [] text p rfl (by simp) (by simpa using h) hp
  simp only [List.nil_append, List.length_nil] at h1 h2 hcase
  subst h1 h2
  have ha0 : 0 ∉ a := fun hm => h.noNul (List.mem_append_right _ hm)
  have hb0 : 0 ∉ b := fun hm => hp (List.mem_append_right _ hm)
  simp only [List.prefix_append_right_inj, List.length_append]
  rcases hcase with ⟨hl, hend⟩ | ⟨x, y, a', b', rfl, rfl, hxy, hlt, hl⟩
  · unfold startsWith
    simp only [hl, Res.bind_ok, bufSize]
    by_cases hce : c.length = 82
    · simp only [hce, if_true]
      rw [← hce, cget_at]
      simp only [Res.bind_ok, headD_zero hb0, prefixExtra_spec s.extra c a b (holds_extra h hce) ha0 hb0]
      by_cases hb : b = []
      · simp [hb]
      · simp [hb, Or.comm]
    · have hlt : c.length < 82 := by omega
      have hab : a = [] ∨ b = [] := by
        rcases hend with h' | h' | h'
        · omega
        · exact Or.inl h'
        · exact Or.inr h'
      simp only [hce, if_false, holds_buffer_at h hlt, Res.ofOption_some, Res.bind_ok,
        headD_zero ha0, cget_at, headD_zero hb0]
      cases a with
      | nil => cases b <;> simp [hlt]
      | cons x a' => 
        have hb : b = [] := by simpa using hab
        simp [hb]
  · unfold startsWith
    simp [hl, List.cons_prefix_cons, hxy, Ne.symm hxy]

/-- C62: the keyword tests of the parser (all prefixes have less than 82 bytes). -/
theorem c62_starts_with_short (s : ES) (text p : Bytes) (h : Holds s text) (hp : 0 ∉ p)
    (hshort : p.length < 82) :
    startsWith s p = .ok (if p <+: text then 1 else 0) := by
  rw [c62_starts_with s text p h hp]
  have : ¬ (82 ≤ text.length ∧ text <+: p) := by
    rintro ⟨h1, h2⟩
    have := h2.length_le
    omega
  simp [this]

/-! ## Reading, cutting and copying -/

theorem cells_get {s : ES} {c a : Bytes} (h : Cells s (c ++ a)) :
    get s c.length = .ok (a.headD 0) := by
  obtain ⟨t, ht⟩ := h.bytes
  have h1 : (s.buffer ++ s.extra)[c.length]? = some (a.headD 0) := by
    rw [← ht]; cases a <;> simp
  unfold get bufSize
  by_cases hc : c.length < 82
  · rw [List.getElem?_append_left (by rw [h.size]; exact hc)] at h1
    simp [hc, h1]
  · rw [List.getElem?_append_right (by rw [h.size]; omega), h.size] at h1
    simp [hc, h1]

/-- C62: reading character `i` of a text gives that character, and the terminator behind the
last one, wherever the text crosses from the array to the block. -/
theorem c62_get (s : ES) (cells : Bytes) (h : Cells s cells) (i : Nat) (hi : i ≤ cells.length) :
    get s i = .ok (cells.getD i 0) := by
  have h' : Cells s (cells.take i ++ cells.drop i) := by rw [List.take_append_drop]; exact h
  have := cells_get h'
  rw [List.length_take, Nat.min_eq_left hi] at this
  rw [this]
  congr 1
  rw [List.headD_eq_head?_getD, List.head?_drop, List.getD_eq_getElem?_getD]

/-- C62: writing a NUL at position `i` cuts the text there. -/
theorem c62_cut (s : ES) (cells : Bytes) (h : Cells s cells) (i : Nat) (hi : i ≤ cells.length) :
    ∃ s', set s i 0 = .ok s' ∧ Cells s' (cells.take i) ∧ s'.extra.length = s.extra.length := by
  obtain ⟨t, ht⟩ := h.bytes
  have hlen := congrArg List.length ht
  simp only [List.length_append, List.length_cons, List.length_nil, h.size] at hlen
  have key : cells.take i ++ [0] <+: (s.buffer ++ s.extra).set i 0 := by
    rw [← ht]
    have e : cells ++ [0] ++ t = cells.take i ++ (cells.drop i ++ ([0] ++ t)) := by
      rw [← List.append_assoc, List.take_append_drop, List.append_assoc]
    rw [e, List.set_append_right _ _ (by simp; omega)]
    have : i - (cells.take i).length = 0 := by simp; omega
    rw [this, List.prefix_append_right_inj]
    cases hd : cells.drop i with
    | nil => simp
    | cons x r => simp
  unfold set bufSize
  by_cases hc : i < 82
  · rw [if_pos hc, if_pos (by rw [h.size]; exact hc)]
    refine ⟨_, rfl, ⟨by simp [h.size], ?_⟩, rfl⟩
    rw [List.set_append_left _ _ (by rw [h.size]; exact hc)] at key
    exact key
  · rw [if_neg hc, if_pos (by omega)]
    refine ⟨_, rfl, ⟨h.size, ?_⟩, by simp⟩
    rw [List.set_append_right _ _ (by rw [h.size]; omega), h.size] at key
    exact key

theorem memcpy_ok {dst src : List Byte} {at_ from_ n : Nat} (h1 : at_ + n ≤ dst.length)
    (h2 : from_ + n ≤ src.length) :
    memcpy dst at_ src from_ n =
      .ok (dst.take at_ ++ (src.drop from_).take n ++ dst.drop (at_ + n)) := by
  unfold memcpy; rw [if_pos ⟨h1, h2⟩]

theorem memcpy_ub {dst src : List Byte} {at_ from_ n : Nat} (h1 : dst.length < n) :
    memcpy dst at_ src from_ n = .ub := by
  unfold memcpy; rw [if_neg (by omega)]

theorem sub64_gt {a b : Nat} (h : a < b) (hb : b < 9223372036854775808) :
    9223372036854775808 < sub64 a b := by
  unfold sub64 u64; omega

theorem sub64_le {a b : Nat} (h : b ≤ a) (ha : a < u64) : sub64 a b = a - b := by
  unfold sub64; unfold u64 at *; omega

theorem realloc_length (old : List Byte) (n : Nat) (fresh : Nat → Byte) :
    (realloc old n fresh).length = n := by simp [realloc]

/-- C62: copying a text from position `offset` on gives exactly the rest of the text, if the
lengths are such that no size wraps around (see `c62_copy_wraps`). -/
theorem c62_copy (fresh : Nat → Byte) (dst src : ES) (cells : Bytes) (offset : Nat)
    (hd : dst.buffer.length = 82) (h : Cells src cells) (hu : cells.length < u64)
    (ho : offset ≤ cells.length) (hfit : offset ≤ 82)
    (hsafe : cells.length < 82 ∨ offset + 81 ≤ cells.length) :
    ∃ d, copy fresh dst src cells.length offset = .ok d ∧ Cells d (cells.drop offset) ∧
      d.extra.length = if cells.length < 82 then dst.extra.length else cells.length - 81 := by
  obtain ⟨t, ht⟩ := h.bytes
  have hlen := congrArg List.length ht
  simp only [List.length_append, List.length_cons, List.length_nil, h.size] at hlen
  have hsub : sub64 82 offset = 82 - offset := sub64_le hfit (by unfold u64; omega)
  unfold copy bufSize
  rw [hsub, memcpy_ok (by omega) (by rw [h.size]; omega)]
  simp only [Res.bind_ok, List.take_zero, List.nil_append, Nat.zero_add]
  have hb1 : (List.drop offset src.buffer).take (82 - offset) = src.buffer.drop offset :=
    List.take_of_length_le (by simp [h.size])
  rw [hb1]
  by_cases hs : cells.length < 82
  · rw [if_neg (by omega), if_pos hs]
    refine ⟨_, rfl, ⟨by simp [hd, h.size]; try omega, ?_⟩, rfl⟩
    have h1 : (cells ++ [0]) <+: src.buffer :=
      List.prefix_of_prefix_length_le ⟨t, ht⟩ (List.prefix_append _ _) (by simp [h.size]; omega)
    obtain ⟨t1, h1⟩ := h1
    have h2 : (cells ++ [0]).drop offset <+: src.buffer.drop offset :=
      ⟨t1, by
        rw [← h1, List.drop_append_of_le_length (l₁ := cells ++ [0]) (by simp; omega)]⟩
    rw [List.drop_append_of_le_length ho] at h2
    exact h2.trans (by simp)
  · rw [if_pos (by omega), if_neg hs]
    have hn : cells.length - 82 + 1 = cells.length - 81 := by omega
    have hall : (src.buffer ++ src.extra).take (cells.length + 1) = cells ++ [0] := by
      rw [← ht, List.take_left' (by simp)]
    have hall2 : src.buffer ++ src.extra.take (cells.length - 81) = cells ++ [0] := by
      rw [← hall, List.take_append, h.size,
        List.take_of_length_le (l := src.buffer) (by rw [h.size]; omega)]
      congr 2
    by_cases h0 : offset = 0
    · subst h0
      rw [if_neg (by simp), hn, memcpy_ok (by rw [realloc_length]; omega) (by omega)]
      simp only [Res.bind_ok]
      refine ⟨_, rfl, ⟨by simp [hd, h.size], ?_⟩, by simp [realloc_length]; omega⟩
      refine ⟨[], ?_⟩
      simp only [List.drop_zero, List.take_zero, List.nil_append, Nat.zero_add,
        Nat.sub_zero]
      rw [List.drop_of_length_le (l := realloc _ _ _) (by simp [realloc_length]),
        List.drop_of_length_le (l := dst.buffer) (by rw [hd]; omega), List.append_nil,
        List.append_nil, List.append_nil, hall2]
    · rw [if_pos (by simpa using h0), hn, sub64_le (by omega) (by omega),
        memcpy_ok (by simp [hd, h.size]; omega) (by omega)]
      simp only [Res.bind_ok]
      rw [memcpy_ok (by rw [realloc_length]; omega) (by omega)]
      simp only [Res.bind_ok]
      refine ⟨_, rfl, ⟨by simp [hd, h.size]; omega, ?_⟩, by simp [realloc_length]; omega⟩
      have e1 : (List.drop offset src.buffer ++ List.drop (82 - offset) dst.buffer).take (82 - offset)
          = src.buffer.drop offset := List.take_left' (by simp [h.size])
      have e2 : (List.drop offset src.buffer ++ List.drop (82 - offset) dst.buffer).drop
          (82 - offset + offset) = [] := List.drop_of_length_le (by simp [h.size, hd]; omega)
      simp only [e1, e2, List.drop_zero, List.take_zero, List.nil_append, List.append_nil]
      have e3 : src.extra.take offset ++ (src.extra.drop offset).take (cells.length - 81 - offset)
          = src.extra.take (cells.length - 81) := by
        have : cells.length - 81 = offset + (cells.length - 81 - offset) := by omega
        rw [this, List.take_add]
        congr 2; omega
      have e4 : cells.drop offset ++ [0] =
          src.buffer.drop offset ++ src.extra.take (cells.length - 81) := by
        rw [← List.drop_append_of_le_length ho, ← hall2,
          List.drop_append_of_le_length (by rw [h.size]; exact hfit)]
      rw [e4, ← e3]
      refine ⟨(realloc dst.extra (cells.length - 81) fresh).drop (0 + (cells.length - 81 - offset)), ?_⟩
      simp only [List.append_assoc]

/-- C62: the copy is undefined behaviour when the offset is larger than the array, and when a
text of at least 82 bytes is copied from an offset past the start of its last 81 bytes: the size
of a `memcpy` wraps around. -/
theorem c62_copy_wraps (fresh : Nat → Byte) (dst src : ES) (cells : Bytes) (offset : Nat)
    (hd : dst.buffer.length = 82) (hs : src.buffer.length = 82)
    (hu : cells.length < 9223372036854775808) (ho : offset ≤ cells.length)
    (hbad : 82 < offset ∨ (82 ≤ cells.length ∧ cells.length < offset + 81)) :
    copy fresh dst src cells.length offset = .ub := by
  unfold copy bufSize
  by_cases hfit : offset ≤ 82
  · have hl : 82 ≤ cells.length ∧ cells.length < offset + 81 := by
      rcases hbad with h | h
      · omega
      · exact h
    rw [sub64_le hfit (by unfold u64; omega), memcpy_ok (by omega) (by omega)]
    simp only [Res.bind_ok]
    rw [if_pos hl.1, if_pos (by simp; omega)]
    have h3 := sub64_gt (a := cells.length - 82 + 1) (b := offset) (by omega) (by omega)
    have h4 : memcpy (realloc dst.extra (cells.length - 82 + 1) fresh) 0 src.extra offset
        (sub64 (cells.length - 82 + 1) offset) = .ub :=
      memcpy_ub (by rw [realloc_length]; omega)
    rw [h4]
    generalize hm : memcpy _ _ src.extra 0 offset = m
    unfold memcpy at hm
    split at hm
    · rw [← hm]; rfl
    · rw [← hm]; rfl
  · have h3 := sub64_gt (a := 82) (b := offset) (by omega) (by omega)
    rw [memcpy_ub (by rw [hd]; omega), Res.bind_ub]

/-- C62: the copy handed to the callback (a block of one more byte than the text, with a
terminator written behind the copy by the parser) is the text. -/
theorem c62_copy_to_string (dst : List Byte) (src : ES) (cells : Bytes) (h : Cells src cells)
    (hd : dst.length = cells.length + 1) :
    ∃ d, copyToString dst src cells.length = .ok d ∧ d.length = dst.length ∧
      d.set cells.length 0 = cells ++ [0] := by
  obtain ⟨t, ht⟩ := h.bytes
  have hlen := congrArg List.length ht
  simp only [List.length_append, List.length_cons, List.length_nil, h.size] at hlen
  unfold copyToString bufSize
  by_cases hs : cells.length < 82
  · rw [if_pos hs, memcpy_ok (by omega) (by rw [h.size]; omega)]
    refine ⟨_, rfl, by simp [h.size]; omega, ?_⟩
    have h1 : src.buffer.take cells.length = cells := by
      have := congrArg (List.take cells.length) ht
      rw [List.append_assoc, List.take_left, List.take_append_of_le_length (by rw [h.size]; omega)]
        at this
      exact this.symm
    simp only [List.take_zero, List.nil_append, List.drop_zero, h1, Nat.zero_add]
    rw [List.set_append_right _ _ (Nat.le_refl _), Nat.sub_self]
    congr 1
    have : (dst.drop cells.length).length = 1 := by simp [hd]
    match hm : dst.drop cells.length, this with
    | [x], _ => rfl
  · rw [if_neg hs, memcpy_ok (by omega) (by rw [h.size]; omega)]
    simp only [Res.bind_ok]
    have hn : cells.length - 82 + 1 = cells.length - 81 := by omega
    rw [hn, memcpy_ok (by simp [h.size]; omega) (by omega)]
    refine ⟨_, rfl, by simp [h.size]; omega, ?_⟩
    have hall : (src.buffer ++ src.extra).take (cells.length + 1) = cells ++ [0] := by
      rw [← ht, List.take_left' (by simp)]
    have hall2 : src.buffer ++ src.extra.take (cells.length - 81) = cells ++ [0] := by
      rw [← hall, List.take_append, h.size,
        List.take_of_length_le (l := src.buffer) (by rw [h.size]; omega)]
      congr 2
    have e1 : src.buffer.take 82 = src.buffer := List.take_of_length_le (by rw [h.size]; omega)
    simp only [List.take_zero, List.nil_append, List.drop_zero, e1, Nat.zero_add]
    rw [List.take_left' h.size]
    rw [List.drop_of_length_le (l := src.buffer ++ List.drop 82 dst) (by simp [h.size]; omega),
      List.append_nil, hall2, List.set_append_right _ _ (Nat.le_refl _), Nat.sub_self]
    rfl

/-! ## Keyword names -/

theorem skipBlanks_spec (s : ES) : ∀ (a c : Bytes), Cells s (c ++ a) →
    skipBlanks s c.length = .ok (c.length + (a.takeWhile (· = 32)).length) := by
  intro a
  induction a with
  | nil =>
    intro c h
    have hlen := h.bytes.length_le
    simp only [List.length_append, List.length_cons, List.length_nil, h.size] at hlen
    rw [skipBlanks]
    simp [bufSize, show c.length < 82 + s.extra.length by omega, cells_get h]
  | cons x r ih =>
    intro c h
    have hlen := h.bytes.length_le
    simp only [List.length_append, List.length_cons, List.length_nil, h.size] at hlen
    rw [skipBlanks]
    simp only [bufSize, show c.length < 82 + s.extra.length by omega, dite_true, cells_get h,
      Res.bind_ok, List.headD_cons]
    by_cases hx : x = 32
    · have := ih (c ++ [x]) (by simpa using h)
      simp only [List.length_append, List.length_cons, List.length_nil] at this
      simp only [Nat.zero_add] at this
      rw [if_pos hx, this]
      simp [hx]; omega
    · simp [hx]

theorem nameLength_spec (s : ES) : ∀ (a c : Bytes), Cells s (c ++ a) →
    nameLength s c.length =
      .ok (c.length + (a.takeWhile (fun b => b ≠ 32 ∧ b ≠ 0)).length) := by
  intro a
  induction a with
  | nil =>
    intro c h
    have hlen := h.bytes.length_le
    simp only [List.length_append, List.length_cons, List.length_nil, h.size] at hlen
    rw [nameLength]
    simp [bufSize, show c.length < 82 + s.extra.length by omega, cells_get h]
  | cons x r ih =>
    intro c h
    have hlen := h.bytes.length_le
    simp only [List.length_append, List.length_cons, List.length_nil, h.size] at hlen
    rw [nameLength]
    simp only [bufSize, show c.length < 82 + s.extra.length by omega, dite_true, cells_get h,
      Res.bind_ok, List.headD_cons]
    by_cases hx : x = 32 ∨ x = 0
    · rw [if_pos hx]
      rcases hx with rfl | rfl <;> simp
    · have := ih (c ++ [x]) (by simpa using h)
      simp only [List.length_append, List.length_cons, List.length_nil, Nat.zero_add] at this
      rw [if_neg hx, this]
      have : x ≠ 32 ∧ x ≠ 0 := by omega
      simp [this.1, this.2]; omega

/-- C62: on a keyword line the parser's work on the memory of the line and of the current name
gives the text from behind the asterisk up to the first blank or the end of the line, whatever the
name held before; exactly where the text level model of the parser says so. -/
theorem c62_take_name (fresh : Nat → Byte) (cur line : ES) (cells name : Bytes)
    (hd : cur.buffer.length = 82) (h : Cells line cells) (hu : cells.length < u64)
    (hkey : Key.isKeyword cells = true) (hname : Key.keywordName cells = .ok name) :
    ∃ s, takeName fresh cur line cells.length = .ok (s, name.length) ∧ Holds s name ∧
      name = (((cells.dropWhile (· = 32)).drop 1).takeWhile (fun b => b ≠ 32 ∧ b ≠ 0)) := by
  have hdw : cells.drop (Key.blanks cells) = cells.dropWhile (· = 32) := by
    unfold Key.blanks Key.charBlank
    have := List.takeWhile_append_dropWhile (p := fun x : Nat => decide (x = 32)) (l := cells)
    conv => lhs; rw [← this]
    rw [List.drop_left' (by rw [this])]
  have hlt : Key.blanks cells < cells.length := by
    unfold Key.isKeyword at hkey
    have hkey := of_decide_eq_true hkey
    rcases Nat.lt_or_ge (Key.blanks cells) cells.length with h' | h'
    · exact h'
    · rw [List.getElem?_eq_none h'] at hkey; cases hkey
  unfold Key.keywordName Key.bufferSize at hname
  simp only at hname
  split at hname
  · cases hname
  rename_i h1
  split at hname
  · cases hname
  rename_i h2
  have hname' := Res.ok.inj hname
  obtain ⟨d, hc, hcells, -⟩ := c62_copy fresh cur line cells (Key.blanks cells + 1) hd h hu (by omega)
    (by omega) (by omega)
  have hsb := skipBlanks_spec line cells [] (by simpa using h)
  simp only [List.length_nil, Nat.zero_add] at hsb
  have hnl := nameLength_spec d (cells.drop (Key.blanks cells + 1)) [] (by simpa using hcells)
  simp only [List.length_nil, Nat.zero_add] at hnl
  have hn2 : (cells.drop (Key.blanks cells + 1)).takeWhile (fun b => b ≠ 32 ∧ b ≠ 0) = name := by
    rw [← hname']; rfl
  rw [hn2] at hnl
  have hpre : name <+: cells.drop (Key.blanks cells + 1) := by
    rw [← hn2]; exact List.takeWhile_prefix _
  obtain ⟨d', hset, hcut, -⟩ := c62_cut d _ hcells name.length hpre.length_le
  refine ⟨d', ?_, ⟨?_, ?_⟩, ?_⟩
  · unfold takeName
    rw [hsb]
    simp only [Res.bind_ok]
    rw [show (cells.takeWhile (fun x => decide (x = 32))).length = Key.blanks cells from rfl, hc]
    simp only [Res.bind_ok, hnl, hset]
  · rwa [← List.prefix_iff_eq_take.1 hpre] at hcut
  · rw [← hn2]
    intro hm
    have := List.all_takeWhile (p := fun b : Nat => decide (b ≠ 32 ∧ b ≠ 0))
      (l := cells.drop (Key.blanks cells + 1))
    have := (List.all_eq_true.1 this) 0 hm
    simp at this
  · rw [← hn2, ← hdw, List.drop_drop]

/-- C62: ... and it is undefined behaviour exactly where the text level model says so. -/
theorem c62_take_name_ub (fresh : Nat → Byte) (cur line : ES) (cells : Bytes)
    (hd : cur.buffer.length = 82) (h : Cells line cells)
    (hu : cells.length < 9223372036854775808) (hkey : Key.isKeyword cells = true) :
    Key.keywordName cells = .ub ↔ takeName fresh cur line cells.length = .ub := by
  constructor
  · intro hname
    have hlt : Key.blanks cells < cells.length := by
      unfold Key.isKeyword at hkey
      have hkey := of_decide_eq_true hkey
      rcases Nat.lt_or_ge (Key.blanks cells) cells.length with h' | h'
      · exact h'
      · rw [List.getElem?_eq_none h'] at hkey; cases hkey
    have hsb := skipBlanks_spec line cells [] (by simpa using h)
    simp only [List.length_nil, Nat.zero_add] at hsb
    have := c62_copy_wraps fresh cur line cells (Key.blanks cells + 1) hd h.size hu (by omega) (by
      unfold Key.keywordName Key.bufferSize at hname
      simp only at hname
      split at hname
      · omega
      · split at hname
        · omega
        · cases hname)
    unfold takeName
    rw [hsb]
    simp only [Res.bind_ok]
    rw [show (cells.takeWhile (fun x => decide (x = 32))).length = Key.blanks cells from rfl, this]
    rfl
  · intro hub
    cases hn : Key.keywordName cells with
    | ub => rfl
    | ok name =>
      obtain ⟨s, hs, -⟩ := c62_take_name fresh cur line cells name hd h
        (by unfold u64; omega) hkey hn
      rw [hs] at hub; cases hub
    | err => unfold Key.keywordName at hn; simp only at hn; split at hn <;> (try split at hn) <;> cases hn
    | abort => unfold Key.keywordName at hn; simp only at hn; split at hn <;> (try split at hn) <;> cases hn

theorem cstrOf_cells (a t : Bytes) : cstrOf (a ++ 0 :: t) = .ok (a.takeWhile (· ≠ 0)) := by
  induction a with
  | nil => simp [cstrOf]
  | cons x r ih =>
    by_cases hx : x = 0
    · simp [cstrOf, hx]
    · simp [cstrOf, hx] at ih ⊢
      rw [ih]; rfl

/-- C62: a card handed to the callback is exactly the line up to where the comment was cut off,
for lines of every length (`card.string`, the same code as for names). -/
theorem c62_card_text (junk : List Byte) (s : ES) (cells : Bytes) (h : Cells s cells)
    (hj : cells.length < junk.length) :
    nameForCallback junk s cells.length = .ok (Key.cstr cells) := by
  unfold nameForCallback bufSize Key.cstr
  by_cases hs : cells.length < 82
  · rw [if_pos hs]
    have h1 : (cells ++ [0]) <+: s.buffer :=
      List.prefix_of_prefix_length_le h.bytes (List.prefix_append _ _) (by simp [h.size]; omega)
    obtain ⟨t, ht⟩ := h1
    rw [← ht, List.append_assoc]
    exact cstrOf_cells cells t
  · rw [if_neg hs]
    have hl : (junk.take (cells.length + 1)).length = cells.length + 1 := by simp; omega
    obtain ⟨d, hd, hdl, hset⟩ := c62_copy_to_string (junk.take (cells.length + 1)) s cells h hl
    rw [hd]
    simp only [Res.bind_ok]
    rw [if_pos (by omega), hset]
    exact cstrOf_cells cells []

/-- C62: the callback gets exactly the name, for names of every length. -/
theorem c62_callback_name (junk : List Byte) (s : ES) (name : Bytes) (h : Holds s name)
    (hj : name.length < junk.length) :
    nameForCallback junk s name.length = .ok name := by
  rw [c62_card_text junk s name h.toCells hj]
  unfold Key.cstr
  congr 1
  have : ∀ l : Bytes, 0 ∉ l → l.takeWhile (fun x => decide (x ≠ 0)) = l := by
    intro l
    induction l with
    | nil => intro _; rfl
    | cons x r ih =>
      intro hl
      simp only [List.mem_cons, not_or] at hl
      have hx : x ≠ 0 := fun h0 => hl.1 h0.symm
      rw [List.takeWhile_cons, if_pos (by simpa using hx), ih hl.2]
  exact this name h.noNul

/-! ## The line reader leaves its line in such a memory -/

/-- The array and the block of the memory of the line reader model. -/
def ofMem (m : Key.Mem) : ES :=
  ⟨(List.range 82).map m.get, (List.range m.cap).map fun i => m.get (82 + i)⟩

theorem ofMem_append (m : Key.Mem) :
    (ofMem m).buffer ++ (ofMem m).extra = (List.range (82 + m.cap)).map m.get := by
  unfold ofMem
  rw [List.range_add, List.map_append, List.map_map]
  rfl

/-- C62: after a line has been read, the reader's memory holds its text with a terminator; so the
functions above apply to it. Where the comment starts the memory is cut (`c62_cut`). -/
theorem c62_reader (n : Nat) (hn : 0 < n) (r : Key.Reader) (hb : r.eof = true → r.rest = [])
    (hmore : ¬ (r.eof = true ∧ r.chunk = [])) :
    ∃ r' line, Key.readLine n r = .ok (r', some line) ∧ Cells (ofMem r'.mem) line.text := by
  have h0 : Key.LineOk ⟨0, 0, none, r.mem⟩ [] := ⟨rfl, rfl, rfl, rfl, rfl⟩
  obtain ⟨r', l', t', g1, g2, g3, g4⟩ :=
    Key.lineLoop_any hn (r.rest.length + 2) (r := r) (by split <;> omega) h0 hb
  have hin : l'.mem.inside l'.cursor = true := by rw [g2.cursor]; exact g2.inside
  refine ⟨{ r' with mem := l'.mem.set l'.cursor 0 },
    ⟨(List.range l'.len).map (l'.mem.set l'.cursor 0).get, l'.comment⟩, ?_, ?_, ?_⟩
  · unfold Key.readLine
    rw [if_neg hmore, g1]
    simp only
    rw [if_neg (by rw [hin]; decide)]
  · simp [ofMem]
  · rw [ofMem_append]
    have hi := g2.inside
    unfold Key.Mem.inside Key.bufferSize at hi
    simp only [Bool.or_eq_true, decide_eq_true_eq] at hi
    have hle : l'.len + 1 ≤ 82 + l'.mem.cap := by omega
    have e : 82 + (l'.mem.set l'.cursor 0).cap = (l'.len + 1) + (82 + l'.mem.cap - (l'.len + 1)) := by
      simp only [Key.Mem.set]; omega
    simp only
    rw [e, List.range_add, List.map_append, List.range_succ, List.map_append]
    have : List.map (l'.mem.set l'.cursor 0).get [l'.len] = [0] := by
      simp [Key.Mem.set, g2.cursor]
    rw [this]
    exact List.prefix_append _ _

/-! ## Examples -/

/-- A name of 100 bytes: `A` 100 times, in the array and a block of 19 bytes. -/
def longName : ES := ⟨List.replicate 82 65, List.replicate 18 65 ++ [0]⟩

theorem longName_holds : Holds longName (List.replicate 100 65) :=
  { size := by decide +kernel
    bytes := by decide +kernel
    noNul := by decide }

/-- A keyword line of 90 bytes with one leading blank, with a comment cut off. -/
def longLine : ES :=
  ⟨[32, 42] ++ List.replicate 80 66, List.replicate 5 66 ++ [32, 67, 68, 0]⟩

def longLineCells : Bytes := [32, 42] ++ List.replicate 85 66 ++ [32, 67, 68]

theorem longLine_cells : Cells longLine longLineCells := ⟨by decide +kernel, by decide +kernel⟩

example : ∃ v : Int, compare longName (bs "INCLUDE") = .ok v ∧ v ≠ 0 := by
  obtain ⟨v, h, h0, -⟩ := c62_compare longName (List.replicate 100 65) (bs "INCLUDE") longName_holds
    (by decide +kernel) (by decide +kernel) (by decide +kernel)
  exact ⟨v, h, fun hv => absurd (h0.1 hv) (by decide +kernel)⟩

/-- Comparing the long name with itself reads behind the block. -/
theorem c62_compare_long_witness : compare longName (List.replicate 100 65) = .ub :=
  c62_compare_long longName _ _ longName_holds (by decide +kernel) (by decide +kernel) rfl (by decide +kernel) (by decide +kernel)

/-- The long name is said to start with a longer prefix. -/
theorem c62_starts_with_wrong :
    startsWith longName (List.replicate 100 65 ++ [66]) = .ok 1 ∧
    ¬ (List.replicate 100 65 ++ [66]) <+: (List.replicate 100 65) := by
  refine ⟨?_, by intro h; exact absurd h.length_le (by decide +kernel)⟩
  rw [c62_starts_with longName (List.replicate 100 65) _ longName_holds (by decide +kernel)]
  simp

example (fresh : Nat → Byte) :
    ∃ s, takeName fresh longName longLine 90 = .ok (s, 85) ∧ Holds s (List.replicate 85 66) := by
  have hn : Key.keywordName longLineCells = .ok (List.replicate 85 66) := by decide +kernel
  obtain ⟨s, h1, h2, -⟩ := c62_take_name fresh longName longLine longLineCells _ (by decide +kernel)
    longLine_cells (by decide +kernel) (by decide +kernel) hn
  exact ⟨s, h1, h2⟩

/-- A line of 82 bytes with a leading blank cannot be used: the copy leaves the memory. -/
example (fresh : Nat → Byte) :
    takeName fresh longName ⟨[32, 42] ++ List.replicate 80 66, [0]⟩ 82 = .ub := by
  have := (c62_take_name_ub fresh longName ⟨[32, 42] ++ List.replicate 80 66, [0]⟩
    ([32, 42] ++ List.replicate 80 66) (by decide +kernel) ⟨by decide +kernel, by decide +kernel⟩ (by decide +kernel)
    (by decide +kernel)).1 (by decide +kernel)
  exact this

example : nameForCallback (List.replicate 200 7) longName 100 = .ok (List.replicate 100 65) := by
  have := c62_callback_name (List.replicate 200 7) longName _ longName_holds (by decide +kernel)
  exact this

end Dyna.ExtraString
