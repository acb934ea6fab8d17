import Verif.LineReader
/-!
# Properties of the line reader (C41, C42)
-/

namespace Dyna.Key

/-! ## Specification -/

/-- The text between newlines. -/
def pieces : Bytes → List Bytes
  | [] => [[]]
  | x :: xs =>
    if x = charNewline then [] :: pieces xs
    else
      match pieces xs with
      | p :: ps => (x :: p) :: ps
      | [] => [[x]]

/-- A line without carriage returns. -/
def strip (p : Bytes) : Bytes := p.filter (· ≠ charReturn)

/-- The lines of a text: a newline at the end does not start another line. -/
def textLines (content : Bytes) : List Bytes :=
  let ps := pieces content
  (if ps.getLast? = some [] then ps.dropLast else ps).map strip

/-- Position of the first '$'. -/
def commentOf (text : Bytes) : Option Nat := text.findIdx? (· = charComment)

/-! ## One line -/

def textOf (m : Mem) (len : Nat) : Bytes := (List.range len).map m.get

structure LineOk (l : LineSt) (t : Bytes) : Prop where
  cursor : l.cursor = l.len
  len : l.len = t.length
  inside : l.mem.inside l.len = true
  text : textOf l.mem l.len = t
  comment : l.comment = commentOf t

/-- No newline in the memory. -/
def NoNewline (m : Mem) : Prop := ∀ i, m.get i ≠ charNewline

theorem advance_ok {l : LineSt} (hc : l.cursor + 1 = l.len) (hi : l.mem.inside l.cursor = true) :
    l.advance.cursor = l.len ∧ l.advance.len = l.len ∧ l.advance.mem.inside l.len = true ∧
    l.advance.mem.get = l.mem.get ∧ l.advance.comment = l.comment := by
  unfold LineSt.advance Mem.inside at *
  simp only [Bool.or_eq_true, decide_eq_true_eq] at hi
  unfold bufferSize at *
  split
  · refine ⟨rfl, rfl, ?_, rfl, rfl⟩
    simp only [Bool.or_eq_true, decide_eq_true_eq]
    omega
  · split
    · refine ⟨by simp only; omega, rfl, ?_, rfl, rfl⟩
      simp only [Bool.or_eq_true, decide_eq_true_eq]
      omega
    · refine ⟨hc, rfl, ?_, rfl, rfl⟩
      simp only [Bool.or_eq_true, decide_eq_true_eq]
      omega

theorem textOf_set {m : Mem} {i x len : Nat} (h : len ≤ i) : textOf (m.set i x) len = textOf m len := by
  unfold textOf Mem.set
  apply List.map_congr_left
  intro j hj
  rw [List.mem_range] at hj
  simp only
  rw [if_neg (by omega)]

theorem textOf_set_succ (m : Mem) (x len : Nat) : textOf (m.set len x) (len + 1) = textOf m len ++ [x] := by
  unfold textOf
  rw [List.range_succ, List.map_append]
  congr 1
  · exact textOf_set (Nat.le_refl _)
  · simp [Mem.set]

theorem commentOf_append (t : Bytes) (x : Nat) : commentOf (t ++ [x]) =
    if commentOf t = none ∧ x = charComment then some t.length else commentOf t := by
  unfold commentOf
  rw [List.findIdx?_append]
  cases h : List.findIdx? (fun x => decide (x = charComment)) t with
  | some i => simp
  | none =>
    simp only [true_and]
    by_cases hx : x = charComment
    · rw [if_pos hx]
      simp [List.findIdx?_cons, hx]
    · rw [if_neg hx]
      simp [List.findIdx?_cons, hx]

/-- The loop over the buffer. -/
theorem readBuffer_spec : ∀ (chunk : Bytes) {l : LineSt} {t : Bytes}, LineOk l t →
    ∃ l', readBuffer chunk l = .ok ((chunk.dropWhile (· ≠ charNewline)).tail, l') ∧
      LineOk l' (t ++ strip (chunk.takeWhile (· ≠ charNewline))) ∧
      (charNewline ∈ chunk → l'.mem.get l'.cursor = charNewline) ∧
      (NoNewline l.mem → (charNewline ∉ chunk → NoNewline l'.mem) ∧
        ∀ i, i ≠ l'.cursor → l'.mem.get i ≠ charNewline) := by
  intro chunk
  induction chunk with
  | nil =>
    intro l t h
    refine ⟨l, rfl, ?_, ?_, ?_⟩
    · simpa [strip] using h
    · intro h; cases h
    · intro hn; exact ⟨fun _ => hn, fun i _ => hn i⟩
  | cons x xs ih =>
    intro l t h
    have hin : l.mem.inside l.cursor = true := by rw [h.cursor]; exact h.inside
    unfold readBuffer
    rw [if_neg (by rw [hin]; decide)]
    simp only
    have hset : ∀ i, (l.mem.set l.cursor x).inside i = l.mem.inside i := fun i => rfl
    by_cases hr : x = charReturn
    · have hx : ¬ (l.comment = none ∧ x = charComment) := by
        intro hc
        rw [hr] at hc
        exact absurd hc.2 (by decide)
      rw [if_neg hx, if_pos hr]
      have hne : x ≠ charNewline := by rw [hr]; decide
      have hok : LineOk { l with mem := l.mem.set l.cursor x } t := by
        refine ⟨h.cursor, h.len, h.inside, ?_, h.comment⟩
        simp only
        rw [textOf_set (by rw [h.cursor]; exact Nat.le_refl _)]
        exact h.text
      obtain ⟨l', e1, e2, e3, e4⟩ := ih hok
      refine ⟨l', ?_, ?_, ?_, ?_⟩
      · rw [e1]
        simp [hne]
      · have : strip ((x :: xs).takeWhile (· ≠ charNewline)) = strip (xs.takeWhile (· ≠ charNewline)) := by
          simp only [List.takeWhile_cons, hne, ne_eq, not_false_eq_true, decide_true, if_true, strip,
            List.filter_cons]
          simp [hr]
        rw [this]
        exact e2
      · intro hm
        rcases List.mem_cons.1 hm with hm | hm
        · exact absurd hm.symm hne
        · exact e3 hm
      · intro hn
        have hn' : NoNewline { l with mem := l.mem.set l.cursor x }.mem := by
          intro i
          simp only [Mem.set]
          split
          · exact hne
          · exact hn i
        refine ⟨fun hm => (e4 hn').1 fun hc => hm (List.mem_cons_of_mem _ hc), (e4 hn').2⟩
    · by_cases hnl : x = charNewline
      · have hx : ¬ (l.comment = none ∧ x = charComment) := by
          intro hc
          rw [hnl] at hc
          exact absurd hc.2 (by decide)
        rw [if_neg hx, if_neg hr, if_pos hnl]
        refine ⟨{ l with mem := l.mem.set l.cursor x }, by simp [hnl], ?_, ?_, ?_⟩
        · have : strip ((x :: xs).takeWhile (· ≠ charNewline)) = [] := by simp [strip, hnl]
          rw [this, List.append_nil]
          refine ⟨h.cursor, h.len, h.inside, ?_, h.comment⟩
          simp only
          rw [textOf_set (by rw [h.cursor]; exact Nat.le_refl _)]
          exact h.text
        · intro _
          simp [Mem.set, hnl]
        · intro hn
          refine ⟨fun hm => absurd (by rw [hnl]; exact List.mem_cons_self) hm, ?_⟩
          intro i hi
          simp only [Mem.set]
          simp only at hi
          rw [if_neg hi]
          exact hn i
      · rw [if_neg hr, if_neg hnl]
        generalize hl1 : (if l.comment = none ∧ x = charComment then
          ({ l with mem := l.mem.set l.cursor x, comment := some l.len } : LineSt)
          else { l with mem := l.mem.set l.cursor x }) = l1
        have f1 : l1.cursor = l.cursor := by rw [← hl1]; split <;> rfl
        have f2 : l1.len = l.len := by rw [← hl1]; split <;> rfl
        have f3 : l1.mem = l.mem.set l.cursor x := by rw [← hl1]; split <;> rfl
        have f4 : l1.comment = if l.comment = none ∧ x = charComment then some l.len else l.comment := by
          rw [← hl1]; split <;> rfl
        have ha := advance_ok (l := { l1 with len := l1.len + 1 }) (by simp only; rw [f1, f2, h.cursor])
          (by simp only; rw [f1, f3, hset]; exact hin)
        obtain ⟨a1, a2, a3, a4, a5⟩ := ha
        simp only at a1 a2 a3 a4 a5
        have hok : LineOk ({ l1 with len := l1.len + 1 } : LineSt).advance (t ++ [x]) := by
          refine ⟨by rw [a1, a2], ?_, by rw [a2]; exact a3, ?_, ?_⟩
          · rw [a2, f2, h.len]
            simp
          · rw [a2]
            unfold textOf
            rw [a4, f3, f2, h.cursor]
            have := textOf_set_succ l.mem x l.len
            unfold textOf at this
            rw [this]
            congr 1
            exact h.text
          · rw [a5, f4, commentOf_append, ← h.comment, h.len]
        obtain ⟨l', e1, e2, e3, e4⟩ := ih hok
        refine ⟨l', ?_, ?_, ?_, ?_⟩
        · rw [e1]
          simp [hnl]
        · have : strip ((x :: xs).takeWhile (· ≠ charNewline)) = x :: strip (xs.takeWhile (· ≠ charNewline)) := by
            simp [strip, hnl, hr]
          rw [this]
          simpa using e2
        · intro hm
          rcases List.mem_cons.1 hm with hm | hm
          · exact absurd hm.symm hnl
          · exact e3 hm
        · intro hn
          have hn' : NoNewline ({ l1 with len := l1.len + 1 } : LineSt).advance.mem := by
            intro i
            rw [a4, f3]
            simp only [Mem.set]
            split
            · exact hnl
            · exact hn i
          refine ⟨fun hm => (e4 hn').1 fun hc => hm (List.mem_cons_of_mem _ hc), (e4 hn').2⟩

/-- The bytes that have not been used. -/
def Reader.content (r : Reader) : Bytes := r.chunk ++ r.rest

/-- What holds between two lines: `total` is the size of the file. -/
structure Between (n total : Nat) (r : Reader) : Prop where
  open_ : r.eof = false → r.rest.length ≤ total ∧ n ∣ total - r.rest.length
  closed : r.eof = true → r.rest = [] ∧ ¬ n ∣ total

theorem takeWhile_append_nl {a b : Bytes} (h : charNewline ∉ a) :
    (a ++ b).takeWhile (· ≠ charNewline) = a ++ b.takeWhile (· ≠ charNewline) := by
  induction a with
  | nil => rfl
  | cons x xs ih =>
    have hx : x ≠ charNewline := fun h' => h (by rw [h']; exact List.mem_cons_self)
    have := ih (fun h' => h (List.mem_cons_of_mem _ h'))
    simp [hx] at this ⊢
    exact this

theorem dropWhile_append_nl {a b : Bytes} (h : charNewline ∉ a) :
    (a ++ b).dropWhile (· ≠ charNewline) = b.dropWhile (· ≠ charNewline) := by
  induction a with
  | nil => rfl
  | cons x xs ih =>
    have hx : x ≠ charNewline := fun h' => h (by rw [h']; exact List.mem_cons_self)
    have := ih (fun h' => h (List.mem_cons_of_mem _ h'))
    simp [hx] at this ⊢
    exact this

theorem takeWhile_eq_self {a : Bytes} (h : charNewline ∉ a) : a.takeWhile (· ≠ charNewline) = a := by
  have := takeWhile_append_nl (b := []) h
  simpa using this

theorem takeWhile_append_of_mem {a b : Bytes} (h : charNewline ∈ a) :
    (a ++ b).takeWhile (· ≠ charNewline) = a.takeWhile (· ≠ charNewline) ∧
    ((a ++ b).dropWhile (· ≠ charNewline)).tail = (a.dropWhile (· ≠ charNewline)).tail ++ b := by
  induction a with
  | nil => cases h
  | cons x xs ih =>
    by_cases hx : x = charNewline
    · simp [hx]
    · have := ih (by
        rcases List.mem_cons.1 h with h | h
        · exact absurd h.symm hx
        · exact h)
      simp [hx] at this ⊢
      exact this

theorem lineLoop_spec {n total : Nat} (hn : 0 < n) : ∀ (fuel : Nat) {r : Reader} {l : LineSt} {t : Bytes},
    r.rest.length + (if r.chunk = [] then 1 else 2) ≤ fuel → LineOk l t → NoNewline l.mem →
    Between n total r →
    ∃ r' l', lineLoop n fuel r l = .ok (r', l') ∧
      LineOk l' (t ++ strip (r.content.takeWhile (· ≠ charNewline))) ∧
      r'.content = (r.content.dropWhile (· ≠ charNewline)).tail ∧
      (∀ i, i ≠ l'.cursor → l'.mem.get i ≠ charNewline) ∧
      (charNewline ∈ r.content → Between n total r') ∧
      (charNewline ∉ r.content → r'.eof = true ∧ r'.content = []) := by
  intro fuel
  induction fuel with
  | zero => intro r l t hf; split at hf <;> omega
  | succ fuel ih =>
    intro r l t hf hl hm hb
    unfold lineLoop
    -- the chunk that is used
    generalize hr1 : (if r.chunk = [] then
      ({ r with chunk := r.rest.take n, rest := r.rest.drop n, eof := r.eof || r.rest.length < n } : Reader)
      else r) = r1
    have hcont : r1.content = r.content := by
      rw [← hr1]
      split
      · rename_i h
        unfold Reader.content
        simp only [h, List.nil_append]
        exact List.take_append_drop n r.rest
      · rfl
    have hbet : r1.content = [] ∨ Between n total r1 := by
      rw [hcont]
      by_cases hc : r.chunk = []
      · by_cases hrest : r.rest = []
        · exact .inl (by unfold Reader.content; rw [hc, hrest]; rfl)
        · refine .inr ?_
          rw [← hr1, if_pos hc]
          have heof : r.eof = false := by
            cases he : r.eof with
            | false => rfl
            | true => exact absurd (hb.closed he).1 hrest
          obtain ⟨h1, h2⟩ := hb.open_ heof
          constructor
          · intro he
            simp only [heof, Bool.false_or, decide_eq_false_iff_not, Nat.not_lt] at he
            simp only [List.length_drop]
            refine ⟨by omega, ?_⟩
            rw [show total - (r.rest.length - n) = total - r.rest.length + n by omega]
            exact Nat.dvd_add h2 (Nat.dvd_refl n)
          · intro he
            simp only [heof, Bool.false_or, decide_eq_true_eq] at he
            refine ⟨List.drop_eq_nil_of_le (by omega), ?_⟩
            intro hd
            have h3 : n ∣ r.rest.length := by
              have : total = (total - r.rest.length) + r.rest.length := by omega
              rw [this] at hd
              exact (Nat.dvd_add_right h2).1 hd
            have := Nat.le_of_dvd (by
              rcases Nat.eq_zero_or_pos r.rest.length with h | h
              · exact absurd (List.length_eq_zero_iff.1 h) hrest
              · exact h) h3
            omega
      · rw [← hr1, if_neg hc]
        exact .inr hb
    have hlen : r1.chunk ≠ [] → r1.rest.length + 1 ≤ fuel := by
      intro hne
      rw [← hr1] at hne ⊢
      by_cases hc : r.chunk = []
      · rw [if_pos hc] at hf hne ⊢
        simp only at hne ⊢
        have : 0 < r.rest.length := by
          rcases Nat.eq_zero_or_pos r.rest.length with h | h
          · rw [List.length_eq_zero_iff.1 h] at hne
            simp at hne
          · exact h
        rw [List.length_drop]
        omega
      · rw [if_neg hc] at hf ⊢
        omega
    simp only
    by_cases hc : r1.chunk = []
    · rw [if_pos hc]
      have hempty : r1.rest = [] := by
        rw [← hr1] at hc ⊢
        by_cases hc' : r.chunk = []
        · rw [if_pos hc'] at hc ⊢
          simp only at hc ⊢
          rcases List.take_eq_nil_iff.1 hc with h | h
          · omega
          · rw [h]; exact List.drop_nil
        · rw [if_neg hc'] at hc
          exact absurd hc hc'
      have h0 : r1.content = [] := by unfold Reader.content; rw [hc, hempty]; rfl
      have h0' : r.content = [] := by rw [← hcont]; exact h0
      refine ⟨r1, l, rfl, ?_, ?_, fun i _ => hm i, ?_, ?_⟩
      · rw [h0']
        simpa [strip] using hl
      · rw [h0', h0]; rfl
      · intro h; rw [h0'] at h; cases h
      · intro _
        refine ⟨?_, h0⟩
        rw [← hr1] at hc ⊢
        by_cases hc' : r.chunk = []
        · rw [if_pos hc'] at hc ⊢
          simp only at hc ⊢
          have : r.rest = [] := by
            rcases List.take_eq_nil_iff.1 hc with h | h
            · omega
            · exact h
          simp [this, hn]
        · rw [if_neg hc'] at hc
          exact absurd hc hc'
    · rw [if_neg hc]
      have hb1 : Between n total r1 := by
        rcases hbet with h | h
        · unfold Reader.content at h
          exact absurd (List.append_eq_nil_iff.1 h).1 hc
        · exact h
      obtain ⟨l1, e1, e2, e3, e4⟩ := readBuffer_spec r1.chunk hl
      rw [e1]
      simp only
      have hin : l1.mem.inside l1.cursor = true := by rw [e2.cursor]; exact e2.inside
      rw [if_neg (by rw [hin]; decide)]
      by_cases hnl : charNewline ∈ r1.chunk
      · rw [if_pos (e3 hnl)]
        obtain ⟨w1, w2⟩ := takeWhile_append_of_mem (b := r1.rest) hnl
        refine ⟨_, _, rfl, ?_, ?_, (e4 hm).2, ?_, ?_⟩
        · rw [← hcont]
          unfold Reader.content
          rw [w1]
          exact e2
        · rw [← hcont]
          unfold Reader.content
          rw [w2]
        · intro _
          exact ⟨hb1.open_, hb1.closed⟩
        · intro h
          rw [← hcont] at h
          exact absurd (List.mem_append_left _ hnl) h
      · have hm1 := (e4 hm).1 hnl
        rw [if_neg (hm1 _)]
        have hd : (r1.chunk.dropWhile (· ≠ charNewline)).tail = [] := by
          have := dropWhile_append_nl (b := []) hnl
          rw [List.append_nil] at this
          rw [this]
          rfl
        rw [hd]
        obtain ⟨r', l', g1, g2, g3, g4, g5, g6⟩ := ih (r := { r1 with chunk := [] }) (l := l1)
          (by simp only [if_true]; exact hlen hc) e2 hm1 ⟨hb1.open_, hb1.closed⟩
        have hcr : r.content = r1.chunk ++ ({ r1 with chunk := [] } : Reader).content := by
          rw [← hcont]; rfl
        refine ⟨r', l', g1, ?_, ?_, g4, ?_, ?_⟩
        · rw [hcr, takeWhile_append_nl hnl, strip, List.filter_append, ← List.append_assoc]
          rw [takeWhile_eq_self hnl] at g2
          exact g2
        · rw [hcr, dropWhile_append_nl hnl]
          exact g3
        · intro h
          rw [hcr] at h
          rcases List.mem_append.1 h with h | h
          · exact absurd h hnl
          · exact g5 h
        · intro h
          rw [hcr] at h
          exact g6 fun h' => h (List.mem_append_right _ h')

/-- At the end of the file the content of the memory does not matter. -/
theorem lineLoop_eof {n : Nat} (fuel : Nat) {r : Reader} {l : LineSt} {t : Bytes} (hl : LineOk l t)
    (he : r.eof = true) (hr : r.rest = []) (hc : r.chunk ≠ []) (hf : 2 ≤ fuel) :
    ∃ r' l', lineLoop n fuel r l = .ok (r', l') ∧
      LineOk l' (t ++ strip (r.content.takeWhile (· ≠ charNewline))) ∧
      r'.content = (r.content.dropWhile (· ≠ charNewline)).tail ∧ r'.eof = true ∧ r'.rest = [] := by
  obtain ⟨fuel, rfl⟩ : ∃ k, fuel = k + 2 := ⟨fuel - 2, by omega⟩
  have hcont : r.content = r.chunk := by unfold Reader.content; rw [hr, List.append_nil]
  unfold lineLoop
  simp only [if_neg hc]
  obtain ⟨l1, e1, e2, e3, e4⟩ := readBuffer_spec r.chunk hl
  rw [e1]
  simp only
  have hin : l1.mem.inside l1.cursor = true := by rw [e2.cursor]; exact e2.inside
  rw [if_neg (by rw [hin]; decide)]
  split
  · refine ⟨_, _, rfl, ?_, ?_, he, hr⟩
    · rw [hcont]; exact e2
    · rw [hcont]; unfold Reader.content; simp only [hr, List.append_nil]
  · rename_i hne
    have hnl : charNewline ∉ r.chunk := fun h => hne (e3 h)
    have hd : (r.chunk.dropWhile (· ≠ charNewline)).tail = [] := by
      have := dropWhile_append_nl (b := []) hnl
      rw [List.append_nil] at this
      rw [this]
      rfl
    rw [hd]
    unfold lineLoop
    simp only [if_true, hr, List.take_nil]
    refine ⟨_, _, rfl, ?_, ?_, ?_, ?_⟩
    · rw [hcont]; exact e2
    · rw [hcont, hd]; unfold Reader.content; simp
    · simp [he]
    · simp

/-- What holds between two lines: either the memory does not have a newline or the file has been
read completely or it has not been read and fits into one chunk. -/
def Good (n total : Nat) (r : Reader) : Prop :=
  (NoNewline r.mem ∧ Between n total r) ∨ (r.eof = true ∧ r.rest = [] ∧ ¬ n ∣ total) ∨
    (r.eof = false ∧ r.chunk = [] ∧ r.rest.length < n ∧ total = r.rest.length)

theorem inside_le {m : Mem} {i j : Nat} (h : m.inside j = true) (hij : i ≤ j) : m.inside i = true := by
  unfold Mem.inside bufferSize at *
  simp only [Bool.or_eq_true, decide_eq_true_eq] at *
  omega

/-- One call of `read_line`. -/
theorem readLine_spec {n total : Nat} (hn : 0 < n) {r : Reader} (hg : Good n total r)
    (hmore : ¬ (r.eof = true ∧ r.chunk = [])) :
    ∃ r', readLine n r = .ok (r', some ⟨strip (r.content.takeWhile (· ≠ charNewline)),
        commentOf (strip (r.content.takeWhile (· ≠ charNewline)))⟩) ∧
      r'.content = (r.content.dropWhile (· ≠ charNewline)).tail ∧
      (∀ i, i ≤ (strip (r.content.takeWhile (· ≠ charNewline))).length → r'.mem.inside i = true) ∧
      (charNewline ∈ r.content → Good n total r') ∧
      (charNewline ∉ r.content → r'.eof = true ∧ r'.content = []) := by
  have h0 : LineOk ⟨0, 0, none, r.mem⟩ [] := ⟨rfl, rfl, rfl, rfl, rfl⟩
  have key : ∃ r' l', lineLoop n (r.rest.length + 2) r ⟨0, 0, none, r.mem⟩ = .ok (r', l') ∧
      LineOk l' (strip (r.content.takeWhile (· ≠ charNewline))) ∧
      r'.content = (r.content.dropWhile (· ≠ charNewline)).tail ∧
      (charNewline ∈ r.content → Good n total { r' with mem := l'.mem.set l'.cursor 0 }) ∧
      (charNewline ∉ r.content → r'.eof = true ∧ r'.content = []) := by
    have heof : ∀ q : Reader, q.eof = true → q.rest = [] → q.chunk ≠ [] → q.content = r.content → ∀ fuel, 2 ≤ fuel →
        ∃ r' l', lineLoop n fuel q ⟨0, 0, none, r.mem⟩ = .ok (r', l') ∧
          LineOk l' (strip (r.content.takeWhile (· ≠ charNewline))) ∧
          r'.content = (r.content.dropWhile (· ≠ charNewline)).tail ∧ r'.eof = true ∧ r'.rest = [] ∧
          (charNewline ∉ r.content → r'.eof = true ∧ r'.content = []) := by
      intro q h1 h2 h3 h4 fuel hf
      obtain ⟨r', l', g1, g2, g3, g4, g5⟩ := lineLoop_eof (n := n) fuel h0 h1 h2 h3 hf
      rw [h4] at g2 g3
      refine ⟨r', l', g1, by simpa using g2, g3, g4, g5, ?_⟩
      intro hnl
      refine ⟨g4, ?_⟩
      rw [g3]
      have := dropWhile_append_nl (b := []) hnl
      rw [List.append_nil] at this
      rw [this]
      rfl
    rcases hg with ⟨hm, hb⟩ | ⟨he, hr, ht⟩ | ⟨he, hc, hl, ht⟩
    · obtain ⟨r', l', g1, g2, g3, g4, g5, g6⟩ := lineLoop_spec hn (r.rest.length + 2) (r := r)
        (l := ⟨0, 0, none, r.mem⟩) (by split <;> omega) h0 hm hb
      refine ⟨r', l', g1, by simpa using g2, g3, ?_, g6⟩
      intro h
      left
      refine ⟨?_, ⟨(g5 h).open_, (g5 h).closed⟩⟩
      intro i
      simp only [Mem.set]
      split
      · decide
      · rename_i hi; exact g4 i hi
    · have hc : r.chunk ≠ [] := fun h => hmore ⟨he, h⟩
      obtain ⟨r', l', g1, g2, g3, g4, g5, g6⟩ := heof r he hr hc rfl (r.rest.length + 2) (by omega)
      exact ⟨r', l', g1, g2, g3, fun _ => .inr (.inl ⟨g4, g5, ht⟩), g6⟩
    · by_cases hrest : r.rest = []
      · have h0' : r.content = [] := by unfold Reader.content; rw [hc, hrest]; rfl
        refine ⟨{ r with eof := true }, ⟨0, 0, none, r.mem⟩, ?_, ?_, ?_, ?_, ?_⟩
        · unfold lineLoop
          simp only [hc, if_true, hrest, List.take_nil, List.drop_nil]
          simp [hn]
        · rw [h0']; exact h0
        · rw [h0']; unfold Reader.content; simp only [hc, hrest]; rfl
        · intro h; rw [h0'] at h; cases h
        · intro _
          refine ⟨rfl, ?_⟩
          unfold Reader.content; simp only [hc, hrest]; rfl
      · -- the whole file is read
        have e : lineLoop n (r.rest.length + 2) r ⟨0, 0, none, r.mem⟩ =
            lineLoop n (r.rest.length + 2) { r with chunk := r.rest, rest := [], eof := true } ⟨0, 0, none, r.mem⟩ := by
          have ht1 : r.rest.take n = r.rest := List.take_of_length_le (by omega)
          have ht2 : r.rest.drop n = [] := List.drop_eq_nil_of_le (by omega)
          conv => lhs; unfold lineLoop
          conv => rhs; unfold lineLoop
          simp only [hc, if_true, ht1, ht2, if_neg hrest]
          simp [hl]
        have hnd : ¬ n ∣ total := by
          intro hd
          rw [ht] at hd
          have := Nat.le_of_dvd (List.length_pos_iff.2 hrest) hd
          omega
        obtain ⟨r', l', g1, g2, g3, g4, g5, g6⟩ := heof { r with chunk := r.rest, rest := [], eof := true } rfl rfl
          hrest (by unfold Reader.content; simp only [hc, List.append_nil, List.nil_append]) (r.rest.length + 2) (by omega)
        exact ⟨r', l', e.trans g1, g2, g3, fun _ => .inr (.inl ⟨g4, g5, hnd⟩), g6⟩
  obtain ⟨r', l', k1, k2, k3, k4, k5⟩ := key
  have hin : l'.mem.inside l'.cursor = true := by rw [k2.cursor]; exact k2.inside
  refine ⟨{ r' with mem := l'.mem.set l'.cursor 0 }, ?_, k3, ?_, k4, k5⟩
  · unfold readLine
    rw [if_neg hmore, k1]
    simp only
    rw [if_neg (by rw [hin]; decide)]
    have ht : (List.range l'.len).map (l'.mem.set l'.cursor 0).get = strip (r.content.takeWhile (· ≠ charNewline)) := by
      rw [← k2.text]
      exact textOf_set (Nat.le_of_eq k2.cursor.symm)
    rw [ht, k2.comment]
  · intro i hi
    rw [← k2.len] at hi
    exact inside_le (m := l'.mem) k2.inside hi

/-! ## All lines -/

theorem pieces_eq : ∀ content : Bytes, pieces content =
    content.takeWhile (· ≠ charNewline) ::
      (if charNewline ∈ content then pieces (content.dropWhile (· ≠ charNewline)).tail else []) := by
  intro content
  induction content with
  | nil => rfl
  | cons x xs ih =>
    rw [pieces]
    by_cases hx : x = charNewline
    · rw [if_pos hx]
      simp [hx]
    · rw [if_neg hx, ih]
      have : charNewline ∈ x :: xs ↔ charNewline ∈ xs := by
        rw [List.mem_cons]
        exact or_iff_right (fun h => hx h.symm)
      simp only [this]
      simp [hx]

/-- The lines that the reader delivers. -/
def readerPieces (n total : Nat) (content : Bytes) : List Bytes :=
  if n ∣ total then pieces content
  else if (pieces content).getLast? = some [] then (pieces content).dropLast else pieces content

theorem readerPieces_step {n total : Nat} {content : Bytes} (h : charNewline ∈ content) :
    readerPieces n total content = content.takeWhile (· ≠ charNewline) ::
      readerPieces n total (content.dropWhile (· ≠ charNewline)).tail := by
  have e := pieces_eq content
  rw [if_pos h] at e
  have hne : pieces (content.dropWhile (· ≠ charNewline)).tail ≠ [] := by
    rw [pieces_eq]; exact List.cons_ne_nil _ _
  unfold readerPieces
  split
  · exact e
  · rw [e]
    rw [List.getLast?_cons_of_ne_nil hne, List.dropLast_cons_of_ne_nil hne]
    split <;> rfl

theorem Good.set {n total : Nat} {r : Reader} (h : Good n total r) (i : Nat) :
    Good n total { r with mem := r.mem.set i 0 } := by
  rcases h with ⟨h1, h2⟩ | h | h
  · refine .inl ⟨?_, ⟨h2.open_, h2.closed⟩⟩
    intro j
    simp only [Mem.set]
    split
    · decide
    · exact h1 j
  · exact .inr (.inl h)
  · exact .inr (.inr h)

theorem commentOf_lt {t : Bytes} {i : Nat} (h : commentOf t = some i) : i < t.length := by
  unfold commentOf at h
  exact (List.findIdx?_eq_some_iff_getElem.1 h).1

theorem dropWhile_tail_length {c : Bytes} (h : charNewline ∈ c) :
    (c.dropWhile (· ≠ charNewline)).tail.length < c.length := by
  induction c with
  | nil => cases h
  | cons x xs ih =>
    by_cases hx : x = charNewline
    · simp [hx]
    · have := ih (by
        rcases List.mem_cons.1 h with h | h
        · exact absurd h.symm hx
        · exact h)
      simp [hx] at this ⊢
      omega

theorem readLines_spec {n total : Nat} (hn : 0 < n) : ∀ (fuel : Nat) {r : Reader}, Good n total r →
    r.content.length + 2 ≤ fuel →
    readLines n fuel r = .ok ((if r.eof = true ∧ r.content = [] then [] else readerPieces n total r.content).map
      fun p => ⟨strip p, commentOf (strip p)⟩) := by
  intro fuel
  induction fuel with
  | zero => intro r _ h; omega
  | succ fuel ih =>
    intro r hg hf
    unfold readLines
    by_cases hend : r.eof = true ∧ r.content = []
    · have hc : r.chunk = [] := (List.append_eq_nil_iff.1 hend.2).1
      unfold readLine
      rw [if_pos ⟨hend.1, hc⟩, if_pos hend]
      rfl
    · have hmore : ¬ (r.eof = true ∧ r.chunk = []) := by
        intro ⟨h1, h2⟩
        refine hend ⟨h1, ?_⟩
        have : r.rest = [] := by
          rcases hg with ⟨_, h⟩ | ⟨_, h, _⟩ | ⟨h, _⟩
          · exact (h.closed h1).1
          · exact h
          · rw [h1] at h; cases h
        unfold Reader.content
        rw [h2, this]
        rfl
      obtain ⟨r', e1, e2, e3, e4, e5⟩ := readLine_spec hn hg hmore
      rw [e1, if_neg hend]
      simp only
      -- the comment can be cut
      obtain ⟨m, hcut, hgood⟩ : ∃ m, r'.cut (commentOf (strip (r.content.takeWhile (· ≠ charNewline)))) =
          some { r' with mem := m } ∧ (charNewline ∈ r.content → Good n total { r' with mem := m }) := by
        cases hc : commentOf (strip (r.content.takeWhile (· ≠ charNewline))) with
        | none => exact ⟨r'.mem, rfl, e4⟩
        | some i =>
          cases i with
          | zero => exact ⟨r'.mem, rfl, e4⟩
          | succ i =>
            refine ⟨r'.mem.set (i + 1) 0, ?_, fun h => (e4 h).set _⟩
            exact if_pos (e3 _ (Nat.le_of_lt (commentOf_lt hc)))
      rw [hcut]
      simp only
      by_cases hnl : charNewline ∈ r.content
      · have hlen : ({ r' with mem := m } : Reader).content.length + 2 ≤ fuel := by
          have := dropWhile_tail_length hnl
          rw [← e2] at this
          show r'.content.length + 2 ≤ fuel
          omega
        rw [ih (hgood hnl) hlen, readerPieces_step hnl]
        simp only [List.map_cons]
        congr 2
        have hq : ({ r' with mem := m } : Reader).content = (r.content.dropWhile (· ≠ charNewline)).tail := e2
        rw [hq]
        by_cases hx : ({ r' with mem := m } : Reader).eof = true ∧ (r.content.dropWhile (· ≠ charNewline)).tail = []
        · rw [if_pos hx, hx.2]
          have hnd : ¬ n ∣ total := by
            rcases hgood hnl with ⟨_, h⟩ | ⟨_, _, h⟩ | ⟨h, _⟩
            · exact (h.closed hx.1).2
            · exact h
            · rw [hx.1] at h; cases h
          unfold readerPieces
          rw [if_neg hnd]
          rfl
        · rw [if_neg hx]
      · -- the last line
        obtain ⟨h1, h2⟩ := e5 hnl
        have hlast : readLines n fuel { r' with mem := m } = .ok [] := by
          obtain ⟨k, rfl⟩ : ∃ k, fuel = k + 1 := ⟨fuel - 1, by omega⟩
          unfold readLines readLine
          rw [if_pos (show ({ r' with mem := m } : Reader).eof = true ∧ _ from
            ⟨h1, (List.append_eq_nil_iff.1 h2).1⟩)]
        rw [hlast]
        simp only
        have hp := pieces_eq r.content
        rw [if_neg hnl, takeWhile_eq_self hnl] at hp
        rw [takeWhile_eq_self hnl]
        by_cases hd : n ∣ total
        · unfold readerPieces
          rw [if_pos hd, hp]
          rfl
        · have hne : r.content ≠ [] := by
            intro h0
            have he : r.eof ≠ true := fun h => hend ⟨h, h0⟩
            have he' : r.eof = false := by
              cases h : r.eof with
              | true => exact absurd h he
              | false => rfl
            have hrest : r.rest = [] := (List.append_eq_nil_iff.1 h0).2
            rcases hg with ⟨_, h⟩ | ⟨h, _⟩ | ⟨_, _, _, h⟩
            · obtain ⟨h3, h4⟩ := h.open_ he'
              rw [hrest] at h4
              exact hd (by simpa using h4)
            · exact he h
            · rw [hrest] at h
              rw [h] at hd
              exact hd (Nat.dvd_zero n)
          unfold readerPieces
          rw [if_neg hd, hp, if_neg (by simpa using hne)]
          rfl

/-! ## Any memory -/

theorem lineLoop_any {n : Nat} (hn : 0 < n) : ∀ (fuel : Nat) {r : Reader} {l : LineSt} {t : Bytes},
    r.rest.length + (if r.chunk = [] then 1 else 2) ≤ fuel → LineOk l t → (r.eof = true → r.rest = []) →
    ∃ r' l' t', lineLoop n fuel r l = .ok (r', l') ∧ LineOk l' t' ∧ (r'.eof = true → r'.rest = []) ∧
      (r'.content.length < r.content.length ∨ r'.eof = true ∧ r'.content = []) := by
  intro fuel
  induction fuel with
  | zero => intro r l t hf; split at hf <;> omega
  | succ fuel ih =>
    intro r l t hf hl hb
    unfold lineLoop
    generalize hr1 : (if r.chunk = [] then
      ({ r with chunk := r.rest.take n, rest := r.rest.drop n, eof := r.eof || r.rest.length < n } : Reader)
      else r) = r1
    have hcont : r1.content = r.content := by
      rw [← hr1]
      split
      · rename_i h
        unfold Reader.content
        simp only [h, List.nil_append]
        exact List.take_append_drop n r.rest
      · rfl
    have hb1 : r1.eof = true → r1.rest = [] := by
      rw [← hr1]
      split
      · intro he
        simp only [Bool.or_eq_true, decide_eq_true_eq] at he ⊢
        rcases he with he | he
        · rw [hb he]; exact List.drop_nil
        · exact List.drop_eq_nil_of_le (by omega)
      · exact hb
    have hlen : r1.chunk ≠ [] → r1.rest.length + 1 ≤ fuel := by
      intro hne
      rw [← hr1] at hne ⊢
      by_cases hc : r.chunk = []
      · rw [if_pos hc] at hf hne ⊢
        simp only at hne ⊢
        have : 0 < r.rest.length := by
          rcases Nat.eq_zero_or_pos r.rest.length with h | h
          · rw [List.length_eq_zero_iff.1 h] at hne
            simp at hne
          · exact h
        rw [List.length_drop]
        omega
      · rw [if_neg hc] at hf ⊢
        omega
    simp only
    by_cases hc : r1.chunk = []
    · rw [if_pos hc]
      refine ⟨r1, l, t, rfl, hl, hb1, .inr ?_⟩
      rw [← hr1] at hc ⊢
      by_cases hc' : r.chunk = []
      · rw [if_pos hc'] at hc ⊢
        simp only at hc ⊢
        have : r.rest = [] := by
          rcases List.take_eq_nil_iff.1 hc with h | h
          · omega
          · exact h
        simp [this, hn, Reader.content]
      · rw [if_neg hc'] at hc
        exact absurd hc hc'
    · rw [if_neg hc]
      obtain ⟨l1, e1, e2, e3, e4⟩ := readBuffer_spec r1.chunk hl
      rw [e1]
      simp only
      have hin : l1.mem.inside l1.cursor = true := by rw [e2.cursor]; exact e2.inside
      rw [if_neg (by rw [hin]; decide)]
      have hdec : (r1.chunk.dropWhile (· ≠ charNewline)).tail.length < r1.chunk.length := by
        by_cases hnl : charNewline ∈ r1.chunk
        · exact dropWhile_tail_length hnl
        · have := dropWhile_append_nl (b := []) hnl
          rw [List.append_nil] at this
          rw [this]
          exact List.length_pos_iff.2 hc
      have hdec2 : ({ r1 with chunk := (r1.chunk.dropWhile (· ≠ charNewline)).tail } : Reader).content.length <
          r.content.length := by
        rw [← hcont]
        unfold Reader.content
        simp only [List.length_append]
        omega
      split
      · exact ⟨_, _, _, rfl, e2, hb1, .inl hdec2⟩
      · rename_i hne
        have hnl : charNewline ∉ r1.chunk := fun h => hne (e3 h)
        have hd : (r1.chunk.dropWhile (· ≠ charNewline)).tail = [] := by
          have := dropWhile_append_nl (b := []) hnl
          rw [List.append_nil] at this
          rw [this]
          rfl
        rw [hd] at hdec2 ⊢
        obtain ⟨r', l', t', g1, g2, g3, g4⟩ := ih (r := { r1 with chunk := [] }) (l := l1)
          (by simp only [if_true]; exact hlen hc) e2 hb1
        refine ⟨r', l', t', g1, g2, g3, ?_⟩
        rcases g4 with g4 | g4
        · exact .inl (Nat.lt_trans g4 hdec2)
        · exact .inr g4

theorem readLine_any {n : Nat} (hn : 0 < n) {r : Reader} (hb : r.eof = true → r.rest = [])
    (hmore : ¬ (r.eof = true ∧ r.chunk = [])) :
    ∃ r' text, readLine n r = .ok (r', some ⟨text, commentOf text⟩) ∧
      (r'.eof = true → r'.rest = []) ∧ (∀ i, i ≤ text.length → r'.mem.inside i = true) ∧
      (r'.content.length < r.content.length ∨ r'.eof = true ∧ r'.content = []) := by
  have h0 : LineOk ⟨0, 0, none, r.mem⟩ [] := ⟨rfl, rfl, rfl, rfl, rfl⟩
  obtain ⟨r', l', t', g1, g2, g3, g4⟩ := lineLoop_any hn (r.rest.length + 2) (r := r) (by split <;> omega) h0 hb
  have hin : l'.mem.inside l'.cursor = true := by rw [g2.cursor]; exact g2.inside
  refine ⟨{ r' with mem := l'.mem.set l'.cursor 0 }, t', ?_, g3, ?_, g4⟩
  · unfold readLine
    rw [if_neg hmore, g1]
    simp only
    rw [if_neg (by rw [hin]; decide)]
    have ht : (List.range l'.len).map (l'.mem.set l'.cursor 0).get = t' := by
      rw [← g2.text]
      exact textOf_set (Nat.le_of_eq g2.cursor.symm)
    rw [ht, g2.comment]
  · intro i hi
    rw [← g2.len] at hi
    exact inside_le (m := l'.mem) g2.inside hi

theorem readLines_any {n : Nat} (hn : 0 < n) : ∀ (fuel : Nat) {r : Reader}, (r.eof = true → r.rest = []) →
    r.content.length + (if r.eof = true ∧ r.content = [] then 1 else 2) ≤ fuel →
    ∃ lines, readLines n fuel r = .ok lines ∧ ∀ line ∈ lines, line.comment = commentOf line.text := by
  intro fuel
  induction fuel with
  | zero => intro r _ h; split at h <;> omega
  | succ fuel ih =>
    intro r hb hf
    unfold readLines
    by_cases hend : r.eof = true ∧ r.chunk = []
    · unfold readLine
      rw [if_pos hend]
      exact ⟨[], rfl, fun _ h => by cases h⟩
    · obtain ⟨r', text, e1, e2, e3, e4⟩ := readLine_any hn hb hend
      rw [e1]
      simp only
      obtain ⟨m, hcut⟩ : ∃ m, r'.cut (commentOf text) = some { r' with mem := m } := by
        cases hc : commentOf text with
        | none => exact ⟨r'.mem, rfl⟩
        | some i =>
          cases i with
          | zero => exact ⟨r'.mem, rfl⟩
          | succ i => exact ⟨r'.mem.set (i + 1) 0, if_pos (e3 _ (Nat.le_of_lt (commentOf_lt hc)))⟩
      rw [hcut]
      simp only
      have hnend : ¬ (r.eof = true ∧ r.content = []) := fun h => hend ⟨h.1, (List.append_eq_nil_iff.1 h.2).1⟩
      rw [if_neg hnend] at hf
      obtain ⟨lines, g1, g2⟩ := ih (r := { r' with mem := m }) e2 (by
        show r'.content.length + (if r'.eof = true ∧ r'.content = [] then 1 else 2) ≤ fuel
        rcases e4 with e4 | e4
        · split <;> omega
        · rw [if_pos e4, e4.2]
          simp only [List.length_nil]
          omega)
      rw [g1]
      refine ⟨_, rfl, ?_⟩
      intro line hline
      rcases List.mem_cons.1 hline with h | h
      · rw [h]
      · exact g2 line h

/-! ## C41 -/

/-- The specification `pieces` in other words: no line has a newline, and joining the lines with
newlines gives the file. -/
theorem pieces_join (content : Bytes) :
    (∀ p ∈ pieces content, charNewline ∉ p) ∧ List.intercalate [charNewline] (pieces content) = content := by
  induction content with
  | nil => exact ⟨by decide, rfl⟩
  | cons x xs ih =>
    obtain ⟨ih1, ih2⟩ := ih
    rw [pieces]
    by_cases hx : x = charNewline
    · rw [if_pos hx]
      refine ⟨?_, ?_⟩
      · intro p hp
        rcases List.mem_cons.1 hp with h | h
        · rw [h]; intro h'; cases h'
        · exact ih1 p h
      · obtain ⟨q, qs, hq⟩ : ∃ q qs, pieces xs = q :: qs := ⟨_, _, pieces_eq xs⟩
        rw [hq] at ih2 ⊢
        rw [← ih2, hx]
        simp [List.intercalate]
    · rw [if_neg hx]
      obtain ⟨q, qs, hq⟩ : ∃ q qs, pieces xs = q :: qs := ⟨_, _, pieces_eq xs⟩
      rw [hq] at ih1 ih2 ⊢
      refine ⟨?_, ?_⟩
      · intro p hp
        rcases List.mem_cons.1 hp with h | h
        · rw [h]
          intro h'
          rcases List.mem_cons.1 h' with h' | h'
          · exact hx h'.symm
          · exact ih1 q List.mem_cons_self h'
        · exact ih1 p (List.mem_cons_of_mem _ h)
      · rw [← ih2]
        cases qs with
        | nil => simp [List.intercalate]
        | cons a b => simp [List.intercalate]

theorem fileLines_eq {n : Nat} (hn : 0 < n) {mem : Nat → Nat} {content : Bytes}
    (hm : (∀ i, mem i ≠ charNewline) ∨ content.length < n) :
    fileLines n mem content =
      .ok ((readerPieces n content.length content).map fun p => ⟨strip p, commentOf (strip p)⟩) := by
  unfold fileLines
  have hg : Good n content.length ⟨content, false, [], ⟨mem, 0⟩⟩ := by
    rcases hm with h | h
    · refine .inl ⟨h, ⟨fun _ => ⟨Nat.le_refl _, ?_⟩, fun h => by cases h⟩⟩
      simp
    · exact .inr (.inr ⟨rfl, rfl, h, rfl⟩)
  have := readLines_spec hn (content.length + 2) hg (by
    show ([] ++ content).length + 2 ≤ _
    simp)
  rw [this]
  simp [Reader.content]

/-- C41: the lines of a file. The reader delivers the text between the newlines without carriage
returns, for every chunk size, if
* the memory of the line, which is not initialised, does not have newlines, or the file is smaller than a chunk, and
* the size of the file is not a multiple of the chunk size.
See `c41_extra_line` and `c41_stale_newline` for what happens without these hypotheses. -/
theorem c41_lines_partial {n : Nat} (hn : 0 < n) {mem : Nat → Nat} {content : Bytes}
    (hm : (∀ i, mem i ≠ charNewline) ∨ content.length < n) (hs : ¬ n ∣ content.length) :
    fileLines n mem content = .ok ((textLines content).map fun t => ⟨t, commentOf t⟩) := by
  rw [fileLines_eq hn hm]
  unfold readerPieces textLines
  rw [if_neg hs]
  simp [List.map_map, Function.comp_def]

/-- C41: if the size of the file is a multiple of the chunk size then a newline at the end starts
another line, which is empty. -/
theorem c41_lines_multiple {n : Nat} (hn : 0 < n) {mem : Nat → Nat} {content : Bytes}
    (hm : (∀ i, mem i ≠ charNewline) ∨ content.length < n) (hs : n ∣ content.length) :
    fileLines n mem content = .ok ((pieces content).map fun p => ⟨strip p, commentOf (strip p)⟩) := by
  rw [fileLines_eq hn hm]
  unfold readerPieces
  rw [if_pos hs]

/-- C41: the chunks do not matter. -/
theorem c41_chunks {n n' : Nat} (hn : 0 < n) (hn' : 0 < n') {mem mem' : Nat → Nat} {content : Bytes}
    (hm : ∀ i, mem i ≠ charNewline) (hm' : ∀ i, mem' i ≠ charNewline)
    (hs : ¬ n ∣ content.length) (hs' : ¬ n' ∣ content.length) :
    fileLines n mem content = fileLines n' mem' content := by
  rw [c41_lines_partial hn (.inl hm) hs, c41_lines_partial hn' (.inl hm') hs']

/-- C41: every file that is not empty and smaller than 1 MiB, whatever is in the memory. -/
theorem c41_small {mem : Nat → Nat} {content : Bytes} (h0 : content ≠ []) (h : content.length < chunkSize) :
    fileLines chunkSize mem content = .ok ((textLines content).map fun t => ⟨t, commentOf t⟩) := by
  refine c41_lines_partial (by decide) (.inr h) ?_
  intro hd
  have := Nat.le_of_dvd (List.length_pos_iff.2 h0) hd
  omega

/-- C41: for every file, chunk size and content of the memory that has not been initialised the reader comes
to an end without touching memory outside of the line. -/
theorem c41_safe {n : Nat} (hn : 0 < n) (mem : Nat → Nat) (content : Bytes) :
    ∃ lines, fileLines n mem content = .ok lines := by
  obtain ⟨lines, h, _⟩ := readLines_any hn (content.length + 2) (r := ⟨content, false, [], ⟨mem, 0⟩⟩)
    (fun h => by cases h) (by simp [Reader.content])
  exact ⟨lines, h⟩

/-- C41 is violated: with a file of 4 bytes that ends with a newline there is one more line if the
chunks have 4 bytes than if they have 5 bytes; an empty file has a line. -/
theorem c41_extra_line :
    fileLines 4 (fun _ => 0) [97, 98, 99, 10] = .ok [⟨[97, 98, 99], none⟩, ⟨[], none⟩] ∧
    fileLines 5 (fun _ => 0) [97, 98, 99, 10] = .ok [⟨[97, 98, 99], none⟩] ∧
    fileLines chunkSize (fun _ => 0) [] = .ok [⟨[], none⟩] := by
  refine ⟨by decide +kernel, by decide +kernel, by decide +kernel⟩

/-- C41 is violated: if the memory that has not been initialised happens to have a newline where a chunk ends
then the line is torn apart. -/
theorem c41_stale_newline :
    fileLines 2 (fun i => if i = 2 then charNewline else 0) [97, 98, 99] = .ok [⟨[97, 98], none⟩, ⟨[99], none⟩] ∧
    textLines [97, 98, 99] = [[97, 98, 99]] := by
  refine ⟨by decide +kernel, by decide⟩

/-- Not vacuous: a file with carriage returns, a comment, an empty line and a last line without newline,
read in chunks of 4 bytes. -/
example : ¬ 4 ∣ ([97, 98, 13, 10, 99, 36, 100, 10, 10, 36, 101] : Bytes).length ∧
    fileLines 4 (fun _ => 0) [97, 98, 13, 10, 99, 36, 100, 10, 10, 36, 101] =
      .ok [⟨[97, 98], none⟩, ⟨[99, 36, 100], some 1⟩, ⟨[], none⟩, ⟨[36, 101], some 0⟩] :=
  ⟨by decide, by decide +kernel⟩

/-! ## C42 -/

/-- C42: for every file, chunk size and content of the memory every line comes with the position of
its first '$' or the value for none. -/
theorem c42_comment {n : Nat} (hn : 0 < n) {mem : Nat → Nat} {content : Bytes} {lines : List Line}
    (h : fileLines n mem content = .ok lines) {line : Line} (hl : line ∈ lines) :
    (∀ i, line.comment = some i ↔ (line.text[i]? = some charComment ∧ ∀ j, j < i → line.text[j]? ≠ some charComment)) ∧
    (line.comment = none ↔ charComment ∉ line.text) := by
  obtain ⟨lines', h', hc⟩ := readLines_any hn (content.length + 2) (r := ⟨content, false, [], ⟨mem, 0⟩⟩)
    (fun h => by cases h) (by simp [Reader.content])
  have : lines = lines' := by
    have := h.symm.trans h'
    cases this
    rfl
  rw [hc line (this ▸ hl)]
  unfold commentOf
  refine ⟨?_, ?_⟩
  · intro i
    rw [List.findIdx?_eq_some_iff_getElem]
    constructor
    · rintro ⟨h1, h2, h3⟩
      refine ⟨?_, ?_⟩
      · rw [List.getElem?_eq_getElem h1]
        simpa using h2
      · intro j hj
        rw [List.getElem?_eq_getElem (by omega)]
        simpa using h3 j hj
    · rintro ⟨h1, h2⟩
      obtain ⟨h3, h4⟩ := List.getElem?_eq_some_iff.1 h1
      refine ⟨h3, by simpa using h4, ?_⟩
      intro j hj
      have := h2 j hj
      rw [List.getElem?_eq_getElem (by omega)] at this
      simpa using this
  · rw [List.findIdx?_eq_none_iff]
    constructor
    · intro h hm
      simpa using h _ hm
    · intro h x hx
      simp only [decide_eq_false_iff_not]
      intro he
      exact h (he ▸ hx)

/-- Not vacuous: a line with two '$'. -/
example : fileLines 3 (fun _ => 7) [97, 36, 98, 36, 10] = .ok [⟨[97, 36, 98, 36], some 1⟩] := by decide +kernel

end Dyna.Key
