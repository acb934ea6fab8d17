import Verif.D3Titles
import Verif.Props.D3Ids
/-!
# Titles (C73)
-/

namespace Dyna.D3

/-! ## Specification -/

/-- Specification: `n` bytes of the database from word `k` on. -/
def textAt (b : Buf) (k n : Nat) : Bytes := (b.bytes.drop (k * b.ws)).take n

/-- Specification: the titles of `n` parts in a section whose entries begin at word `k`. An entry is one word (the id of the part) and
72 bytes (the title). -/
def titlesAt (b : Buf) (k n : Nat) : List Bytes :=
  (List.range n).map fun i => textAt b (k + i * (1 + 72 / b.ws) + 1) 72

/-- Specification: `t` is a text of `n` characters that is filled up with blanks, `s` is what has been written. -/
def FilledUp (text s : Bytes) : Prop := (∃ m, text = s ++ List.replicate m space) ∧ s.getLast? ≠ some space

/-! ## C73 -/

theorem titleWords_eq {ws : Nat} (h : ws = 4 ∨ ws = 8) : titleWords ws = 72 / ws ∧ titleWords ws * ws = 72 := by
  rcases h with h | h <;> subst h <;> decide

theorem titlesAt_succ (b : Buf) (k n : Nat) :
    titlesAt b k (n + 1) = textAt b (k + 1) 72 :: titlesAt b (k + (1 + 72 / b.ws)) n := by
  unfold titlesAt
  rw [List.range_succ_eq_map, List.map_cons, List.map_map]
  congr 1
  · simp
  · apply List.map_congr_left
    intro i _
    simp only [Function.comp_apply]
    rw [Nat.succ_mul]
    congr 1
    omega

/-- The loop behind the first title. -/
theorem titleLoop_at {b : Buf} (g : Good b) (hws : b.ws = 4 ∨ b.ws = 8) : ∀ (n k : Nat) (q : Pos) (acc : List Bytes),
    Valid b q → absPos b q = k * b.ws → q.word = k → k + n * (1 + 72 / b.ws) ≤ words b →
    ∃ q' : Pos, titleLoop n b (some q) acc = .ok (b, some q', some (acc ++ titlesAt b k n)) := by
  intro n
  induction n with
  | zero =>
    intro k q acc hv hp hq hk
    exact ⟨q, by simp [titleLoop, titlesAt]⟩
  | succ n ih =>
    intro k q acc hv hp hq hk
    have hw := words_small g
    obtain ⟨t1, t2⟩ := titleWords_eq hws
    have ht : 72 / b.ws = titleWords b.ws := t1.symm
    rw [Nat.succ_mul] at hk
    have hpos : 0 < 72 / b.ws := by rcases hws with h | h <;> rw [h] <;> decide
    have hlen := (lt_words g (k := k + 1)).1 (by omega)
    obtain ⟨q1, r1, r2, r3, r4⟩ := seek_inside (b := b) (w := k + 1) (by have := g.size; unfold u64; omega) hlen
    have hle := (le_words g (k := k + 1 + titleWords b.ws)).1 (by omega)
    obtain ⟨q2, f1, f2, f3, f4, f5, _⟩ := read_inside (n := titleWords b.ws) r2 (by rw [t2]; decide)
      (by rw [r3]; rw [Nat.add_mul (k + 1)] at hle; exact hle)
    have hd : b.ws ∣ q1.pos := at_dvd g r3
    obtain ⟨q3, s1⟩ := ih (k + (1 + 72 / b.ws)) q2 (acc ++ [textAt b (k + 1) 72]) f2
      (by rw [f3, r3, ← Nat.add_mul, t1, Nat.add_assoc]) (by rw [f5 g.aligned hd g.ws, r4, t1]; omega) (by omega)
    refine ⟨q3, ?_⟩
    rw [titleLoop]
    unfold skipWords
    simp only [hq]
    rw [if_neg (by unfold ulongMax u64; omega), r1]
    simp only
    rw [f1]
    simp only
    unfold titleDone
    rw [if_neg (by rw [g.err]; decide), r3, t2]
    simp only
    rw [show List.take 72 (List.drop ((k + 1) * b.ws) b.bytes) = textAt b (k + 1) 72 from rfl, s1]
    rw [titlesAt_succ]
    simp

/-- The titles of the parts: `n` entries from the word that the file stores as position of the section. -/
theorem readPartTitles_at {p : Plot} (g : Good p.buf) (hws : p.buf.ws = 4 ∨ p.buf.ws = 8) (hn : p.cda.raw.nmmat ≠ 0)
    (hk : p.ptrs.partTitles + p.cda.raw.nmmat * (1 + 72 / p.buf.ws) ≤ words p.buf) :
    readPartTitles p = .ok (p, some (titlesAt p.buf p.ptrs.partTitles p.cda.raw.nmmat)) := by
  obtain ⟨n, hn⟩ := Nat.exists_eq_succ_of_ne_zero hn
  unfold readPartTitles
  rw [hn] at hk ⊢
  simp only
  have hw := words_small g
  obtain ⟨t1, t2⟩ := titleWords_eq hws
  generalize hkk : p.ptrs.partTitles = k at *
  rw [Nat.succ_mul] at hk
  have hpos : 0 < 72 / p.buf.ws := by rcases hws with h | h <;> rw [h] <;> decide
  have hlen := (lt_words g (k := k + 1)).1 (by omega)
  have hle := (le_words g (k := k + 1 + titleWords p.buf.ws)).1 (by omega)
  obtain ⟨q1, r1, r2, r3, r4⟩ := seek_inside (b := p.buf) (w := k + 1) (by have := g.size; unfold u64; omega) hlen
  obtain ⟨q2, f1, f2, f3, f4, f5, _⟩ := read_inside (n := titleWords p.buf.ws) r2 (by rw [t2]; decide)
    (by rw [r3]; rw [Nat.add_mul (k + 1)] at hle; exact hle)
  have hd : p.buf.ws ∣ q1.pos := at_dvd g r3
  obtain ⟨q3, s1⟩ := titleLoop_at g hws n (k + (1 + 72 / p.buf.ws)) q2 [textAt p.buf (k + 1) 72] f2
      (by rw [f3, r3, ← Nat.add_mul, t1, Nat.add_assoc]) (by rw [f5 g.aligned hd g.ws, r4, t1]; omega) (by omega)
  unfold readWordsAt
  rw [r1]
  simp only
  rw [if_neg (by rw [g.err]; decide), f1]
  simp only
  unfold titleDone
  rw [if_neg (by rw [g.err]; decide), r3, t2]
  simp only [List.nil_append]
  rw [show List.take 72 (List.drop ((k + 1) * p.buf.ws) p.buf.bytes) = textAt p.buf (k + 1) 72 from rfl, s1]
  simp only [close]
  have : titlesAt p.buf k (n + 1) = textAt p.buf (k + 1) 72 :: titlesAt p.buf (k + (1 + 72 / p.buf.ws)) n := titlesAt_succ _ _ _
  rw [Nat.succ_eq_add_one, this]
  rfl

/-- The section with the titles that the blocks of the header define: the last one. -/
theorem Blocks.titles {b : Buf} {k e : Nat} {d d' : Ptrs} (h : Blocks b k d e d') :
    d'.partIds = d.partIds ∧ (d'.partTitles = d.partTitles ∨ ∃ j, d'.partTitles = j + 2 ∧ wordAt b j = 90001 ∧
      j + 2 + (b.ws + 72) * wordAt b (j + 1) / b.ws < e) := by
  induction h with
  | finish => exact ⟨rfl, .inl rfl⟩
  | title _ _ _ ih => exact ih
  | @parts k d e d' n h1 h2 h3 ih =>
    refine ⟨ih.1, ?_⟩
    rcases ih.2 with h | h
    · refine .inr ⟨k, h, h1, ?_⟩
      rw [← h2]
      exact h3.lt
    · exact .inr h
  | contacts _ _ _ ih => exact ih
  | keywords _ _ _ ih => exact ih

/-- The loop over the ids of the parts. -/
theorem partIdLoop_at {b : Buf} (g : Good b) (hws : b.ws = 4 ∨ b.ws = 8) : ∀ (n k : Nat) (q : Pos) (acc : List Nat),
    Valid b q → absPos b q = k * b.ws → q.word = k → k + n * (1 + 72 / b.ws) < words b →
    ∃ q' : Pos, partIdLoop n b (some q) acc =
      .ok (b, some q', acc ++ (List.range n).map fun i => wordAt b (k + i * (1 + 72 / b.ws))) := by
  intro n
  induction n with
  | zero =>
    intro k q acc hv hp hq hk
    exact ⟨q, by simp [partIdLoop]⟩
  | succ n ih =>
    intro k q acc hv hp hq hk
    have hw := words_small g
    rw [Nat.succ_mul] at hk
    have hpos : 0 < 72 / b.ws := by rcases hws with h | h <;> rw [h] <;> decide
    have hle := (le_words g (k := k + 1)).1 (by omega)
    rw [Nat.add_mul] at hle
    obtain ⟨q2, f1, f2, f3, f4, f5, _⟩ := read_inside (n := 1) hv (by have := g.ws8; unfold u64; omega)
      (by rw [hp]; exact hle)
    have hlen := (lt_words g (k := k + 1 + 72 / b.ws)).1 (by omega)
    obtain ⟨q1, r1, r2, r3, r4⟩ := seek_inside (b := b) (w := k + 1 + 72 / b.ws) (by have := g.size; unfold u64; omega) hlen
    have h5 := f5 g.aligned (at_dvd g hp) g.ws
    obtain ⟨q3, s1⟩ := ih (k + 1 + 72 / b.ws) q1 (acc ++ [wordAt b k]) r2 r3 r4 (by omega)
    refine ⟨q3, ?_⟩
    rw [partIdLoop, f1]
    simp only
    unfold skipBytes skipWords
    simp only [h5, hq]
    rw [if_neg (by unfold ulongMax u64; omega), r1]
    simp only
    rw [hp, Nat.one_mul, show leNat (List.take b.ws (List.drop (k * b.ws) b.bytes)) = wordAt b k from rfl, s1]
    rw [List.range_succ_eq_map, List.map_cons, List.map_map]
    simp only [List.append_assoc, List.singleton_append, Nat.zero_mul, Nat.add_zero]
    congr 5
    apply List.map_congr_left
    intro i _
    simp only [Function.comp_apply]
    rw [Nat.succ_mul]
    congr 1
    omega

theorem ptrsAfter_titles (c : Cda) (d : Ptrs) (a x : List Nat) :
    (ptrsAfter c d a x).partTitles = d.partTitles ∧ (ptrsAfter c d a x).partIds = d.partIds := by
  unfold ptrsAfter
  split <;> exact ⟨rfl, rfl⟩

/-- C73: for every family of files whose header has a section with the titles of NMMAT parts (the last one, if there are several), the
calls return for part `i` the 72 bytes of entry `i`, and, if the section with the ids has no ids of parts, its first word. Missing to the English property: files without such a section
(`c73_no_section`), without parts (`c73_no_parts_ub`), and the C++ functions (`c73_cpp_exact`). -/
theorem c73_part_titles_partial {b : Buf} {c : Cda} {header : Bytes} {stateFiles : List Bytes} {ns : List Nat} {e : Nat}
    {d : Ptrs} (F : Family b c header stateFiles ns e d) (ht : d.partTitles ≠ 0)
    (hn : wordAt b (d.partTitles - 1) = wordAt b 51) (h0 : wordAt b 51 ≠ 0) :
    wordAt b (d.partTitles - 2) = 90001 ∧
    ∃ plot, openPlot (header :: stateFiles) = .ok plot ∧
      readPartTitles plot = .ok (plot, some (titlesAt b d.partTitles (wordAt b 51))) ∧
      (d.partIds = 0 → readPartIds plot = .ok (plot, some ((List.range (wordAt b 51)).map fun i =>
        wordAt b (d.partTitles + i * (1 + 72 / b.ws))))) := by
  have hopen := openPlot_at F.good F.buffer F.fileType F.extra F.control F.supported F.files F.nonempty F.counts
    F.unpacked F.state F.ids F.geometryEnd F.headerBlocks F.headerInFirst F.noCfd F.states
  rw [F.files] at hopen
  have g := F.good
  obtain ⟨hbf, hbe, hbw, hbl⟩ := openBuf_inv F.buffer
  have hws : b.ws = 4 ∨ b.ws = 8 := hbw
  have hraw : c.raw.nmmat = wordAt b 51 := by
    rw [(derive_ndim F.control).2]
    rfl
  obtain ⟨i1, i2⟩ := F.headerBlocks.titles
  have hz : (ptrsIds b c).partTitles = 0 := by
    unfold ptrsIds
    simp only
    split <;> rfl
  rcases i2 with i2 | ⟨j, i2, i3, i4⟩
  · rw [hz] at i2; exact absurd i2 ht
  have he : e ≤ words b := by
    rw [le_words g]
    have := F.headerInFirst
    unfold Buf.bytes
    rw [F.files, List.flatten_cons, List.length_append]
    omega
  rw [i2] at hn ⊢
  simp only [Nat.add_sub_cancel, show j + 2 - 1 = j + 1 from rfl] at hn ⊢
  rw [hn] at i4
  have hq : (b.ws + 72) * wordAt b 51 / b.ws = wordAt b 51 * (1 + 72 / b.ws) := by
    rcases hws with h | h <;> rw [h] <;> omega
  rw [hq] at i4
  obtain ⟨q1, q2⟩ := ptrsAfter_titles c d [] (starts b.ws (stateLen c) (header.length / b.ws) stateFiles ns)
  refine ⟨i3, _, hopen, ?_, ?_⟩
  · generalize hP : (⟨c, numrbsOf b c, ptrsAfter c d [] (starts b.ws (stateLen c) (header.length / b.ws) stateFiles ns),
      starts b.ws (stateLen c) (header.length / b.ws) stateFiles ns, b⟩ : Plot) = P
    have p1 : P.buf = b := by rw [← hP]
    have p2 : P.cda.raw.nmmat = wordAt b 51 := by rw [← hP]; exact hraw
    have p3 : P.ptrs.partTitles = j + 2 := by rw [← hP]; exact q1.trans i2
    have := readPartTitles_at (p := P) (by rw [p1]; exact g) (by rw [p1]; exact hws) (by rw [p2]; exact h0)
      (by rw [p1, p2, p3]; omega)
    rw [this, p1, p2, p3]
  · intro hp
    generalize hP : (⟨c, numrbsOf b c, ptrsAfter c d [] (starts b.ws (stateLen c) (header.length / b.ws) stateFiles ns),
      starts b.ws (stateLen c) (header.length / b.ws) stateFiles ns, b⟩ : Plot) = P
    have p1 : P.buf = b := by rw [← hP]
    have p2 : P.cda.raw.nmmat = wordAt b 51 := by rw [← hP]; exact hraw
    have p3 : P.ptrs.partTitles = j + 2 := by rw [← hP]; exact q1.trans i2
    have p4 : P.ptrs.partIds = 0 := by rw [← hP]; exact q2.trans hp
    have hwm : 0 < wordAt b 51 * (1 + 72 / b.ws) := Nat.mul_pos (Nat.pos_of_ne_zero h0) (Nat.lt_of_lt_of_le Nat.zero_lt_one (Nat.le_add_right 1 _))
    have hw := words_small g
    have hlen := (lt_words g (k := j + 2)).1 (by omega)
    obtain ⟨x, r1, r2, r3, r4⟩ := seek_inside (b := b) (w := j + 2) (by have := g.size; unfold u64; omega) hlen
    obtain ⟨y, s1⟩ := partIdLoop_at g hws (wordAt b 51) (j + 2) x [] r2 r3 r4 (by omega)
    rw [readPartIds_clean (by rw [p1]; exact g.err)]
    unfold readPartIdsClean
    rw [if_pos p4, if_neg (by rw [p3]; omega), if_neg (by rw [p2]; exact h0), p1, p2, p3, r1]
    simp only
    rw [s1]
    simp only [close, List.nil_append]
    rw [← hP]

/-- The titles are read or, if not all of the entries are inside of the files, the call follows an unset pointer. -/
theorem titleLoop_outside {b : Buf} (g : Good b) (hws : b.ws = 4 ∨ b.ws = 8) : ∀ (n k : Nat) (q : Pos) (acc : List Bytes),
    Valid b q → absPos b q = k * b.ws → q.word = k → k ≤ words b → words b < k + n * (1 + 72 / b.ws) →
    titleLoop n b (some q) acc = .ub := by
  intro n
  induction n with
  | zero =>
    intro k q acc hv hp hq hle hk
    omega
  | succ n ih =>
    intro k q acc hv hp hq hle hk
    have hw := words_small g
    obtain ⟨t1, t2⟩ := titleWords_eq hws
    rw [Nat.succ_mul] at hk
    have hpos : 0 < 72 / b.ws := by rcases hws with h | h <;> rw [h] <;> decide
    have hws8 := g.ws8
    have hsz := g.size
    have hmul : (k + 1) * b.ws < u64 := by
      have := (le_words g (k := k)).1 hle
      rw [Nat.add_mul]
      unfold u64
      omega
    rw [titleLoop]
    unfold skipWords
    simp only [hq]
    rw [if_neg (by unfold ulongMax u64; omega)]
    by_cases h1 : k + 1 < words b
    · obtain ⟨q1, r1, r2, r3, r4⟩ := seek_inside (b := b) (w := k + 1) hmul ((lt_words g).1 h1)
      rw [r1]
      simp only
      by_cases h2 : k + 1 + titleWords b.ws ≤ words b
      · have hle := (le_words g (k := k + 1 + titleWords b.ws)).1 h2
        obtain ⟨q2, f1, f2, f3, f4, f5, _⟩ := read_inside (n := titleWords b.ws) r2 (by rw [t2]; decide)
          (by rw [r3]; rw [Nat.add_mul (k + 1)] at hle; exact hle)
        rw [f1]
        simp only
        unfold titleDone
        rw [if_neg (by rw [g.err]; decide)]
        simp only
        exact ih (k + (1 + 72 / b.ws)) q2 _ f2 (by rw [f3, r3, ← Nat.add_mul, t1, Nat.add_assoc])
          (by rw [f5 g.aligned (at_dvd g r3) g.ws, r4, t1]; omega) (by omega) (by omega)
      · have hlt : b.bytes.length < (k + 1 + titleWords b.ws) * b.ws := by
          rw [← words_mul g]
          exact Nat.mul_lt_mul_of_pos_right (by omega) g.ws
        rw [Nat.add_mul (k + 1)] at hlt
        obtain ⟨bytes, f1⟩ := read_outside (n := titleWords b.ws) r2 (by rw [t2]; decide) (by rw [r3]; exact hlt)
        rw [f1]
        simp only
        unfold titleDone
        rw [if_pos rfl]
        rfl
    · have hge : b.bytes.length ≤ (k + 1) * b.ws := by
        rw [← words_mul g]
        exact Nat.mul_le_mul_right _ (by omega)
      rw [seek_outside hmul hge]
      rfl

/-- C73: exactly what happens if the section is shorter than NMMAT entries or the position of the section is wrong: the words of the files
behind it are returned as titles; if the files end before, the call follows an unset pointer. -/
theorem c73_exact {files : List Bytes} {plot : Plot} (h : openPlot files = .ok plot) (hal : Aligned plot.buf)
    (hsize : plot.buf.bytes.length < 2 ^ 63) (hn : plot.cda.raw.nmmat ≠ 0) (hk : plot.ptrs.partTitles < 2 ^ 59) :
    (plot.ptrs.partTitles + plot.cda.raw.nmmat * (1 + 72 / plot.buf.ws) ≤ words plot.buf →
      readPartTitles plot = .ok (plot, some (titlesAt plot.buf plot.ptrs.partTitles plot.cda.raw.nmmat))) ∧
    (words plot.buf < plot.ptrs.partTitles + plot.cda.raw.nmmat * (1 + 72 / plot.buf.ws) → readPartTitles plot = .ub) := by
  obtain ⟨hb, -⟩ := openPlot_inv h
  obtain ⟨hbf, hbe, hbw, hbl⟩ := openBuf_inv hb
  have g : Good plot.buf := ⟨hbe, by omega, by omega, hsize, hal⟩
  refine ⟨fun hle => readPartTitles_at g hbw hn hle, fun hlt => ?_⟩
  obtain ⟨n, hn⟩ := Nat.exists_eq_succ_of_ne_zero hn
  unfold readPartTitles
  rw [hn] at hlt ⊢
  simp only
  have hw := words_small g
  obtain ⟨t1, t2⟩ := titleWords_eq hbw
  generalize plot.ptrs.partTitles = k at *
  rw [Nat.succ_mul] at hlt
  have hpos : 0 < 72 / plot.buf.ws := by rcases hbw with h | h <;> rw [h] <;> decide
  have hmul : (k + 1) * plot.buf.ws < u64 := by
    have : (k + 1) * plot.buf.ws ≤ (k + 1) * 8 := Nat.mul_le_mul_left _ g.ws8
    unfold u64
    omega
  unfold readWordsAt
  by_cases h1 : k + 1 < words plot.buf
  · obtain ⟨q1, r1, r2, r3, r4⟩ := seek_inside (b := plot.buf) (w := k + 1) hmul ((lt_words g).1 h1)
    rw [r1]
    simp only
    rw [if_neg (by rw [g.err]; decide)]
    by_cases h2 : k + 1 + titleWords plot.buf.ws ≤ words plot.buf
    · have hle := (le_words g (k := k + 1 + titleWords plot.buf.ws)).1 h2
      obtain ⟨q2, f1, f2, f3, f4, f5, _⟩ := read_inside (n := titleWords plot.buf.ws) r2 (by rw [t2]; decide)
        (by rw [r3]; rw [Nat.add_mul (k + 1)] at hle; exact hle)
      rw [f1]
      simp only
      unfold titleDone
      rw [if_neg (by rw [g.err]; decide)]
      simp only
      rw [titleLoop_outside g hbw n (k + (1 + 72 / plot.buf.ws)) q2 _ f2 (by rw [f3, r3, ← Nat.add_mul, t1, Nat.add_assoc])
          (by rw [f5 g.aligned (at_dvd g r3) g.ws, r4, t1]; omega) (by omega) (by omega)]
    · have hlt : plot.buf.bytes.length < (k + 1 + titleWords plot.buf.ws) * plot.buf.ws := by
        rw [← words_mul g]
        exact Nat.mul_lt_mul_of_pos_right (by omega) g.ws
      rw [Nat.add_mul (k + 1)] at hlt
      obtain ⟨bytes, f1⟩ := read_outside (n := titleWords plot.buf.ws) r2 (by rw [t2]; decide) (by rw [r3]; exact hlt)
      rw [f1]
      simp only
      unfold titleDone
      rw [if_pos rfl]
      rfl
  · have hge : plot.buf.bytes.length ≤ (k + 1) * plot.buf.ws := by
      rw [← words_mul g]
      exact Nat.mul_le_mul_right _ (by omega)
    rw [seek_outside hmul hge]
    rfl

/-- C73 is violated for every database without a section with titles: bytes from the beginning of the database (its title and the
control data) are returned as titles of the parts. -/
theorem c73_no_section {files : List Bytes} {plot : Plot} (h : openPlot files = .ok plot) (hal : Aligned plot.buf)
    (hsize : plot.buf.bytes.length < 2 ^ 63) (hn : plot.cda.raw.nmmat ≠ 0) (hno : plot.ptrs.partTitles = 0)
    (hlong : plot.cda.raw.nmmat * (1 + 72 / plot.buf.ws) ≤ words plot.buf) :
    readPartTitles plot = .ok (plot, some (titlesAt plot.buf 0 plot.cda.raw.nmmat)) := by
  have := (c73_exact h hal hsize hn (by rw [hno]; decide)).1 (by rw [hno]; omega)
  rw [hno] at this
  exact this

/-- C73 is violated for every database without parts: a pointer that has never been set is closed. -/
theorem c73_no_parts_ub (plot : Plot) (h : plot.cda.raw.nmmat = 0) : readPartTitles plot = .ub := by
  unfold readPartTitles
  rw [h]

/-- C73: the title of a database are its first ten words. -/
theorem c73_title {files : List Bytes} {plot : Plot} (h : openPlot files = .ok plot)
    (hal : Aligned plot.buf) (hsize : plot.buf.bytes.length < 2 ^ 63) :
    readTitleText plot = .ok (plot, some (textAt plot.buf 0 (10 * plot.buf.ws))) := by
  obtain ⟨hb, -⟩ := openPlot_inv h
  obtain ⟨hbf, hbe, hbw, hbl⟩ := openBuf_inv hb
  have g : Good plot.buf := ⟨hbe, by omega, by omega, hsize, hal⟩
  have hw : 22 < words plot.buf := by
    rw [lt_words g]
    unfold Buf.bytes
    rw [hbf]
    rcases hbw with h | h <;> rw [h] <;> omega
  obtain ⟨q, e, _⟩ := c26_read_is_slice (n := 10) (pos := 0) g.err g.ws (by unfold Buf.bytes at hsize; unfold u64; omega)
    ((lt_words g).1 (by omega)) ((le_words g).1 (by omega))
  unfold readTitleText
  rw [e]
  simp only [close, g.err, Bool.false_eq_true, if_false]
  rfl

/-! ## C++ -/

theorem takeWhile_no (s : Bytes) : space ∉ s.takeWhile (· ≠ space) := by
  induction s with
  | nil => simp
  | cons x s ih =>
    rw [List.takeWhile_cons]
    split
    · rename_i h
      simp only [List.mem_cons, not_or]
      refine ⟨fun e => ?_, ih⟩
      rw [← e] at h
      simp at h
    · simp

theorem takeWhile_fill (s : Bytes) (m : Nat) (h : space ∉ s) :
    (s ++ List.replicate m space).takeWhile (· ≠ space) = s := by
  induction s with
  | nil => cases m <;> simp [List.replicate_succ]
  | cons x s ih =>
    simp only [List.mem_cons, not_or] at h
    rw [List.cons_append, List.takeWhile_cons, if_pos (by simp; exact fun e => h.1 e.symm), ih h.2]

/-- C73: what the C++ functions make of a text that has been filled up with blanks: exactly the texts without a blank that
are shorter than the field are returned as they are; a text with a blank is cut there, and a text without a blank that fills the whole field is read behind its end. -/
theorem c73_cpp_exact (text s : Bytes) (h : FilledUp text s) :
    (cppTrim text = .ok s ↔ space ∉ s ∧ s.length < text.length) ∧
    (space ∈ s → ∃ t, cppTrim text = .ok t ∧ t <+: s ∧ t.length < s.length ∧ s[t.length]? = some space) ∧
    (cppTrim text = .ub ↔ space ∉ text) := by
  obtain ⟨⟨m, rfl⟩, hl⟩ := h
  have h2 : space ∈ s → ∃ t, cppTrim (s ++ List.replicate m space) = .ok t ∧ t <+: s ∧ t.length < s.length ∧ s[t.length]? = some space := by
    intro hs
    refine ⟨s.takeWhile (· ≠ space), ?_, List.takeWhile_prefix _, ?_⟩
    · unfold cppTrim
      rw [if_pos (by simp [hs]), List.takeWhile_append]
      rw [if_neg]
      intro hc
      have hx : s.takeWhile (· ≠ space) = s := by
        have := List.takeWhile_prefix (l := s) (p := (· ≠ space))
        exact this.eq_of_length hc
      exact takeWhile_no s (by rw [hx]; exact hs)
    · have := List.takeWhile_append_dropWhile (l := s) (p := fun x => decide (x ≠ space))
      cases hd : s.dropWhile (fun x => decide (x ≠ space)) with
      | nil =>
        rw [hd, List.append_nil] at this
        exact absurd (show space ∈ s.takeWhile (· ≠ space) by rw [this]; exact hs) (takeWhile_no s)
      | cons y ys =>
        have hy := List.head?_dropWhile_not (fun x => decide (x ≠ space)) s
        rw [hd] at this hy
        simp at hy
        subst hy
        have hlen := congrArg List.length this
        simp only [List.length_append, List.length_cons] at hlen
        refine ⟨by omega, ?_⟩
        have hg : (s.takeWhile (fun x => decide (x ≠ space)) ++ space :: ys)[(s.takeWhile (fun x => decide (x ≠ space))).length]? =
            some space := by
          rw [List.getElem?_append_right (Nat.le_refl _), Nat.sub_self]
          rfl
        rw [this] at hg
        exact hg
  have h3 : cppTrim (s ++ List.replicate m space) = .ub ↔ space ∉ s ++ List.replicate m space := by
    unfold cppTrim
    by_cases hx : space ∈ s ++ List.replicate m space
    · simp [hx]
    · simp [hx]
  refine ⟨⟨fun e => ?_, fun ⟨e1, e2⟩ => ?_⟩, h2, h3⟩
  · by_cases hs : space ∈ s
    · obtain ⟨t, t1, _, t2, _⟩ := h2 hs
      rw [t1] at e
      cases e
      omega
    · refine ⟨hs, ?_⟩
      rcases Nat.eq_zero_or_pos m with hm | hm
      · subst hm
        have := h3.2 (by simp [hs])
        rw [e] at this
        cases this
      · simp only [List.length_append, List.length_replicate]; omega
  · unfold cppTrim
    rw [List.length_append, List.length_replicate] at e2
    rw [if_pos (by simp; omega), takeWhile_fill s m e1]

/-- C73: `D3plot::read_title` of every opened database: the text in front of the first blank of the first ten words, and reading behind the
memory if there is no blank. -/
theorem c73_cpp_title {files : List Bytes} {plot : Plot} (h : openPlot files = .ok plot)
    (hal : Aligned plot.buf) (hsize : plot.buf.bytes.length < 2 ^ 63) (s : Bytes)
    (hs : FilledUp (textAt plot.buf 0 (10 * plot.buf.ws)) s) :
    (cppReadTitle plot = .ok (plot, some s) ↔ space ∉ s ∧ s.length < 10 * plot.buf.ws) ∧
    (space ∉ s → s.length = 10 * plot.buf.ws → cppReadTitle plot = .ub) := by
  have ht := c73_title h hal hsize
  obtain ⟨hb, -⟩ := openPlot_inv h
  obtain ⟨hbf, hbe, hbw, hbl⟩ := openBuf_inv hb
  have hlen : (textAt plot.buf 0 (10 * plot.buf.ws)).length = 10 * plot.buf.ws := by
    unfold textAt Buf.bytes
    rw [List.length_take, List.length_drop, hbf]
    rcases hbw with h | h <;> rw [h] <;> omega
  obtain ⟨e1, e2, e3⟩ := c73_cpp_exact _ s hs
  rw [hlen] at e1
  unfold cppReadTitle
  rw [ht]
  simp only
  constructor
  · rw [← e1]
    cases cppTrim (textAt plot.buf 0 (10 * plot.buf.ws)) <;> simp
  · intro h1 h2
    have : cppTrim (textAt plot.buf 0 (10 * plot.buf.ws)) = .ub := by
      rw [e3]
      obtain ⟨⟨m, hm⟩, _⟩ := hs
      have := congrArg List.length hm
      rw [hlen, List.length_append, List.length_replicate] at this
      have hm0 : m = 0 := by omega
      subst hm0
      rw [hm]
      simpa using h1
    rw [this]

/-- Not vacuous: the sample has a section with the title of its only part, 72 bytes of which each fourth is the letter A, and no blank. -/
example : ∃ plot, openPlot sampleFiles = .ok plot ∧
    readPartTitles plot = .ok (plot, some [(List.replicate 18 [65, 0, 0, 0]).flatten]) ∧ cppReadPartTitles plot = .ub := by
  obtain ⟨plot, h1, h2⟩ := Res.is_iff (r := openPlot sampleFiles) (f := fun plot =>
    decide (readPartTitles plot = .ok (plot, some [(List.replicate 18 [65, 0, 0, 0]).flatten]) ∧ cppReadPartTitles plot = .ub))
    (by decide +kernel)
  exact ⟨plot, h1, of_decide_eq_true h2⟩

/-- A title with a blank is cut. -/
theorem c73_sample_blank : FilledUp (bs "Front axle      ") (bs "Front axle") ∧ cppTrim (bs "Front axle      ") = .ok (bs "Front") := by
  refine ⟨⟨⟨6, by decide⟩, by decide⟩, by decide +kernel⟩

/-- The conditions of `c73_part_titles_partial` hold for the sample. -/
example : ∃ header stateFiles d, Family sampleBuf sampleCda header stateFiles [2, 1] 166 d ∧ d.partTitles ≠ 0 ∧
    wordAt sampleBuf (d.partTitles - 1) = wordAt sampleBuf 51 ∧ wordAt sampleBuf 51 ≠ 0 := by
  obtain ⟨header, stateFiles, d, hs, F⟩ := sampleFamily
  have h : ∀ {k e : Nat} {d d' : Ptrs}, Blocks sampleBuf k d e d' → k = 125 → d'.partTitles = 146 := by
    intro k e d d' h hk
    subst hk
    cases h with
    | finish h => exact absurd h (by decide +kernel)
    | parts h _ _ => exact absurd h (by decide +kernel)
    | contacts h _ _ => exact absurd h (by decide +kernel)
    | keywords h _ _ => exact absurd h (by decide +kernel)
    | title _ hn h =>
      have hn' : 125 + 1 + (72 / sampleBuf.ws) = 144 := by decide
      rw [hn, hn'] at h
      cases h with
      | finish h => exact absurd h (by decide +kernel)
      | title h _ _ => exact absurd h (by decide +kernel)
      | contacts h _ _ => exact absurd h (by decide +kernel)
      | keywords h _ _ => exact absurd h (by decide +kernel)
      | parts _ hn h =>
        have hn' : 144 + 2 + ((sampleBuf.ws + 72) * wordAt sampleBuf (144 + 1) / sampleBuf.ws) = 165 := by decide +kernel
        rw [hn, hn'] at h
        cases h with
        | finish h => rfl
        | title h _ _ => exact absurd h (by decide +kernel)
        | parts h _ _ => exact absurd h (by decide +kernel)
        | contacts h _ _ => exact absurd h (by decide +kernel)
        | keywords h _ _ => exact absurd h (by decide +kernel)
  have hd := h F.headerBlocks (by decide +kernel)
  refine ⟨header, stateFiles, d, F, ?_⟩
  rw [hd]
  decide +kernel

end Dyna.D3
