import Verif.KeyWriter
import Verif.Props.KeyInclude
/-!
# Property C106: a key file that is written as the format prescribes is read back
-/

namespace Dyna.Key

/-! ## Lines -/

theorem takeWhile_all {p : Nat → Bool} {l : Bytes} (h : ∀ c ∈ l, p c = true) : l.takeWhile p = l := by
  induction l with
  | nil => rfl
  | cons x l ih =>
    rw [List.takeWhile_cons_of_pos (h x (by simp)), ih (fun c hc => h c (by simp [hc]))]

theorem pieces_ne (b : Bytes) : pieces b ≠ [] := by
  cases b with
  | nil => simp [pieces]
  | cons x xs =>
    unfold pieces
    split
    · simp
    · split <;> simp

theorem pieces_line {p rest : Bytes} (h : charNewline ∉ p) : pieces (p ++ [10] ++ rest) = p :: pieces rest := by
  induction p with
  | nil => simp [pieces, charNewline]
  | cons x xs ih =>
    have hx : x ≠ charNewline := fun e => h (by simp [e])
    have hxs : charNewline ∉ xs := fun e => h (by simp [e])
    simp only [List.cons_append, pieces]
    rw [if_neg hx, ih hxs]

theorem textLines_line {p rest : Bytes} (h : charNewline ∉ p) :
    textLines (p ++ [10] ++ rest) = strip p :: textLines rest := by
  unfold textLines
  simp only
  rw [pieces_line h]
  obtain ⟨q, qs, e⟩ := List.exists_cons_of_ne_nil (pieces_ne rest)
  rw [e, List.getLast?_cons_cons, List.dropLast_cons_cons]
  split <;> simp

theorem textLines_nil : textLines [] = [] := by decide

/-- The line can be read: no newline, NUL in it, and nothing in the text that is a comment or a carriage return. -/
structure OutLine.Ok (l : OutLine) : Prop where
  text : ∀ c ∈ l.text, c ≠ 0 ∧ c ≠ 10 ∧ c ≠ 13 ∧ c ≠ 36
  remark : ∀ r, l.remark = some r → RemarkOk r

theorem OutLine.body_mem {l : OutLine} (h : l.Ok) {c : Nat} (hc : c ∈ l.body) : c ≠ 10 ∧ c ≠ 0 := by
  unfold OutLine.body at hc
  rw [List.mem_append, List.mem_append] at hc
  rcases hc with (hc | hc) | hc
  · exact ⟨(h.text c hc).2.1, (h.text c hc).1⟩
  · cases hr : l.remark with
    | none => rw [hr] at hc; cases hc
    | some r =>
      rw [hr] at hc
      obtain ⟨h1, h2⟩ := h.remark r hr
      rcases List.mem_cons.1 hc with e | e
      · subst e; exact ⟨by decide, by decide⟩
      · exact ⟨fun x => h1 (x ▸ e), fun x => h2 (x ▸ e)⟩
  · cases hr : l.cr with
    | false => rw [hr] at hc; simp at hc
    | true => rw [hr] at hc; simp at hc; subst hc; exact ⟨by decide, by decide⟩

theorem textLines_write {ls : List OutLine} (h : ∀ l ∈ ls, l.Ok) (rest : Bytes) :
    textLines (ls.flatMap OutLine.write ++ rest) = ls.map (fun l => strip l.body) ++ textLines rest := by
  induction ls with
  | nil => rfl
  | cons l ls ih =>
    rw [List.flatMap_cons, List.map_cons, List.cons_append, ← ih (fun x hx => h x (by simp [hx])), List.append_assoc]
    exact textLines_line (fun hc => (OutLine.body_mem (h l (by simp)) hc).1 rfl)

theorem strip_text {t : Bytes} (h : ∀ c ∈ t, c ≠ 0 ∧ c ≠ 10 ∧ c ≠ 13 ∧ c ≠ 36) : strip t = t := by
  unfold strip
  rw [List.filter_eq_self]
  intro c hc
  exact decide_eq_true (h c hc).2.2.1

/-- What counts of the line -/
def OutLine.counts (l : OutLine) : Option Bytes := if l.text = [] ∧ l.remark ≠ none then none else some l.text

theorem visible_line {l : OutLine} (h : l.Ok) : visible (strip l.body) = l.counts := by
  have e : strip l.body = l.text ++ (match l.remark with | none => [] | some r => 36 :: strip r) := by
    unfold OutLine.body
    unfold strip
    rw [List.filter_append, List.filter_append]
    have h1 := strip_text h.text
    unfold strip at h1
    rw [h1]
    have h2 : List.filter (· ≠ charReturn) (if l.cr = true then [13] else []) = [] := by
      cases l.cr <;> decide
    rw [h2, List.append_nil]
    cases l.remark with
    | none => rfl
    | some r =>
      simp only
      rw [List.filter_cons_of_pos (by decide)]
  have hne : ∀ c ∈ l.text, c ≠ charComment := fun c hc => (h.text c hc).2.2.2
  rw [e]
  unfold visible OutLine.counts
  cases hr : l.remark with
  | none =>
    simp only [List.append_nil, ne_eq, not_true_eq_false, and_false, if_false]
    rw [if_neg]
    · congr 1
      exact takeWhile_all fun c hc => decide_eq_true (hne c hc)
    · intro hh
      exact hne _ (List.mem_of_mem_head? hh) rfl
  | some r =>
    simp only [ne_eq, reduceCtorEq, not_false_eq_true, and_true]
    cases ht : l.text with
    | nil => rfl
    | cons c t =>
      rw [ht] at hne
      rw [if_neg (show ¬ (List.head? (c :: t ++ 36 :: strip r) = some charComment) from
        fun hh => hne c (by simp) (Option.some.inj hh)), if_neg (by simp)]
      congr 1
      rw [takeWhile_append_stop (c :: t) 36 (strip r) (by decide)]
      exact takeWhile_all fun c hc => decide_eq_true (hne c hc)

/-! ## Fields -/

theorem digits_special {c : Nat} (h : Card.isDigit c = true) : c ∉ special ∧ c ≠ 42 := by
  simp only [Card.isDigit, Bool.and_eq_true, decide_eq_true_eq] at h
  constructor
  · intro hc
    simp only [special, List.mem_cons, List.not_mem_nil, or_false] at hc
    omega
  · omega

theorem numeral_special {n : Card.Numeral} (h : n.Valid) {c : Nat} (hc : c ∈ n.text) : c ∉ special ∧ c ≠ 42 := by
  have hsign : ∀ x, Card.IsSign x → x ∉ special ∧ x ≠ 42 := by
    intro x hx
    rcases hx with e | e <;> subst e <;> decide
  unfold Card.Numeral.text at hc
  rw [List.mem_append, List.mem_append, List.mem_append] at hc
  rcases hc with hc | hc | hc | hc
  · cases hs : n.sign with
    | none => rw [hs] at hc; cases hc
    | some x =>
      rw [hs] at hc
      simp only [Option.toList, List.mem_singleton] at hc
      subst hc
      exact hsign _ (h.sign _ hs)
  · exact digits_special (h.digits c hc)
  · unfold Card.Numeral.fracText at hc
    cases hf : n.frac with
    | none => rw [hf] at hc; cases hc
    | some fs =>
      rw [hf] at hc
      rcases List.mem_cons.1 hc with e | e
      · subst e; decide
      · exact digits_special (h.frac _ hf c e)
  · unfold Card.Numeral.expText at hc
    cases hx : n.exp with
    | none => rw [hx] at hc; cases hc
    | some q =>
      obtain ⟨e, sg, es⟩ := q
      obtain ⟨h1, h2, h3, _⟩ := h.exp e sg es hx
      rw [hx] at hc
      rcases List.mem_cons.1 hc with hc | hc
      · subst hc
        unfold Card.isE at h1
        rw [Bool.or_eq_true, beq_iff_eq, beq_iff_eq] at h1
        rcases h1 with e | e <;> rw [e] <;> decide
      · rcases List.mem_append.1 hc with hc | hc
        · cases sg with
          | none => cases hc
          | some x =>
            simp only [Option.toList, List.mem_singleton] at hc
            subst hc
            exact hsign _ (h2 _ rfl)
        · exact digits_special (h3 c hc)

/-- No value has special characters, and none begins with a '*'. -/
theorem value_special {v : Value} (h : v.Ok) : (∀ c ∈ v.text, c ∉ special) ∧ v.text.head? ≠ some 42 := by
  have aux : ∀ t : Bytes, (∀ c ∈ t, c ∉ special ∧ c ≠ 42) → (∀ c ∈ t, c ∉ special) ∧ t.head? ≠ some 42 := by
    intro t ht
    exact ⟨fun c hc => (ht c hc).1, fun hh => (ht 42 (List.mem_of_mem_head? hh)).2 rfl⟩
  cases v with
  | none => exact aux [] (fun _ hc => by cases hc)
  | int v =>
    apply aux
    show ∀ c ∈ bs (toString v), _
    rw [Card.bs_toString]
    intro c hc
    split at hc
    · rcases List.mem_cons.1 hc with e | e
      · subst e; decide
      · exact digits_special ((Card.toDigits_facts _).1 c e)
    · exact digits_special ((Card.toDigits_facts _).1 c hc)
  | real n => exact aux _ (fun c hc => numeral_special h.1 hc)
  | word t => exact ⟨h.2.1, h.2.2⟩

theorem field_special {f : Field} (h : f.value.Ok) {c : Nat} (hc : c ∈ f.write) : c ≠ 0 ∧ c ≠ 10 ∧ c ≠ 13 ∧ c ≠ 36 := by
  unfold Field.write at hc
  rw [List.mem_append, List.mem_append] at hc
  rcases hc with (hc | hc) | hc
  · rw [List.eq_of_mem_replicate hc]; decide
  · have := (value_special h).1 c hc
    simp only [special, List.mem_cons, List.not_mem_nil, or_false] at this
    omega
  · rw [List.eq_of_mem_replicate hc]; decide

theorem card_text_special {c : OutCard} (h : c.Ok) : ∀ x ∈ c.text, x ≠ 0 ∧ x ≠ 10 ∧ x ≠ 13 ∧ x ≠ 36 := by
  intro x hx
  unfold OutCard.text at hx
  obtain ⟨f, h1, h2⟩ := List.mem_flatMap.1 hx
  exact field_special (h.values f h1) h2

theorem dropWhile_replicate_blank (k : Nat) (r : Bytes) :
    (List.replicate k 32 ++ r).dropWhile (· = charBlank) = r.dropWhile (· = charBlank) := by
  induction k with
  | zero => rfl
  | succ k ih => rw [List.replicate_succ, List.cons_append, List.dropWhile_cons_of_pos (by decide), ih]

/-- A card is not a keyword line. -/
theorem card_not_header {c : OutCard} (h : c.Ok) : isHeader c.text = false := by
  have key : ∀ fs : List Field, (∀ f ∈ fs, f.value.Ok) → ((fs.flatMap Field.write).dropWhile (· = charBlank)).head? ≠ some 42 := by
    intro fs
    induction fs with
    | nil => intro _ hh; cases hh
    | cons f fs ih =>
      intro hf
      rw [List.flatMap_cons]
      unfold Field.write
      rw [List.append_assoc, List.append_assoc, dropWhile_replicate_blank]
      obtain ⟨h1, h2⟩ := value_special (hf f (by simp))
      cases ht : f.value.text with
      | nil =>
        rw [List.nil_append, dropWhile_replicate_blank]
        exact ih (fun g hg => hf g (by simp [hg]))
      | cons x t =>
        have hx : x ≠ charBlank := by
          have := h1 x (by rw [ht]; simp)
          simp only [special, List.mem_cons, List.not_mem_nil, or_false] at this
          unfold charBlank; omega
        rw [List.cons_append, List.dropWhile_cons_of_neg (by simpa using hx)]
        rw [ht] at h2
        exact h2
  unfold isHeader
  rw [beq_eq_false_iff_ne]
  exact key c.fields h.values

/-! ## Blocks -/

theorem name_special {b : OutBlock} (h : b.Ok) {c : Nat} (hc : c ∈ b.name) :
    c ≠ 0 ∧ c ≠ 10 ∧ c ≠ 13 ∧ c ≠ 36 ∧ c ≠ charBlank := by
  have := h.name c hc
  simp only [special, List.mem_cons, List.not_mem_nil, or_false] at this
  unfold charBlank
  omega

theorem header_ok {b : OutBlock} (h : b.Ok) : b.header.Ok := by
  refine ⟨?_, h.remark⟩
  intro c hc
  simp only [OutBlock.header, List.mem_append, List.mem_cons] at hc
  rcases hc with (hc | hc | hc) | hc
  · rw [List.eq_of_mem_replicate hc]; decide
  · subst hc; decide
  · have := name_special h hc; omega
  · rw [List.eq_of_mem_replicate hc]; decide

theorem header_name {b : OutBlock} (h : b.Ok) : isHeader b.header.text = true ∧ headerName b.header.text = b.name := by
  have e : b.header.text.dropWhile (· = charBlank) = 42 :: b.name ++ List.replicate b.after 32 := by
    show (List.replicate b.indent 32 ++ 42 :: b.name ++ List.replicate b.after 32).dropWhile _ = _
    rw [List.append_assoc, dropWhile_replicate_blank, List.cons_append, List.dropWhile_cons_of_neg (by decide)]
  constructor
  · unfold isHeader
    rw [e]; rfl
  · unfold headerName
    rw [e]
    simp only [List.cons_append, List.drop_succ_cons, List.drop_zero]
    have hb : ∀ c ∈ b.name, decide (c ≠ charBlank) = true := by
      intro c hc; simpa using (name_special h hc).2.2.2.2
    cases b.after with
    | zero => rw [List.replicate_zero, List.append_nil, takeWhile_all hb]
    | succ k =>
      rw [List.replicate_succ]
      rw [takeWhile_append_stop _ _ _ (by decide)]
      exact takeWhile_all hb

theorem note_ok {n : Note} (h : RemarkOk n.remark) : n.line.Ok := by
  refine ⟨fun c hc => (by cases hc), fun r hr => ?_⟩
  have : some n.remark = some r := hr
  cases this; exact h

theorem note_counts (n : Note) : n.line.counts = none := by
  unfold OutLine.counts Note.line; simp

theorem card_lines_ok {c : OutCard} (h : c.Ok) : ∀ l ∈ c.lines, l.Ok := by
  intro l hl
  unfold OutCard.lines at hl
  rcases List.mem_append.1 hl with hl | hl
  · obtain ⟨n, h1, rfl⟩ := List.mem_map.1 hl
    exact note_ok (h.above n h1)
  · rw [List.mem_singleton.1 hl]
    exact ⟨card_text_special h, fun r hr => (h.remark r hr).1⟩

theorem notes_filter (ns : List Note) : (ns.map Note.line).filterMap OutLine.counts = [] := by
  rw [List.filterMap_map, List.filterMap_eq_nil_iff]
  intro n _
  exact note_counts n

theorem card_filter {c : OutCard} (h : c.Ok) : c.lines.filterMap OutLine.counts = [c.text] := by
  unfold OutCard.lines
  rw [List.filterMap_append, notes_filter, List.nil_append, List.filterMap_cons_some (b := c.text)]
  · rfl
  · unfold OutLine.counts
    rw [if_neg]
    rintro ⟨h1, h2⟩
    cases hr : c.remark with
    | none => exact h2 hr
    | some r => exact (h.remark r hr).2 h1

theorem block_lines_ok {b : OutBlock} (h : b.Ok) : ∀ l ∈ b.lines, l.Ok := by
  intro l hl
  unfold OutBlock.lines at hl
  rcases List.mem_append.1 hl with hl | hl
  · obtain ⟨n, h1, rfl⟩ := List.mem_map.1 hl
    exact note_ok (h.above n h1)
  · rcases List.mem_cons.1 hl with hl | hl
    · rw [hl]; exact header_ok h
    · obtain ⟨c, h1, h2⟩ := List.mem_flatMap.1 hl
      exact card_lines_ok (h.cards c h1) l h2

theorem block_filter {b : OutBlock} (h : b.Ok) :
    b.lines.filterMap OutLine.counts = b.header.text :: b.cards.map OutCard.text := by
  unfold OutBlock.lines
  have hc : (b.cards.flatMap OutCard.lines).filterMap OutLine.counts = b.cards.map OutCard.text := by
    have : ∀ cs : List OutCard, (∀ c ∈ cs, c.Ok) →
        (cs.flatMap OutCard.lines).filterMap OutLine.counts = cs.map OutCard.text := by
      intro cs
      induction cs with
      | nil => intro _; rfl
      | cons c cs ih =>
        intro hcs
        rw [List.flatMap_cons, List.filterMap_append, card_filter (hcs c (by simp)), ih (fun x hx => hcs x (by simp [hx]))]
        rfl
    exact this b.cards h.cards
  rw [List.filterMap_append, notes_filter, List.nil_append, List.filterMap_cons_some (b := b.header.text), hc]
  unfold OutLine.counts
  rw [if_neg]
  rintro ⟨h1, _⟩
  have : b.header.text.length = 0 := by rw [h1]; rfl
  simp [OutBlock.header] at this

/-- What counts of the file -/
def OutFile.counted (f : OutFile) : List Bytes := f.blocks.flatMap (fun b => b.header.text :: b.cards.map OutCard.text)

theorem file_lines_ok {f : OutFile} (h : f.Ok) : ∀ l ∈ f.lines, l.Ok := by
  intro l hl
  unfold OutFile.lines at hl
  rcases List.mem_append.1 hl with hl | hl
  · obtain ⟨b, h1, h2⟩ := List.mem_flatMap.1 hl
    exact block_lines_ok (h.blocks b h1) l h2
  · obtain ⟨n, h1, rfl⟩ := List.mem_map.1 hl
    exact note_ok (h.foot n h1)

theorem file_filter {f : OutFile} (h : f.Ok) : f.lines.filterMap OutLine.counts = f.counted := by
  unfold OutFile.lines OutFile.counted
  rw [List.filterMap_append, notes_filter, List.append_nil]
  have : ∀ bl : List OutBlock, (∀ b ∈ bl, b.Ok) → (bl.flatMap OutBlock.lines).filterMap OutLine.counts =
      bl.flatMap (fun b => b.header.text :: b.cards.map OutCard.text) := by
    intro bl
    induction bl with
    | nil => intro _; rfl
    | cons b bl ih =>
      intro hb
      rw [List.flatMap_cons, List.filterMap_append, block_filter (hb b (by simp)), ih (fun x hx => hb x (by simp [hx])),
        List.flatMap_cons]
  exact this f.blocks h.blocks

theorem visible_lines {ls : List OutLine} (h : ∀ l ∈ ls, l.Ok) :
    (ls.map (fun l => strip l.body)).filterMap visible = ls.filterMap OutLine.counts := by
  induction ls with
  | nil => rfl
  | cons l ls ih =>
    rw [List.map_cons, List.filterMap_cons, List.filterMap_cons, visible_line (h l (by simp)), ih (fun x hx => h x (by simp [hx]))]

/-- A block counts up to the next one. -/
theorem counted_no_end {bl : List OutBlock} (h : ∀ b ∈ bl, b.Ok) :
    ∀ v ∈ bl.flatMap (fun b => b.header.text :: b.cards.map OutCard.text), isEnd v = false := by
  intro v hv
  obtain ⟨b, h1, h2⟩ := List.mem_flatMap.1 hv
  have hb := h b h1
  unfold isEnd
  rcases List.mem_cons.1 h2 with e | e
  · subst e
    rw [(header_name hb).2, Bool.and_eq_false_iff]
    exact .inr (by simpa using hb.noEnd)
  · obtain ⟨c, h3, rfl⟩ := List.mem_map.1 e
    rw [card_not_header (hb.cards c h3)]; rfl

theorem blocksOf_counted {bl : List OutBlock} (h : ∀ b ∈ bl, b.Ok) :
    cardsOf (bl.flatMap (fun b => b.header.text :: b.cards.map OutCard.text)) = [] ∧
    blocksOf (bl.flatMap (fun b => b.header.text :: b.cards.map OutCard.text)) = bl.map OutBlock.keyword := by
  induction bl with
  | nil => exact ⟨rfl, rfl⟩
  | cons b bl ih =>
    obtain ⟨ih1, ih2⟩ := ih (fun x hx => h x (by simp [hx]))
    have hb := h b (by simp)
    obtain ⟨e1, e2⟩ := header_name hb
    have hcards : ∀ (cs : List OutCard) (rest : List Bytes), (∀ c ∈ cs, c.Ok) →
        cardsOf (cs.map OutCard.text ++ rest) = cs.map OutCard.text ++ cardsOf rest ∧
        blocksOf (cs.map OutCard.text ++ rest) = blocksOf rest := by
      intro cs rest
      induction cs with
      | nil => intro _; exact ⟨rfl, rfl⟩
      | cons c cs ihc =>
        intro hc
        obtain ⟨i1, i2⟩ := ihc (fun x hx => hc x (by simp [hx]))
        have hn := card_not_header (hc c (by simp))
        unfold cardsOf at i1 ⊢
        constructor
        · rw [List.map_cons, List.cons_append, List.takeWhile_cons_of_pos (by rw [hn]; rfl), i1]
          rfl
        · rw [List.map_cons, List.cons_append, blocksOf, hn]
          simpa using i2
    obtain ⟨g1, g2⟩ := hcards b.cards (bl.flatMap (fun b => b.header.text :: b.cards.map OutCard.text)) hb.cards
    rw [List.flatMap_cons]
    constructor
    · unfold cardsOf
      rw [List.cons_append, List.takeWhile_cons_of_neg (by rw [e1]; decide)]
    · rw [List.cons_append, blocksOf, if_pos e1, g1, g2, ih1, ih2, e2, List.append_nil]
      rfl

/-! ## Whole files -/

/-- The line `*END` -/
def endLine : Bytes := bs "*END"

/-- The lines up to `*END` -/
def OutFile.texts (f : OutFile) : List Bytes :=
  f.lines.map (fun l => strip l.body) ++ (match f.ending with | none => [] | some _ => [endLine])

theorem textLines_file {f : OutFile} (h : f.Ok) : textLines f.write =
    f.lines.map (fun l => strip l.body) ++ (match f.ending with | none => [] | some rest => endLine :: textLines rest) := by
  unfold OutFile.write
  rw [textLines_write (file_lines_ok h)]
  congr 1
  cases f.ending with
  | none => exact textLines_nil
  | some rest =>
    have e : bs "*END\n" ++ rest = endLine ++ [10] ++ rest := by
      congr 1
    simp only
    rw [e, textLines_line (by decide +kernel)]
    congr 1

/-- Lines behind `*END` do not matter. -/
theorem linesLoop_end (w : World) (cfg : Config) (root : Bytes) (inc : Bytes → Shared → Res Shared) (file : Bytes)
    (rest : List Line) (a : List Line) : ∀ (l : Local) (s : Shared),
    linesLoop w cfg root inc file (a ++ ⟨endLine, commentOf endLine⟩ :: rest) l s =
      linesLoop w cfg root inc file (a ++ [⟨endLine, commentOf endLine⟩]) l s := by
  induction a with
  | nil =>
    intro l s
    have e1 : ¬ commentOf endLine = some 0 := by decide +kernel
    have e2 : isKeyword (lineCells ⟨endLine, commentOf endLine⟩) = true := by decide +kernel
    have e3 : keywordName (lineCells ⟨endLine, commentOf endLine⟩) = .ok (bs "END") := by decide +kernel
    simp only [List.nil_append, linesLoop]
    rw [if_neg e1, if_neg e1, if_pos e2, if_pos e2, e3]
    simp only [Res.bind_ok, if_true]
  | cons x a ih =>
    intro l s
    simp only [List.cons_append, linesLoop]
    split
    · exact ih _ _
    · split
      · congr 1
        funext name
        split
        · rfl
        · exact ih _ _
      · congr 1
        funext q
        exact ih _ _

theorem visible_end : visible endLine = some endLine ∧ isHeader endLine = true ∧ headerName endLine = bs "END" ∧
    isEnd endLine = true := by decide +kernel

theorem texts_counted {f : OutFile} (h : f.Ok) : countedLines f.texts = f.counted := by
  unfold countedLines OutFile.texts
  rw [List.filterMap_append, visible_lines (file_lines_ok h), file_filter h]
  have hne := counted_no_end h.blocks
  have hall : f.counted.takeWhile (fun v => !isEnd v) = f.counted := by
    have : ∀ l : List Bytes, (∀ v ∈ l, isEnd v = false) → l.takeWhile (fun v => !isEnd v) = l := by
      intro l
      induction l with
      | nil => intro _; rfl
      | cons x l ih =>
        intro hl
        rw [List.takeWhile_cons_of_pos (by rw [hl x (by simp)]; rfl), ih (fun v hv => hl v (by simp [hv]))]
    exact this _ hne
  cases f.ending with
  | none => simpa using hall
  | some rest =>
    simp only
    rw [List.filterMap_cons_some visible_end.1, List.filterMap_nil,
      takeWhile_append_stop _ _ _ (by rw [visible_end.2.2.2]; rfl), hall]

theorem strip_length (p : Bytes) : (strip p).length ≤ p.length := List.length_filter_le _ _

/-- The lines that have to be taken into account for the keyword lines -/
theorem texts_plain {f : OutFile} (h : f.Ok) : Plain f.texts := by
  have key : ∀ t ∈ f.texts, 0 ∉ t ∧ ∀ v, visible t = some v → isHeader v = true →
      HeaderOk t ∧ ¬ bs "INCLUDE" <+: headerName v := by
    intro t ht
    unfold OutFile.texts at ht
    rcases List.mem_append.1 ht with ht | ht
    · obtain ⟨l, h1, rfl⟩ := List.mem_map.1 ht
      have hl := file_lines_ok h l h1
      constructor
      · intro h0
        have : (0 : Nat) ∈ l.body := (List.mem_filter.1 h0).1
        exact (OutLine.body_mem hl this).2 rfl
      · rw [visible_line hl]
        intro v hv hh
        unfold OutFile.lines at h1
        rcases List.mem_append.1 h1 with h1 | h1
        · obtain ⟨b, h2, h3⟩ := List.mem_flatMap.1 h1
          have hb := h.blocks b h2
          unfold OutBlock.lines at h3
          rcases List.mem_append.1 h3 with h3 | h3
          · obtain ⟨n, _, rfl⟩ := List.mem_map.1 h3
            rw [note_counts] at hv; cases hv
          · rcases List.mem_cons.1 h3 with h3 | h3
            · subst h3
              have e : v = b.header.text := by
                unfold OutLine.counts at hv
                split at hv
                · cases hv
                · exact (Option.some.inj hv).symm
              subst e
              refine ⟨.inl (Nat.lt_of_le_of_lt (strip_length _) hb.length), ?_⟩
              rw [(header_name hb).2]; exact hb.noInclude
            · obtain ⟨c, h4, h5⟩ := List.mem_flatMap.1 h3
              unfold OutCard.lines at h5
              rcases List.mem_append.1 h5 with h5 | h5
              · obtain ⟨n, _, rfl⟩ := List.mem_map.1 h5
                rw [note_counts] at hv; cases hv
              · rw [List.mem_singleton.1 h5] at hv
                have e : v = c.text := by
                  unfold OutLine.counts at hv
                  split at hv
                  · cases hv
                  · exact (Option.some.inj hv).symm
                rw [e, card_not_header (hb.cards c h4)] at hh
                cases hh
        · obtain ⟨n, _, rfl⟩ := List.mem_map.1 h1
          rw [note_counts] at hv; cases hv
    · have e : t = endLine := by
        cases hx : f.ending with
        | none => rw [hx] at ht; cases ht
        | some r => rw [hx] at ht; exact List.mem_singleton.1 ht
      subst e
      refine ⟨by decide +kernel, ?_⟩
      intro v hv _
      rw [visible_end.1] at hv
      cases hv
      refine ⟨.inl (by decide +kernel), ?_⟩
      rw [visible_end.2.2.1]
      decide +kernel
  exact ⟨fun t ht => (key t ht).1, fun t ht v hv hh => ((key t ht).2 v hv hh).1,
    fun t ht v hv hh => ((key t ht).2 v hv hh).2⟩

theorem linesLoop_file (w : World) (cfg : Config) (root : Bytes) (inc : Bytes → Shared → Res Shared) (file : Bytes)
    {f : OutFile} (h : f.Ok) (l : Local) (s : Shared) :
    linesLoop w cfg root inc file ((textLines f.write).map fun t => ⟨t, commentOf t⟩) l s =
      linesLoop w cfg root inc file (f.texts.map fun t => ⟨t, commentOf t⟩) l s := by
  rw [textLines_file h]
  unfold OutFile.texts
  cases f.ending with
  | none => rfl
  | some rest =>
    simp only [List.map_append, List.map_cons, List.map_nil]
    exact linesLoop_end w cfg root inc file _ _ l s

/-- The calls of the callback for a file that is written as the format prescribes -/
theorem parseTop_file (w : World) (cfg : Config) (depth : Nat) (file : Bytes) {f : OutFile} (h : f.Ok)
    (hfile : w.content file = some f.write) (hcwd : w.cwd.head? = some SEP)
    (hm : (∀ i, w.mem i ≠ charNewline) ∨ f.write.length < chunkSize)
    (hs : ¬ chunkSize ∣ f.write.length) :
    parseTop w cfg (depth + 1) file =
      .ok { paths := w.cwd :: cfg.extraPaths, events := f.keywords.flatMap blockCalls } := by
  obtain ⟨root, hroot⟩ := rootFolder_ok w file hcwd
  unfold parseTop
  rw [hfile]
  simp only
  rw [hroot]
  simp only [Res.bind_ok, parseFile, hfile]
  rw [c41_lines_partial (by decide) hm hs]
  simp only [Res.bind_ok]
  rw [linesLoop_file w cfg root _ file h]
  obtain ⟨l', s', h1, h2⟩ := linesLoop_plain w cfg root (parseFile w cfg root depth) file
    f.texts (texts_plain h) {} { paths := w.cwd :: cfg.extraPaths } (by decide) (by decide) rfl
  rw [h1]
  simp only [Res.bind_ok]
  rw [h2]
  obtain ⟨g1, g2⟩ := blocksOf_counted h.blocks
  have hn : ∀ b ∈ blocksOf (countedLines f.texts), b.name ≠ [] := by
    rw [texts_counted h]
    unfold OutFile.counted
    rw [g2]
    intro k hk
    obtain ⟨b, h3, rfl⟩ := List.mem_map.1 hk
    exact (h.blocks b h3).nonempty
  have hhead : ¬ NoHeader f.texts := by
    intro hno
    obtain ⟨b, bl, e⟩ := List.exists_cons_of_ne_nil h.nonempty
    have hb : b ∈ f.blocks := by rw [e]; simp
    have : isHeader b.header.text = false := by
      apply hno
      unfold OutFile.texts
      rw [List.filterMap_append, visible_lines (file_lines_ok h), file_filter h]
      apply List.mem_append_left
      unfold OutFile.counted
      rw [e, List.flatMap_cons]
      simp
    rw [(header_name (h.blocks b hb)).1] at this
    cases this
  simp only
  rw [restCalls_eq _ hn, if_neg (by rintro ⟨_, _, h3 | h3⟩; exact h3 rfl; exact hhead h3), List.append_nil, texts_counted h]
  unfold OutFile.counted
  rw [g1, g2]
  rfl

/-! ## Lookup -/

theorem positions_filter (ks : List Keyword) (n : Bytes) :
    (positions (ks.map Keyword.name) n).filterMap (fun i => ks[i]?) = ks.filter (fun k => decide (k.name = n)) := by
  have hall : ∀ l : List Keyword, (List.range l.length).filterMap (fun i => l[i]?) = l := by
    intro l
    induction l with
    | nil => rfl
    | cons x l ih =>
      rw [List.length_cons, List.range_succ_eq_map, List.filterMap_cons_some (b := x) (by rfl), List.filterMap_map]
      congr 1
  unfold positions
  rw [List.length_map]
  conv => rhs; rw [← hall ks]
  rw [List.filterMap_filter, List.filter_filterMap]
  congr 1
  funext i
  rw [List.getElem?_map]
  cases hk : ks[i]? with
  | none => simp
  | some k =>
    simp [Option.filter]

theorem filterMap_getElem? {ks : List Keyword} : ∀ (ps : List Nat) (i : Nat) (b : Keyword), (∀ p ∈ ps, p < ks.length) →
    (ps.filterMap (fun i => ks[i]?))[i]? = some b → ∃ p, ps[i]? = some p ∧ ks[p]? = some b := by
  intro ps
  induction ps with
  | nil => intro i b _ h; simp at h
  | cons p ps ih =>
    intro i b hp h
    have hlt := hp p (by simp)
    rw [List.filterMap_cons_some (List.getElem?_eq_getElem hlt)] at h
    cases i with
    | zero => exact ⟨p, rfl, by rw [List.getElem?_eq_getElem hlt]; simpa using h⟩
    | succ i =>
      obtain ⟨q, h1, h2⟩ := ih i b (fun x hx => hp x (by simp [hx])) (by simpa using h)
      exact ⟨q, by simpa using h1, h2⟩

/-- C106, first part: a key file is written with any keywords, with any cards, with comment lines and comments behind the lines,
with any blanks in front of and behind the keyword names, with both kinds of line ends, and maybe with `*END` and anything behind
it. `key_file_parse` reports no error and no warning and gives exactly the keywords that have been written, sorted by name, those
of the same name in the order in which they have been written, and every card with its text; and `key_file_get` with a name and
an index finds the keyword with this name and this number. -/
theorem c106_round_trip (w : World) (cfg : Config) (depth : Nat) (file : Bytes) {f : OutFile} (h : f.Ok)
    (hfile : w.content file = some f.write) (hcwd : w.cwd.head? = some SEP)
    (hm : (∀ i, w.mem i ≠ charNewline) ∨ f.write.length < chunkSize)
    (hs : ¬ chunkSize ∣ f.write.length)
    (hno : ∀ earlier b later, f.keywords = earlier ++ b :: later → ¬ Overrun earlier b) :
    ∃ ks, keyFileParse w cfg (depth + 1) file = .ok ks ∧
      (∃ s, parseTop w cfg (depth + 1) file = .ok s ∧ s.errors = [] ∧ s.warnings = []) ∧
      ks.Perm f.keywords ∧ SortedNames (ks.map Keyword.name) ∧
      (∀ n, ks.filter (fun k => decide (k.name = n)) = f.keywords.filter (fun k => decide (k.name = n))) ∧
      ∀ n i b, (f.keywords.filter (fun k => decide (k.name = n)))[i]? = some b →
        ∃ p, keyFileGet (ks.map Keyword.name) n i = .ok (some p) ∧ ks[p]? = some b := by
  have h1 := parseTop_file w cfg depth file h hfile hcwd hm hs
  have hev := fileEvents_flatMap f.keywords
  obtain ⟨ks, h2, h3, h4⟩ := c44_keyword_list_partial _ _ hev hno
  refine ⟨ks, ?_, ⟨_, h1, rfl, rfl⟩, c44_keyword_list_perm _ _ hev ks h2, h3, h4, ?_⟩
  · unfold keyFileParse
    rw [h1]
    simp only [Res.bind_ok]
    rw [h2]
    simp
  · intro n i b hb
    rw [← h4 n, ← positions_filter] at hb
    obtain ⟨p, h5, h6⟩ := filterMap_getElem? _ i b (by
      intro p hp
      unfold positions at hp
      have := List.mem_range.1 (List.mem_filter.1 hp).1
      simpa using this) hb
    exact ⟨p, (c45_key_file_get_existing _ h3 n i p h5).1, h6⟩

end Dyna.Key
