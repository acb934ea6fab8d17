import Verif.Props.KeyRoundTrip
import Verif.Props.CardValue
/-!
# Property C106: the values in the fields of a card that is written as the format prescribes
-/

namespace Dyna.Key
open Dyna.Card

/-- The value is read at this position of the card: an integer as this integer, by the functions for floating point numbers as
well; a decimal number as its value (computed exactly); a word as this word; a field of blanks as the empty word. -/
def OutReadBack (card : Card.Card) (w : Nat) : Value → Prop
  | .none => card.parseString w = .ok []
  | .int v => card.parseInt w = .ok v ∧ card.parseFloat exact w = .ok (v : ℚ)
  | .real n => card.parseFloat exact w = .ok n.value
  | .word t => card.parseString w = .ok t

theorem write_length (f : Field) : f.write.length = f.width := by
  unfold Field.write Field.width
  simp [Nat.add_assoc]

theorem write_flat_length (fs : List Field) : (fs.flatMap Field.write).length = (fs.map Field.width).sum := by
  induction fs with
  | nil => rfl
  | cons f fs ih => rw [List.flatMap_cons, List.length_append, ih, write_length]; rfl

theorem nextWidth_step {card : Card.Card} {w : Nat} (hn : NoNul card.string) (hs : card.string.length ≤ 255)
    (h : card.cur + w ≤ card.string.length) : card.nextWidth w = .ok { card with cur := card.cur + w } := by
  unfold Card.nextWidth
  rcases Nat.lt_or_ge card.cur card.string.length with h1 | h1
  · rw [charAt_lt h1]
    simp only [Res.bind_ok]
    rw [if_pos (hn _ (List.getElem_mem h1)), if_pos (by omega)]
  · have e : w = 0 := by omega
    have e' : card.cur = card.string.length := by omega
    rw [e', charAt_end]
    subst e
    simp only [Res.bind_ok, Nat.add_zero]
    rw [if_neg (by decide), ← e']

theorem walk_step {card : Card.Card} (hn : NoNul card.string) (hs : card.string.length ≤ 255) : ∀ (ws : List Nat) (i : Nat),
    i + ws.sum ≤ card.string.length →
    walk { card with cur := i } ws = .ok { card with cur := i + ws.sum } := by
  intro ws
  induction ws with
  | nil => intro i _; rfl
  | cons w ws ih =>
    intro i hi
    rw [List.sum_cons] at hi
    unfold walk
    rw [nextWidth_step (card := { card with cur := i }) hn hs (by show i + w ≤ card.string.length; omega)]
    simp only [Res.bind_ok]
    rw [ih (i + w) (by omega), List.sum_cons]
    congr 2
    omega

theorem value_blank {v : Value} (h : v.Ok) : ∀ c ∈ v.text, c ≠ blank := by
  intro c hc e
  have := (value_special h).1 c hc
  apply this
  rw [e]; decide

theorem trim_blanks (k : Nat) : trim (List.replicate k blank) = [] := by
  have e : (List.replicate k blank).dropWhile (fun c => decide (c = blank)) = [] := by
    induction k with
    | zero => rfl
    | succ k ih => rw [List.replicate_succ, List.dropWhile_cons_of_pos (by decide), ih]
  unfold trim
  rw [e]; rfl

/-- C106, second part: the values of the fields of such a card are read back: going from the start of the card over the fields
in front of it with their widths one comes to the field, and the function for its kind of value gives the value; behind the last
one the card is done. -/
theorem c106_fields {c : OutCard} (hc : c.Ok) (card : Card.Card) (hcard : card.string = c.text) (w : Nat) :
    (∀ pre f post, c.fields = pre ++ f :: post →
      ∃ card', walk (card.begin w) (pre.map Field.width) = .ok card' ∧ OutReadBack card' f.width f.value) ∧
    ∃ card', walk (card.begin w) (c.fields.map Field.width) = .ok card' ∧ card'.done = .ok true := by
  have hn : NoNul card.string := by
    rw [hcard]
    exact fun x hx => (card_text_special hc x hx).1
  have hs : card.string.length ≤ 255 := by rw [hcard]; exact hc.length
  have hlen : card.string.length = (c.fields.map Field.width).sum := by rw [hcard]; exact write_flat_length _
  have hb : card.begin w = { ({ card with width := w } : Card.Card) with cur := 0 } := rfl
  constructor
  · intro pre f post e
    have hsum : card.string.length = (pre.map Field.width).sum + (f.width + (post.map Field.width).sum) := by
      rw [hlen, e, List.map_append, List.map_cons, List.sum_append, List.sum_cons]
    rw [hb]
    refine ⟨_, walk_step (card := { card with width := w }) hn hs _ 0 (by show 0 + _ ≤ card.string.length; omega), ?_⟩
    rw [Nat.zero_add]
    generalize hp : (pre.map Field.width).sum = cur at hsum ⊢
    have hf : field card.string cur f.width = List.replicate f.before blank ++ f.value.text ++ List.replicate f.after blank := by
      unfold field
      rw [hcard]
      unfold OutCard.text
      rw [e, List.flatMap_append, List.flatMap_cons, List.drop_append_of_le_length (by rw [write_flat_length, hp]),
        List.drop_of_length_le (by rw [write_flat_length, hp]), List.nil_append,
        List.take_append_of_le_length (by rw [write_length]), List.take_of_length_le (by rw [write_length])]
      rfl
    have hv : f.value.Ok := hc.values f (by rw [e]; simp)
    have hcur : cur ≤ card.string.length := by omega
    have hw : cur + f.width < 256 := by omega
    have hw' : f.width ≤ 255 := by omega
    cases hx : f.value with
    | none =>
      rw [hx] at hf
      show Card.parseString _ _ = _
      rw [c49_string (card := { card with width := w, cur := cur }) hn hcur hw']
      show Res.ok (trim (field card.string cur f.width)) = _
      rw [hf]
      simp only [Value.text, List.append_nil]
      rw [List.replicate_append_replicate, trim_blanks]
    | int v =>
      rw [hx] at hf hv
      exact ⟨c48_int (card := { card with width := w, cur := cur }) v hn hcur hw hv hf,
        c57_int (card := { card with width := w, cur := cur }) v hn hcur hw hf⟩
    | real n =>
      rw [hx] at hf hv
      exact c57_value (card := { card with width := w, cur := cur }) n hn hcur hw hv.1 hv.2 hf
    | word t =>
      have hbl := value_blank hv
      rw [hx] at hf hv hbl
      exact c49_round_trip (card := { card with width := w, cur := cur }) hn hcur hw' hbl hv.1 hf
  · rw [hb]
    refine ⟨_, walk_step (card := { card with width := w }) hn hs _ 0 (by show 0 + _ ≤ card.string.length; omega), ?_⟩
    unfold Card.done
    simp only
    rw [Nat.zero_add, ← hlen, charAt_end]
    rfl

/-! ## A file -/

/-- Two keywords: NODE with two cards (a number, three coordinates and a word), and PART without cards behind `*END`. -/
def sampleFile : OutFile where
  blocks := [
    { above := [⟨bs " a comment with *KEYWORD", true⟩]
      name := bs "NODE", after := 1, remark := some (bs " nodes")
      cards := [
        { fields := [⟨.int (-12), 5, 0⟩, ⟨.real ⟨some minus, bs "1", some (bs "25"), some (101, none, bs "2")⟩, 3, 0⟩, ⟨.none, 4, 0⟩,
            ⟨.word (bs "ab*c"), 1, 2⟩]
          remark := some (bs "end $ of \r line"), cr := true },
        { above := [⟨bs "", false⟩], fields := [⟨.int 7, 7, 0⟩] }] },
    { indent := 2, name := bs "PART", cr := true, cards := [] },
    { name := bs "NODE", cards := [{ fields := [] }] }]
  foot := [⟨bs "the end", false⟩]
  ending := some (0 :: bs "*PART")

theorem c106_sample : sampleFile.Ok ∧ sampleFile.write = bs "$ a comment with *KEYWORD\r\n*NODE $ nodes\n     -12   -1.25e2     ab*c  $end $ of \r line\r\n$\n       7\n  *PART\r\n*NODE\n\n$the end\n*END\n" ++ 0 :: bs "*PART" ∧
    sampleFile.write.length < chunkSize ∧ ¬ chunkSize ∣ sampleFile.write.length ∧
    sampleFile.keywords = [⟨bs "NODE", [bs "     -12   -1.25e2     ab*c  ", bs "       7"]⟩, ⟨bs "PART", []⟩, ⟨bs "NODE", [[]]⟩] ∧
    ∀ earlier b later, sampleFile.keywords = earlier ++ b :: later → ¬ Overrun earlier b := by
  refine ⟨⟨by decide, ?_, ?_⟩, by decide +kernel, by decide +kernel, by decide +kernel, by decide +kernel, ?_⟩
  · intro b hb
    simp only [sampleFile, List.mem_cons, List.not_mem_nil, or_false] at hb
    rcases hb with e | e | e
    · subst e
      refine ⟨?_, by decide +kernel, by decide +kernel, by decide +kernel, by decide +kernel, ?_, by decide +kernel, ?_⟩
      · intro n hn
        rw [List.mem_singleton.1 hn]
        exact ⟨by decide +kernel, by decide +kernel⟩
      · intro r hr
        cases hr
        exact ⟨by decide +kernel, by decide +kernel⟩
      · intro c hc
        simp only [List.mem_cons, List.not_mem_nil, or_false] at hc
        rcases hc with e | e
        · subst e
          refine ⟨fun n hn => (by cases hn), ?_, by decide +kernel, ?_⟩
          · intro f hf
            simp only [List.mem_cons, List.not_mem_nil, or_false] at hf
            rcases hf with e | e | e | e
            · subst e; show Int.natAbs (-12) ≤ _; decide
            · subst e
              refine ⟨⟨?_, ?_, ?_, ?_, ?_⟩, ?_⟩
              · intro c hc; cases hc; exact .inr rfl
              · exact fun c hc => by revert c; decide +kernel
              · intro fs hfs; cases hfs; exact fun c hc => by revert c; decide +kernel
              · intro e sg es he
                cases he
                exact ⟨by decide, fun _ h => (by cases h), fun c hc => by revert c; decide +kernel, by decide +kernel⟩
              · exact .inl (by decide +kernel)
              · intro e sg es he; cases he; decide +kernel
            · subst e; exact trivial
            · subst e; exact ⟨by decide +kernel, by decide +kernel, by decide +kernel⟩
          · intro r hr
            cases hr
            exact ⟨⟨by decide +kernel, by decide +kernel⟩, by decide +kernel⟩
        · subst e
          refine ⟨?_, ?_, by decide +kernel, fun r hr => (by cases hr)⟩
          · intro n hn
            rw [List.mem_singleton.1 hn]
            exact ⟨by decide +kernel, by decide +kernel⟩
          · intro f hf
            rw [List.mem_singleton.1 hf]
            show Int.natAbs 7 ≤ _; decide
    · subst e
      exact ⟨fun n hn => (by cases hn), by decide +kernel, by decide +kernel, by decide +kernel, by decide +kernel,
        fun r hr => (by cases hr), by decide +kernel, fun c hc => (by cases hc)⟩
    · subst e
      refine ⟨fun n hn => (by cases hn), by decide +kernel, by decide +kernel, by decide +kernel, by decide +kernel,
        fun r hr => (by cases hr), by decide +kernel, ?_⟩
      intro c hc
      rw [List.mem_singleton.1 hc]
      exact ⟨fun n hn => (by cases hn), fun f hf => (by cases hf), by decide +kernel, fun r hr => (by cases hr)⟩
  · intro n hn
    rw [List.mem_singleton.1 hn]
    exact ⟨by decide +kernel, by decide +kernel⟩
  · intro earlier b later e ho
    have h1 := ho.1
    have hl : (named earlier b.name ++ [b]).length ≤ (named sampleFile.keywords b.name).length := by
      rw [e]
      unfold named
      rw [List.filter_append, List.filter_cons_of_pos (by simp)]
      simp
    have h2 : ∀ k ∈ sampleFile.keywords, (named sampleFile.keywords k.name).length ≤ 2 := by decide +kernel
    have h3 := h2 b (by rw [e]; simp)
    rw [List.length_append] at hl
    simp at hl
    omega

end Dyna.Key
