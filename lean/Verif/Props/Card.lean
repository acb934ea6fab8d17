import Verif.CardLemmas
/-!
# Properties of cards (C47, C48, C49, C51)
-/

namespace Dyna.Card

theorem takeWhile_all {p : Nat → Bool} {l : Bytes} (h : ∀ c ∈ l, p c = true) : l.takeWhile p = l := by
  induction l with
  | nil => rfl
  | cons c l ih =>
    rw [List.takeWhile_cons, if_pos (h c List.mem_cons_self), ih fun x hx => h x (List.mem_cons_of_mem _ hx)]

theorem head_dropWhile {p : Nat → Bool} {l r : Bytes} {c : Nat} (h : l.dropWhile p = c :: r) : p c = false := by
  have := List.head?_dropWhile_not p l
  rw [h] at this
  simpa using this

theorem mem_takeWhile {p : Nat → Bool} {l : Bytes} {c : Nat} (h : c ∈ l.takeWhile p) : p c = true :=
  List.all_eq_true.1 (List.all_takeWhile (p := p) (l := l)) c h

/-! ## C47 -/

/-- How the values of a card are visited: after `card_parse_begin`, until `card_parse_done`, with
`card_parse_next` between. The result are the positions. -/
def visit : (fuel : Nat) → Card → Res (List Nat)
  | 0, _ => .abort
  | fuel + 1, card => do
    let d ← card.done
    if d = true then .ok []
    else do
      let card' ← card.next
      let r ← visit fuel card'
      .ok (card.cur :: r)

theorem charAt_ne_zero {s : Bytes} (hn : NoNul s) {i : Nat} (h : i < s.length) :
    ∃ c, charAt s i = .ok c ∧ c ≠ 0 :=
  ⟨s[i], charAt_lt h, hn _ (List.getElem_mem h)⟩

theorem toEnd_spec {s : Bytes} (hn : NoNul s) (hs : s.length ≤ 255) : ∀ (fuel i : Nat), i ≤ s.length →
    s.length - i < fuel → toEnd s fuel i = .ok s.length := by
  intro fuel
  induction fuel with
  | zero => intro i _ h; omega
  | succ fuel ih =>
    intro i hi hf
    unfold toEnd
    rcases Nat.lt_or_ge i s.length with h | h
    · obtain ⟨c, h1, h2⟩ := charAt_ne_zero hn h
      rw [h1]
      simp only [Res.bind_ok]
      rw [if_pos h2, show inc8 i = i + 1 by unfold inc8; omega]
      exact ih (i + 1) h (by omega)
    · rw [show i = s.length by omega, charAt_end]
      simp

theorem visit_spec {s : Bytes} {w : Nat} (hn : NoNul s) (hw : 0 < w) (hs : s.length ≤ 255) :
    ∀ (k : Nat) (fuel cur : Nat), cur + k * w = s.length → k < fuel →
    visit fuel ⟨s, cur, w⟩ = .ok ((List.range k).map fun j => cur + j * w) := by
  intro k
  induction k with
  | zero =>
    intro fuel cur hc hf
    obtain ⟨fuel, rfl⟩ : ∃ j, fuel = j + 1 := ⟨fuel - 1, by omega⟩
    unfold visit Card.done
    simp only
    rw [show cur = s.length by omega, charAt_end]
    rfl
  | succ k ih =>
    intro fuel cur hc hf
    obtain ⟨fuel, rfl⟩ : ∃ j, fuel = j + 1 := ⟨fuel - 1, by omega⟩
    rw [Nat.succ_mul] at hc
    have hlt : cur < s.length := by omega
    obtain ⟨c, h1, h2⟩ := charAt_ne_zero hn hlt
    unfold visit Card.done Card.next Card.nextWidth
    simp only [h1, Res.bind_ok]
    rw [if_neg (by simpa using h2), if_pos h2, if_pos (by omega)]
    simp only [Res.bind_ok]
    rw [ih fuel (cur + w) (by omega) (by omega)]
    simp only [Res.bind_ok]
    congr 1
    rw [List.range_succ_eq_map, List.map_cons, List.map_map]
    congr 1
    · simp
    · apply List.map_congr_left
      intro j _
      simp only [Function.comp, Nat.succ_eq_add_one, Nat.add_mul]
      omega

/-- C47: a card of at most 255 characters, whose length is a multiple of the width: the values `[0, w)`,
`[w, 2w)`, ... are visited, and then the iteration is done. The hypotheses are necessary: `c47_short`,
`c47_long`. -/
theorem c47_cursor_partial {s : Bytes} {w : Nat} (hn : NoNul s) (hw : 0 < w) (hs : s.length ≤ 255)
    (hd : w ∣ s.length) (card : Card) (hcard : card.string = s) {fuel : Nat} (hf : s.length < fuel) :
    visit fuel (card.begin w) = .ok ((List.range (s.length / w)).map fun j => j * w) := by
  have h1 : s.length / w * w = s.length := Nat.div_mul_cancel hd
  have h2 : s.length / w ≤ s.length := Nat.div_le_self _ _
  have := visit_spec hn hw hs (s.length / w) fuel 0 (by omega) (by omega)
  unfold Card.begin
  rw [hcard, this]
  simp

/-- C47: mixing widths is fine as well: `card_parse_next_width` goes from the start of a value, if the
value is inside of the card, to its end, and never moves at the end of the card. If the end of the value cannot be counted with 8 bit
then it goes to the end of the card. -/
theorem c47_next_width {card : Card} {w : Nat} (hn : NoNul card.string) (hs : card.string.length ≤ 255) (hw : w ≤ 255) :
    (card.cur + w ≤ card.string.length → 0 < w → card.nextWidth w = .ok { card with cur := card.cur + w }) ∧
    (card.cur = card.string.length → card.nextWidth w = .ok card ∧ card.done = .ok true) ∧
    (card.cur < card.string.length → card.done = .ok false) ∧
    (card.cur < card.string.length → 255 < card.cur + w → card.nextWidth w = .ok { card with cur := card.string.length }) := by
  refine ⟨?_, ?_, ?_, ?_⟩
  · intro h h0
    obtain ⟨c, h1, h2⟩ := charAt_ne_zero hn (i := card.cur) (by omega)
    unfold Card.nextWidth
    rw [h1]
    simp only [Res.bind_ok]
    rw [if_pos h2, if_pos (by omega)]
  · intro h
    unfold Card.nextWidth Card.done
    rw [h, charAt_end]
    exact ⟨rfl, rfl⟩
  · intro h
    obtain ⟨c, h1, h2⟩ := charAt_ne_zero hn h
    unfold Card.done
    rw [h1]
    simp [h2]
  · intro h h0
    obtain ⟨c, h1, h2⟩ := charAt_ne_zero hn h
    unfold Card.nextWidth
    rw [h1]
    simp only [Res.bind_ok]
    rw [if_pos h2, if_neg (by omega), toEnd_spec hn hs _ _ (by omega) (by unfold loopFuel; omega)]
    rfl

/-- Not vacuous: three values of width 2. -/
example : visit 7 ((⟨bs "  12 3", 77, 5⟩ : Card).begin 2) = .ok [0, 2, 4] := by decide +kernel

/-- C47 is violated: if the last value is shorter than the width then the cursor jumps over the terminator and
`card_parse_done` reads behind the string. The card has 12 characters and the default width is 10. -/
theorem c47_short : visit 100 ((⟨bs "         1 2", 0, 0⟩ : Card).begin 10) = .ub := by decide +kernel

/-- For every short last value. -/
theorem c47_short_all {s : Bytes} {w k : Nat} (hn : NoNul s) (hw : 0 < w) (h1 : k * w < s.length)
    (h2 : s.length < (k + 1) * w) (h3 : (k + 1) * w ≤ 255) :
    ∃ card', (⟨s, k * w, w⟩ : Card).next = .ok card' ∧ card'.done = .ub := by
  obtain ⟨c, e1, e2⟩ := charAt_ne_zero hn h1
  rw [Nat.succ_mul] at h2 h3
  refine ⟨⟨s, k * w + w, w⟩, ?_, ?_⟩
  · unfold Card.next Card.nextWidth
    simp only [e1, Res.bind_ok]
    rw [if_pos e2, if_pos (by omega)]
  · unfold Card.done
    simp only
    rw [charAt_ub h2]
    rfl

/-- C47 is violated: in a card of more than 255 characters the loop to the end never ends. -/
theorem c47_long {s : Bytes} (hn : NoNul s) (hs : 256 ≤ s.length) : ∀ (fuel i : Nat), i < 256 →
    toEnd s fuel i = .abort := by
  intro fuel
  induction fuel with
  | zero => intro i _; rfl
  | succ fuel ih =>
    intro i hi
    obtain ⟨c, h1, h2⟩ := charAt_ne_zero hn (i := i) (by omega)
    unfold toEnd
    rw [h1]
    simp only [Res.bind_ok]
    rw [if_pos h2]
    exact ih (inc8 i) (Nat.mod_lt _ (by decide))

/-! ## C48 -/

/-- Value of a list of digits -/
def digitsValue (ds : Bytes) (r : Nat) : Nat := ds.foldl (fun a c => a * 10 + digitVal c) r

theorem digitsValue_mono (ds : Bytes) (r : Nat) : r ≤ digitsValue ds r := by
  induction ds generalizing r with
  | nil => exact Nat.le_refl _
  | cons c l ih =>
    unfold digitsValue
    rw [List.foldl_cons]
    exact Nat.le_trans (by omega) (ih _)

theorem intList_digits {ds l : Bytes} {r : Nat} (hd : ∀ c ∈ ds, isDigit c = true)
    (hv : digitsValue ds r ≤ int64Max) : intList (ds ++ l) r = intList l (digitsValue ds r) := by
  induction ds generalizing r with
  | nil => rfl
  | cons c ds ih =>
    rw [List.cons_append, intList, if_pos (hd c List.mem_cons_self)]
    have hv' : digitsValue ds (r * 10 + digitVal c) ≤ int64Max := hv
    have := digitsValue_mono ds (r * 10 + digitVal c)
    rw [if_neg (by omega)]
    exact ih (fun x hx => hd x (List.mem_cons_of_mem _ hx)) hv'

/-- What ends a number: the end of the field or a blank. -/
def Ends (l : Bytes) : Prop := l = [] ∨ l.head? = some blank

theorem intList_ends {l : Bytes} (h : Ends l) (r : Nat) : intList l r = .ok r := by
  rcases h with h | h
  · rw [h]; rfl
  · cases l with
    | nil => cases h
    | cons c l =>
      have : c = blank := by simpa using h
      rw [this]
      rfl

theorem toDigits_facts (n : Nat) : (∀ c ∈ (Nat.toDigits 10 n).map Char.toNat, isDigit c = true) ∧
    digitsValue ((Nat.toDigits 10 n).map Char.toNat) 0 = n := by
  constructor
  · intro c hc
    obtain ⟨d, h1, h2⟩ := List.mem_map.1 hc
    have := Nat.isDigit_of_mem_toDigits (by decide) (by decide) h1
    rw [← h2]
    unfold Char.isDigit at this
    unfold isDigit
    simp only [Bool.and_eq_true, decide_eq_true_eq, ge_iff_le] at this ⊢
    exact ⟨this.1, this.2⟩
  · have := Nat.ofDigitChars_toDigits (b := 10) (n := n) (by decide) (by decide)
    rw [Nat.ofDigitChars_eq_foldl] at this
    unfold digitsValue
    rw [List.foldl_map]
    conv => rhs; rw [← this]
    congr 1
    funext a c
    unfold digitVal
    rw [Nat.mul_comm]
    rfl

/-- The characters of a decimal integer. -/
theorem bs_toString (v : Int) : bs (toString v) =
    if v < 0 then minus :: (Nat.toDigits 10 v.natAbs).map Char.toNat else (Nat.toDigits 10 v.natAbs).map Char.toNat := by
  unfold bs
  rw [Int.toString_eq_repr]
  cases v with
  | ofNat n =>
    rw [if_neg (by simp)]
    simp [Int.repr]
  | negSucc n =>
    rw [if_pos (Int.negSucc_lt_zero n)]
    simp [Int.repr, minus]

theorem dropWhile_blanks (a : Nat) {l : Bytes} (h : l.head? ≠ some blank) :
    (List.replicate a blank ++ l).dropWhile (· = blank) = l := by
  induction a with
  | zero =>
    cases l with
    | nil => rfl
    | cons c l =>
      have : c ≠ blank := by simpa using h
      simp [this]
  | succ a ih =>
    rw [List.replicate_succ, List.cons_append, List.dropWhile_cons, if_pos (by simp)]
    exact ih

theorem digit_not {c : Nat} (h : isDigit c = true) : c ≠ blank ∧ c ≠ minus ∧ c ≠ plus ∧ c ≠ dot ∧ c ≠ 0 ∧ isE c = false := by
  unfold isDigit at h
  simp only [Bool.and_eq_true, decide_eq_true_eq] at h
  refine ⟨?_, ?_, ?_, ?_, by omega, ?_⟩ <;> (try unfold blank) <;> (try unfold minus) <;> (try unfold plus) <;>
    (try unfold dot) <;> (try omega)
  unfold isE lowerE upperE
  simp only [Bool.or_eq_false_iff, beq_eq_false_iff_ne]
  omega

theorem toDigits_cons (n : Nat) : ∃ c l, (Nat.toDigits 10 n).map Char.toNat = c :: l ∧ isDigit c = true := by
  cases h : (Nat.toDigits 10 n).map Char.toNat with
  | nil => exact absurd (List.map_eq_nil_iff.1 h) Nat.toDigits_ne_nil
  | cons c l => exact ⟨c, l, rfl, (toDigits_facts n).1 c (by rw [h]; exact List.mem_cons_self)⟩

theorem intField_word {a : Nat} {neg : Bool} {ds rest : Bytes} (hne : ds ≠ []) (hd : ∀ c ∈ ds, isDigit c = true)
    (hv : digitsValue ds 0 ≤ int64Max) (hr : Ends rest) :
    intField (List.replicate a blank ++ ((if neg = true then [minus] else []) ++ ds ++ rest)) =
      .ok (if neg = true then -(digitsValue ds 0 : Int) else digitsValue ds 0) := by
  obtain ⟨c, l, e⟩ : ∃ c l, ds = c :: l := by
    cases ds with
    | nil => exact absurd rfl hne
    | cons c l => exact ⟨c, l, rfl⟩
  have hc := digit_not (hd c (by rw [e]; exact List.mem_cons_self))
  unfold intField
  cases neg with
  | true =>
    rw [dropWhile_blanks a (by simp; decide)]
    simp only [if_true, List.cons_append, List.nil_append]
    rw [intList_digits hd hv, intList_ends hr]
    rfl
  | false =>
    rw [dropWhile_blanks a (by simp [e, hc.1])]
    have : ((if false = true then [minus] else []) ++ ds ++ rest : Bytes) = ds ++ rest := by simp
    rw [this]
    rw [e, List.cons_append]
    simp only
    rw [if_neg hc.2.1, ← List.cons_append, ← e, intList_digits hd hv, intList_ends hr]
    simp

/-- C48: an integer of the range of `int64_t` (but the smallest one) with any blanks around is read
back, in every field in the first 255 characters of a card. -/
theorem c48_int {card : Card} {w a b : Nat} (v : Int) (hn : NoNul card.string) (hc : card.cur ≤ card.string.length)
    (hw : card.cur + w < 256) (hv : v.natAbs ≤ int64Max)
    (hf : field card.string card.cur w = List.replicate a blank ++ bs (toString v) ++ List.replicate b blank) :
    card.parseInt w = .ok v := by
  rw [parseInt_eq hn hc hw, hf, bs_toString, List.append_assoc]
  obtain ⟨f1, f2⟩ := toDigits_facts v.natAbs
  obtain ⟨c, l, e1, e2⟩ := toDigits_cons v.natAbs
  have hr : Ends (List.replicate b blank) := by
    cases b with
    | zero => exact .inl rfl
    | succ b => exact .inr rfl
  have key := fun neg => intField_word (a := a) (neg := neg) (ds := (Nat.toDigits 10 v.natAbs).map Char.toNat)
    (rest := List.replicate b blank) (by rw [e1]; exact List.cons_ne_nil _ _) f1 (by rw [f2]; exact hv) hr
  rw [f2] at key
  by_cases hneg : v < 0
  · have := key true
    simp only [if_true, List.cons_append, List.nil_append] at this
    rw [if_pos hneg, List.cons_append, this]
    congr 1
    omega
  · have := key false
    simp only [Bool.false_eq_true, if_false, List.nil_append] at this
    rw [if_neg hneg, this]
    congr 1
    omega

/-- The first word of a field -/
def word (l : Bytes) : Bytes := (l.dropWhile (· = blank)).takeWhile (· ≠ blank)

/-- A word that `card_parse_int` accepts: digits, or a minus and digits (or only a minus). -/
def intWord (u : Bytes) : Option Int :=
  match u with
  | [] => none
  | c :: ds =>
    if c = minus then if ds.all isDigit = true then some (-(digitsValue ds 0 : Int)) else none
    else if (c :: ds).all isDigit = true then some (digitsValue (c :: ds) 0) else none

theorem digitsValue_bound {ds : Bytes} (hd : ∀ c ∈ ds, isDigit c = true) (r : Nat) :
    digitsValue ds r < (r + 1) * 10 ^ ds.length := by
  induction ds generalizing r with
  | nil => simp [digitsValue]
  | cons c ds ih =>
    have h := ih (fun x hx => hd x (List.mem_cons_of_mem _ hx)) (r * 10 + digitVal c)
    have hc := hd c List.mem_cons_self
    unfold isDigit at hc
    simp only [Bool.and_eq_true, decide_eq_true_eq] at hc
    show digitsValue ds (r * 10 + digitVal c) < _
    refine Nat.lt_of_lt_of_le h ?_
    rw [List.length_cons, Nat.pow_succ', ← Nat.mul_assoc]
    apply Nat.mul_le_mul_right
    unfold digitVal
    omega

theorem intList_word {l : Bytes} (hl : l.length ≤ 18) : ∀ (u : Bytes), u = l.takeWhile (· ≠ blank) →
    intList l 0 = if u.all isDigit = true then .ok (digitsValue u 0) else .err := by
  -- the digits before the first other character
  have split : l = l.takeWhile isDigit ++ l.dropWhile isDigit := List.takeWhile_append_dropWhile.symm
  have hd : ∀ c ∈ l.takeWhile isDigit, isDigit c = true := fun c hc => mem_takeWhile hc
  have hlen : (l.takeWhile isDigit).length ≤ 18 := Nat.le_trans (List.takeWhile_prefix _).length_le hl
  have hb : digitsValue (l.takeWhile isDigit) 0 ≤ int64Max := by
    have h1 := digitsValue_bound hd 0
    have h2 : (10 : Nat) ^ (l.takeWhile isDigit).length ≤ 10 ^ 18 := Nat.pow_le_pow_right (by decide) hlen
    unfold int64Max
    omega
  intro u hu
  have e := intList_digits (l := l.dropWhile isDigit) hd hb
  rw [← split] at e
  rw [e]
  have tw : l.takeWhile (· ≠ blank) = l.takeWhile isDigit ++ (l.dropWhile isDigit).takeWhile (· ≠ blank) := by
    conv => lhs; rw [split]
    rw [List.takeWhile_append]
    have : (l.takeWhile isDigit).takeWhile (· ≠ blank) = l.takeWhile isDigit := by
      refine takeWhile_all fun c hc => ?_
      simpa using (digit_not (hd c hc)).1
    rw [this, if_pos rfl]
  rw [hu, tw]
  cases hr : l.dropWhile isDigit with
  | nil =>
    rw [intList_ends (.inl rfl), List.takeWhile_nil, List.append_nil, if_pos (List.all_eq_true.2 hd)]
  | cons c rest =>
    have hc : isDigit c = false := head_dropWhile hr
    rw [intList, if_neg (by rw [hc]; decide)]
    by_cases hbk : c = blank
    · rw [if_pos hbk]
      have : (c :: rest).takeWhile (· ≠ blank) = [] := by simp [hbk]
      rw [this, List.append_nil, if_pos (List.all_eq_true.2 hd)]
    · rw [if_neg hbk]
      have : (c :: rest).takeWhile (· ≠ blank) = c :: rest.takeWhile (· ≠ blank) := by simp [hbk]
      rw [this, if_neg]
      rw [List.all_append, List.all_cons, hc]
      simp

/-- C48: what `card_parse_int` does with any field of up to 18 characters: its first word decides; an error is signalled
exactly if there is no word or the word is not digits behind an optional minus. Missing to the English
property: a minus alone is read as 0, text behind the first word is ignored, and a plus is an error
(`c48_lenient`). -/
theorem c48_field_partial {card : Card} {w : Nat} (hn : NoNul card.string) (hc : card.cur ≤ card.string.length)
    (hw : card.cur + w < 256) (hw' : w ≤ 18) :
    card.parseInt w = match intWord (word (field card.string card.cur w)) with
      | some v => .ok v
      | none => .err := by
  rw [parseInt_eq hn hc hw]
  have hlen : (field card.string card.cur w).length ≤ 18 := by
    unfold field
    rw [List.length_take]
    omega
  unfold intField word
  have hlen' : ((field card.string card.cur w).dropWhile (· = blank)).length ≤ 18 :=
    Nat.le_trans (List.dropWhile_suffix _).length_le hlen
  cases hl : (field card.string card.cur w).dropWhile (· = blank) with
  | nil => rfl
  | cons c r =>
    rw [hl] at hlen'
    have hcb : c ≠ blank := by simpa using head_dropWhile hl
    have ht : (c :: r).takeWhile (· ≠ blank) = c :: r.takeWhile (· ≠ blank) := by simp [hcb]
    simp only
    rw [ht, intWord]
    by_cases hm : c = minus
    · rw [if_pos hm, if_pos hm, intList_word (by simp at hlen'; omega) _ rfl]
      by_cases h : (r.takeWhile (· ≠ blank)).all isDigit = true
      · rw [if_pos h, if_pos h]; rfl
      · rw [if_neg h, if_neg h]; rfl
    · rw [if_neg hm, if_neg hm, intList_word hlen' _ rfl, ht]
      by_cases h : (c :: r.takeWhile (· ≠ blank)).all isDigit = true
      · rw [if_pos h, if_pos h]; rfl
      · rw [if_neg h, if_neg h]; rfl

theorem intList_overflow {ds l : Bytes} {r : Nat} (hd : ∀ c ∈ ds, isDigit c = true) (hr : r ≤ int64Max)
    (hv : int64Max < digitsValue ds r) : intList (ds ++ l) r = .ub := by
  induction ds generalizing r with
  | nil =>
    have : digitsValue [] r = r := rfl
    omega
  | cons c ds ih =>
    rw [List.cons_append, intList, if_pos (hd c List.mem_cons_self)]
    by_cases h : r * 10 + digitVal c > int64Max
    · rw [if_pos h]
    · rw [if_neg h]
      exact ih (fun x hx => hd x (List.mem_cons_of_mem _ hx)) (by omega) hv

/-- Specification: what is done with a word of any length: the digits at its beginning (behind a minus) decide first; if
their value does not fit into 64 bits with a sign the addition overflows. -/
def intSpec (u : Bytes) : Res Int :=
  match u with
  | [] => .err
  | c :: ds =>
    let body := if c = minus then ds else c :: ds
    if int64Max < digitsValue (body.takeWhile isDigit) 0 then .ub
    else if body.all isDigit = true then .ok (if c = minus then -(digitsValue body 0 : Int) else (digitsValue body 0 : Int))
    else .err

theorem intList_exact (l : Bytes) : intList l 0 = if int64Max < digitsValue (l.takeWhile isDigit) 0 then .ub
    else if (l.takeWhile (· ≠ blank)).all isDigit = true then .ok (digitsValue (l.takeWhile (· ≠ blank)) 0) else .err := by
  have split : l = l.takeWhile isDigit ++ l.dropWhile isDigit := List.takeWhile_append_dropWhile.symm
  have hd : ∀ c ∈ l.takeWhile isDigit, isDigit c = true := fun c hc => mem_takeWhile hc
  by_cases hv : int64Max < digitsValue (l.takeWhile isDigit) 0
  · rw [if_pos hv]
    have e := intList_overflow (l := l.dropWhile isDigit) (r := 0) hd (by decide) hv
    rw [← split] at e
    exact e
  · rw [if_neg hv]
    have e := intList_digits (l := l.dropWhile isDigit) (r := 0) hd (by omega)
    rw [← split] at e
    rw [e]
    have tw : l.takeWhile (· ≠ blank) = l.takeWhile isDigit ++ (l.dropWhile isDigit).takeWhile (· ≠ blank) := by
      conv => lhs; rw [split]
      rw [List.takeWhile_append]
      have : (l.takeWhile isDigit).takeWhile (· ≠ blank) = l.takeWhile isDigit := by
        refine takeWhile_all fun c hc => ?_
        simpa using (digit_not (hd c hc)).1
      rw [this, if_pos rfl]
    rw [tw]
    cases hr : l.dropWhile isDigit with
    | nil =>
      rw [intList_ends (.inl rfl), List.takeWhile_nil, List.append_nil, if_pos (List.all_eq_true.2 hd)]
    | cons c rest =>
      have hc : isDigit c = false := head_dropWhile hr
      rw [intList, if_neg (by rw [hc]; decide)]
      by_cases hbk : c = blank
      · rw [if_pos hbk]
        have : (c :: rest).takeWhile (· ≠ blank) = [] := by simp [hbk]
        rw [this, List.append_nil, if_pos (List.all_eq_true.2 hd)]
      · rw [if_neg hbk]
        have : (c :: rest).takeWhile (· ≠ blank) = c :: rest.takeWhile (· ≠ blank) := by simp [hbk]
        rw [this, if_neg]
        rw [List.all_append, List.all_cons, hc]
        simp

theorem takeWhile_word (l : Bytes) : (l.takeWhile (· ≠ blank)).takeWhile isDigit = l.takeWhile isDigit := by
  induction l with
  | nil => rfl
  | cons c l ih =>
    by_cases hd : isDigit c = true
    · have hb : c ≠ blank := (digit_not hd).1
      rw [List.takeWhile_cons_of_pos (by simpa using hb), List.takeWhile_cons_of_pos hd, List.takeWhile_cons_of_pos hd, ih]
    · rw [List.takeWhile_cons_of_neg hd]
      by_cases hb : c = blank
      · rw [List.takeWhile_cons_of_neg (by simpa using hb)]
        rfl
      · rw [List.takeWhile_cons_of_pos (by simpa using hb), List.takeWhile_cons_of_neg hd]

/-- C48, exactly: what `card_parse_int` does with every field that ends before character 256, of any width: the first word
decides. The addition overflows exactly if the value of the digits at the beginning of the word (behind a minus) is more than
2^63 - 1, whatever follows them. -/
theorem c48_exact {card : Card} {w : Nat} (hn : NoNul card.string) (hc : card.cur ≤ card.string.length)
    (hw : card.cur + w < 256) : card.parseInt w = intSpec (word (field card.string card.cur w)) := by
  rw [parseInt_eq hn hc hw]
  unfold intField word
  cases hl : (field card.string card.cur w).dropWhile (· = blank) with
  | nil => rfl
  | cons c r =>
    have hcb : c ≠ blank := by simpa using head_dropWhile hl
    have ht : (c :: r).takeWhile (· ≠ blank) = c :: r.takeWhile (· ≠ blank) := by simp [hcb]
    simp only
    rw [ht, intSpec]
    by_cases hm : c = minus
    · simp only [if_pos hm]
      rw [intList_exact, takeWhile_word]
      split
      · rfl
      · split <;> rfl
    · simp only [if_neg hm]
      rw [intList_exact, ← ht, takeWhile_word]
      split
      · rfl
      · split <;> rfl

/-- Not vacuous: 19 and 20 digits. -/
example : (⟨bs "9223372036854775807x", 0, 20⟩ : Card).parseInt 20 = .err ∧
    (⟨bs "9223372036854775808x", 0, 20⟩ : Card).parseInt 20 = .ub ∧
    (⟨bs "-9223372036854775807", 0, 20⟩ : Card).parseInt 20 = .ok (-9223372036854775807) :=
  ⟨by decide +kernel, by decide +kernel, by decide +kernel⟩

/-- Not vacuous: a negative number in the second field of width 10. -/
example : (⟨bs "         1     -2147     ", 10, 10⟩ : Card).parseInt 10 = .ok (-2147) ∧
    field (bs "         1     -2147     ") 10 10 = List.replicate 5 blank ++ bs (toString (-2147 : Int)) ++ List.replicate 0 blank :=
  ⟨by decide +kernel, by decide +kernel⟩

/-- C48 is violated: a minus alone and a minus with a blank are the number 0, text behind a blank is ignored, a plus is
an error. -/
theorem c48_lenient : (⟨bs "-", 0, 10⟩ : Card).parseInt 10 = .ok 0 ∧ (⟨bs "- 5", 0, 10⟩ : Card).parseInt 10 = .ok 0 ∧
    (⟨bs "12 abc", 0, 10⟩ : Card).parseInt 10 = .ok 12 ∧ (⟨bs "+5", 0, 10⟩ : Card).parseInt 10 = .err := by
  refine ⟨by decide +kernel, by decide +kernel, by decide +kernel, by decide +kernel⟩

/-- C48 is violated: 20 digits overflow (undefined behaviour), also the smallest number of `int64_t`; in a field that
ends behind character 255 the counter wraps and the beginning of the card is read. -/
theorem c48_overflow : (⟨bs "99999999999999999999", 0, 20⟩ : Card).parseInt 20 = .ub ∧
    (⟨bs "-9223372036854775808", 0, 20⟩ : Card).parseInt 20 = .ub ∧
    (⟨bs "77 " ++ List.replicate 247 blank ++ bs "        12", 250, 10⟩ : Card).parseInt 10 = .ok 77 := by
  refine ⟨by decide +kernel, by decide +kernel, by decide +kernel⟩

/-! ## C49 -/

/-- Text without blanks at both ends -/
def trim (l : Bytes) : Bytes := (((l.dropWhile (· = blank)).reverse).dropWhile (· = blank)).reverse

theorem cString_noNul {l : Bytes} (h : NoNul l) : cString l = l := by
  unfold cString
  refine takeWhile_all fun c hc => ?_
  simpa using h c hc

theorem copyChars_eq {s : Bytes} {i n : Nat} (h : i + n ≤ s.length) : copyChars s i n = .ok ((s.drop i).take n) := by
  unfold copyChars
  rw [if_pos (by simp; omega), List.drop_append_of_le_length (by omega), List.take_append_of_le_length (by simp; omega)]

/-- `l` without the blanks at its end -/
def rtrim (l : Bytes) : Bytes := (l.reverse.dropWhile (· = blank)).reverse

theorem rtrim_append_ne (l : Bytes) {c : Nat} (h : c ≠ blank) : rtrim (l ++ [c]) = l ++ [c] := by
  simp [rtrim, h]

theorem rtrim_append_blank (l : Bytes) : rtrim (l ++ [blank]) = rtrim l := by
  simp [rtrim]

theorem rtrim_prefix (l : Bytes) : rtrim l = l.take (rtrim l).length := by
  have h : rtrim l <+: l := by
    unfold rtrim
    have := List.dropWhile_suffix (· = blank) (l := l.reverse)
    have := List.reverse_prefix.2 this
    rwa [List.reverse_reverse] at this
  exact List.prefix_iff_eq_take.1 h

/-- The second loop as a function of the characters. -/
def endList : Bytes → Nat → Nat → Nat
  | [], _, e => e
  | c :: l, i, e => endList l (i + 1) (if c ≠ blank then i else e)

theorem endList_spec : ∀ (l : Bytes) (done : Bytes) (e : Nat), rtrim done ≠ [] → e + 1 = (rtrim done).length →
    endList l done.length e + 1 = (rtrim (done ++ l)).length := by
  intro l
  induction l with
  | nil => intro done e _ h; simpa [endList] using h
  | cons c l ih =>
    intro done e hne he
    rw [endList]
    have happ : done ++ c :: l = (done ++ [c]) ++ l := by simp
    rw [happ, show done.length + 1 = (done ++ [c]).length by simp]
    by_cases hc : c = blank
    · rw [if_neg (by simp [hc])]
      apply ih
      · rw [hc, rtrim_append_blank]; exact hne
      · rw [hc, rtrim_append_blank]; exact he
    · rw [if_pos hc]
      apply ih
      · rw [rtrim_append_ne _ hc]; simp
      · rw [rtrim_append_ne _ hc]; simp

/-- The counter relative to the start of the field. -/
theorem field_cases {s : Bytes} {cur w i : Nat} (hn : NoNul s) (hc : cur ≤ s.length) (hi : i ≤ (field s cur w).length) :
    (i < (field s cur w).length ∧ ∃ h : i < (field s cur w).length, i < w ∧ charAt s (i + cur) = .ok (field s cur w)[i] ∧
      (field s cur w)[i] ≠ 0) ∨
    (i = (field s cur w).length ∧ (i = w ∨ (i < w ∧ charAt s (i + cur) = .ok 0))) := by
  have hl : (field s cur w).length = min w (s.length - cur) := by
    unfold field; rw [List.length_take, List.length_drop]
  rcases Nat.lt_or_ge i (field s cur w).length with h | h
  · left
    refine ⟨h, h, by omega, ?_, ?_⟩
    · rw [charAt_lt (by omega)]
      congr 1
      have e : (field s cur w)[i]? = s[i + cur]? := by
        unfold field
        rw [List.getElem?_take_of_lt (by omega), List.getElem?_drop, Nat.add_comm]
      rw [List.getElem?_eq_getElem h, List.getElem?_eq_getElem (by omega)] at e
      exact (Option.some.inj e).symm
    · have hm := List.getElem_mem h
      unfold field at hm
      exact hn _ (List.mem_of_mem_drop (List.mem_of_mem_take hm))
  · right
    refine ⟨by omega, ?_⟩
    rcases Nat.lt_or_ge i w with h' | h'
    · right
      refine ⟨h', ?_⟩
      rw [show i + cur = s.length by omega]
      exact charAt_end s
    · left; omega

theorem strSkip_spec {s : Bytes} {cur w : Nat} (hn : NoNul s) (hc : cur ≤ s.length) (hw : w ≤ 255) :
    ∀ (fuel i : Nat), i ≤ (field s cur w).length → (field s cur w).length - i < fuel →
    ∃ j, strSkip s cur w fuel i = .ok j ∧ i ≤ j ∧ j ≤ (field s cur w).length ∧
      (field s cur w).drop j = ((field s cur w).drop i).dropWhile (· = blank) := by
  intro fuel
  induction fuel with
  | zero => intro i _ h; omega
  | succ fuel ih =>
    intro i hi hf
    unfold strSkip
    rcases field_cases hn hc hi with ⟨h, _, h1, h2, h3⟩ | ⟨h, h1 | ⟨h1, h2⟩⟩
    · rw [if_pos h1, h2]
      simp only [Res.bind_ok]
      have hdrop : (field s cur w).drop i = (field s cur w)[i] :: (field s cur w).drop (i + 1) := List.drop_eq_getElem_cons h
      by_cases hb : (field s cur w)[i] = blank
      · rw [if_pos ⟨h3, hb⟩, show inc8 i = i + 1 by unfold inc8; omega]
        obtain ⟨j, e1, e2, e3, e4⟩ := ih (i + 1) h (by omega)
        refine ⟨j, e1, by omega, e3, ?_⟩
        rw [e4, hdrop]
        simp [hb]
      · rw [if_neg (fun h => hb h.2)]
        refine ⟨i, rfl, Nat.le_refl _, hi, ?_⟩
        rw [hdrop, List.dropWhile_cons, if_neg (by simpa using hb)]
    · rw [if_neg (by omega)]
      refine ⟨i, rfl, Nat.le_refl _, hi, ?_⟩
      rw [List.drop_eq_nil_of_le (by omega)]
      rfl
    · rw [if_pos h1, h2]
      simp only [Res.bind_ok]
      rw [if_neg (fun h => h.1 rfl)]
      refine ⟨i, rfl, Nat.le_refl _, hi, ?_⟩
      rw [List.drop_eq_nil_of_le (by omega)]
      rfl

theorem strEnd_spec {s : Bytes} {cur w : Nat} (hn : NoNul s) (hc : cur ≤ s.length) (hw : w ≤ 255) :
    ∀ (fuel i e : Nat), i ≤ (field s cur w).length → (field s cur w).length - i < fuel →
    strEnd s cur w fuel i e = .ok (endList ((field s cur w).drop i) i e) := by
  intro fuel
  induction fuel with
  | zero => intro i e _ h; omega
  | succ fuel ih =>
    intro i e hi hf
    unfold strEnd
    rcases field_cases hn hc hi with ⟨h, _, h1, h2, h3⟩ | ⟨h, h1 | ⟨h1, h2⟩⟩
    · rw [if_pos h1, h2]
      simp only [Res.bind_ok]
      rw [if_pos h3, show inc8 i = i + 1 by unfold inc8; omega, ih (i + 1) _ h (by omega), List.drop_eq_getElem_cons h, endList]
    · rw [if_neg (by omega), List.drop_eq_nil_of_le (by omega)]
      rfl
    · rw [if_pos h1, h2, List.drop_eq_nil_of_le (by omega)]
      rfl

theorem endList_shift : ∀ (l : Bytes) (i e k : Nat), endList l (i + k) (e + k) = endList l i e + k := by
  intro l
  induction l with
  | nil => intro i e k; rfl
  | cons c l ih =>
    intro i e k
    rw [endList, endList, show i + k + 1 = (i + 1) + k by omega]
    split <;> exact ih _ _ _

/-- From the first character that is not blank to the last one. -/
theorem endList_trim {c : Nat} {l : Bytes} (hc : c ≠ blank) (i : Nat) :
    endList (c :: l) i i - i + 1 = (rtrim (c :: l)).length := by
  have h1 := endList_spec l [c] 0 (by rw [show [c] = [] ++ [c] from rfl, rtrim_append_ne _ hc]; simp)
    (by rw [show [c] = [] ++ [c] from rfl, rtrim_append_ne _ hc]; simp)
  rw [endList, if_pos hc]
  have := endList_shift l 1 0 i
  rw [show 1 + i = i + 1 by omega, Nat.zero_add] at this
  rw [this, Nat.add_sub_cancel]
  simpa using h1

/-- C49: for every card and every position in the card `card_parse_string_width` returns the characters of
the field without the blanks at both ends. -/
theorem c49_string {card : Card} {w : Nat} (hn : NoNul card.string) (hc : card.cur ≤ card.string.length)
    (hw : w ≤ 255) : card.parseString w = .ok (trim (field card.string card.cur w)) := by
  unfold Card.parseString
  have hlen : (field card.string card.cur w).length ≤ w := by unfold field; rw [List.length_take]; omega
  obtain ⟨j, e1, _, e3, e4⟩ := strSkip_spec hn hc hw loopFuel 0 (Nat.zero_le _) (by unfold loopFuel; omega)
  rw [e1]
  simp only [Res.bind_ok]
  rw [List.drop_zero] at e4
  rcases field_cases hn hc e3 with ⟨h, _, h1, h2, h3⟩ | ⟨h, hh⟩
  · rw [if_neg (by omega), h2]
    simp only [Res.bind_ok]
    rw [if_neg h3, strEnd_spec hn hc hw loopFuel j j e3 (by unfold loopFuel; omega)]
    simp only [Res.bind_ok]
    have hdrop := List.drop_eq_getElem_cons h
    have hb : (field card.string card.cur w)[j] ≠ blank := by
      simpa using head_dropWhile (e4.symm.trans hdrop)
    rw [hdrop, endList_trim hb, ← hdrop]
    have hle : (rtrim ((field card.string card.cur w).drop j)).length ≤ (field card.string card.cur w).length - j := by
      rw [rtrim_prefix, List.length_take, List.length_drop]
      exact Nat.min_le_right _ _
    have hfl : (field card.string card.cur w).length = min w (card.string.length - card.cur) := by
      unfold field; rw [List.length_take, List.length_drop]
    rw [copyChars_eq (by omega)]
    simp only [Res.bind_ok]
    have hcopy : (card.string.drop (j + card.cur)).take (rtrim ((field card.string card.cur w).drop j)).length =
        rtrim ((field card.string card.cur w).drop j) := by
      conv => rhs; rw [rtrim_prefix]
      unfold field
      rw [List.drop_take, List.drop_drop, List.take_take, Nat.add_comm j]
      congr 1
      have hle' : (rtrim ((field card.string card.cur w).drop j)).length ≤ w - j := by omega
      unfold field at hle'
      rw [List.drop_take, List.drop_drop] at hle'
      omega
    rw [hcopy, cString_noNul]
    · rw [e4]; rfl
    · intro c hcm
      rw [← hcopy] at hcm
      exact hn c (List.mem_of_mem_drop (List.mem_of_mem_take hcm))
  · have hnil : (field card.string card.cur w).dropWhile (· = blank) = [] := by
      rw [← e4]; exact List.drop_eq_nil_of_le (by omega)
    have ht : trim (field card.string card.cur w) = [] := by unfold trim; rw [hnil]; rfl
    rw [ht]
    rcases hh with hh | ⟨h1, h2⟩
    · rw [if_pos hh]
    · rw [if_neg (by omega), h2]
      rfl

theorem trim_padded {a b : Nat} {t : Bytes} (ht : ∀ c ∈ t, c ≠ blank) (hne : t ≠ []) :
    trim (List.replicate a blank ++ t ++ List.replicate b blank) = t := by
  unfold trim
  rw [List.append_assoc, dropWhile_blanks]
  · rw [List.reverse_append, List.reverse_replicate, dropWhile_blanks, List.reverse_reverse]
    intro h
    have := List.mem_of_mem_head? h
    exact ht _ (List.mem_reverse.1 this) rfl
  · intro h
    have h' : t.head? = some blank := by
      cases t with
      | nil => exact absurd rfl hne
      | cons c t => simpa using h
    exact ht _ (List.mem_of_mem_head? h') rfl

/-- C49: a text without blanks with any padding to the width of the field is read back. -/
theorem c49_round_trip {card : Card} {w a b : Nat} {t : Bytes} (hn : NoNul card.string) (hc : card.cur ≤ card.string.length)
    (hw : w ≤ 255) (ht : ∀ c ∈ t, c ≠ blank) (hne : t ≠ [])
    (hf : field card.string card.cur w = List.replicate a blank ++ t ++ List.replicate b blank) :
    card.parseString w = .ok t := by
  rw [c49_string hn hc hw, hf, trim_padded ht hne]

/-- Not vacuous: the second field of width 10 -/
example : (⟨bs "         1    MECH      ", 10, 10⟩ : Card).parseString 10 = .ok (bs "MECH") := by decide +kernel

theorem wholeSkip_spec {s : Bytes} : ∀ (fuel i : Nat), i ≤ s.length → s.length - i < fuel →
    ∃ j, wholeSkip s fuel i = .ok j ∧ j ≤ s.length ∧ s.drop j = (s.drop i).dropWhile (· = blank) := by
  intro fuel
  induction fuel with
  | zero => intro i _ h; omega
  | succ fuel ih =>
    intro i hi hf
    unfold wholeSkip
    rcases Nat.lt_or_ge i s.length with h | h
    · rw [charAt_lt h]
      simp only [Res.bind_ok]
      have hdrop := List.drop_eq_getElem_cons h
      by_cases hb : s[i] = blank
      · rw [if_pos hb]
        obtain ⟨j, e1, e2, e3⟩ := ih (i + 1) h (by omega)
        refine ⟨j, e1, e2, ?_⟩
        rw [e3, hdrop]
        simp [hb]
      · rw [if_neg hb]
        refine ⟨i, rfl, hi, ?_⟩
        rw [hdrop, List.dropWhile_cons, if_neg (by simpa using hb)]
    · rw [show i = s.length by omega, charAt_end]
      refine ⟨s.length, rfl, Nat.le_refl _, ?_⟩
      simp

theorem wholeEnd_spec {s : Bytes} (hn : NoNul s) : ∀ (fuel i e : Nat), i ≤ s.length → s.length - i < fuel →
    wholeEnd s fuel i e = .ok (endList (s.drop i) i e) := by
  intro fuel
  induction fuel with
  | zero => intro i e _ h; omega
  | succ fuel ih =>
    intro i e hi hf
    unfold wholeEnd
    rcases Nat.lt_or_ge i s.length with h | h
    · rw [charAt_lt h]
      simp only [Res.bind_ok]
      rw [if_pos (hn _ (List.getElem_mem h)), ih (i + 1) _ h (by omega), List.drop_eq_getElem_cons h, endList]
    · rw [show i = s.length by omega, charAt_end]
      simp [endList]

/-- C49: `card_parse_whole` returns the whole card without the blanks at both ends, for cards of any
length. -/
theorem c49_whole {card : Card} (hn : NoNul card.string) : card.parseWhole = .ok (trim card.string) := by
  unfold Card.parseWhole
  obtain ⟨j, e1, e2, e3⟩ := wholeSkip_spec (s := card.string) (card.string.length + 2) 0 (Nat.zero_le _) (by omega)
  rw [e1]
  simp only [Res.bind_ok]
  rw [wholeEnd_spec hn _ _ _ e2 (by omega)]
  simp only [Res.bind_ok]
  rw [List.drop_zero] at e3
  rcases Nat.lt_or_ge j card.string.length with h | h
  · have hdrop := List.drop_eq_getElem_cons h
    have hb : card.string[j] ≠ blank := by
      simpa using head_dropWhile (e3.symm.trans hdrop)
    rw [hdrop, endList_trim hb, ← hdrop]
    have hle : (rtrim (card.string.drop j)).length ≤ card.string.length - j := by
      rw [rtrim_prefix, List.length_take, List.length_drop]
      exact Nat.min_le_right _ _
    rw [copyChars_eq (by omega), ← rtrim_prefix]
    simp only [Res.bind_ok]
    rw [cString_noNul]
    · rw [e3]; rfl
    · intro c hcm
      rw [rtrim_prefix] at hcm
      exact hn c (List.mem_of_mem_drop (List.mem_of_mem_take hcm))
  · have hj : j = card.string.length := by omega
    have hnil : card.string.dropWhile (· = blank) = [] := by rw [← e3]; exact List.drop_eq_nil_of_le h
    rw [hj, List.drop_length]
    simp only [endList, Nat.sub_self, Nat.zero_add]
    unfold copyChars
    rw [if_pos (by simp), List.drop_append_of_le_length (Nat.le_refl _), List.drop_length]
    unfold trim
    rw [hnil]
    rfl

/-- C49: without trimming the field is copied if it is inside of the card. Otherwise memory behind the
terminator is read: `c49_no_trim_short`. -/
theorem c49_no_trim {card : Card} {w : Nat} (hn : NoNul card.string) (hc : card.cur + w ≤ card.string.length) :
    card.parseStringNoTrim w = .ok (field card.string card.cur w) := by
  unfold Card.parseStringNoTrim
  rw [copyChars_eq hc]
  simp only [Res.bind_ok]
  rw [cString_noNul]
  · rfl
  · intro c hcm
    exact hn c (List.mem_of_mem_drop (List.mem_of_mem_take hcm))

/-- `card_parse_string_width_no_trim` reads behind the string if the field is not complete. -/
theorem c49_no_trim_short {card : Card} {w : Nat} (hc : card.string.length + 1 < card.cur + w) :
    card.parseStringNoTrim w = .ub := by
  unfold Card.parseStringNoTrim copyChars
  rw [if_neg (by simp; omega)]
  rfl

/-! ## C51 -/

theorem emptyLoop_spec {s : Bytes} {stop : Nat} (hn : NoNul s) : ∀ (l : Bytes) (fuel i : Nat), At s stop i l →
    l.length < fuel → emptyLoop s stop fuel i = .ok (l.all (· = blank)) := by
  intro l
  induction l with
  | nil =>
    intro fuel i h hf
    obtain ⟨fuel, rfl⟩ : ∃ k, fuel = k + 1 := ⟨fuel - 1, by omega⟩
    unfold emptyLoop
    rcases h.nil with e | ⟨e1, e2⟩
    · rw [if_neg (by omega)]
      rfl
    · rw [if_pos e1, e2]
      rfl
  | cons c l ih =>
    intro fuel i h hf
    obtain ⟨fuel, rfl⟩ : ∃ k, fuel = k + 1 := ⟨fuel - 1, by omega⟩
    obtain ⟨h1, h2, h3, h4, h5⟩ := h.cons hn
    unfold emptyLoop
    rw [if_pos h1, h2]
    simp only [Res.bind_ok]
    rw [if_neg h3, h4]
    by_cases hc : c = blank
    · rw [if_neg (by simp [hc]), ih fuel (i + 1) h5 (by simp at hf; omega)]
      simp [hc]
    · rw [if_pos hc]
      simp [hc]

/-- C51: in the first 255 characters of a card `card_parse_is_empty_width` is true exactly if all
characters of the field are blanks. Behind them the counter wraps: `c51_wrap`, `c51_endless`. -/
theorem c51_empty_partial {card : Card} {w : Nat} (hn : NoNul card.string) (hc : card.cur ≤ card.string.length)
    (hw : card.cur + w < 256) : ∃ b, card.isEmpty w = .ok b ∧
      (b = true ↔ ∀ c ∈ field card.string card.cur w, c = blank) := by
  have h0 := At.start hc hw
  refine ⟨_, emptyLoop_spec hn _ loopFuel _ h0 (by have := h0.length; unfold loopFuel; omega), ?_⟩
  rw [List.all_eq_true]
  simp

/-- Not vacuous -/
example : (⟨bs "         1            x", 10, 10⟩ : Card).isEmpty 10 = .ok true ∧
    (⟨bs "         1            x", 10, 10⟩ : Card).isEmpty 13 = .ok false := by
  refine ⟨by decide +kernel, by decide +kernel⟩

/-- C51 is violated: the field from character 250 on is blank, but the answer is false since the
first character of the card is not blank. -/
theorem c51_wrap : (⟨bs "x" ++ List.replicate 259 blank, 250, 10⟩ : Card).isEmpty 10 = .ok false ∧
    field (bs "x" ++ List.replicate 259 blank) 250 10 = List.replicate 10 blank := by
  refine ⟨by decide +kernel, by decide +kernel⟩

/-- C51 is violated: for a blank card of at least 256 characters the loop never ends if the field
ends behind character 255. -/
theorem c51_endless {s : Bytes} {stop : Nat} (hb : ∀ c ∈ s, c = blank) (hs : 256 ≤ s.length) (hstop : 256 ≤ stop) :
    ∀ (fuel i : Nat), i < 256 → emptyLoop s stop fuel i = .abort := by
  intro fuel
  induction fuel with
  | zero => intro i _; rfl
  | succ fuel ih =>
    intro i hi
    unfold emptyLoop
    rw [if_pos (by omega), charAt_lt (by omega)]
    simp only [Res.bind_ok]
    have := hb _ (List.getElem_mem (l := s) (n := i) (by omega))
    rw [this, if_neg (by decide), if_neg (by decide)]
    exact ih (inc8 i) (Nat.mod_lt _ (by decide))

end Dyna.Card
