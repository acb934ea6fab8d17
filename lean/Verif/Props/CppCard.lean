import Verif.CppCard
import Verif.Props.CardValue
/-!
# Properties of the card functions of the C++ interface (C70, C71)
-/

namespace Dyna.Card

/-! ## Specification -/

/-- Specification: the values of an integral type. -/
def InRange : IntT → Int → Prop
  | .bool, v => v = 0 ∨ v = 1
  | .i8, v => -2 ^ 7 ≤ v ∧ v < 2 ^ 7
  | .i16, v => -2 ^ 15 ≤ v ∧ v < 2 ^ 15
  | .i32, v => -2 ^ 31 ≤ v ∧ v < 2 ^ 31
  | .i64, v => -2 ^ 63 ≤ v ∧ v < 2 ^ 63
  | .u8, v => 0 ≤ v ∧ v < 2 ^ 8
  | .u16, v => 0 ≤ v ∧ v < 2 ^ 16
  | .u32, v => 0 ≤ v ∧ v < 2 ^ 32
  | .u64, v => 0 ≤ v ∧ v < 2 ^ 64

/-- Specification: blanks around a text. -/
def Padded (l t : Bytes) : Prop := ∃ a b, l = List.replicate a blank ++ t ++ List.replicate b blank

/-- Specification: the characters `l` of a field write the value. -/
inductive Writes {α β : Type} (A : Arith α) (B : Arith β) : Kind → Bytes → Value α β → Prop
  /-- a decimal number of the type -/
  | int (T : IntT) (l : Bytes) (v : Int) : Padded l (bs (toString v)) → InRange T v → v.natAbs < 2 ^ 63 →
      Writes A B (.int T) l (.int v)
  /-- a blank field is 0 -/
  | intBlank (T : IntT) (l : Bytes) : (∀ c ∈ l, c = blank) → Writes A B (.int T) l (.int 0)
  /-- a decimal number with fraction and exponent: the value computed by the operations of `float` -/
  | float32 (l : Bytes) (n : Numeral) : n.Valid → n.expFits → Padded l n.text → Writes A B .float32 l (.float32 (n.compute A))
  | float32Blank (l : Bytes) : (∀ c ∈ l, c = blank) → Writes A B .float32 l (.float32 (A.ofNat 0))
  /-- the same with the operations of `double` -/
  | float64 (l : Bytes) (n : Numeral) : n.Valid → n.expFits → Padded l n.text → Writes A B .float64 l (.float64 (n.compute B))
  | float64Blank (l : Bytes) : (∀ c ∈ l, c = blank) → Writes A B .float64 l (.float64 (B.ofNat 0))
  /-- a text is taken without the blanks at its ends -/
  | string (l : Bytes) : Writes A B .string l (.string (trim l))

/-- Specification: from column `c` on, one field after the other writes the values. A field is a type and a width. -/
def WritesAll {α β : Type} (A : Arith α) (B : Arith β) (s : Bytes) : Nat → List (Kind × Nat) → List (Value α β) → Prop
  | _, [], [] => True
  | c, (k, w) :: fs, v :: vs => Writes A B k (field s c w) v ∧ WritesAll A B s (c + w) fs vs
  | _, _, _ => False

/-- Specification: no field but the last one begins inside of the card of `n` characters and ends behind it. -/
def NoneCut (n : Nat) : Nat → List Nat → Prop
  | _, [] => True
  | _, [_] => True
  | c, w :: w' :: ws => ¬ (c < n ∧ n < c + w) ∧ NoneCut n (c + w) (w' :: ws)

/-! ## One field -/

theorem IntT.cast_id (T : IntT) (v : Int) (h : InRange T v) : T.cast v = v := by
  cases T <;> simp only [InRange, IntT.cast] at *
  · rcases h with h | h <;> subst h <;> simp
  all_goals first
    | (rw [Int.bmod_def]; omega)
    | omega

theorem IntT.range_iff (T : IntT) (v : Int) : InRange T v ↔ T.min ≤ v ∧ v ≤ T.max := by
  cases T <;> simp only [InRange, IntT.min, IntT.max] <;> omega

theorem IntT.unsigned_min (T : IntT) (h : T.unsigned = true) : T.min = 0 := by
  cases T <;> simp [IntT.unsigned, IntT.min] at *

theorem IntT.signs (T : IntT) : T.min ≤ 0 ∧ 0 ≤ T.max := by
  cases T <;> simp [IntT.min, IntT.max]

theorem parseIntAs_of {card : Card} {T : IntT} {w : Nat} {v : Int} (h : ignoreErrno 0 (card.parseInt w) = .ok v) :
    (InRange T v → card.parseIntAs T w = .ok (some v)) ∧ (¬ InRange T v → card.parseIntAs T w = .ok none) := by
  have hs := T.signs
  have hu := T.unsigned_min
  unfold Card.parseIntAs
  rw [h]
  simp only [Res.bind_ok]
  constructor
  · intro hr
    have hr' := (T.range_iff v).1 hr
    rw [if_neg (by intro ⟨h1, h2⟩; have := hu h2; omega), if_neg (by omega), if_neg (by omega), T.cast_id v hr]
  · intro hr
    rw [T.range_iff] at hr
    split
    · rfl
    · split
      · rfl
      · split
        · rfl
        · omega

theorem bs_toString_ne (v : Int) : ∃ c ∈ bs (toString v), c ≠ blank := by
  obtain ⟨c, l, e1, e2⟩ := toDigits_cons v.natAbs
  refine ⟨c, ?_, (digit_not e2).1⟩
  rw [bs_toString, e1]
  split <;> simp

theorem numeral_ne {n : Numeral} (hv : n.Valid) : ∃ c ∈ n.text, c ≠ blank := by
  obtain ⟨v1, v2, v3, v4, v5⟩ := hv
  unfold Numeral.text
  rcases v5 with h | ⟨h, _⟩
  · cases hd : n.digits with
    | nil => exact absurd hd h
    | cons c l =>
      exact ⟨c, by simp, (digit_not (v2 c (by rw [hd]; simp))).1⟩
  · cases hf : n.frac with
    | none => exact absurd hf h
    | some fs => exact ⟨dot, by simp [Numeral.fracText, hf], by decide⟩

theorem not_all_blank {l t : Bytes} (h : Padded l t) (hne : ∃ c ∈ t, c ≠ blank) : ¬ ∀ c ∈ l, c = blank := by
  obtain ⟨a, b, rfl⟩ := h
  obtain ⟨c, h1, h2⟩ := hne
  intro hall
  exact h2 (hall c (by simp [h1]))

theorem ends_replicate (b : Nat) : Ends (List.replicate b blank) := by
  cases b with
  | zero => exact .inl rfl
  | succ b => exact .inr rfl

theorem trim_blank {l : Bytes} (h : ∀ c ∈ l, c = blank) : trim l = [] := by
  have : l.dropWhile (· = blank) = [] := by
    induction l with
    | nil => rfl
    | cons c l ih =>
      rw [List.dropWhile_cons_of_pos (by simp [h c (by simp)])]
      exact ih (fun x hx => h x (by simp [hx]))
  unfold trim
  rw [this]
  rfl

/-- The value of one field. -/
theorem parse_value {α β : Type} (A : Arith α) (B : Arith β) {card : Card} {w : Nat} {k : Kind} {v : Value α β}
    (hn : NoNul card.string) (hc : card.cur ≤ card.string.length) (hw : card.cur + w < 256)
    (h : Writes A B k (field card.string card.cur w) v) :
    (do let e ← card.isEmpty w
        (if e = true then .ok (some (k.empty A B)) else card.parseAs A B w k : Res (Option (Value α β)))) = .ok (some v) := by
  obtain ⟨e, e1, e2⟩ := c51_empty_partial hn hc hw
  rw [e1]
  simp only [Res.bind_ok]
  cases h with
  | int T l v hp hr hv =>
    rw [if_neg (by rw [e2]; exact not_all_blank hp (bs_toString_ne v))]
    obtain ⟨a, b, hf⟩ := hp
    have hi := c48_int v hn hc hw (by unfold int64Max; omega) hf
    unfold Card.parseAs
    simp only
    rw [(parseIntAs_of (T := T) (by rw [hi]; rfl)).1 hr]
    rfl
  | intBlank T l hb => rw [if_pos (e2.2 hb)]; rfl
  | float32 l n hv hx hp =>
    rw [if_neg (by rw [e2]; exact not_all_blank hp (numeral_ne hv))]
    obtain ⟨a, b, hf⟩ := hp
    rw [List.append_assoc] at hf
    unfold Card.parseAs
    simp only
    rw [(parseFloat_numeral (A := A) hn hc hw hv (ends_replicate b) hf).1 hx]
    rfl
  | float32Blank l hb => rw [if_pos (e2.2 hb)]; rfl
  | float64 l n hv hx hp =>
    rw [if_neg (by rw [e2]; exact not_all_blank hp (numeral_ne hv))]
    obtain ⟨a, b, hf⟩ := hp
    rw [List.append_assoc] at hf
    unfold Card.parseAs
    simp only
    rw [(parseFloat_numeral (A := B) hn hc hw hv (ends_replicate b) hf).1 hx]
    rfl
  | float64Blank l hb => rw [if_pos (e2.2 hb)]; rfl
  | string l =>
    cases e with
    | true => simp only [if_true]; rw [trim_blank (e2.1 rfl)]; rfl
    | false =>
      simp only [Bool.false_eq_true, if_false]
      unfold Card.parseAs
      simp only
      rw [c49_string hn hc (by omega)]
      rfl

/-! ## C70 -/

/-- C70: `Card::parse<T>` for every integral type, position and width: a decimal number with blanks around is returned if the type has
it, and there is an exception otherwise. Missing to the English property: text that is not a number does not give an exception
(`c70_text_is_zero`). -/
theorem c70_int_partial {card : Card} {w : Nat} (T : IntT) (v : Int) (hn : NoNul card.string)
    (hc : card.cur ≤ card.string.length) (hw : card.cur + w < 256) (hv : v.natAbs < 2 ^ 63)
    (hf : Padded (field card.string card.cur w) (bs (toString v))) :
    (InRange T v → card.parseIntAs T w = .ok (some v)) ∧ (¬ InRange T v → card.parseIntAs T w = .ok none) := by
  obtain ⟨a, b, hf⟩ := hf
  have hi := c48_int v hn hc hw (by unfold int64Max; omega) hf
  exact parseIntAs_of (by rw [hi]; rfl)

/-- C70 is violated: for every integral type a field whose first word is not a number (a field of up to 18 characters) is
returned as 0 without an exception. -/
theorem c70_text_is_zero {card : Card} {w : Nat} (T : IntT) (hn : NoNul card.string) (hc : card.cur ≤ card.string.length)
    (hw : card.cur + w < 256) (hw' : w ≤ 18) (ht : intWord (word (field card.string card.cur w)) = none) :
    card.parseIntAs T w = .ok (some 0) := by
  have h := c48_field_partial hn hc hw hw'
  rw [ht] at h
  refine (parseIntAs_of (by rw [h]; rfl)).1 ?_
  cases T <;> simp [InRange]

/-- C70: the same for `float` and `double`: no exception, and 0 for a field whose text is not a number. -/
theorem c70_float_text {α : Type} (A : Arith α) {card : Card} {w : Nat} (h : card.parseFloat A w = .err) :
    card.parseAs A A w .float32 = .ok (some (.float32 (A.ofNat 0))) ∧
    card.parseAs A A w .float64 = .ok (some (.float64 (A.ofNat 0))) := by
  unfold Card.parseAs
  simp only
  rw [h]
  exact ⟨rfl, rfl⟩

/-- Not vacuous: 300 is a `uint16_t` but not a `uint8_t`; -1 is no `uint64_t`; `abc` is 0. -/
example : (⟨bs "       300        -1       abc", 0, 10⟩ : Card).parseIntAs .u16 10 = .ok (some 300) ∧
    (⟨bs "       300        -1       abc", 0, 10⟩ : Card).parseIntAs .u8 10 = .ok none ∧
    (⟨bs "       300        -1       abc", 10, 10⟩ : Card).parseIntAs .u64 10 = .ok none ∧
    (⟨bs "       300        -1       abc", 10, 10⟩ : Card).parseIntAs .i8 10 = .ok (some (-1)) ∧
    (⟨bs "       300        -1       abc", 20, 10⟩ : Card).parseIntAs .i32 10 = .ok (some 0) := by
  refine ⟨by decide +kernel, by decide +kernel, by decide +kernel, by decide +kernel, by decide +kernel⟩

/-! ## C71 -/

/-- The cursor in column `c` of the format. -/
def Cursor (card : Card) (c : Nat) : Prop := card.cur = min c card.string.length

theorem field_min (s : Bytes) (c w : Nat) : field s (min c s.length) w = field s c w := by
  unfold field
  rcases Nat.le_total c s.length with h | h
  · rw [Nat.min_eq_left h]
  · rw [Nat.min_eq_right h, List.drop_eq_nil_of_le h, List.drop_eq_nil_of_le (Nat.le_refl _)]

/-- Advancing over a field: stays in step with the columns unless the field is cut by the end of the card. -/
theorem next_field {card : Card} {c w : Nat} (hn : NoNul card.string) (hcur : Cursor card c) (hw : c + w < 256) :
    ∃ card', card.nextWidth w = .ok card' ∧ card'.string = card.string ∧ card'.width = card.width ∧
      (¬ (c < card.string.length ∧ card.string.length < c + w) → Cursor card' (c + w)) ∧
      (c < card.string.length → card'.cur = c + w) := by
  unfold Cursor at *
  unfold Card.nextWidth
  rcases Nat.lt_or_ge c card.string.length with h | h
  · rw [Nat.min_eq_left (by omega)] at hcur
    have hne := charAt_ne_zero hn (i := card.cur) (by omega)
    obtain ⟨x, x1, x2⟩ := hne
    rw [x1]
    simp only [Res.bind_ok]
    rw [if_pos x2, if_pos (by omega)]
    refine ⟨_, rfl, rfl, rfl, fun hx => ?_, fun _ => by simp [hcur]⟩
    simp only
    omega
  · rw [Nat.min_eq_right h] at hcur
    rw [hcur, charAt_end]
    simp only [Res.bind_ok]
    rw [if_neg (by simp)]
    refine ⟨_, rfl, rfl, rfl, fun _ => by omega, fun hx => by omega⟩

theorem parseField_writes {α β : Type} (A : Arith α) (B : Arith β) {card : Card} {k : Kind} {width : Option Nat} {v : Value α β}
    {c w : Nat} (hn : NoNul card.string) (hcur : Cursor card c) (hww : fieldWidth card width = w) (hw : c + w < 256)
    (h : Writes A B k (field card.string c w) v) :
    ∃ card', card.parseField A B k width = .ok (some (v, card')) ∧ card'.string = card.string ∧ card'.width = card.width ∧
      (¬ (c < card.string.length ∧ card.string.length < c + w) → Cursor card' (c + w)) ∧
      (c < card.string.length → card'.cur = c + w) := by
  have hle : card.cur ≤ card.string.length := by unfold Cursor at hcur; omega
  have hv := parse_value A B (w := w) hn hle (by unfold Cursor at hcur; omega) (k := k) (v := v)
    (by rw [hcur, field_min]; exact h)
  obtain ⟨card', n1, n2⟩ := next_field (w := w) hn hcur hw
  refine ⟨card', ?_, n2⟩
  unfold Card.parseField
  simp only [hww]
  obtain ⟨e, e1, _⟩ := c51_empty_partial (w := w) hn hle (by unfold Cursor at hcur; omega)
  rw [e1] at hv ⊢
  simp only [Res.bind_ok] at hv ⊢
  rw [hv]
  simp only [Res.bind_ok]
  rw [n1]
  rfl

theorem WritesAll.cons_inv {α β : Type} {A : Arith α} {B : Arith β} {s : Bytes} {c w : Nat} {k : Kind}
    {fs : List (Kind × Nat)} {vs : List (Value α β)} (h : WritesAll A B s c ((k, w) :: fs) vs) :
    ∃ v vs', vs = v :: vs' ∧ Writes A B k (field s c w) v ∧ WritesAll A B s (c + w) fs vs' := by
  cases vs with
  | nil => exact h.elim
  | cons v vs' => exact ⟨v, vs', rfl, h.1, h.2⟩

/-- The loop over fields: `ws` are the widths as given, `fs` the ones that are used. -/
theorem fields_writes {α β : Type} (A : Arith α) (B : Arith β) (s : Bytes) (cw : Nat) (hn : NoNul s) :
    ∀ (gs : List (Kind × Option Nat)) (fs : List (Kind × Nat)) (vs : List (Value α β)) (card : Card) (c : Nat),
    card.string = s → card.width = cw → Cursor card c →
    fs = gs.map (fun g => (g.1, fieldWidth ⟨s, 0, cw⟩ g.2)) →
    c + (fs.map (·.2)).sum < 256 → NoneCut s.length c (fs.map (·.2)) → WritesAll A B s c fs vs →
    card.parseFields A B gs = .ok (vs, true) := by
  intro gs
  induction gs with
  | nil =>
    intro fs vs card c hs hcw hcur hfs hsum hcut hwr
    subst hfs
    cases vs with
    | nil => rfl
    | cons v vs => exact hwr.elim
  | cons g gs ih =>
    intro fs vs card c hs hcw hcur hfs hsum hcut hwr
    obtain ⟨k, width⟩ := g
    rw [List.map_cons] at hfs
    subst hfs
    obtain ⟨v, vs', rfl, w1, w2⟩ := WritesAll.cons_inv hwr
    have hfw : fieldWidth card width = fieldWidth ⟨s, 0, cw⟩ width := by
      unfold fieldWidth
      cases width with
      | none => exact hcw
      | some w => rfl
    simp only [List.map_cons, List.sum_cons] at hsum
    obtain ⟨card', p1, p2, p3, p4, _⟩ := parseField_writes A B (card := card) (k := k) (width := width) (v := v) (c := c)
      (by rw [hs]; exact hn) hcur hfw (by omega) (by rw [hs]; exact w1)
    rw [Card.parseFields, p1]
    simp only [Res.bind_ok]
    cases gs with
    | nil =>
      cases vs' with
      | nil => rfl
      | cons v vs' => exact w2.elim
    | cons g' gs' =>
      simp only [List.map_cons, NoneCut] at hcut
      rw [hs] at p4
      rw [ih _ vs' card' _ (by rw [p2, hs]) (by rw [p3, hcw]) (p4 hcut.1) rfl
        (by simp only [List.map_map] at hsum ⊢; omega) hcut.2 w2]
      rfl

/-- C71: `Card::parse_whole` with widths (both functions): for all lists of types and widths (0 stands for 10) and every card in which
the columns of these widths write values of these types, exactly these values are returned. The fields may be aligned in
any way and be blank, and the card may end within the last field or after any field. Missing to the English property: cards that end inside
of another field (`c71_cut_ub`), and lists of fields of more than 255 characters. -/
theorem c71_parse_whole_widths_partial {α β : Type} (A : Arith α) (B : Arith β) (card : Card) (fs : List (Kind × Nat))
    (vs : List (Value α β)) (hn : NoNul card.string) (hsum : ((fs.map fun f => if f.2 = 0 then 10 else f.2)).sum < 256)
    (hcut : NoneCut card.string.length 0 (fs.map fun f => if f.2 = 0 then 10 else f.2))
    (hwr : WritesAll A B card.string 0 (fs.map fun f => (f.1, if f.2 = 0 then 10 else f.2)) vs) :
    card.parseWholeWidths A B fs = .ok (vs, true) := by
  unfold Card.parseWholeWidths
  refine fields_writes A B card.string defaultWidth hn _ (fs.map fun f => (f.1, if f.2 = 0 then 10 else f.2)) vs
    (card.begin defaultWidth) 0 rfl rfl ?_ ?_ ?_ ?_ hwr
  · simp [Cursor, Card.begin]
  · simp [fieldWidth, defaultWidth]
  · rw [List.map_map, Nat.zero_add]; exact hsum
  · rw [List.map_map]; exact hcut

/-- C71: `Card::parse_whole` without widths: fields of 10 characters. -/
theorem c71_parse_whole_partial {α β : Type} (A : Arith α) (B : Arith β) (card : Card) (ks : List Kind)
    (vs : List (Value α β)) (hn : NoNul card.string) (hlen : ks.length ≤ 25)
    (hcut : NoneCut card.string.length 0 (List.replicate ks.length 10))
    (hwr : WritesAll A B card.string 0 (ks.map fun k => (k, 10)) vs) :
    card.parseWholeAs A B ks = .ok (vs, true) := by
  have hm : (ks.map fun k => (k, 10)).map (·.2) = List.replicate ks.length 10 := by
    rw [List.map_map]
    exact List.map_const
  have hs : ∀ n : Nat, (List.replicate n 10).sum = n * 10 := by
    intro n
    induction n with
    | zero => rfl
    | succ n ih => rw [List.replicate_succ, List.sum_cons, ih]; omega
  unfold Card.parseWholeAs
  refine fields_writes A B card.string defaultWidth hn _ (ks.map fun k => (k, 10)) vs
    (card.begin defaultWidth) 0 rfl rfl ?_ ?_ ?_ ?_ hwr
  · simp [Cursor, Card.begin]
  · simp [fieldWidth, defaultWidth]
  · rw [hm, hs]; omega
  · rw [hm]; exact hcut

/-- The loop up to an exception. -/
theorem fields_throw {α β : Type} (A : Arith α) (B : Arith β) (s : Bytes) (hn : NoNul s) (T : IntT) (v : Int) (hnr : ¬ InRange T v)
    (hv : v.natAbs < 2 ^ 63) (w : Nat) (hw0 : w ≠ 0) (rest : List (Kind × Option Nat)) :
    ∀ (fs : List (Kind × Nat)) (vs : List (Value α β)) (card : Card) (c : Nat),
    card.string = s → Cursor card c → (∀ f ∈ fs, f.2 ≠ 0) →
    c + (fs.map (·.2)).sum + w < 256 → NoneCut s.length c (fs.map (·.2) ++ [w]) → WritesAll A B s c fs vs →
    Padded (field s (c + (fs.map (·.2)).sum) w) (bs (toString v)) →
    card.parseFields A B (fs.map (fun f => (f.1, some f.2)) ++ (.int T, some w) :: rest) = .ok (vs, false) := by
  intro fs
  induction fs with
  | nil =>
    intro vs card c hs hcur h0 hsum hcut hwr hp
    simp only [List.map_nil, List.sum_nil, Nat.add_zero, List.nil_append] at *
    cases vs with
    | cons v vs => exact hwr.elim
    | nil =>
      have hle : card.cur ≤ card.string.length := by unfold Cursor at hcur; omega
      have hcw : card.cur + w < 256 := by unfold Cursor at hcur; omega
      have hf : Padded (field card.string card.cur w) (bs (toString v)) := by rw [hcur, field_min, hs]; exact hp
      obtain ⟨e, e1, e2⟩ := c51_empty_partial (w := w) (by rw [hs]; exact hn) hle hcw
      rw [Card.parseFields]
      unfold Card.parseField
      simp only [fieldWidth, if_neg hw0]
      rw [e1]
      simp only [Res.bind_ok]
      rw [if_neg (by rw [e2]; exact not_all_blank hf (bs_toString_ne v))]
      unfold Card.parseAs
      simp only
      rw [(c70_int_partial T v (by rw [hs]; exact hn) hle hcw hv hf).2 hnr]
      rfl
  | cons f fs ih =>
    intro vs card c hs hcur h0 hsum hcut hwr hp
    obtain ⟨k, w'⟩ := f
    obtain ⟨x, vs', rfl, w1, w2⟩ := WritesAll.cons_inv hwr
    simp only [List.map_cons, List.sum_cons] at *
    have hw' : w' ≠ 0 := h0 (k, w') List.mem_cons_self
    obtain ⟨card', p1, p2, p3, p4, _⟩ := parseField_writes A B (card := card) (k := k) (width := some w') (v := x) (c := c) (w := w')
      (by rw [hs]; exact hn) hcur (by simp [fieldWidth, hw']) (by omega) (by rw [hs]; exact w1)
    rw [List.cons_append, Card.parseFields, p1]
    simp only [Res.bind_ok]
    have hc2 : ¬ (c < s.length ∧ s.length < c + w') ∧ NoneCut s.length (c + w') (fs.map (·.2) ++ [w]) := by
      rw [List.cons_append] at hcut
      cases hx : List.map (fun x : Kind × Nat => x.2) fs ++ [w] with
      | nil => simp at hx
      | cons y ys =>
        rw [hx] at hcut
        exact hcut
    rw [hs] at p4
    rw [ih vs' card' (c + w') (by rw [p2, hs]) (p4 hc2.1) (fun f hf => h0 f (List.mem_cons_of_mem _ hf)) (by omega) hc2.2 w2
      (by rw [Nat.add_assoc]; exact hp)]
    rfl

/-- C71: an integer that the type of its field does not have gives an exception; the variables of the fields before it have been
assigned, the ones behind it are not looked at. -/
theorem c71_exception {α β : Type} (A : Arith α) (B : Arith β) (card : Card) (fs rest : List (Kind × Nat)) (T : IntT) (w : Nat)
    (vs : List (Value α β)) (v : Int) (hn : NoNul card.string) (h0 : ∀ f ∈ fs, f.2 ≠ 0) (hw0 : w ≠ 0)
    (hsum : (fs.map (·.2)).sum + w < 256) (hcut : NoneCut card.string.length 0 (fs.map (·.2) ++ [w]))
    (hwr : WritesAll A B card.string 0 fs vs) (hp : Padded (field card.string (fs.map (·.2)).sum w) (bs (toString v)))
    (hv : v.natAbs < 2 ^ 63) (hnr : ¬ InRange T v) :
    card.parseWholeWidths A B (fs ++ (.int T, w) :: rest) = .ok (vs, false) := by
  unfold Card.parseWholeWidths
  rw [List.map_append, List.map_cons]
  exact fields_throw A B card.string hn T v hnr hv w hw0 _ fs vs (card.begin defaultWidth) 0 rfl (by simp [Cursor, Card.begin])
    h0 (by omega) hcut hwr (by rw [Nat.zero_add]; exact hp)

/-- The loop with a field that is cut by the end of the card. -/
theorem fields_cut {α β : Type} (A : Arith α) (B : Arith β) (s : Bytes) (hn : NoNul s) (k' : Kind) (w' : Nat) (hw0 : w' ≠ 0)
    (rest : List (Kind × Option Nat)) :
    ∀ (fs : List (Kind × Nat)) (vs : List (Value α β)) (card : Card) (c : Nat),
    card.string = s → Cursor card c → (∀ f ∈ fs, f.2 ≠ 0) → fs ≠ [] →
    c + (fs.map (·.2)).sum < 256 → NoneCut s.length c (fs.map (·.2)) → WritesAll A B s c fs vs →
    c + (fs.dropLast.map (·.2)).sum < s.length → s.length < c + (fs.map (·.2)).sum →
    card.parseFields A B (fs.map (fun f => (f.1, some f.2)) ++ (k', some w') :: rest) = .ub := by
  intro fs
  induction fs with
  | nil => intro vs card c hs hcur h0 hne; exact absurd rfl hne
  | cons f fs ih =>
    intro vs card c hs hcur h0 _ hsum hcut hwr hlt hgt
    obtain ⟨k, w⟩ := f
    obtain ⟨x, vs', rfl, w1, w2⟩ := WritesAll.cons_inv hwr
    simp only [List.map_cons, List.sum_cons] at *
    have hw : w ≠ 0 := h0 (k, w) List.mem_cons_self
    obtain ⟨card', p1, p2, p3, p4, p5⟩ := parseField_writes A B (card := card) (k := k) (width := some w) (v := x) (c := c) (w := w)
      (by rw [hs]; exact hn) hcur (by simp [fieldWidth, hw]) (by omega) (by rw [hs]; exact w1)
    rw [List.cons_append, Card.parseFields, p1]
    simp only [Res.bind_ok]
    rw [hs] at p4 p5
    cases fs with
    | nil =>
      simp only [List.map_nil, List.sum_nil, List.dropLast_singleton, Nat.add_zero, List.nil_append] at *
      have hcur' := p5 hlt
      rw [Card.parseFields]
      unfold Card.parseField
      simp only [fieldWidth, if_neg hw0]
      have : card'.isEmpty w' = .ub := by
        unfold Card.isEmpty loopFuel
        rw [emptyLoop, if_pos (by omega), charAt_ub (by rw [p2, hs]; omega)]
        rfl
      rw [this]
      rfl
    | cons g gs =>
      simp only [List.map_cons, NoneCut] at hcut
      rw [ih vs' card' (c + w) (by rw [p2, hs]) (p4 hcut.1) (fun f hf => h0 f (List.mem_cons_of_mem _ hf)) (by simp) (by omega)
        hcut.2 w2 (by simp only [List.dropLast_cons_cons, List.map_cons, List.sum_cons] at hlt; omega) (by omega)]
      rfl

/-- C71: the exact limit. If the card ends inside of a field and there is a further field, memory behind the
card is read. -/
theorem c71_cut_ub {α β : Type} (A : Arith α) (B : Arith β) (card : Card) (fs rest : List (Kind × Nat)) (k : Kind) (w : Nat)
    (vs : List (Value α β)) (hn : NoNul card.string) (h0 : ∀ f ∈ fs, f.2 ≠ 0) (hw0 : w ≠ 0) (hne : fs ≠ [])
    (hsum : (fs.map (·.2)).sum < 256) (hcut : NoneCut card.string.length 0 (fs.map (·.2)))
    (hwr : WritesAll A B card.string 0 fs vs)
    (hlt : (fs.dropLast.map (·.2)).sum < card.string.length) (hgt : card.string.length < (fs.map (·.2)).sum) :
    card.parseWholeWidths A B (fs ++ (k, w) :: rest) = .ub := by
  unfold Card.parseWholeWidths
  rw [List.map_append, List.map_cons]
  exact fields_cut A B card.string hn k w hw0 _ fs vs (card.begin defaultWidth) 0 rfl (by simp [Cursor, Card.begin])
    h0 hne (by omega) hcut hwr (by omega) (by omega)

/-- Not vacuous: a node card, with the last field not filled up. -/
example : (⟨bs "       7            -1.5                 TRANSL", 3, 8⟩ : Card).parseWholeWidths exact exact
    [(.int .u32, 8), (.float64, 16), (.int .i8, 8), (.string, 20)] =
    .ok ([.int 7, .float64 (-3 / 2), .int 0, .string (bs "TRANSL")], true) := by
  decide +kernel

/-- Not vacuous: the exception and the read behind the card (one integer, three fields). -/
example : (⟨bs "       300", 0, 0⟩ : Card).parseWholeAs exact exact [.int .u8, .int .u8] = .ok ([], false) ∧
    (⟨bs "       300", 0, 0⟩ : Card).parseWholeAs exact exact [.int .u16, .int .u8] = .ok ([.int 300, .int 0], true) ∧
    (⟨bs "1,2", 0, 0⟩ : Card).parseWholeAs exact exact [.string, .int .u8] = .ub := by
  refine ⟨by decide +kernel, by decide +kernel, by decide +kernel⟩

end Dyna.Card
