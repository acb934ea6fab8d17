import Verif.PyCard
import Verif.Props.CppCard
/-!
# Property C80: fields of cards in Python
-/

namespace Dyna.Card

/-! ## Specification -/

/-- Specification: the characters `l` of a field are read as the value. -/
inductive Reads {β : Type} (B : Arith β) : Bytes → PyVal β → Prop
  /-- only blanks: `None` -/
  | blank (l : Bytes) : (∀ c ∈ l, c = Card.blank) → Reads B l .nothing
  /-- a decimal integer -/
  | int (l : Bytes) (v : Int) : Padded l (bs (toString v)) → v.natAbs < 2 ^ 63 → Reads B l (.int v)
  /-- a decimal number with digits in front of the dot and behind it, or with an exponent, is the number computed by the operations
  of `double` -/
  | float (l : Bytes) (n : Numeral) : n.Valid → n.digits ≠ [] → n.frac ≠ some [] → (n.frac ≠ none ∨ n.exp ≠ none) → n.expFits →
      Padded l n.text → Reads B l (.float (n.compute B))
  /-- anything else, if its first word is no number, is the text without the blanks at its ends -/
  | text (l : Bytes) : (∃ c ∈ l, c ≠ Card.blank) →
      (∀ (n : Numeral) (a : Nat) (rest : Bytes), n.Valid → Ends rest → l ≠ List.replicate a Card.blank ++ (n.text ++ rest)) →
      Reads B l (.str (trim l))

/-- Specification: from column `c` on, one field after the other is read as the values. -/
def ReadsAll {β : Type} (B : Arith β) (s : Bytes) : Nat → List Nat → List (PyVal β) → Prop
  | _, [], [] => True
  | c, w :: ws, v :: vs => Reads B (field s c w) v ∧ ReadsAll B s (c + w) ws vs
  | _, _, _ => False

/-! ## One field -/

theorem pyParse_some {β : Type} (B : Arith β) {card : Card} {w : Nat} {tr : Bool} (h : w ≤ 255) :
    card.pyParse B tr (some (w : Int)) = card.pyValue B w tr := by
  unfold Card.pyParse castWidth
  dsimp only
  rw [if_pos (by omega)]
  rfl

/-- The numeral of an integer. -/
theorem int_numeral {l : Bytes} {v : Int} (h : Padded l (bs (toString v))) :
    ∃ n : Numeral, IsNumeral l n ∧ n.frac = none ∧ n.exp = none := by
  obtain ⟨a, b, hl⟩ := h
  obtain ⟨f1, _⟩ := toDigits_facts v.natAbs
  obtain ⟨c, r, e1, _⟩ := toDigits_cons v.natAbs
  have hne : (Nat.toDigits 10 v.natAbs).map Char.toNat ≠ [] := by rw [e1]; simp
  refine ⟨⟨if v < 0 then some minus else none, (Nat.toDigits 10 v.natAbs).map Char.toNat, none, none⟩,
    ⟨⟨?_, f1, fun _ h => (nomatch h), fun _ _ _ h => (nomatch h), Or.inl hne⟩, hne, a, List.replicate b blank, ends_replicate b, ?_⟩,
    rfl, rfl⟩
  · intro c hc
    dsimp only at hc
    split at hc
    · cases hc; exact Or.inr rfl
    · exact nomatch hc
  · rw [hl, bs_toString, List.append_assoc]
    congr 1
    simp only [Numeral.text, Numeral.fracText, Numeral.expText, List.append_nil]
    split <;> simp

/-- C80, a single field (`Card.parse` with trimming): every field that the specification reads as a value gives this value. -/
theorem py_value {β : Type} (B : Arith β) {card : Card} {w : Nat} {v : PyVal β}
    (hn : NoNul card.string) (hc : card.cur ≤ card.string.length) (hw : card.cur + w < 255)
    (h : Reads B (field card.string card.cur w) v) : card.pyValue B w true = .ok v := by
  obtain ⟨e, e1, e2⟩ := c51_empty_partial (w := w) hn hc (by omega)
  unfold Card.pyValue
  rw [e1]
  simp only [Res.bind_ok]
  generalize hl : field card.string card.cur w = l at h
  cases h with
  | blank hb => rw [if_pos (e2.2 (by rw [hl]; exact hb))]
  | int v hp hv =>
    rw [if_neg (by rw [e2, hl]; exact not_all_blank hp (bs_toString_ne v))]
    rw [(c50_exact_int hn hc hw).2 (by rw [hl]; exact int_numeral hp)]
    simp only [Res.bind_ok]
    obtain ⟨a, b, hf⟩ := hp
    have hi := c48_int (w := w) v hn hc (by omega) (by unfold int64Max; omega) (by rw [hl]; exact hf)
    rw [(parseIntAs_of (T := .i64) (by rw [hi]; rfl)).1 (by unfold InRange; omega)]
    rfl
  | float n hv hd hf hfe hx hp =>
    rw [if_neg (by rw [e2, hl]; exact not_all_blank hp (numeral_ne hv))]
    obtain ⟨a, b, hfl⟩ := hp
    rw [List.append_assoc] at hfl
    have hnum : IsNumeral (field card.string card.cur w) n := ⟨hv, hd, a, _, ends_replicate b, by rw [hl]; exact hfl⟩
    rw [(c50_exact_float hn hc hw).2 ⟨n, hnum, hf, hfe⟩]
    simp only [Res.bind_ok]
    rw [(parseFloat_numeral (A := B) hn hc (by omega) hv (ends_replicate b) (by rw [hl]; exact hfl)).1 hx]
    rfl
  | text hne hno =>
    rw [if_neg (by rw [e2, hl]; obtain ⟨c, h1, h2⟩ := hne; exact fun h => h2 (h c h1))]
    obtain ⟨t, t1, t2, t3⟩ := getType_spec hn hc hw
    have ht : t = .string := by
      cases t with
      | int => obtain ⟨n, ⟨hv, _, a, rest, hr, e⟩, _⟩ := t2 rfl; rw [hl] at e; exact absurd e (hno n a rest hv hr)
      | float => obtain ⟨n, ⟨hv, _, a, rest, hr, e⟩, _⟩ := t3 rfl; rw [hl] at e; exact absurd e (hno n a rest hv hr)
      | string => rfl
    rw [t1, ht]
    simp only [Res.bind_ok, if_true]
    rw [c49_string hn hc (by omega), hl]
    rfl

/-- C80: `Card.parse` with and without width. Missing to the English property: the cases of `c80_plus`, `c80_words` and `c80_dot`. -/
theorem c80_parse_partial {β : Type} (B : Arith β) {card : Card} {w : Nat} {v : PyVal β}
    (hn : NoNul card.string) (hc : card.cur ≤ card.string.length) (hw : card.cur + w < 255)
    (h : Reads B (field card.string card.cur w) v) :
    card.pyParse B true (some w) = .ok v ∧ (card.width = w → card.pyParse B true none = .ok v) := by
  have := py_value B hn hc hw h
  refine ⟨?_, fun he => ?_⟩
  · rw [pyParse_some B (by omega)]; exact this
  · unfold Card.pyParse
    rw [he]
    exact this

/-- C80: every field of up to 11 characters has a value: no exception, nothing behind the card is read. -/
theorem py_total {β : Type} (B : Arith β) {card : Card} {w : Nat} (hn : NoNul card.string)
    (hc : card.cur ≤ card.string.length) (hw : card.cur + w < 255) (hw' : w ≤ 11) :
    ∃ v, card.pyValue B w true = .ok v := by
  obtain ⟨e, e1, _⟩ := c51_empty_partial (w := w) hn hc (by omega)
  obtain ⟨t, t1⟩ := c50_safe hn hc hw
  unfold Card.pyValue
  rw [e1, t1]
  simp only [Res.bind_ok]
  split
  · exact ⟨_, rfl⟩
  · cases t with
    | int =>
      simp only
      have hi := c48_field_partial hn hc (by omega : card.cur + w < 256) (by omega : w ≤ 18)
      have hi' : ∃ v : Int, ignoreErrno 0 (card.parseInt w) = .ok v ∧ v.natAbs < 2 ^ 63 := by
        rw [hi]
        split
        · rename_i v hv
          refine ⟨v, rfl, ?_⟩
          have hlen : (word (field card.string card.cur w)).length ≤ 11 := by
            unfold word
            have h1 := (List.takeWhile_prefix (l := (field card.string card.cur w).dropWhile (· = blank)) (· ≠ blank)).length_le
            have h2 := (List.dropWhile_suffix (l := field card.string card.cur w) (· = blank)).length_le
            have h3 := field_length card.string card.cur w
            omega
          revert hv hlen
          generalize word (field card.string card.cur w) = u
          intro hv hlen
          have hb : ∀ ds : Bytes, ds.length ≤ 11 → ds.all isDigit = true → digitsValue ds 0 < 2 ^ 63 := by
            intro ds hl hd
            have h1 := digitsValue_bound (ds := ds) (fun c hc => List.all_eq_true.1 hd c hc) 0
            have h2 : (10 : Nat) ^ ds.length ≤ 10 ^ 11 := Nat.pow_le_pow_right (by decide) hl
            omega
          unfold intWord at hv
          cases u with
          | nil => exact nomatch hv
          | cons c ds =>
            simp only at hv
            split at hv
            · split at hv
              · rename_i hd
                simp only [Option.some.injEq] at hv
                have := hb ds (by simp at hlen; omega) hd
                omega
              · exact nomatch hv
            · split at hv
              · rename_i hd
                simp only [Option.some.injEq] at hv
                have := hb (c :: ds) hlen hd
                omega
              · exact nomatch hv
        · exact ⟨0, rfl, by decide⟩
      obtain ⟨v, h1, h2⟩ := hi'
      rw [(parseIntAs_of (T := .i64) h1).1 (by unfold InRange; omega)]
      exact ⟨_, rfl⟩
    | float =>
      obtain ⟨v, hv⟩ := c50_float B hn hc hw hw' t1 (by simp)
      simp only
      rw [hv]
      exact ⟨_, rfl⟩
    | string =>
      simp only [if_true]
      rw [c49_string hn hc (by omega)]
      exact ⟨_, rfl⟩

/-! ## The whole card -/

theorem ReadsAll.cons_inv {β : Type} {B : Arith β} {s : Bytes} {c w : Nat} {ws : List Nat} {vs : List (PyVal β)}
    (h : ReadsAll B s c (w :: ws) vs) :
    ∃ v vs', vs = v :: vs' ∧ Reads B (field s c w) v ∧ ReadsAll B s (c + w) ws vs' := by
  cases vs with
  | nil => exact h.elim
  | cons v vs' => exact ⟨v, vs', rfl, h.1, h.2⟩

theorem pyFields_eq {β : Type} (B : Arith β) (s : Bytes) (hn : NoNul s) :
    ∀ (ws : List Nat) (vs : List (PyVal β)) (card : Card) (c : Nat),
    card.string = s → Cursor card c → c + ws.sum < 255 → NoneCut s.length c ws → ReadsAll B s c ws vs →
    card.pyFields B (ws.map Int.ofNat) = .ok vs := by
  intro ws
  induction ws with
  | nil =>
    intro vs card c _ _ _ _ h
    cases vs with
    | nil => rfl
    | cons v vs => exact h.elim
  | cons w ws ih =>
    intro vs card c hs hcur hsum hcut h
    obtain ⟨v, vs', rfl, w1, w2⟩ := h.cons_inv
    simp only [List.sum_cons] at hsum
    have hle : card.cur ≤ card.string.length := by unfold Cursor at hcur; omega
    have hlec : card.cur ≤ c := by unfold Cursor at hcur; omega
    have hv := py_value B (card := card) (w := w) (v := v) (by rw [hs]; exact hn) hle (by omega)
      (by rw [hcur, field_min, hs]; exact w1)
    obtain ⟨card', n1, n2, _, n4, _⟩ := next_field (card := card) (w := w) (by rw [hs]; exact hn) hcur (by omega)
    rw [List.map_cons, Card.pyFields]
    have hcw : castWidth (Int.ofNat w) = .ok w := by
      unfold castWidth
      rw [if_pos (by simp; omega)]
      rfl
    rw [hcw]
    simp only [Res.bind_ok]
    rw [hv]
    simp only [Res.bind_ok]
    rw [n1]
    simp only [Res.bind_ok]
    cases ws with
    | nil =>
      cases vs' with
      | nil => rfl
      | cons v vs' => exact w2.elim
    | cons w' ws' =>
      simp only [NoneCut] at hcut
      rw [hs] at n4
      rw [ih vs' card' _ (by rw [n2, hs]) (n4 hcut.1) (by omega) hcut.2 w2]
      rfl

/-- C80: `Card.parse_whole` with widths: one value per width, the value of the column. The card may end within the last field or after any
field. Missing to the English property: cards that end inside of another field (`c80_cut`), and the fields of `c80_plus`, `c80_words` and
`c80_dot`. -/
theorem c80_whole_widths_partial {β : Type} (B : Arith β) (card : Card) (ws : List Nat) (vs : List (PyVal β))
    (hn : NoNul card.string) (hne : ws ≠ []) (hsum : ws.sum < 255) (hcut : NoneCut card.string.length 0 ws)
    (h : ReadsAll B card.string 0 ws vs) : card.pyParseWhole B (ws.map Int.ofNat) = .ok vs := by
  unfold Card.pyParseWhole
  rw [if_neg (by simpa using hne)]
  exact pyFields_eq B card.string hn ws vs (card.begin defaultWidth) 0 rfl (by simp [Cursor, Card.begin]) (by omega) hcut h

theorem pyUntilDone_eq {β : Type} (B : Arith β) (s : Bytes) (cw : Nat) (hn : NoNul s) :
    ∀ (k : Nat) (vs : List (PyVal β)) (c fuel : Nat),
    c + k * 10 = s.length → s.length ≤ 250 → k < fuel → ReadsAll B s c (List.replicate k 10) vs →
    (⟨s, c, cw⟩ : Card).pyUntilDone B fuel = .ok vs := by
  intro k
  induction k with
  | zero =>
    intro vs c fuel hc _ hf h
    obtain ⟨f, rfl⟩ : ∃ f, fuel = f + 1 := ⟨fuel - 1, by omega⟩
    have hv : vs = [] := by
      cases vs with
      | nil => rfl
      | cons v vs => exact h.elim
    subst hv
    rw [Card.pyUntilDone, Card.done]
    simp only
    rw [show c = s.length by omega, charAt_end]
    rfl
  | succ k ih =>
    intro vs c fuel hc hs hf h
    obtain ⟨f, rfl⟩ : ∃ f, fuel = f + 1 := ⟨fuel - 1, by omega⟩
    rw [List.replicate_succ] at h
    obtain ⟨v, vs', rfl, w1, w2⟩ := h.cons_inv
    obtain ⟨x, x1, x2⟩ := charAt_ne_zero hn (i := c) (by omega)
    rw [Card.pyUntilDone, Card.done]
    simp only
    rw [x1]
    simp only [Res.bind_ok]
    rw [if_neg (by simpa using x2), defaultWidth, py_value B (card := ⟨s, c, cw⟩) (w := 10) (v := v) hn (by simp only; omega) (by simp only; omega) w1]
    simp only [Res.bind_ok]
    rw [Card.nextWidth]
    simp only
    rw [x1]
    simp only [Res.bind_ok]
    rw [if_pos x2, if_pos (by omega)]
    simp only [Res.bind_ok]
    rw [ih vs' (c + 10) f (by omega) hs (by omega) w2]
    rfl

/-- C80: `Card.parse_whole` without widths reads all fields of 10 characters of a card whose length is a multiple of 10. Missing to the
English property: all other cards (`c80_default_cut`). -/
theorem c80_whole_partial {β : Type} (B : Arith β) (card : Card) (k : Nat) (vs : List (PyVal β))
    (hn : NoNul card.string) (hk : card.string.length = k * 10) (hs : k ≤ 25)
    (h : ReadsAll B card.string 0 (List.replicate k 10) vs) : card.pyParseWhole B [] = .ok vs := by
  unfold Card.pyParseWhole
  rw [if_pos rfl]
  exact pyUntilDone_eq B card.string defaultWidth hn k vs 0 loopFuel (by omega) (by omega) (by unfold loopFuel; omega) h

theorem pyUntilDone_cut {β : Type} (B : Arith β) (s : Bytes) (cw : Nat) (hn : NoNul s) :
    ∀ (k : Nat) (c fuel : Nat),
    c + k * 10 < s.length → s.length < c + (k + 1) * 10 → s.length < 244 → k + 1 < fuel →
    (⟨s, c, cw⟩ : Card).pyUntilDone B fuel = .ub := by
  intro k
  induction k with
  | zero =>
    intro c fuel h1 h2 h3 hf
    obtain ⟨f, rfl⟩ : ∃ f, fuel = f + 1 + 1 := ⟨fuel - 2, by omega⟩
    obtain ⟨x, x1, x2⟩ := charAt_ne_zero hn (i := c) (by omega)
    rw [Card.pyUntilDone, Card.done]
    simp only
    rw [x1]
    simp only [Res.bind_ok]
    obtain ⟨v, hv⟩ := py_total B (card := ⟨s, c, cw⟩) (w := 10) hn (by simp only; omega) (by simp only; omega) (by omega)
    rw [if_neg (by simpa using x2), defaultWidth, hv]
    simp only [Res.bind_ok]
    rw [Card.nextWidth]
    simp only
    rw [x1]
    simp only [Res.bind_ok]
    rw [if_pos x2, if_pos (by omega)]
    simp only [Res.bind_ok]
    rw [Card.pyUntilDone, Card.done]
    simp only
    rw [charAt_ub (by omega)]
    rfl
  | succ k ih =>
    intro c fuel h1 h2 h3 hf
    obtain ⟨f, rfl⟩ : ∃ f, fuel = f + 1 := ⟨fuel - 1, by omega⟩
    obtain ⟨x, x1, x2⟩ := charAt_ne_zero hn (i := c) (by omega)
    rw [Card.pyUntilDone, Card.done]
    simp only
    rw [x1]
    simp only [Res.bind_ok]
    obtain ⟨v, hv⟩ := py_total B (card := ⟨s, c, cw⟩) (w := 10) hn (by simp only; omega) (by simp only; omega) (by omega)
    rw [if_neg (by simpa using x2), defaultWidth, hv]
    simp only [Res.bind_ok]
    rw [Card.nextWidth]
    simp only
    rw [x1]
    simp only [Res.bind_ok]
    rw [if_pos x2, if_pos (by omega)]
    simp only [Res.bind_ok]
    rw [ih (c + 10) f (by omega) (by omega) h3 (by omega)]
    rfl

/-- C80 is violated: `Card.parse_whole()` reads behind every card (of less than 244 characters) whose length is not a multiple of 10. -/
theorem c80_default_cut {β : Type} (B : Arith β) (card : Card) (hn : NoNul card.string) (hs : card.string.length < 244)
    (hm : card.string.length % 10 ≠ 0) : card.pyParseWhole B [] = .ub := by
  unfold Card.pyParseWhole
  rw [if_pos rfl]
  exact pyUntilDone_cut B card.string defaultWidth hn (card.string.length / 10) 0 loopFuel (by omega) (by omega) hs
    (by unfold loopFuel; omega)

theorem pyFields_cut {β : Type} (B : Arith β) (s : Bytes) (hn : NoNul s) (w' : Nat) (h0 : 0 < w') (rest : List Int) :
    ∀ (ws : List Nat) (vs : List (PyVal β)) (card : Card) (c : Nat),
    card.string = s → Cursor card c → ws ≠ [] → c + ws.sum < 255 → NoneCut s.length c ws → ReadsAll B s c ws vs →
    c + ws.dropLast.sum < s.length → s.length < c + ws.sum → w' ≤ 255 →
    card.pyFields B (ws.map Int.ofNat ++ (w' : Int) :: rest) = .ub := by
  intro ws
  induction ws with
  | nil => intro vs card c _ _ hne; exact absurd rfl hne
  | cons w ws ih =>
    intro vs card c hs hcur _ hsum hcut h hlt hgt hw'
    obtain ⟨v, vs', rfl, w1, w2⟩ := h.cons_inv
    simp only [List.sum_cons] at hsum hgt
    have hle : card.cur ≤ card.string.length := by unfold Cursor at hcur; omega
    have hlec : card.cur ≤ c := by unfold Cursor at hcur; omega
    have hv := py_value B (card := card) (w := w) (v := v) (by rw [hs]; exact hn) hle (by omega)
      (by rw [hcur, field_min, hs]; exact w1)
    obtain ⟨card', n1, n2, _, n4, n5⟩ := next_field (card := card) (w := w) (by rw [hs]; exact hn) hcur (by omega)
    rw [List.map_cons, List.cons_append, Card.pyFields]
    have hcw : castWidth (Int.ofNat w) = .ok w := by
      unfold castWidth
      rw [if_pos (by simp; omega)]
      rfl
    rw [hcw]
    simp only [Res.bind_ok]
    rw [hv]
    simp only [Res.bind_ok]
    rw [n1]
    simp only [Res.bind_ok]
    rw [hs] at n4 n5
    cases ws with
    | nil =>
      simp only [List.dropLast_singleton, List.sum_nil, Nat.add_zero] at hlt hgt
      have hcur' := n5 hlt
      have hcw' : castWidth (w' : Int) = .ok w' := by
        unfold castWidth
        rw [if_pos (by omega)]
        rfl
      rw [List.map_nil, List.nil_append, Card.pyFields, hcw']
      simp only [Res.bind_ok]
      have : card'.isEmpty w' = .ub := by
        unfold Card.isEmpty loopFuel
        rw [emptyLoop, if_pos (by omega), charAt_ub (by rw [n2, hs]; omega)]
        rfl
      unfold Card.pyValue
      rw [this]
      rfl
    | cons g gs =>
      simp only [NoneCut] at hcut
      rw [ih vs' card' (c + w) (by rw [n2, hs]) (n4 hcut.1) (by simp) (by omega) hcut.2 w2
        (by simp only [List.dropLast_cons_cons, List.sum_cons] at hlt ⊢; omega) (by omega) hw']
      rfl

/-- C80 is violated: if the card ends inside of a field and there is a further width, memory behind the card is read. -/
theorem c80_cut {β : Type} (B : Arith β) (card : Card) (ws : List Nat) (w : Nat) (rest : List Int) (vs : List (PyVal β))
    (hn : NoNul card.string) (hw : 0 < w) (hw' : w ≤ 255) (hne : ws ≠ []) (hsum : ws.sum < 255) (hcut : NoneCut card.string.length 0 ws)
    (h : ReadsAll B card.string 0 ws vs) (hlt : ws.dropLast.sum < card.string.length) (hgt : card.string.length < ws.sum) :
    card.pyParseWhole B (ws.map Int.ofNat ++ (w : Int) :: rest) = .ub := by
  unfold Card.pyParseWhole
  rw [if_neg (by simp)]
  exact pyFields_cut B card.string hn w hw rest ws vs (card.begin defaultWidth) 0 rfl (by simp [Cursor, Card.begin]) hne (by omega) hcut h
    (by omega) (by omega) hw'

/-- C80: a width that is not in 0, …, 255 is an exception, not another width. -/
theorem c80_bad_width {β : Type} (B : Arith β) (card : Card) (trim : Bool) (w : Int) (h : w < 0 ∨ 255 < w) :
    card.pyParse B trim (some w) = .err ∧ ∀ rest : List Int, card.pyParseWhole B (w :: rest) = .err := by
  have : castWidth w = .err := by unfold castWidth; rw [if_neg (by omega)]
  refine ⟨?_, fun rest => ?_⟩
  · unfold Card.pyParse; dsimp only; rw [this]; rfl
  · unfold Card.pyParseWhole
    rw [if_neg (by simp), Card.pyFields, this]
    rfl

/-! ## What is not read as written -/

/-- C80 is violated: an integer with a plus is 0, not this integer. -/
theorem c80_plus {β : Type} (B : Arith β) {card : Card} {w a b : Nat} {ds : Bytes} (hn : NoNul card.string)
    (hc : card.cur ≤ card.string.length) (hw : card.cur + w < 255) (hw' : w ≤ 18) (hd : Digits ds) (hne : ds ≠ [])
    (hf : field card.string card.cur w = List.replicate a blank ++ (plus :: ds ++ List.replicate b blank)) :
    card.pyParse B true (some w) = .ok (.int 0) := by
  have hval : card.pyValue B w true = .ok (.int 0) := by
    obtain ⟨e, e1, e2⟩ := c51_empty_partial (w := w) hn hc (by omega)
    unfold Card.pyValue
    rw [e1]
    simp only [Res.bind_ok]
    rw [if_neg (by
      rw [e2, hf]
      intro h
      have := h plus (by simp)
      exact absurd this (by decide))]
    have hv : (⟨some plus, ds, none, none⟩ : Numeral).Valid :=
      ⟨fun c h => by cases h; exact Or.inl rfl, hd, fun _ h => (nomatch h), fun _ _ _ h => (nomatch h), Or.inl hne⟩
    rw [(c50_exact_int hn hc hw).2 ⟨⟨some plus, ds, none, none⟩, ⟨hv, hne, a, List.replicate b blank, ends_replicate b, by
      rw [hf]; simp [Numeral.text, Numeral.fracText, Numeral.expText]⟩, rfl, rfl⟩]
    simp only [Res.bind_ok]
    have hi := c48_field_partial hn hc (by omega : card.cur + w < 256) hw'
    have hword : intWord (word (field card.string card.cur w)) = none := by
      rw [hf]
      unfold word
      rw [dropWhile_blanks a (by simp; decide)]
      rw [List.cons_append, List.takeWhile_cons, if_pos (by decide)]
      simp [intWord, plus, minus, isDigit]
    rw [hword] at hi
    rw [(parseIntAs_of (T := .i64) (v := 0) (by rw [hi]; rfl)).1 (by unfold InRange; omega)]
    rfl
  rw [pyParse_some B (by omega)]
  exact hval

/-- C80 is violated: a text that begins with an integer (here without sign) is this integer, and the words behind are lost. -/
theorem c80_words {β : Type} (B : Arith β) {card : Card} {w a : Nat} {ds rest : Bytes} (hn : NoNul card.string)
    (hc : card.cur ≤ card.string.length) (hw : card.cur + w < 255) (hd : Digits ds) (hne : ds ≠ [])
    (hb : digitsValue ds 0 ≤ int64Max)
    (hf : field card.string card.cur w = List.replicate a blank ++ (ds ++ blank :: rest)) :
    card.pyParse B true (some w) = .ok (.int (digitsValue ds 0)) := by
  have hval : card.pyValue B w true = .ok (.int (digitsValue ds 0)) := by
    obtain ⟨e, e1, e2⟩ := c51_empty_partial (w := w) hn hc (by omega)
    unfold Card.pyValue
    rw [e1]
    simp only [Res.bind_ok]
    rw [if_neg (by
      rw [e2, hf]
      intro h
      cases ds with
      | nil => exact hne rfl
      | cons c ds =>
        have := h c (by simp)
        have h2 := hd c (by simp)
        exact (digit_not h2).1 this)]
    have hv : (⟨none, ds, none, none⟩ : Numeral).Valid :=
      ⟨fun c h => (nomatch h), hd, fun _ h => (nomatch h), fun _ _ _ h => (nomatch h), Or.inl hne⟩
    rw [(c50_exact_int hn hc hw).2 ⟨⟨none, ds, none, none⟩, ⟨hv, hne, a, blank :: rest, Or.inr rfl, by
      rw [hf]; simp [Numeral.text, Numeral.fracText, Numeral.expText]⟩, rfl, rfl⟩]
    simp only [Res.bind_ok]
    have hi : card.parseInt w = .ok (digitsValue ds 0 : Int) := by
      rw [parseInt_eq hn hc (by omega), hf]
      have := intField_word (a := a) (neg := false) (rest := blank :: rest) hne hd hb (Or.inr rfl)
      simpa using this
    rw [(parseIntAs_of (T := .i64) (v := (digitsValue ds 0 : Int)) (by rw [hi]; rfl)).1 (by unfold InRange; unfold int64Max at hb; omega)]
    rfl
  rw [pyParse_some B (by omega)]
  exact hval

/-- C80 is violated: `1.` and `.5` are texts, and the text "3 point bending" is the number 3. -/
theorem c80_dot :
    (⟨bs "        1.        .5", 0, 10⟩ : Card).pyParseWhole exact [] = .ok [.str (bs "1."), .str (bs ".5")] ∧
    (⟨bs "3 point bending", 0, 10⟩ : Card).pyParse exact true (some 80) = .ok (.int 3) := by
  refine ⟨by decide +kernel, by decide +kernel⟩

/-! ## Text without trimming -/

/-- C80: `Card.parse(trim_string=False)` of a field that is read as a text and lies inside of the card gives all its characters; if the field
reaches behind the card then memory behind the card is read. -/
theorem c80_no_trim {β : Type} (B : Arith β) {card : Card} {w : Nat} (hn : NoNul card.string)
    (hc : card.cur ≤ card.string.length) (hw : card.cur + w < 255) (t : Bytes)
    (h : card.pyValue B w true = .ok (.str t)) :
    (card.cur + w ≤ card.string.length → card.pyParse B false (some w) = .ok (.str (field card.string card.cur w))) ∧
    (card.string.length + 1 < card.cur + w → card.pyParse B false (some w) = .ub) := by
  have hval : card.pyValue B w false = (do let s ← card.parseStringNoTrim w; .ok (.str s)) := by
    obtain ⟨e, e1, e2⟩ := c51_empty_partial (w := w) hn hc (by omega)
    obtain ⟨ty, t1⟩ := c50_safe hn hc hw
    unfold Card.pyValue at h ⊢
    rw [e1, t1] at h ⊢
    simp only [Res.bind_ok] at h ⊢
    split at h
    · exact nomatch h
    · rename_i hne
      rw [if_neg hne]
      cases ty with
      | int =>
        exfalso
        simp only at h
        cases hp : card.parseIntAs .i64 w with
        | ok v => rw [hp] at h; cases v <;> exact nomatch h
        | err => rw [hp] at h; exact nomatch h
        | ub => rw [hp] at h; exact nomatch h
        | abort => rw [hp] at h; exact nomatch h
      | float =>
        exfalso
        simp only at h
        cases hp : ignoreErrno (B.ofNat 0) (card.parseFloat B w) with
        | ok v => rw [hp] at h; exact nomatch h
        | err => rw [hp] at h; exact nomatch h
        | ub => rw [hp] at h; exact nomatch h
        | abort => rw [hp] at h; exact nomatch h
      | string => simp
  rw [pyParse_some B (by omega), hval]
  refine ⟨fun hi => ?_, fun hi => ?_⟩
  · rw [c49_no_trim hn hi]; rfl
  · rw [c49_no_trim_short hi]; rfl

/-! ## Examples -/

/-- A card with widths 8, 16, 8, 10 and the default. -/
example :
    (⟨bs "       7            -1.5        TRANSL", 3, 8⟩ : Card).pyParseWhole exact [8, 16, 8, 10] =
      .ok [.int 7, .float (-3 / 2), .nothing, .str (bs "TRANSL")] ∧
    (⟨bs "       300     1e-02       abc", 0, 0⟩ : Card).pyParseWhole exact [] = .ok [.int 300, .float (1 / 100), .str (bs "abc")] ∧
    (⟨bs "       300     1e-02 abc", 0, 0⟩ : Card).pyParseWhole exact [] = .ub ∧
    (⟨bs "        +5", 0, 10⟩ : Card).pyParse exact true none = .ok (.int 0) := by
  refine ⟨by decide +kernel, by decide +kernel, by decide +kernel, by decide +kernel⟩

/-- The hypotheses of the theorem about whole cards hold for a card with an integer, an empty column and a number. -/
example : ∃ vs, ReadsAll exact (bs "       300                -1.5") 0 (List.replicate 3 10) vs ∧
    (⟨bs "       300                -1.5", 0, 0⟩ : Card).pyParseWhole exact [] = .ok vs := by
  have h : ReadsAll exact (bs "       300                -1.5") 0 (List.replicate 3 10)
      [.int 300, .nothing, .float ((⟨some minus, bs "1", some (bs "5"), none⟩ : Numeral).compute exact)] := by
    refine ⟨.int _ 300 ⟨7, 0, by decide +kernel⟩ (by decide), .blank _ (by decide +kernel),
      .float _ ⟨some minus, bs "1", some (bs "5"), none⟩ ?_ (by decide) (by decide) (by decide) ?_ ⟨6, 0, by decide +kernel⟩, trivial⟩
    · refine ⟨fun c h => by cases h; exact Or.inr rfl, ?_, ?_, fun _ _ _ h => (nomatch h), Or.inl (by decide)⟩
      · unfold Digits; decide +kernel
      · intro fs h; cases h; unfold Digits; decide +kernel
    · intro e sg es h; exact nomatch h
  exact ⟨_, h, c80_whole_partial exact _ 3 _ (by unfold NoNul; decide +kernel) (by decide +kernel) (by decide) h⟩

end Dyna.Card
