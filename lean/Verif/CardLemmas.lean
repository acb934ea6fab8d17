import Verif.Card
/-!
# Lemmas about cards

The loops over the characters of a field as functions of the list of the characters of the field.
-/

namespace Dyna.Card

/-- A C string does not have NUL. Part of the specification, models no code. -/
def NoNul (s : Bytes) : Prop := ∀ c ∈ s, c ≠ 0

/-- The characters of the field from position `cur` on with width `w`: up to the width or the end of the
card. Part of the specification, models no code. -/
def field (s : Bytes) (cur w : Nat) : Bytes := (s.drop cur).take w

theorem charAt_lt {s : Bytes} {i : Nat} (h : i < s.length) : charAt s i = .ok s[i] := by
  unfold charAt
  rw [List.getElem?_append_left h, List.getElem?_eq_getElem h]
  rfl

theorem charAt_end (s : Bytes) : charAt s s.length = .ok 0 := by
  unfold charAt
  rw [List.getElem?_append_right (Nat.le_refl _)]
  simp

theorem charAt_ub {s : Bytes} {i : Nat} (h : s.length < i) : charAt s i = .ub := by
  unfold charAt
  rw [List.getElem?_eq_none (by simp; omega)]
  rfl

/-- The counter is at position `i` of the card and `l` are the characters to the end of the
field. Part of the specification, models no code. -/
structure At (s : Bytes) (stop i : Nat) (l : Bytes) : Prop where
  le : i ≤ s.length
  bound : i ≤ stop
  small : stop < 256
  rest : (s.drop i).take (stop - i) = l

theorem At.start {s : Bytes} {cur w : Nat} (h : cur ≤ s.length) (hw : cur + w < 256) :
    At s (cur + w) cur (field s cur w) := by
  refine ⟨h, by omega, hw, ?_⟩
  unfold field
  rw [Nat.add_sub_cancel_left]

theorem At.cons {s : Bytes} {stop i c : Nat} {l : Bytes} (h : At s stop i (c :: l)) (hn : NoNul s) :
    i < stop ∧ charAt s i = .ok c ∧ c ≠ 0 ∧ inc8 i = i + 1 ∧ At s stop (i + 1) l := by
  obtain ⟨h1, h2, h3, h4⟩ := h
  have hi : i < stop := by
    rcases Nat.lt_or_ge i stop with h | h
    · exact h
    · rw [show stop - i = 0 by omega] at h4
      simp at h4
  have hs : i < s.length := by
    rcases Nat.lt_or_ge i s.length with h | h
    · exact h
    · rw [List.drop_eq_nil_of_le h] at h4
      simp at h4
  rw [List.drop_eq_getElem_cons hs, show stop - i = (stop - (i + 1)) + 1 by omega, List.take_succ_cons] at h4
  injection h4 with h5 h6
  refine ⟨hi, ?_, ?_, ?_, ⟨hs, hi, h3, h6⟩⟩
  · rw [charAt_lt hs, h5]
  · rw [← h5]; exact hn _ (List.getElem_mem hs)
  · unfold inc8; omega

theorem At.nil {s : Bytes} {stop i : Nat} (h : At s stop i []) : i = stop ∨ (i < stop ∧ charAt s i = .ok 0) := by
  obtain ⟨h1, h2, h3, h4⟩ := h
  rcases Nat.lt_or_ge i stop with hi | hi
  · right
    refine ⟨hi, ?_⟩
    have := congrArg List.length h4
    simp only [List.length_take, List.length_drop, List.length_nil] at this
    rw [show i = s.length by omega]
    exact charAt_end s
  · left; omega

theorem At.char {s : Bytes} {stop i : Nat} {l : Bytes} (h : At s stop i l) : ∃ c, charAt s i = .ok c := by
  rcases Nat.lt_or_ge i s.length with hi | hi
  · exact ⟨_, charAt_lt hi⟩
  · rw [show i = s.length from Nat.le_antisymm h.le hi]
    exact ⟨_, charAt_end s⟩

theorem At.length {s : Bytes} {stop i : Nat} {l : Bytes} (h : At s stop i l) : l.length < 256 := by
  rw [← h.rest, List.length_take, List.length_drop]
  have := h.small
  omega

/-! ## Blanks and digits -/

theorem skipBlanks_spec {s : Bytes} {stop : Nat} (hn : NoNul s) : ∀ (l : Bytes) (fuel i : Nat), At s stop i l →
    l.length < fuel → ∃ j, skipBlanks s stop fuel i = .ok j ∧ At s stop j (l.dropWhile (· = blank)) := by
  intro l
  induction l with
  | nil =>
    intro fuel i h hf
    obtain ⟨fuel, rfl⟩ : ∃ k, fuel = k + 1 := ⟨fuel - 1, by omega⟩
    refine ⟨i, ?_, h⟩
    unfold skipBlanks
    rcases h.nil with e | ⟨e1, e2⟩
    · rw [if_neg (by omega)]
    · rw [if_pos e1, e2]
      rfl
  | cons c l ih =>
    intro fuel i h hf
    obtain ⟨fuel, rfl⟩ : ∃ k, fuel = k + 1 := ⟨fuel - 1, by omega⟩
    obtain ⟨h1, h2, h3, h4, h5⟩ := h.cons hn
    unfold skipBlanks
    rw [if_pos h1, h2]
    simp only [Res.bind_ok]
    by_cases hc : c = blank
    · rw [if_pos hc, h4]
      obtain ⟨j, e1, e2⟩ := ih fuel (i + 1) h5 (by simp at hf; omega)
      refine ⟨j, e1, ?_⟩
      simpa [hc] using e2
    · rw [if_neg hc]
      refine ⟨i, rfl, ?_⟩
      simpa [hc] using h

theorem typeBlanks_spec {s : Bytes} {stop : Nat} (hn : NoNul s) : ∀ (l : Bytes) (fuel i : Nat), At s stop i l →
    l.length < fuel → ∃ j, typeBlanks s stop fuel i = .ok j ∧ At s stop j (l.dropWhile (· = blank)) := by
  intro l
  induction l with
  | nil =>
    intro fuel i h hf
    obtain ⟨fuel, rfl⟩ : ∃ k, fuel = k + 1 := ⟨fuel - 1, by omega⟩
    refine ⟨i, ?_, h⟩
    unfold typeBlanks
    rcases h.nil with e | ⟨e1, e2⟩
    · obtain ⟨c, hc⟩ := h.char
      rw [hc]
      simp only [Res.bind_ok]
      rw [if_neg (by omega)]
    · rw [e2]
      rfl
  | cons c l ih =>
    intro fuel i h hf
    obtain ⟨fuel, rfl⟩ : ∃ k, fuel = k + 1 := ⟨fuel - 1, by omega⟩
    obtain ⟨h1, h2, h3, h4, h5⟩ := h.cons hn
    unfold typeBlanks
    rw [h2]
    simp only [Res.bind_ok]
    by_cases hc : c = blank
    · rw [if_pos ⟨hc, h1⟩, h4]
      obtain ⟨j, e1, e2⟩ := ih fuel (i + 1) h5 (by simp at hf; omega)
      refine ⟨j, e1, ?_⟩
      simpa [hc] using e2
    · rw [if_neg (fun h => hc h.1)]
      refine ⟨i, rfl, ?_⟩
      simpa [hc] using h

theorem typeDigits_spec {s : Bytes} {stop : Nat} (hn : NoNul s) : ∀ (l : Bytes) (fuel i : Nat), At s stop i l →
    l.length < fuel → ∃ j, typeDigits s stop fuel i = .ok j ∧ At s stop j (l.dropWhile isDigit) := by
  intro l
  induction l with
  | nil =>
    intro fuel i h hf
    obtain ⟨fuel, rfl⟩ : ∃ k, fuel = k + 1 := ⟨fuel - 1, by omega⟩
    refine ⟨i, ?_, h⟩
    unfold typeDigits
    rcases h.nil with e | ⟨e1, e2⟩
    · obtain ⟨c, hc⟩ := h.char
      rw [hc]
      simp only [Res.bind_ok]
      rw [if_neg (by omega)]
    · rw [e2]
      rfl
  | cons c l ih =>
    intro fuel i h hf
    obtain ⟨fuel, rfl⟩ : ∃ k, fuel = k + 1 := ⟨fuel - 1, by omega⟩
    obtain ⟨h1, h2, h3, h4, h5⟩ := h.cons hn
    unfold typeDigits
    rw [h2]
    simp only [Res.bind_ok]
    by_cases hc : isDigit c = true
    · rw [if_pos ⟨hc, h1⟩, h4]
      obtain ⟨j, e1, e2⟩ := ih fuel (i + 1) h5 (by simp at hf; omega)
      refine ⟨j, e1, ?_⟩
      simpa [hc] using e2
    · rw [if_neg (fun h => hc h.1)]
      refine ⟨i, rfl, ?_⟩
      simpa [hc] using h

/-! ## Integers -/

/-- The loop over the digits as a function of the characters.
Part of the specification, models no code. -/
def intList : Bytes → Nat → Res Nat
  | [], r => .ok r
  | c :: l, r =>
    if isDigit c = true then
      if r * 10 + digitVal c > int64Max then .ub else intList l (r * 10 + digitVal c)
    else if c = blank then .ok r
    else .err

theorem intLoop_spec {s : Bytes} {stop : Nat} (hn : NoNul s) : ∀ (l : Bytes) (fuel i r : Nat), At s stop i l →
    l.length < fuel → intLoop s stop fuel i r = intList l r := by
  intro l
  induction l with
  | nil =>
    intro fuel i r h hf
    obtain ⟨fuel, rfl⟩ : ∃ k, fuel = k + 1 := ⟨fuel - 1, by omega⟩
    unfold intLoop intList
    rcases h.nil with e | ⟨e1, e2⟩
    · rw [if_neg (by omega)]
    · rw [if_pos e1, e2]
      rfl
  | cons c l ih =>
    intro fuel i r h hf
    obtain ⟨fuel, rfl⟩ : ∃ k, fuel = k + 1 := ⟨fuel - 1, by omega⟩
    obtain ⟨h1, h2, h3, h4, h5⟩ := h.cons hn
    unfold intLoop intList
    rw [if_pos h1, h2]
    simp only [Res.bind_ok]
    rw [if_neg h3, h4]
    split
    · split
      · rfl
      · exact ih fuel (i + 1) _ h5 (by simp at hf; omega)
    · rfl

/-- `card_parse_int_width` as a function of the characters. Part of the specification, models no code. -/
def intField (l : Bytes) : Res Int :=
  match l.dropWhile (· = blank) with
  | [] => .err
  | c :: r =>
    if c = minus then do let v ← intList r 0; .ok (-(v : Int))
    else do let v ← intList (c :: r) 0; .ok (v : Int)

theorem parseInt_eq {card : Card} {w : Nat} (hn : NoNul card.string) (hc : card.cur ≤ card.string.length)
    (hw : card.cur + w < 256) : card.parseInt w = intField (field card.string card.cur w) := by
  unfold Card.parseInt intField
  simp only
  have h0 := At.start hc hw
  obtain ⟨j, e1, e2⟩ := skipBlanks_spec hn _ loopFuel _ h0 (by have := h0.length; unfold loopFuel; omega)
  rw [e1]
  simp only [Res.bind_ok]
  cases hl : (field card.string card.cur w).dropWhile (· = blank) with
  | nil =>
    rw [hl] at e2
    rcases e2.nil with e | ⟨h1, h2⟩
    · rw [if_pos e]
    · rw [if_neg (by omega), h2]
      rfl
  | cons c r =>
    rw [hl] at e2
    obtain ⟨h1, h2, h3, h4, h5⟩ := e2.cons hn
    rw [if_neg (by omega), h2]
    simp only [Res.bind_ok]
    rw [if_neg h3, h4]
    have f1 := h5.length
    have f2 := e2.length
    rw [intLoop_spec hn _ _ _ _ h5 (by unfold loopFuel; omega), intLoop_spec hn _ _ _ _ e2 (by unfold loopFuel; omega)]

end Dyna.Card
