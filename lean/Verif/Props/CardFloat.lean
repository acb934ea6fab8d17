import Verif.CardFloat
/-!
# The type of a field (C50)
-/

namespace Dyna.Card

theorem take_drop_digits (l : Bytes) : l.takeWhile isDigit ++ l.dropWhile isDigit = l := List.takeWhile_append_dropWhile

theorem digits_takeWhile (l : Bytes) : Digits (l.takeWhile isDigit) := fun _ hc => mem_takeWhile hc

theorem blanks_dropWhile (l : Bytes) : ∃ a, l = List.replicate a blank ++ l.dropWhile (· = blank) := by
  induction l with
  | nil => exact ⟨0, rfl⟩
  | cons c l ih =>
    by_cases hc : c = blank
    · obtain ⟨a, e⟩ := ih
      refine ⟨a + 1, ?_⟩
      rw [List.dropWhile_cons, if_pos (by simpa using hc), List.replicate_succ, List.cons_append, ← e, hc]
    · exact ⟨0, by rw [List.dropWhile_cons, if_neg (by simpa using hc)]; rfl⟩

/-- The test for the end of a number -/
theorem end_test {s : Bytes} {stop i : Nat} {l : Bytes} (hn : NoNul s) (h : At s stop i l) :
    ∃ c, charAt s i = .ok c ∧ ((c = 0 ∨ c = blank ∨ i = stop) ∧ Ends l ∨
      ¬ (c = 0 ∨ c = blank ∨ i = stop) ∧ ∃ r, l = c :: r) := by
  cases l with
  | nil =>
    obtain ⟨c, hc⟩ := h.char
    refine ⟨c, hc, .inl ⟨?_, .inl rfl⟩⟩
    rcases h.nil with e | ⟨_, e⟩
    · exact .inr (.inr e)
    · rw [hc] at e
      cases e
      exact .inl rfl
  | cons c r =>
    obtain ⟨h1, h2, h3, h4, h5⟩ := h.cons hn
    refine ⟨c, h2, ?_⟩
    by_cases hc : c = blank
    · exact .inl ⟨.inr (.inl hc), .inr (by simp [hc])⟩
    · refine .inr ⟨?_, r, rfl⟩
      rintro (h | h | h)
      · exact h3 h
      · exact hc h
      · omega

/-- Is there a digit at this place of the field? -/
theorem digit_test {s : Bytes} {stop i : Nat} {l : Bytes} (hn : NoNul s) (h : At s stop i l) :
    i = stop ∨ (i ≠ stop ∧ ∃ c, charAt s i = .ok c ∧ (isDigit c = false ∨ (isDigit c = true ∧ ∃ r, l = c :: r))) := by
  cases l with
  | nil =>
    rcases h.nil with e | ⟨e1, e2⟩
    · exact .inl e
    · exact .inr ⟨by omega, 0, e2, .inl (by decide)⟩
  | cons c r =>
    obtain ⟨h1, h2, h3, h4, h5⟩ := h.cons hn
    refine .inr ⟨by omega, c, h2, ?_⟩
    cases hd : isDigit c with
    | false => exact .inl rfl
    | true => exact .inr ⟨rfl, r, rfl⟩

theorem takeWhile_digit_ne {c : Nat} {r : Bytes} (h : isDigit c = true) : (c :: r).takeWhile isDigit ≠ [] := by
  rw [List.takeWhile_cons, if_pos h]
  exact List.cons_ne_nil _ _

theorem typeExponent_spec {s : Bytes} {stop i : Nat} {e : Nat} {l : Bytes} (hn : NoNul s) (hs : stop < 255)
    (ha : At s stop i (e :: l)) : ∃ t, typeExponent s stop i = .ok t ∧ t ≠ .int ∧
      (t = .float → ∃ (sg : Option Nat) (es rest : Bytes), l = sg.toList ++ (es ++ rest) ∧ (∀ c, sg = some c → IsSign c) ∧
        Digits es ∧ es ≠ [] ∧ Ends rest) := by
  obtain ⟨h1, h2, h3, h4, h5⟩ := ha.cons hn
  unfold typeExponent
  simp only [h4]
  obtain ⟨c, hc⟩ := h5.char
  simp only [hc, Res.bind_ok]
  -- the digits behind the sign
  have main : ∀ (k : Nat) (sg : Option Nat) (l' : Bytes), At s stop k l' → l = sg.toList ++ l' → (∀ c, sg = some c → IsSign c) →
      ∃ t, (if k = stop then (Res.ok FieldType.string) else do
        let c ← charAt s k
        if isDigit c = false then .ok .string
        else do
          let i ← typeDigits s stop loopFuel k
          let c ← charAt s i
          if c = 0 ∨ c = blank ∨ i = stop then .ok .float else .ok .string) = .ok t ∧ t ≠ .int ∧
      (t = .float → ∃ (sg : Option Nat) (es rest : Bytes), l = sg.toList ++ (es ++ rest) ∧ (∀ c, sg = some c → IsSign c) ∧
        Digits es ∧ es ≠ [] ∧ Ends rest) := by
    intro k sg l' hk hl hsg
    rcases digit_test hn hk with e | ⟨e, d, hd, hd' | ⟨hd', r, hr⟩⟩
    · exact ⟨.string, if_pos e, (by decide), fun h => (by cases h)⟩
    · rw [if_neg e, hd]
      simp only [Res.bind_ok]
      rw [if_pos hd']
      exact ⟨.string, rfl, (by decide), fun h => (by cases h)⟩
    · rw [if_neg e, hd]
      simp only [Res.bind_ok]
      rw [if_neg (by rw [hd']; decide)]
      obtain ⟨j, g1, g2⟩ := typeDigits_spec hn l' loopFuel k hk (by have := hk.length; unfold loopFuel; omega)
      rw [g1]
      simp only [Res.bind_ok]
      obtain ⟨c, q1, ⟨q2, q3⟩ | ⟨q2, q3⟩⟩ := end_test hn g2
      · rw [q1]
        simp only [Res.bind_ok]
        rw [if_pos q2]
        refine ⟨.float, rfl, (by decide), fun _ => ⟨sg, l'.takeWhile isDigit, l'.dropWhile isDigit, ?_, hsg, digits_takeWhile _, ?_, q3⟩⟩
        · rw [take_drop_digits]; exact hl
        · rw [hr]; exact takeWhile_digit_ne hd'
      · rw [q1]
        simp only [Res.bind_ok]
        rw [if_neg q2]
        exact ⟨.string, rfl, (by decide), fun h => (by cases h)⟩
  by_cases hsgn : c = plus ∨ c = minus
  · rw [if_pos hsgn]
    cases l with
    | cons c' l' =>
      obtain ⟨k1, k2, k3, k4, k5⟩ := h5.cons hn
      have : c' = c := by rw [hc] at k2; cases k2; rfl
      subst this
      rw [k4]
      exact main (i + 1 + 1) (some c') l' k5 rfl (fun x hx => (by cases hx; exact hsgn))
    | nil =>
      -- the sign is behind the field
      have hcn : c ≠ 0 := (sign_not_digit hsgn).2.2.2.2
      have hst : i + 1 = stop := by
        rcases h5.nil with e | ⟨_, e⟩
        · exact e
        · rw [hc] at e
          cases e
          exact absurd rfl hcn
      have hlt : i + 1 < s.length := by
        rcases Nat.lt_or_ge (i + 1) s.length with h | h
        · exact h
        · have : i + 1 = s.length := Nat.le_antisymm h5.le h
          rw [this, charAt_end] at hc
          cases hc
          exact absurd rfl hcn
      have hinc : inc8 (i + 1) = i + 1 + 1 := by unfold inc8; omega
      rw [hinc, if_neg (by omega)]
      obtain ⟨d, hd⟩ : ∃ d, charAt s (i + 1 + 1) = .ok d := by
        rcases Nat.lt_or_ge (i + 1 + 1) s.length with h | h
        · exact ⟨_, charAt_lt h⟩
        · rw [show i + 1 + 1 = s.length by omega]
          exact ⟨_, charAt_end s⟩
      rw [hd]
      simp only [Res.bind_ok]
      refine ⟨.string, ?_, (by decide), fun h => (by cases h)⟩
      by_cases hdd : isDigit d = false
      · rw [if_pos hdd]
      · have hdd : isDigit d = true := by simpa using hdd
        obtain ⟨m1, m2, m3, m4, m5, m6⟩ := digit_not hdd
        have ht : typeDigits s stop loopFuel (i + 1 + 1) = .ok (i + 1 + 1) := by
          unfold loopFuel typeDigits
          rw [hd]
          simp only [Res.bind_ok]
          rw [if_neg (by omega)]
        rw [if_neg (by rw [hdd]; decide), ht]
        simp only [Res.bind_ok, hd]
        rw [if_neg (by
          rintro (h | h | h)
          · exact m5 h
          · exact m1 h
          · omega)]
  · rw [if_neg hsgn]
    exact main (i + 1) none l h5 rfl (fun x hx => by cases hx)

/-- The field is a number: blanks, the text of the number, and then the end of the field or a blank. -/
def IsNumeral (l : Bytes) (n : Numeral) : Prop :=
  n.Valid ∧ n.digits ≠ [] ∧ ∃ a rest, Ends rest ∧ l = List.replicate a blank ++ (n.text ++ rest)

theorem getType_spec {card : Card} {w : Nat} (hn : NoNul card.string) (hc : card.cur ≤ card.string.length)
    (hw : card.cur + w < 255) : ∃ t, card.getType w = .ok t ∧
      (t = .int → ∃ n, IsNumeral (field card.string card.cur w) n ∧ n.frac = none ∧ n.exp = none) ∧
      (t = .float → ∃ n, IsNumeral (field card.string card.cur w) n ∧ n.frac ≠ some [] ∧
        (n.frac ≠ none ∨ n.exp ≠ none)) := by
  have string : ∀ {P : Prop}, (FieldType.string = .int → P) ∧
      (FieldType.string = .float → ∃ n, IsNumeral (field card.string card.cur w) n ∧ n.frac ≠ some [] ∧
        (n.frac ≠ none ∨ n.exp ≠ none)) :=
    ⟨fun h => (by cases h), fun h => (by cases h)⟩
  unfold Card.getType
  simp only
  by_cases hw0 : w = 0
  · rw [if_pos hw0]; exact ⟨.string, rfl, string⟩
  rw [if_neg hw0]
  have h0 := At.start hc (w := w) (by omega)
  obtain ⟨i, e1, e2⟩ := typeBlanks_spec hn _ loopFuel _ h0 (by have := h0.length; unfold loopFuel; omega)
  obtain ⟨a, ea⟩ := blanks_dropWhile (field card.string card.cur w)
  rw [e1]
  simp only [Res.bind_ok]
  cases hl : (field card.string card.cur w).dropWhile (· = blank) with
  | nil =>
    rw [hl] at e2
    obtain ⟨c, hch⟩ := e2.char
    rw [hch]
    simp only [Res.bind_ok]
    rw [if_pos]
    · exact ⟨.string, rfl, string⟩
    · rcases e2.nil with e | ⟨_, e⟩
      · exact .inr e
      · rw [hch] at e
        cases e
        exact .inl rfl
  | cons c l =>
    rw [hl] at e2 ea
    obtain ⟨h1, h2, h3, h4, h5⟩ := e2.cons hn
    rw [h2]
    simp only [Res.bind_ok]
    rw [if_neg (by
      rintro (h | h)
      · exact h3 h
      · omega), h4]
    -- the sign and the first digit
    have start : (if c = plus ∨ c = minus then
          if i + 1 = card.cur + w then Res.ok none
          else do
            let d ← charAt card.string (i + 1)
            .ok (if isDigit d = true then some (i + 1) else none)
        else .ok (if isDigit c = true then some (i + 1) else none) : Res (Option Nat)) = .ok none ∨
        ∃ (k : Nat) (sg : Option Nat) (ds l1 : Bytes), (if c = plus ∨ c = minus then
          if i + 1 = card.cur + w then Res.ok none
          else do
            let d ← charAt card.string (i + 1)
            .ok (if isDigit d = true then some (i + 1) else none)
        else .ok (if isDigit c = true then some (i + 1) else none) : Res (Option Nat)) = .ok (some k) ∧
          At card.string (card.cur + w) k l1 ∧ c :: l = sg.toList ++ (ds ++ l1) ∧ (∀ c, sg = some c → IsSign c) ∧ Digits ds ∧
          ds ++ l1.takeWhile isDigit ≠ [] := by
      by_cases hsg : c = plus ∨ c = minus
      · rw [if_pos hsg]
        rcases digit_test hn h5 with e | ⟨e, d, hd, hd' | ⟨hd', r, hr⟩⟩
        · rw [if_pos e]; exact .inl rfl
        · rw [if_neg e, hd]
          simp only [Res.bind_ok]
          rw [if_neg (by rw [hd']; decide)]
          exact .inl rfl
        · rw [if_neg e, hd]
          simp only [Res.bind_ok]
          rw [if_pos hd']
          refine .inr ⟨i + 1, some c, [], l, rfl, h5, rfl, fun x hx => (by cases hx; exact hsg), fun _ h => (by cases h), ?_⟩
          rw [hr]
          exact takeWhile_digit_ne hd'
      · rw [if_neg hsg]
        by_cases hd : isDigit c = true
        · rw [if_pos hd]
          refine .inr ⟨i + 1, none, [c], l, rfl, h5, rfl, fun x hx => (by cases hx), fun x hx => ?_, by simp⟩
          rw [List.mem_singleton.1 hx]
          exact hd
        · rw [if_neg hd]; exact .inl rfl
    rcases start with start | ⟨k, sg, ds, l1, start, hk, hl1, hsg, hds, hne⟩
    · rw [start]
      exact ⟨.string, rfl, string⟩
    · rw [start]
      simp only [Res.bind_ok]
      obtain ⟨j, g1, g2⟩ := typeDigits_spec hn l1 loopFuel k hk (by have := hk.length; unfold loopFuel; omega)
      rw [g1]
      simp only [Res.bind_ok]
      -- the number so far
      have hdd : Digits (ds ++ l1.takeWhile isDigit) := by
        intro x hx
        rcases List.mem_append.1 hx with h | h
        · exact hds x h
        · exact mem_takeWhile h
      have hfield : ∀ tail, l1.dropWhile isDigit = tail → field card.string card.cur w =
          List.replicate a blank ++ (sg.toList ++ ((ds ++ l1.takeWhile isDigit) ++ tail)) := by
        intro tail ht
        rw [ea, hl1, ← ht, List.append_assoc ds, take_drop_digits]
      obtain ⟨c2, q1, ⟨q2, q3⟩ | ⟨q2, r2, q3⟩⟩ := end_test hn g2
      · rw [q1]
        simp only [Res.bind_ok]
        rw [if_pos q2]
        refine ⟨.int, rfl, fun _ => ⟨⟨sg, ds ++ l1.takeWhile isDigit, none, none⟩, ⟨⟨hsg, hdd, ?_, ?_, .inl hne⟩, hne, a, _, q3, ?_⟩, rfl, rfl⟩,
          fun h => (by cases h)⟩
        · intro fs h; cases h
        · intro e s es h; cases h
        · rw [hfield _ rfl]
          simp [Numeral.text, Numeral.fracText, Numeral.expText]
      · rw [q1]
        simp only [Res.bind_ok]
        rw [if_neg q2]
        rw [q3] at g2
        obtain ⟨h1', h2', h3', h4', h5'⟩ := g2.cons hn
        by_cases hdot : c2 = dot
        · rw [if_pos hdot, h4']
          rcases digit_test hn h5' with e | ⟨e, d, hd, hd' | ⟨hd', r, hr⟩⟩
          · rw [if_pos e]; exact ⟨.string, rfl, string⟩
          · rw [if_neg e, hd]
            simp only [Res.bind_ok]
            rw [if_pos hd']
            exact ⟨.string, rfl, string⟩
          · rw [if_neg e, hd]
            simp only [Res.bind_ok]
            rw [if_neg (by rw [hd']; decide)]
            obtain ⟨j3, g3, g4⟩ := typeDigits_spec hn r2 loopFuel (j + 1) h5' (by have := h5'.length; unfold loopFuel; omega)
            rw [g3]
            simp only [Res.bind_ok]
            obtain ⟨c3, p1, ⟨p2, p3⟩ | ⟨p2, r3, p3⟩⟩ := end_test hn g4
            · rw [p1]
              simp only [Res.bind_ok]
              rw [if_pos p2]
              refine ⟨.float, rfl, fun h => (by cases h), fun _ => ⟨⟨sg, ds ++ l1.takeWhile isDigit, some (r2.takeWhile isDigit), none⟩,
                ⟨⟨hsg, hdd, ?_, ?_, .inl hne⟩, hne, a, _, p3, ?_⟩, ?_, .inl (by simp)⟩⟩
              · intro fs h; cases h; exact digits_takeWhile _
              · intro e s es h; cases h
              · rw [hfield _ q3, hdot]
                simp only [Numeral.text, Numeral.fracText, Numeral.expText, List.append_assoc, List.cons_append, List.nil_append]
                rw [take_drop_digits r2]
              · rw [hr]
                intro h
                exact takeWhile_digit_ne hd' (Option.some.inj h)
            · rw [p1]
              simp only [Res.bind_ok]
              rw [if_neg p2]
              by_cases hE : isE c3 = true
              · rw [if_pos hE]
                rw [p3] at g4
                obtain ⟨t, t1, t2, t3⟩ := typeExponent_spec hn (by omega) g4
                refine ⟨t, t1, fun h => absurd h t2, fun h => ?_⟩
                obtain ⟨esg, es, rest, u1, u2, u3, u4, u5⟩ := t3 h
                refine ⟨⟨sg, ds ++ l1.takeWhile isDigit, some (r2.takeWhile isDigit), some (c3, esg, es)⟩,
                  ⟨⟨hsg, hdd, ?_, ?_, .inl hne⟩, hne, a, rest, u5, ?_⟩, ?_, .inl (by simp)⟩
                · intro fs h; cases h; exact digits_takeWhile _
                · intro e s es' h; cases h; exact ⟨hE, u2, u3, u4⟩
                · rw [hfield _ q3, hdot]
                  simp only [Numeral.text, Numeral.fracText, Numeral.expText, List.append_assoc, List.cons_append, List.nil_append]
                  rw [← u1, ← p3, take_drop_digits r2]
                · rw [hr]
                  intro h
                  exact takeWhile_digit_ne hd' (Option.some.inj h)
              · rw [if_neg hE]
                exact ⟨.string, rfl, string⟩
        · rw [if_neg hdot]
          by_cases hE : isE c2 = true
          · rw [if_pos hE]
            obtain ⟨t, t1, t2, t3⟩ := typeExponent_spec hn (by omega) g2
            refine ⟨t, t1, fun h => absurd h t2, fun h => ?_⟩
            obtain ⟨esg, es, rest, u1, u2, u3, u4, u5⟩ := t3 h
            refine ⟨⟨sg, ds ++ l1.takeWhile isDigit, none, some (c2, esg, es)⟩,
              ⟨⟨hsg, hdd, ?_, ?_, .inl hne⟩, hne, a, rest, u5, ?_⟩, by simp, .inr (by simp)⟩
            · intro fs h; cases h
            · intro e s es' h; cases h; exact ⟨hE, u2, u3, u4⟩
            · rw [hfield _ q3]
              simp only [Numeral.text, Numeral.fracText, Numeral.expText, List.append_assoc, List.cons_append, List.nil_append]
              rw [← u1]
          · rw [if_neg hE]
            exact ⟨.string, rfl, string⟩

/-! ## Every number is recognized -/

theorem ends_yes {s : Bytes} {stop i : Nat} {l : Bytes} (hn : NoNul s) (h : At s stop i l) (he : Ends l) :
    ∃ c, charAt s i = .ok c ∧ (c = 0 ∨ c = blank ∨ i = stop) := by
  obtain ⟨c, h1, ⟨h2, _⟩ | ⟨h2, r, h3⟩⟩ := end_test hn h
  · exact ⟨c, h1, h2⟩
  · exfalso
    rcases he with he | he
    · rw [he] at h3; cases h3
    · rw [h3] at he
      simp only [List.head?_cons, Option.some.injEq] at he
      exact h2 (.inr (.inl he))

theorem dropWhile_digits {ds r : Bytes} (hd : Digits ds) (hr : ∀ c, r.head? = some c → isDigit c = false) :
    (ds ++ r).dropWhile isDigit = r := by
  induction ds with
  | nil =>
    cases r with
    | nil => rfl
    | cons c r =>
      have := hr c rfl
      simp [List.dropWhile_cons, this]
  | cons c ds ih =>
    have hc : isDigit c = true := hd c (by simp)
    simp only [List.cons_append, List.dropWhile_cons, hc, if_true]
    exact ih (fun x hx => hd x (List.mem_cons_of_mem _ hx))

theorem ends_head {l : Bytes} (h : Ends l) : ∀ c, l.head? = some c → isDigit c = false := by
  intro c hc
  rcases h with h | h
  · rw [h] at hc; cases hc
  · rw [h] at hc; cases hc; decide

theorem typeExponent_numeral {s : Bytes} {stop i : Nat} {e : Nat} {sg : Option Nat} {es rest : Bytes} (hn : NoNul s)
    (ha : At s stop i (e :: (sg.toList ++ (es ++ rest)))) (hsg : ∀ c, sg = some c → IsSign c) (hes : Digits es)
    (hne : es ≠ []) (hr : Ends rest) : typeExponent s stop i = .ok .float := by
  obtain ⟨h1, h2, h3, h4, h5⟩ := ha.cons hn
  unfold typeExponent
  simp only [h4]
  have main : ∀ k, At s stop k (es ++ rest) → (if k = stop then (Res.ok FieldType.string) else do
        let c ← charAt s k
        if isDigit c = false then .ok .string
        else do
          let i ← typeDigits s stop loopFuel k
          let c ← charAt s i
          if c = 0 ∨ c = blank ∨ i = stop then .ok .float else .ok .string) = .ok .float := by
    intro k hk
    obtain ⟨j, g1, g2⟩ := typeDigits_spec hn _ loopFuel k hk (by have := hk.length; unfold loopFuel; omega)
    rw [dropWhile_digits hes (ends_head hr)] at g2
    obtain ⟨c, q1, q2⟩ := ends_yes hn g2 hr
    cases es with
    | nil => exact absurd rfl hne
    | cons d es =>
      obtain ⟨k1, k2, k3, k4, k5⟩ := hk.cons hn
      rw [if_neg (by omega), k2]
      simp only [Res.bind_ok]
      rw [if_neg (by rw [hes d (by simp)]; decide), g1]
      simp only [Res.bind_ok, q1]
      rw [if_pos q2]
  cases sg with
  | none =>
    simp only [Option.toList, List.nil_append] at h5
    cases es with
    | nil => exact absurd rfl hne
    | cons d es' =>
      obtain ⟨k1, k2, k3, k4, k5⟩ := id (h5.cons hn)
      rw [k2]
      simp only [Res.bind_ok]
      have hd := hes d (by simp)
      obtain ⟨m1, m2, m3, m4, m5, m6⟩ := digit_not hd
      have hif : (if d = plus ∨ d = minus then inc8 (i + 1) else i + 1) = i + 1 :=
        if_neg (fun h => h.elim m3 m2)
      rw [hif]
      exact main _ h5
  | some c =>
    simp only [Option.toList, List.cons_append, List.nil_append] at h5
    obtain ⟨k1, k2, k3, k4, k5⟩ := h5.cons hn
    rw [k2]
    simp only [Res.bind_ok]
    have hif : (if c = plus ∨ c = minus then inc8 (i + 1) else i + 1) = i + 1 + 1 := by
      rw [if_pos (show c = plus ∨ c = minus from hsg c rfl), k4]
    rw [hif]
    exact main _ k5

/-- A number in a field is recognized, as long as there are digits before the dot and, if there is a dot, digits
behind it. -/
theorem getType_numeral {card : Card} {w : Nat} {n : Numeral} (hn : NoNul card.string)
    (hc : card.cur ≤ card.string.length) (hw : card.cur + w < 256) (hnum : IsNumeral (field card.string card.cur w) n)
    (hfr : n.frac ≠ some []) :
    card.getType w = .ok (if n.frac = none ∧ n.exp = none then .int else .float) := by
  obtain ⟨hv, hne, a, rest, hr, hf⟩ := hnum
  have h0 := At.start hc hw
  obtain ⟨i, e1, e2⟩ := typeBlanks_spec hn _ loopFuel _ h0 (by have := h0.length; unfold loopFuel; omega)
  obtain ⟨sgn, digits, frac, exp⟩ := n
  simp only at hne hfr
  have hw0 : w ≠ 0 := by
    intro h
    rw [h] at hf
    have := congrArg List.length hf
    have hpos := List.length_pos_iff.2 hne
    simp [field, Numeral.text] at this
    omega
  -- the first character is no blank
  have hhead : (Numeral.text ⟨sgn, digits, frac, exp⟩ ++ rest).head? ≠ some blank := by
    intro h
    cases sgn with
    | some c =>
      simp only [Numeral.text, Option.toList, List.cons_append, List.head?_cons, Option.some.injEq] at h
      rcases hv.sign c rfl with hs | hs <;> rw [hs] at h <;> cases h
    | none =>
      cases digits with
      | nil => exact hne rfl
      | cons d ds =>
        simp only [Numeral.text, Option.toList, List.cons_append, List.nil_append, List.head?_cons,
          Option.some.injEq] at h
        exact (digit_not (hv.digits d (by simp))).1 h
  rw [hf, dropWhile_blanks a hhead] at e2
  -- what follows the digits
  have after : ∀ k ds0, Digits ds0 →
      At card.string (card.cur + w) k (ds0 ++ (Numeral.fracText ⟨sgn, digits, frac, exp⟩ ++
        (Numeral.expText ⟨sgn, digits, frac, exp⟩ ++ rest))) →
      (do
        let i ← typeDigits card.string (card.cur + w) loopFuel k
        let c ← charAt card.string i
        if c = 0 ∨ c = blank ∨ i = card.cur + w then .ok .int
        else if c = dot then
          let i := inc8 i
          if i = card.cur + w then .ok .string
          else do
            let d ← charAt card.string i
            if isDigit d = false then .ok .string
            else do
              let i ← typeDigits card.string (card.cur + w) loopFuel i
              let c ← charAt card.string i
              if c = 0 ∨ c = blank ∨ i = card.cur + w then .ok .float
              else if isE c = true then typeExponent card.string (card.cur + w) i
              else .ok .string
        else if isE c = true then typeExponent card.string (card.cur + w) i
        else .ok .string : Res FieldType) = .ok (if frac = none ∧ exp = none then .int else .float) := by
    intro k ds0 hds0 hk
    have expHead : ∀ c, (Numeral.expText ⟨sgn, digits, frac, exp⟩ ++ rest).head? = some c → isDigit c = false := by
      intro c hcc
      cases exp with
      | none => exact ends_head hr c hcc
      | some x =>
        obtain ⟨e, sg, es⟩ := x
        simp only [Numeral.expText, List.cons_append, List.head?_cons, Option.some.injEq] at hcc
        subst hcc
        have hE := (hv.exp e sg es rfl).1
        cases hd : isDigit e with
        | false => rfl
        | true => rw [(digit_not hd).2.2.2.2.2] at hE; cases hE
    obtain ⟨j, g1, g2⟩ := typeDigits_spec hn _ loopFuel k hk (by have := hk.length; unfold loopFuel; omega)
    rw [dropWhile_digits hds0 (by
      intro c hcc
      cases frac with
      | none =>
        simp only [Numeral.fracText, List.nil_append] at hcc
        exact expHead c hcc
      | some fs =>
        simp only [Numeral.fracText, List.cons_append, List.head?_cons, Option.some.injEq] at hcc
        rw [← hcc]; decide)] at g2
    rw [g1]
    simp only [Res.bind_ok]
    cases frac with
    | none =>
      simp only [Numeral.fracText, List.nil_append] at g2
      cases exp with
      | none =>
        simp only [Numeral.expText, List.nil_append] at g2
        obtain ⟨c, q1, q2⟩ := ends_yes hn g2 hr
        rw [q1]
        simp only [Res.bind_ok]
        rw [if_pos q2]; rfl
      | some x =>
        obtain ⟨e, sg, es⟩ := x
        simp only [Numeral.expText, List.cons_append] at g2
        obtain ⟨hE, v2, v3, v4⟩ := hv.exp e sg es rfl
        obtain ⟨k1, k2, k3, k4, k5⟩ := id (g2.cons hn)
        rw [k2]
        simp only [Res.bind_ok]
        have hne1 : e ≠ blank := by intro h; rw [h] at hE; cases hE
        have hne2 : e ≠ dot := by intro h; rw [h] at hE; cases hE
        rw [if_neg (by rintro (h | h | h) <;> first | exact k3 h | exact hne1 h | omega), if_neg hne2, if_pos hE]
        rw [typeExponent_numeral hn (by simpa using g2) v2 v3 v4 hr]
        simp
    | some fs =>
      simp only [Numeral.fracText, List.cons_append] at g2
      obtain ⟨k1, k2, k3, k4, k5⟩ := g2.cons hn
      rw [k2]
      simp only [Res.bind_ok]
      rw [if_neg (by rintro (h | h | h) <;> first | exact k3 h | omega | cases h), if_pos trivial, k4]
      have hfs := hv.frac fs rfl
      cases fs with
      | nil => exact absurd rfl hfr
      | cons d fs =>
        obtain ⟨l1, l2, l3, l4, l5⟩ := id (k5.cons hn)
        rw [if_neg (by omega), l2]
        simp only [Res.bind_ok]
        rw [if_neg (by rw [hfs d (by simp)]; decide)]
        obtain ⟨j2, g3, g4⟩ := typeDigits_spec hn _ loopFuel _ k5 (by have := k5.length; unfold loopFuel; omega)
        rw [dropWhile_digits hfs expHead] at g4
        rw [g3]
        simp only [Res.bind_ok]
        cases exp with
        | none =>
          simp only [Numeral.expText, List.nil_append] at g4
          obtain ⟨c, q1, q2⟩ := ends_yes hn g4 hr
          rw [q1]
          simp only [Res.bind_ok]
          rw [if_pos q2]; simp
        | some x =>
          obtain ⟨e, sg, es⟩ := x
          simp only [Numeral.expText, List.cons_append] at g4
          obtain ⟨hE, v2, v3, v4⟩ := hv.exp e sg es rfl
          obtain ⟨k1, k2, k3, k4, k5⟩ := id (g4.cons hn)
          rw [k2]
          simp only [Res.bind_ok]
          have hne1 : e ≠ blank := by intro h; rw [h] at hE; cases hE
          rw [if_neg (by rintro (h | h | h) <;> first | exact k3 h | exact hne1 h | omega), if_pos hE]
          rw [typeExponent_numeral hn (by simpa using g4) v2 v3 v4 hr]
          simp
  unfold Card.getType
  simp only
  cases sgn with
  | none =>
    cases digits with
    | nil => exact absurd rfl hne
    | cons d ds =>
      have hdd := hv.digits d (by simp)
      obtain ⟨m1, m2, m3, m4, m5, m6⟩ := digit_not hdd
      have e3 : At card.string (card.cur + w) i (d :: (ds ++ (Numeral.fracText ⟨none, d :: ds, frac, exp⟩ ++
        (Numeral.expText ⟨none, d :: ds, frac, exp⟩ ++ rest)))) := by
        simpa [Numeral.text] using e2
      obtain ⟨k1, k2, k3, k4, k5⟩ := e3.cons hn
      rw [if_neg hw0, e1]
      simp only [Res.bind_ok, k2]
      rw [if_neg (by rintro (h | h) <;> first | exact k3 h | omega), if_neg (by rintro (h | h) <;> first | exact m3 h | exact m2 h),
        if_pos hdd, k4]
      simp only [Res.bind_ok]
      exact after (i + 1) ds (fun x hx => hv.digits x (List.mem_cons_of_mem _ hx)) k5
  | some c =>
    have e3 : At card.string (card.cur + w) i (c :: (digits ++ (Numeral.fracText ⟨some c, digits, frac, exp⟩ ++
        (Numeral.expText ⟨some c, digits, frac, exp⟩ ++ rest)))) := by
      simpa [Numeral.text] using e2
    obtain ⟨k1, k2, k3, k4, k5⟩ := e3.cons hn
    rw [if_neg hw0, e1]
    simp only [Res.bind_ok, k2]
    rw [if_neg (by rintro (h | h) <;> first | exact k3 h | omega), if_pos (show c = plus ∨ c = minus from hv.sign c rfl), k4]
    cases digits with
    | nil => exact absurd rfl hne
    | cons d ds =>
      have hdd := hv.digits d (by simp)
      obtain ⟨l1, l2, l3, l4, l5⟩ := id (k5.cons hn)
      rw [if_neg (by omega), l2]
      simp only [Res.bind_ok]
      rw [if_pos hdd]
      simp only [Res.bind_ok]
      exact after (i + 1) (d :: ds) hv.digits k5

/-! ## C50 -/

/-- C50: a field is an integer for `card_parse_get_type` exactly if it holds blanks, an optional sign and digits up to
the end of the field or a blank. -/
theorem c50_exact_int {card : Card} {w : Nat} (hn : NoNul card.string) (hc : card.cur ≤ card.string.length)
    (hw : card.cur + w < 255) :
    card.getType w = .ok .int ↔
      ∃ n, IsNumeral (field card.string card.cur w) n ∧ n.frac = none ∧ n.exp = none := by
  constructor
  · intro h
    obtain ⟨t, h1, h2, _⟩ := getType_spec hn hc hw
    rw [h] at h1; cases h1
    exact h2 rfl
  · rintro ⟨n, h1, h2, h3⟩
    rw [getType_numeral hn hc (by omega) h1 (by rw [h2]; simp), if_pos ⟨h2, h3⟩]

/-- C50: ... and a floating point number exactly if there is a fraction with digits on both sides of the dot, or an
exponent behind such a number or behind an integer, again up to the end of the field or a blank. So `1.` and `.5` are
texts, although `card_parse_float64` reads them (`c57_value`). -/
theorem c50_exact_float {card : Card} {w : Nat} (hn : NoNul card.string) (hc : card.cur ≤ card.string.length)
    (hw : card.cur + w < 255) :
    card.getType w = .ok .float ↔
      ∃ n, IsNumeral (field card.string card.cur w) n ∧ n.frac ≠ some [] ∧ (n.frac ≠ none ∨ n.exp ≠ none) := by
  constructor
  · intro h
    obtain ⟨t, h1, _, h2⟩ := getType_spec hn hc hw
    rw [h] at h1; cases h1
    exact h2 rfl
  · rintro ⟨n, h1, h2, h3⟩
    rw [getType_numeral hn hc (by omega) h1 h2, if_neg (fun h4 => h3.elim (fun h => h h4.1) (fun h => h h4.2))]

theorem digitsValue_small {es : Bytes} (hd : Digits es) (hl : es.length ≤ 9) : digitsValue es 0 ≤ intMax := by
  have h1 := digitsValue_bound hd 0
  have h2 : (10 : Nat) ^ es.length ≤ 10 ^ 9 := Nat.pow_le_pow_right (by decide) hl
  unfold intMax
  omega

theorem field_length (s : Bytes) (cur w : Nat) : (field s cur w).length ≤ w := by
  unfold field
  rw [List.length_take]
  exact Nat.min_le_left _ _

theorem IsNumeral.expFits {s : Bytes} {cur w : Nat} {n : Numeral} (h : IsNumeral (field s cur w) n) (hw : w ≤ 11) :
    n.expFits := by
  obtain ⟨hv, hne, a, rest, hr, e⟩ := h
  intro ec sg es he
  refine digitsValue_small (hv.exp _ _ _ he).2.2.1 ?_
  have hlen := field_length s cur w
  rw [e] at hlen
  simp only [Numeral.text, Numeral.expText, he, List.length_append, List.length_cons] at hlen
  have := List.length_pos_iff.2 hne
  omega

/-- C50: `card_parse_get_type` reads only the card, for every field in the first 254 characters. -/
theorem c50_safe {card : Card} {w : Nat} (hn : NoNul card.string) (hc : card.cur ≤ card.string.length)
    (hw : card.cur + w < 255) : ∃ t, card.getType w = .ok t := by
  obtain ⟨t, h, _⟩ := getType_spec hn hc hw
  exact ⟨t, h⟩

/-- C50: if a field of up to 11 characters is classified as a floating point number (or as an integer) then
`card_parse_float32` and `card_parse_float64` succeed, whatever the arithmetic is. (In a wider field the
exponent can overflow: `c50_wide`.) -/
theorem c50_float {α : Type} (A : Arith α) {card : Card} {w : Nat} (hn : NoNul card.string) (hc : card.cur ≤ card.string.length)
    (hw : card.cur + w < 255) (hw' : w ≤ 11) {t : FieldType} (ht : card.getType w = .ok t) (hts : t ≠ .string) :
    ∃ v, card.parseFloat A w = .ok v := by
  obtain ⟨t', h, h1, h2⟩ := getType_spec hn hc hw
  rw [ht] at h
  cases h
  obtain ⟨n, hnum⟩ : ∃ n, IsNumeral (field card.string card.cur w) n := by
    cases t with
    | int => obtain ⟨n, hn, _⟩ := h1 rfl; exact ⟨n, hn⟩
    | float => obtain ⟨n, hn, _⟩ := h2 rfl; exact ⟨n, hn⟩
    | string => exact absurd rfl hts
  obtain ⟨hv, _, a, rest, hr, e⟩ := id hnum
  exact ⟨_, (parseFloat_numeral hn hc (by omega) hv hr e).1 (hnum.expFits hw')⟩

/-- C50: in a field of any width a floating point number (or an integer) is never an error. -/
theorem c50_float_no_error {α : Type} (A : Arith α) {card : Card} {w : Nat} (hn : NoNul card.string) (hc : card.cur ≤ card.string.length)
    (hw : card.cur + w < 255) {t : FieldType} (ht : card.getType w = .ok t) (hts : t ≠ .string) :
    card.parseFloat A w ≠ .err := by
  obtain ⟨t', h, h1, h2⟩ := getType_spec hn hc hw
  rw [ht] at h
  cases h
  obtain ⟨n, hv, _, a, rest, hr, e⟩ : ∃ n, IsNumeral (field card.string card.cur w) n := by
    cases t with
    | int => obtain ⟨n, hn, _⟩ := h1 rfl; exact ⟨n, hn⟩
    | float => obtain ⟨n, hn, _⟩ := h2 rfl; exact ⟨n, hn⟩
    | string => exact absurd rfl hts
  have := parseFloat_numeral (A := A) hn hc (by omega) hv hr e
  by_cases hf : n.expFits
  · rw [this.1 hf]; intro h; cases h
  · rw [this.2 hf]; intro h; cases h

/-- C50: if a field of up to 18 characters is classified as an integer and does not begin with a plus then
`card_parse_int` succeeds. Missing to the English property: the plus (`c50_plus`). -/
theorem c50_int_partial {card : Card} {w : Nat} (hn : NoNul card.string) (hc : card.cur ≤ card.string.length)
    (hw : card.cur + w < 255) (hw' : w ≤ 18) (ht : card.getType w = .ok .int)
    (hplus : (word (field card.string card.cur w)).head? ≠ some plus) : ∃ v, card.parseInt w = .ok v := by
  obtain ⟨t', h, h1, _⟩ := getType_spec hn hc hw
  rw [ht] at h
  cases h
  obtain ⟨n, ⟨hv, hne, a, rest, hr, e⟩, hf, hx⟩ := h1 rfl
  have htext : n.text = n.sign.toList ++ n.digits := by
    simp [Numeral.text, Numeral.fracText, Numeral.expText, hf, hx]
  rw [parseInt_eq hn hc (by omega), e, htext]
  have hb : digitsValue n.digits 0 ≤ int64Max := by
    have h1 := digitsValue_bound hv.digits 0
    have hlen := field_length card.string card.cur w
    rw [e, htext] at hlen
    simp only [List.length_append] at hlen
    have h2 : (10 : Nat) ^ n.digits.length ≤ 10 ^ 18 := Nat.pow_le_pow_right (by decide) (by omega)
    unfold int64Max
    omega
  cases hsg : n.sign with
  | none =>
    have := intField_word (a := a) (neg := false) (rest := rest) hne hv.digits hb hr
    simp only [Bool.false_eq_true, if_false, List.nil_append] at this
    exact ⟨_, this⟩
  | some c =>
    rcases hv.sign c hsg with hp | hm
    · exfalso
      apply hplus
      rw [e, htext, hsg, hp]
      unfold word
      rw [dropWhile_blanks a (by simp; decide)]
      simp [plus, blank]
    · have := intField_word (a := a) (neg := true) (rest := rest) hne hv.digits hb hr
      simp only [if_true] at this
      rw [hm]
      exact ⟨_, this⟩

/-- Not vacuous: an integer and two floating point numbers -/
example : (⟨bs "        -5     1.5      1.5e-3", 0, 10⟩ : Card).getType 10 = .ok .int ∧
    (⟨bs "        -5     1.5      1.5e-3", 10, 10⟩ : Card).getType 10 = .ok .float ∧
    (⟨bs "        -5     1.5      1.5e-3", 20, 10⟩ : Card).getType 10 = .ok .float ∧
    (⟨bs "        -5     1.5      1.5e-3", 20, 10⟩ : Card).getType 8 = .ok .string := by
  refine ⟨by decide +kernel, by decide +kernel, by decide +kernel, by decide +kernel⟩

/-- C50 is violated: "+5" is classified as an integer, but `card_parse_int` signals an error. -/
theorem c50_plus : (⟨bs "+5", 0, 10⟩ : Card).getType 10 = .ok .int ∧ (⟨bs "+5", 0, 10⟩ : Card).parseInt 10 = .err := by
  refine ⟨by decide +kernel, by decide +kernel⟩

/-- C50 is violated: the exponent overflows in a field of 16 characters, and an integer in a field of 20. -/
theorem c50_wide {α : Type} (A : Arith α) :
    (⟨bs "1.0e999999999999", 0, 16⟩ : Card).getType 16 = .ok .float ∧
    (⟨bs "1.0e999999999999", 0, 16⟩ : Card).parseFloat A 16 = .ub ∧
    (⟨bs "99999999999999999999", 0, 20⟩ : Card).getType 20 = .ok .int ∧
    (⟨bs "99999999999999999999", 0, 20⟩ : Card).parseInt 20 = .ub := by
  refine ⟨by decide +kernel, ?_, by decide +kernel, by decide +kernel⟩
  have hv : (⟨none, bs "1", some (bs "0"), some (lowerE, none, bs "999999999999")⟩ : Numeral).Valid := by
    refine ⟨?_, ?_, ?_, ?_, ?_⟩
    · intro c h; cases h
    · unfold Digits; decide +kernel
    · intro fs h; cases h; unfold Digits; decide +kernel
    · intro e sg es h; cases h
      refine ⟨by decide, ?_, ?_, ?_⟩
      · intro c h; cases h
      · unfold Digits; decide +kernel
      · decide +kernel
    · exact .inl (by decide +kernel)
  refine (parseFloat_numeral (A := A) (card := ⟨bs "1.0e999999999999", 0, 16⟩) (w := 16) (a := 0) (rest := []) ?_ ?_ ?_ hv
    (.inl rfl) ?_).2 ?_
  · unfold NoNul; decide +kernel
  · decide +kernel
  · decide +kernel
  · decide +kernel
  · intro h
    exact absurd (h _ _ _ rfl) (by decide +kernel)

end Dyna.Card
