import Verif.Props.CardValue
/-!
# Fields that are no floating point number (C57)
-/

namespace Dyna.Card

/-! ## What is no number -/

/-- The field shows the numeral: blanks, the text of the numeral, and then the end of the field or a blank (behind
which anything may follow). -/
def Shows (l : Bytes) (n : Numeral) : Prop :=
  n.Valid ∧ ∃ a rest, Ends rest ∧ l = List.replicate a blank ++ (n.text ++ rest)

theorem digit_cases (l : Bytes) : Ends (l.dropWhile isDigit) ∨ ∃ c t, l.dropWhile isDigit = c :: t ∧ c ≠ blank ∧
    isDigit c = false := by
  cases h : l.dropWhile isDigit with
  | nil => exact .inl (.inl rfl)
  | cons c t =>
    by_cases hb : c = blank
    · exact .inl (.inr (by rw [hb]; rfl))
    · exact .inr ⟨c, t, rfl, hb, head_dropWhile h⟩

/-- The end of the field or a blank ends the number. -/
theorem floatInt_bad {α : Type} {A : Arith α} {s : Bytes} {stop i fuel : Nat} {signed : α → α} {r : α} {h : Bool}
    {c : Nat} {t : Bytes} (hn : NoNul s) (ha : At s stop i (c :: t)) (h1 : c ≠ dot) (h2 : isE c = false)
    (h3 : isDigit c = false) (h4 : c ≠ blank) : floatInt A s stop signed (fuel + 1) i r h = .err := by
  obtain ⟨g1, g2, g3, g4, g5⟩ := ha.cons hn
  rw [floatInt, if_pos g1, g2]
  simp only [Res.bind_ok]
  rw [if_neg (by rw [h2]; simp [g3, h1]), if_neg (by rw [h3]; simp), if_neg h4]

theorem floatFrac_bad {α : Type} {A : Arith α} {s : Bytes} {stop i fuel : Nat} {signed : α → α} {r fr ex : α}
    {c : Nat} {t : Bytes} (hn : NoNul s) (ha : At s stop i (c :: t)) (h2 : isE c = false)
    (h3 : isDigit c = false) (h4 : c ≠ blank) : floatFrac A s stop signed r (fuel + 1) i fr ex = .err := by
  obtain ⟨g1, g2, g3, g4, g5⟩ := ha.cons hn
  rw [floatFrac, if_pos g1, g2]
  simp only [Res.bind_ok]
  rw [if_neg (by rw [h2]; simp [g3]), if_neg (by rw [h3]; simp), if_neg h4]

theorem floatFrac_stop {α : Type} {A : Arith α} {s : Bytes} {stop i fuel : Nat} {signed : α → α} {r fr ex : α}
    {c : Nat} {t : Bytes} (hn : NoNul s) (ha : At s stop i (c :: t)) (h2 : isE c = true) :
    floatFrac A s stop signed r (fuel + 1) i fr ex = .ok (.cont (i, fr, ex)) := by
  obtain ⟨g1, g2, g3, g4, g5⟩ := ha.cons hn
  rw [floatFrac, if_pos g1, g2]
  simp only [Res.bind_ok]
  rw [if_pos (.inr h2)]

/-- Digits and then a character that is neither a digit nor a blank. -/
theorem floatExp_bad {s : Bytes} {stop : Nat} (hn : NoNul s) {c : Nat} {t : Bytes} (h3 : isDigit c = false)
    (h4 : c ≠ blank) : ∀ (es : Bytes), Digits es → ∀ (fuel i e : Nat) (h : Bool), At s stop i (es ++ c :: t) →
    es.length < fuel → e < 10 ^ (9 - es.length) → es.length ≤ 9 → floatExp s stop fuel i e h = .err := by
  intro es
  induction es with
  | nil =>
    intro _ fuel i e h ha hf _ _
    obtain ⟨g1, g2, g3, g4, g5⟩ := ha.cons hn
    obtain ⟨fuel, rfl⟩ : ∃ f, fuel = f + 1 := ⟨fuel - 1, by simp at hf; omega⟩
    rw [floatExp, if_pos g1, g2]
    simp only [Res.bind_ok]
    rw [if_neg g3, if_neg (by rw [h3]; simp), if_neg h4]
  | cons d es ih =>
    intro hd fuel i e h ha hf he hl
    rw [List.length_cons] at he hl
    obtain ⟨g1, g2, g3, g4, g5⟩ := ha.cons hn
    obtain ⟨fuel, rfl⟩ : ∃ f, fuel = f + 1 := ⟨fuel - 1, by simp at hf; omega⟩
    have hdd := hd d List.mem_cons_self
    have hdv : digitVal d ≤ 9 := by
      unfold isDigit at hdd
      simp only [Bool.and_eq_true, decide_eq_true_eq] at hdd
      unfold digitVal
      omega
    have hpow : (10 : Nat) ^ (9 - es.length) = 10 ^ (9 - (es.length + 1)) * 10 := by
      rw [show 9 - es.length = (9 - (es.length + 1)) + 1 by omega, Nat.pow_succ]
    have hbig : (10 : Nat) ^ (9 - es.length) ≤ 10 ^ 9 := Nat.pow_le_pow_right (by decide) (by omega)
    rw [floatExp, if_pos g1, g2]
    simp only [Res.bind_ok]
    rw [if_neg g3, if_pos hdd, if_neg (by unfold intMax; omega), g4]
    exact ih (fun x hx => hd x (List.mem_cons_of_mem _ hx)) fuel (i + 1) _ true g5 (by simp at hf; omega) (by omega) (by omega)

/-- A field that is cut off behind the letter of the exponent, or whose exponent is no number. -/
theorem floatExponent_inv {α : Type} {A : Arith α} {s : Bytes} {stop i : Nat} {signed : α → α} {r : α} {hasInt : Bool}
    {frac : Option α} (hn : NoNul s) (hs : stop < 255) {e : Nat} {l : Bytes} (he : isE e = true) (hl : l.length ≤ 9)
    (ha : At s stop i (e :: l)) :
    floatExponent A s stop signed i r hasInt frac = .err ∨
    (hasInt = true ∧ ∃ sg es rest, (∀ c, sg = some c → IsSign c) ∧ Digits es ∧ es ≠ [] ∧ Ends rest ∧
      l = sg.toList ++ (es ++ rest)) := by
  obtain ⟨h1, h2, h3, h4, h5⟩ := ha.cons hn
  unfold floatExponent
  simp only [h2, Res.bind_ok]
  rw [if_pos he]
  cases hasInt with
  | false => exact .inl (if_pos rfl)
  | true =>
  rw [if_neg (by decide), h4]
  -- the end of the field directly behind the letter
  have hexp_end : ∀ k, stop ≤ k → floatExp s stop loopFuel k 0 false = .ok none := by
    intro k hk
    unfold loopFuel
    rw [floatExp, if_neg (by omega)]
    rfl
  -- digits from here on
  have digits : ∀ (k : Nat) (l' : Bytes) (c0 : Nat) (sg : Option Nat), At s stop k l' → l'.length ≤ 9 → l' ≠ [] →
      (∀ t, l' ≠ blank :: t) →
      ((do let e ← floatExp s stop loopFuel k 0 false
           match e with
           | none => (.err : Res α)
           | some e => .ok (signed (A.mul (match frac with | some f => A.add r f | none => r)
              (A.pow10 (if c0 = minus then -(e : Int) else e))))) = .err) ∨
      ∃ es rest, Digits es ∧ es ≠ [] ∧ Ends rest ∧ l' = es ++ rest := by
    intro k l' c0 sg hat hlen hne hnb
    rcases digit_cases l' with hE | ⟨c, t, ht, hc1, hc2⟩
    · right
      refine ⟨l'.takeWhile isDigit, l'.dropWhile isDigit, digits_takeWhile _, ?_, hE, (take_drop_digits _).symm⟩
      intro hnil
      have h0 : l'.dropWhile isDigit = l' := by
        have := take_drop_digits l'
        rw [hnil, List.nil_append] at this
        exact this
      rw [h0] at hE
      rcases hE with hE | hE
      · exact hne hE
      · cases l' with
        | nil => exact hne rfl
        | cons x t => simp at hE; rw [hE] at hnb; exact hnb t rfl
    · left
      have htw := take_drop_digits l'
      rw [ht] at htw
      have hlt : (l'.takeWhile isDigit).length ≤ 9 := Nat.le_trans (List.takeWhile_prefix _).length_le hlen
      rw [← htw] at hat
      rw [floatExp_bad hn hc2 hc1 _ (digits_takeWhile _) loopFuel k 0 false hat (by unfold loopFuel; omega)
        (Nat.pow_pos (by decide)) hlt]
      rfl
  obtain ⟨c, hc⟩ := h5.char
  cases l with
  | nil =>
    left
    rw [hc]
    simp only [Res.bind_ok]
    rcases h5.nil with hend | ⟨hlt, h0⟩
    · by_cases hsg : c = minus ∨ c = plus
      · rw [if_pos hsg]
        have hi : inc8 (i + 1) = i + 2 := by unfold inc8; omega
        rw [hi, if_neg (by omega)]
        have hlen : i + 1 < s.length := by
          rcases Nat.lt_or_ge (i + 1) s.length with h | h
          · exact h
          · have : i + 1 = s.length := by have := h5.le; omega
            rw [this, charAt_end] at hc
            injection hc with hc
            rcases hsg with h | h <;> rw [h] at hc <;> cases hc
        obtain ⟨d, hd⟩ : ∃ d, charAt s (i + 2) = .ok d := by
          rcases Nat.lt_or_ge (i + 2) s.length with h | h
          · exact ⟨_, charAt_lt h⟩
          · rw [show i + 2 = s.length by omega]
            exact ⟨_, charAt_end s⟩
        rw [hd]
        simp only [Res.bind_ok]
        split
        · rfl
        · rw [hexp_end _ (by omega)]
          rfl
      · rw [if_neg hsg, if_pos hend]
    · rw [hc] at h0
      injection h0 with h0
      rw [if_neg (show ¬ (c = minus ∨ c = plus) by rw [h0]; decide), if_neg (show ¬ i + 1 = stop by omega), hc]
      simp only [Res.bind_ok]
      rw [if_pos (.inl h0)]
  | cons c1 l1 =>
    obtain ⟨g1, g2, g3, g4, g5⟩ := h5.cons hn
    rw [g2]
    simp only [Res.bind_ok]
    by_cases hsg : c1 = minus ∨ c1 = plus
    · rw [if_pos hsg, g4]
      cases l1 with
      | nil =>
        left
        rcases g5.nil with hend | ⟨hlt, h0⟩
        · rw [if_pos hend]
        · rw [if_neg (by omega), h0]
          simp
      | cons c2 l2 =>
        obtain ⟨k1, k2, k3, k4, k5⟩ := g5.cons hn
        rw [if_neg (by omega), k2]
        simp only [Res.bind_ok]
        by_cases hb : c2 = blank
        · left; rw [if_pos (.inr hb)]
        · rw [if_neg (by simp [k3, hb])]
          rcases digits (i + 1 + 1) (c2 :: l2) c1 (some c1) g5 (by simp at hl ⊢; omega) (by simp) (by simp [hb]) with h | ⟨es, rest, a1, a2, a3, a4⟩
          · left; cases frac <;> exact h
          · right
            exact ⟨trivial, some c1, es, rest, (by intro c h; cases h; exact hsg.symm), a1, a2, a3, by rw [a4]; rfl⟩
    · rw [if_neg hsg, if_neg (by omega), g2]
      simp only [Res.bind_ok]
      by_cases hb : c1 = blank
      · left; rw [if_pos (.inr hb)]
      · rw [if_neg (by simp [g3, hb])]
        rcases digits (i + 1) (c1 :: l1) c1 none h5 hl (by simp) (by simp [hb]) with h | ⟨es, rest, a1, a2, a3, a4⟩
        · left; cases frac <;> exact h
        · right
          exact ⟨trivial, none, es, rest, (by intro c h; cases h), a1, a2, a3, by rw [a4]; rfl⟩

theorem floatBody_inv {α : Type} {A : Arith α} {s : Bytes} {stop i : Nat} {signed : α → α} (hn : NoNul s)
    (hs : stop < 255) {c : Nat} {l : Bytes} (hc : c ≠ blank) (hl : (c :: l).length ≤ 11) (ha : At s stop i (c :: l)) :
    floatBody A s stop signed i = .err ∨ ∃ (n : Numeral) (rest : Bytes), n.Valid ∧ n.sign = none ∧ Ends rest ∧ c :: l = n.text ++ rest := by
  have htd := take_drop_digits (c :: l)
  generalize hds : (c :: l).takeWhile isDigit = ds at htd
  generalize hl' : (c :: l).dropWhile isDigit = l' at htd
  have hdd : Digits ds := by rw [← hds]; exact digits_takeWhile _
  have ha' := ha
  rw [← htd] at ha'
  have hlen := congrArg List.length htd
  rw [List.length_append] at hlen
  obtain ⟨j, e1, e2⟩ := floatInt_digits (A := A) (signed := signed) hn ds hdd (loopFuel - ds.length) i (A.ofNat 0) false ha'
  rw [show loopFuel - ds.length + ds.length = loopFuel by unfold loopFuel; omega] at e2
  have hfuel : loopFuel - ds.length = (loopFuel - ds.length - 1) + 1 := by unfold loopFuel; omega
  -- only digits
  have plain : ds ≠ [] → Ends l' → ∃ (n : Numeral) (rest : Bytes), n.Valid ∧ n.sign = none ∧ Ends rest ∧ c :: l = n.text ++ rest := by
    intro hne hE
    refine ⟨⟨none, ds, none, none⟩, l', ⟨(by intro _ h; cases h), hdd, (by intro _ h; cases h),
      (by intro _ _ _ h; cases h), .inl hne⟩, rfl, hE, ?_⟩
    rw [← htd]; simp [Numeral.text, Numeral.fracText, Numeral.expText]
  have hds_of : ∀ x t, l' = x :: t → isDigit x = false := by
    intro x t hx; rw [hx] at hl'; exact head_dropWhile hl'
  cases hcl : l' with
  | nil =>
    right
    rw [hcl] at htd
    refine plain ?_ (by rw [hcl]; exact .inl rfl)
    intro h; rw [h] at htd; simp at htd
  | cons x t =>
    rw [hcl] at e1
    have hx := hds_of x t hcl
    by_cases hxb : x = blank
    · right
      refine plain ?_ (by rw [hcl, hxb]; exact .inr rfl)
      intro h
      rw [h, hcl, List.nil_append] at htd
      injection htd with h1 _
      exact hc (h1 ▸ hxb)
    obtain ⟨g1, g2, g3, g4, g5⟩ := e1.cons hn
    by_cases hxe : isE x = true
    · -- an exponent directly behind the digits
      obtain ⟨m1, m2, m3, m4, m5, m6⟩ := isE_not hxe
      unfold floatBody
      rw [e2, hfuel, floatInt_stop hn e1 (.inr hxe)]
      simp only [Res.bind_ok]
      rw [if_neg (by omega), g2]
      simp only [Res.bind_ok]
      rw [if_neg m4, if_neg m2]
      cases hnil : ds with
      | nil =>
        left
        simp [floatExponent, g2, hxe]
      | cons d ds' =>
      rw [← hnil]
      have hdl : 1 ≤ ds.length := by rw [hnil]; simp
      rw [hcl] at hlen htd
      simp only [List.length_cons] at hlen hl
      rcases floatExponent_inv (A := A) (signed := signed) (r := foldDigits A ds (A.ofNat 0))
          (hasInt := (false || !ds.isEmpty)) (frac := none) hn hs hxe (by omega) e1 with h | ⟨_, sg, es, rest, b1, b2, b3, b4, b5⟩
      · exact .inl h
      · right
        refine ⟨⟨none, ds, none, some (x, sg, es)⟩, rest, ⟨(by intro _ h; cases h), hdd, (by intro _ h; cases h),
          (by intro _ _ _ h; cases h; exact ⟨hxe, b1, b2, b3⟩), .inl (by rw [hnil]; simp)⟩, rfl, b4, ?_⟩
        rw [← htd, b5]; simp [Numeral.text, Numeral.fracText, Numeral.expText]
    by_cases hxd : x = dot
    · -- a fraction
      have hxd0 := hxd
      unfold floatBody
      rw [e2, hfuel, floatInt_stop hn e1 (.inl hxd)]
      simp only [Res.bind_ok]
      rw [if_neg (by omega), g2]
      simp only [Res.bind_ok]
      rw [if_neg g3, if_pos hxd, g4]
      have ftd := take_drop_digits t
      generalize hfs : t.takeWhile isDigit = fs at ftd
      generalize hft : t.dropWhile isDigit = t' at ftd
      have hfd : Digits fs := by rw [← hfs]; exact digits_takeWhile _
      have g5' := g5
      rw [← ftd] at g5'
      have flen := congrArg List.length ftd
      rw [List.length_append] at flen
      rw [hcl] at hlen htd
      simp only [List.length_cons] at hlen hl
      obtain ⟨j2, q1, q2⟩ := floatFrac_digits (A := A) (signed := signed) (r := foldDigits A ds (A.ofNat 0)) hn fs hfd
        (loopFuel - fs.length) (j + 1) (A.ofNat 0) (A.ofNat 1) g5'
      rw [show loopFuel - fs.length + fs.length = loopFuel by unfold loopFuel; omega] at q2
      have hfuel2 : loopFuel - fs.length = (loopFuel - fs.length - 1) + 1 := by unfold loopFuel; omega
      have frac : Ends t' → ∃ (n : Numeral) (rest : Bytes), n.Valid ∧ n.sign = none ∧ Ends rest ∧ c :: l = n.text ++ rest := by
        intro hE
        refine ⟨⟨none, ds, some fs, none⟩, t', ⟨(by intro _ h; cases h), hdd, (by intro _ h; cases h; exact hfd),
          (by intro _ _ _ h; cases h), .inr ⟨by simp, rfl⟩⟩, rfl, hE, ?_⟩
        rw [← htd, hxd, ← ftd]; simp [Numeral.text, Numeral.fracText, Numeral.expText]
      cases hct : t' with
      | nil => exact .inr (frac (by rw [hct]; exact .inl rfl))
      | cons y u =>
        by_cases hyb : y = blank
        · exact .inr (frac (by rw [hct, hyb]; exact .inr rfl))
        have hy : isDigit y = false := by rw [hct] at hft; exact head_dropWhile hft
        rw [hct] at q1 ftd flen
        obtain ⟨w1, w2, w3, w4, w5⟩ := q1.cons hn
        by_cases hye : isE y = true
        · obtain ⟨m1, m2, m3, m4, m5, m6⟩ := isE_not hye
          rw [q2, hfuel2, floatFrac_stop hn q1 hye]
          simp only [Res.bind_ok]
          rw [if_neg (by omega), w2]
          simp only [Res.bind_ok]
          rw [if_neg w3]
          cases hnil : ds with
          | nil =>
            left
            simp [floatExponent, w2, hye]
          | cons d ds' =>
          rw [← hnil]
          have hdl : 1 ≤ ds.length := by rw [hnil]; simp
          simp only [List.length_cons] at flen
          rcases floatExponent_inv (A := A) (signed := signed) (r := foldDigits A ds (A.ofNat 0))
              (hasInt := (false || !ds.isEmpty)) (frac := some (A.div (foldDigits A fs (A.ofNat 0)) (foldScale A fs (A.ofNat 1))))
              hn hs hye (by omega) q1 with h | ⟨_, sg, es, rest, b1, b2, b3, b4, b5⟩
          · exact .inl h
          · right
            refine ⟨⟨none, ds, some fs, some (y, sg, es)⟩, rest, ⟨(by intro _ h; cases h), hdd,
              (by intro _ h; cases h; exact hfd),
              (by intro _ _ _ h; cases h; exact ⟨hye, b1, b2, b3⟩), .inl (by rw [hnil]; simp)⟩, rfl, b4, ?_⟩
            rw [← htd, hxd, ← ftd, b5]; simp [Numeral.text, Numeral.fracText, Numeral.expText]
        · left
          rw [q2, hfuel2, floatFrac_bad hn q1 (by simpa using hye) hy hyb]
          rfl
    · left
      unfold floatBody
      rw [e2, hfuel, floatInt_bad hn e1 hxd (by simpa using hxe) hx hxb]
      rfl

/-- C57: a field of up to 11 characters (LS-DYNA's are 8 or 10 characters wide) that shows no number makes the
floating point functions signal an error. -/
theorem c57_reject {α : Type} (A : Arith α) {card : Card} {w : Nat} (hn : NoNul card.string)
    (hc : card.cur ≤ card.string.length) (hw : card.cur + w < 255) (hw' : w ≤ 11)
    (hno : ¬ ∃ n, Shows (field card.string card.cur w) n) : card.parseFloat A w = .err := by
  have h0 := At.start hc (show card.cur + w < 256 by omega)
  obtain ⟨j, e1, e2⟩ := skipBlanks_spec hn _ loopFuel _ h0 (by have := h0.length; unfold loopFuel; omega)
  obtain ⟨a, hbl⟩ := blanks_dropWhile (field card.string card.cur w)
  have hflen := field_length card.string card.cur w
  unfold Card.parseFloat
  simp only [e1, Res.bind_ok]
  cases hl : (field card.string card.cur w).dropWhile (· = blank) with
  | nil =>
    rw [hl] at e2
    rcases e2.nil with h | ⟨h1, h2⟩
    · rw [if_pos h]
    · rw [if_neg (by omega), h2]
      simp
  | cons c l =>
    have hcb : c ≠ blank := by simpa using head_dropWhile hl
    rw [hl] at e2 hbl
    have hlen := congrArg List.length hbl
    rw [List.length_append] at hlen
    obtain ⟨g1, g2, g3, g4, g5⟩ := e2.cons hn
    rw [if_neg (by omega), g2]
    simp only [Res.bind_ok]
    rw [if_neg g3]
    by_cases hsg : c = minus ∨ c = plus
    · rw [if_pos hsg, g4]
      cases l with
      | nil =>
        rcases g5.nil with h | ⟨h1, h2⟩
        · rw [if_pos h]
        · rw [if_neg (by omega), h2]
          simp
      | cons c2 l2 =>
        obtain ⟨k1, k2, k3, k4, k5⟩ := g5.cons hn
        rw [if_neg (by omega), k2]
        simp only [Res.bind_ok]
        by_cases hb : c2 = blank
        · rw [if_pos (.inr hb)]
        rw [if_neg (by simp [k3, hb])]
        rcases floatBody_inv (A := A) (signed := fun v => if c = minus then A.mul v (A.neg (A.ofNat 1)) else A.mul v (A.ofNat 1))
            hn hw hb (by simp at hlen ⊢; omega) g5 with h | ⟨n, rest, hv, hs, hE, ht⟩
        · exact h
        · refine absurd ⟨{ n with sign := some c }, ⟨⟨(by intro x h; cases h; exact hsg.symm), hv.digits, hv.frac, hv.exp,
            hv.some_digits⟩, a, rest, hE, ?_⟩⟩ hno
          rw [hbl, ht]
          simp [Numeral.text, hs, Numeral.fracText, Numeral.expText]
    · rw [if_neg hsg, if_neg (by omega), g2]
      simp only [Res.bind_ok]
      rw [if_neg (by simp [g3, hcb])]
      rcases floatBody_inv (A := A) (signed := fun v => if c = minus then A.mul v (A.neg (A.ofNat 1)) else A.mul v (A.ofNat 1))
          hn hw hcb (by simp at hlen ⊢; omega) e2 with h | ⟨n, rest, hv, hs, hE, ht⟩
      · exact h
      · exact absurd ⟨n, hv, a, rest, hE, by rw [hbl, ht]⟩ hno

/-- C57: in such a field the functions signal an error exactly if the field shows no number, and the field shows at
most one value. -/
theorem c57_error_iff {α : Type} (A : Arith α) {card : Card} {w : Nat} (hn : NoNul card.string)
    (hc : card.cur ≤ card.string.length) (hw : card.cur + w < 255) (hw' : w ≤ 11) :
    (card.parseFloat A w = .err ↔ ¬ ∃ n, Shows (field card.string card.cur w) n) ∧
    (∀ n, Shows (field card.string card.cur w) n → card.parseFloat A w = .ok (n.compute A)) := by
  have key : ∀ n, Shows (field card.string card.cur w) n → card.parseFloat A w = .ok (n.compute A) := by
    rintro n ⟨hv, a, rest, hE, hf⟩
    refine (parseFloat_numeral hn hc (by omega) hv hE hf).1 ?_
    intro e sg es hx
    obtain ⟨_, _, hd, hne⟩ := hv.exp e sg es hx
    refine digitsValue_small hd ?_
    have hlen := field_length card.string card.cur w
    rw [hf] at hlen
    have hdl : 1 ≤ n.digits.length := by
      rcases hv.some_digits with h | ⟨_, h⟩
      · cases hd : n.digits with
        | nil => exact absurd hd h
        | cons => simp
      · rw [hx] at h; cases h
    simp [Numeral.text, Numeral.expText, hx] at hlen
    omega
  refine ⟨⟨?_, c57_reject A hn hc hw hw'⟩, key⟩
  rintro h ⟨n, hn'⟩
  rw [key n hn'] at h
  cases h

/-- Not vacuous: fields that show no number, and one that does. -/
example : (⟨bs "      1.5e-3", 0, 10⟩ : Card).parseFloat exact 10 = .err ∧ (⟨bs "abc", 0, 10⟩ : Card).parseFloat exact 10 = .err ∧
    (⟨bs "          7", 0, 10⟩ : Card).parseFloat exact 10 = .err ∧ (⟨bs "1.5.2", 0, 10⟩ : Card).parseFloat exact 10 = .err ∧
    (⟨bs "   -", 0, 10⟩ : Card).parseFloat exact 10 = .err := by
  refine ⟨by rfl, by rfl, by rfl, by rfl, by rfl⟩

end Dyna.Card
