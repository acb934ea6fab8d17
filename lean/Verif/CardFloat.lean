import Verif.Props.Card
/-!
# Lemmas about floating point fields and the type of a field
-/

namespace Dyna.Card

/-! ## Numerals -/

/-- The text of a decimal number: sign, digits, fraction, exponent.
Part of the specification, models no code. -/
structure Numeral where
  sign : Option Nat
  digits : Bytes
  frac : Option Bytes
  /-- the character, the sign and the digits -/
  exp : Option (Nat × Option Nat × Bytes)
deriving DecidableEq, Repr

/-- Part of the specification, models no code. -/
def Numeral.expText (n : Numeral) : Bytes :=
  match n.exp with
  | none => []
  | some (e, sg, es) => e :: (sg.toList ++ es)

/-- Part of the specification, models no code. -/
def Numeral.fracText (n : Numeral) : Bytes :=
  match n.frac with
  | none => []
  | some fs => dot :: fs

/-- Part of the specification, models no code. -/
def Numeral.text (n : Numeral) : Bytes := n.sign.toList ++ (n.digits ++ (n.fracText ++ n.expText))

/-- Part of the specification, models no code. -/
def Digits (l : Bytes) : Prop := ∀ c ∈ l, isDigit c = true
/-- Part of the specification, models no code. -/
def IsSign (c : Nat) : Prop := c = plus ∨ c = minus

/-- The numbers: there are digits before the dot (or at least a dot, if there is no exponent), and the exponent has
digits. Part of the specification, models no code. -/
structure Numeral.Valid (n : Numeral) : Prop where
  sign : ∀ c, n.sign = some c → IsSign c
  digits : Digits n.digits
  frac : ∀ fs, n.frac = some fs → Digits fs
  exp : ∀ e sg es, n.exp = some (e, sg, es) → isE e = true ∧ (∀ c, sg = some c → IsSign c) ∧ Digits es ∧ es ≠ []
  some_digits : n.digits ≠ [] ∨ (n.frac ≠ none ∧ n.exp = none)

/-- The digits of the exponent are a number of type `int`. Part of the specification, models no code. -/
def Numeral.expFits (n : Numeral) : Prop := ∀ e sg es, n.exp = some (e, sg, es) → digitsValue es 0 ≤ intMax

/-! ## The value as computed -/

/-- `result * 10 + digit`. Part of the specification, models no code. -/
def foldDigits {α : Type} (A : Arith α) (ds : Bytes) (r : α) : α :=
  ds.foldl (fun r c => A.add (A.mul r (A.ofNat 10)) (A.ofNat (digitVal c))) r

/-- `exponent * 10` for every digit. Part of the specification, models no code. -/
def foldScale {α : Type} (A : Arith α) (ds : Bytes) (r : α) : α :=
  ds.foldl (fun r _ => A.mul r (A.ofNat 10)) r

/-- Part of the specification, models no code. -/
def Numeral.signed {α : Type} (A : Arith α) (n : Numeral) (v : α) : α :=
  if n.sign = some minus then A.mul v (A.neg (A.ofNat 1)) else A.mul v (A.ofNat 1)

/-- Part of the specification, models no code. -/
def Numeral.sum {α : Type} (A : Arith α) (n : Numeral) : α :=
  let r := foldDigits A n.digits (A.ofNat 0)
  match n.frac with
  | none => r
  | some fs => A.add r (A.div (foldDigits A fs (A.ofNat 0)) (foldScale A fs (A.ofNat 1)))

/-- Part of the specification, models no code. -/
def Numeral.compute {α : Type} (A : Arith α) (n : Numeral) : α :=
  n.signed A (match n.exp with
    | none => n.sum A
    | some (_, sg, es) =>
      A.mul (n.sum A) (A.pow10 (if sg = some minus then -(digitsValue es 0 : Int) else (digitsValue es 0 : Int))))

/-! ## The loops -/

theorem Ends.cases {s : Bytes} {stop i : Nat} {l : Bytes} (hl : Ends l) (h : At s stop i l) (hn : NoNul s) :
    i = stop ∨ (i < stop ∧ charAt s i = .ok 0) ∨ (i < stop ∧ charAt s i = .ok blank) := by
  rcases hl with hl | hl
  · rw [hl] at h
    rcases h.nil with h | h
    · exact .inl h
    · exact .inr (.inl h)
  · cases l with
    | nil => cases hl
    | cons c l =>
      have : c = blank := by simpa using hl
      obtain ⟨h1, h2, _⟩ := h.cons hn
      rw [this] at h2
      exact .inr (.inr ⟨h1, h2⟩)

theorem floatInt_digits {α : Type} {A : Arith α} {s : Bytes} {stop : Nat} {signed : α → α} (hn : NoNul s) {l : Bytes} :
    ∀ (ds : Bytes), Digits ds → ∀ (fuel i : Nat) (r : α) (h : Bool), At s stop i (ds ++ l) →
    ∃ j, At s stop j l ∧ floatInt A s stop signed (fuel + ds.length) i r h =
      floatInt A s stop signed fuel j (foldDigits A ds r) (h || !ds.isEmpty) := by
  intro ds
  induction ds with
  | nil => intro _ fuel i r h ha; exact ⟨i, ha, by simp [foldDigits]⟩
  | cons c ds ih =>
    intro hd fuel i r h ha
    obtain ⟨h1, h2, h3, h4, h5⟩ := ha.cons hn
    have hc := hd c List.mem_cons_self
    obtain ⟨_, _, _, n4, n5, n6⟩ := digit_not hc
    obtain ⟨j, e1, e2⟩ := ih (fun x hx => hd x (List.mem_cons_of_mem _ hx)) fuel (i + 1)
      (A.add (A.mul r (A.ofNat 10)) (A.ofNat (digitVal c))) true h5
    refine ⟨j, e1, ?_⟩
    rw [List.length_cons, ← Nat.add_assoc, floatInt, if_pos h1, h2]
    simp only [Res.bind_ok]
    rw [if_neg (by rw [n6]; simp [n5, n4]), if_pos hc, h4, e2]
    simp [foldDigits]

theorem floatFrac_digits {α : Type} {A : Arith α} {s : Bytes} {stop : Nat} {signed : α → α} {r : α} (hn : NoNul s) {l : Bytes} :
    ∀ (ds : Bytes), Digits ds → ∀ (fuel i : Nat) (fr ex : α), At s stop i (ds ++ l) →
    ∃ j, At s stop j l ∧ floatFrac A s stop signed r (fuel + ds.length) i fr ex =
      floatFrac A s stop signed r fuel j (foldDigits A ds fr) (foldScale A ds ex) := by
  intro ds
  induction ds with
  | nil => intro _ fuel i fr ex ha; exact ⟨i, ha, rfl⟩
  | cons c ds ih =>
    intro hd fuel i fr ex ha
    obtain ⟨h1, h2, h3, h4, h5⟩ := ha.cons hn
    have hc := hd c List.mem_cons_self
    obtain ⟨_, _, _, n4, n5, n6⟩ := digit_not hc
    obtain ⟨j, e1, e2⟩ := ih (fun x hx => hd x (List.mem_cons_of_mem _ hx)) fuel (i + 1)
      (A.add (A.mul fr (A.ofNat 10)) (A.ofNat (digitVal c))) (A.mul ex (A.ofNat 10)) h5
    refine ⟨j, e1, ?_⟩
    rw [List.length_cons, ← Nat.add_assoc, floatFrac, if_pos h1, h2]
    simp only [Res.bind_ok]
    rw [if_neg (by rw [n6]; simp [n5]), if_pos hc, h4, e2]
    simp [foldDigits, foldScale]

theorem floatExp_digits {s : Bytes} {stop : Nat} (hn : NoNul s) {l : Bytes} (hl : Ends l) :
    ∀ (es : Bytes), Digits es → ∀ (fuel i e : Nat) (h : Bool), At s stop i (es ++ l) → es.length < fuel →
    (h = true ∨ es ≠ []) → (e ≤ intMax) →
    floatExp s stop fuel i e h = if digitsValue es e ≤ intMax then .ok (some (digitsValue es e)) else .ub := by
  intro es
  induction es with
  | nil =>
    intro _ fuel i e h ha hf hh he
    have hh : h = true := by
      rcases hh with hh | hh
      · exact hh
      · exact absurd rfl hh
    obtain ⟨fuel, rfl⟩ : ∃ k, fuel = k + 1 := ⟨fuel - 1, by omega⟩
    rw [if_pos (show digitsValue [] e ≤ intMax from he), floatExp]
    rcases Ends.cases hl ha hn with h1 | ⟨h1, h2⟩ | ⟨h1, h2⟩
    · rw [if_neg (by omega), if_pos hh]
      rfl
    · rw [if_pos h1, h2]
      simp only [Res.bind_ok]
      rw [if_pos trivial, if_pos hh]
      rfl
    · rw [if_pos h1, h2]
      simp only [Res.bind_ok]
      rw [if_neg (by decide), if_neg (by decide), if_pos trivial]
      rfl
  | cons c es ih =>
    intro hd fuel i e h ha hf _ he
    obtain ⟨fuel, rfl⟩ : ∃ k, fuel = k + 1 := ⟨fuel - 1, by omega⟩
    obtain ⟨h1, h2, h3, h4, h5⟩ := ha.cons hn
    have hc := hd c List.mem_cons_self
    rw [floatExp, if_pos h1, h2]
    simp only [Res.bind_ok]
    rw [if_neg h3, if_pos hc]
    have hv : digitsValue (c :: es) e = digitsValue es (e * 10 + digitVal c) := rfl
    rw [hv]
    by_cases ho : e * 10 + digitVal c > intMax
    · have := digitsValue_mono es (e * 10 + digitVal c)
      rw [if_pos ho, if_neg (by omega)]
    · rw [if_neg ho, h4]
      exact ih (fun x hx => hd x (List.mem_cons_of_mem _ hx)) fuel (i + 1) _ true h5 (by simp at hf; omega)
        (.inl rfl) (by omega)

theorem sign_not_digit {c : Nat} (h : IsSign c) : isDigit c = false ∧ isE c = false ∧ c ≠ dot ∧ c ≠ blank ∧ c ≠ 0 := by
  rcases h with h | h <;> rw [h] <;> decide

theorem isE_not {c : Nat} (h : isE c = true) : isDigit c = false ∧ c ≠ dot ∧ c ≠ blank ∧ c ≠ 0 ∧ c ≠ plus ∧ c ≠ minus := by
  unfold isE at h
  simp only [Bool.or_eq_true, beq_iff_eq] at h
  rcases h with h | h <;> rw [h] <;> decide

theorem floatExponent_spec {α : Type} {A : Arith α} {s : Bytes} {stop i : Nat} {signed : α → α} {r : α} {frac : Option α}
    (hn : NoNul s) {e : Nat} {sg : Option Nat} {es l : Bytes} (he : isE e = true) (hsg : ∀ c, sg = some c → IsSign c)
    (hes : Digits es) (hne : es ≠ []) (hl : Ends l) (ha : At s stop i (e :: (sg.toList ++ (es ++ l)))) :
    floatExponent A s stop signed i r true frac =
      if digitsValue es 0 ≤ intMax then .ok (signed (A.mul (match frac with | some f => A.add r f | none => r)
        (A.pow10 (if sg = some minus then -(digitsValue es 0 : Int) else (digitsValue es 0 : Int))))) else .ub := by
  obtain ⟨h1, h2, h3, h4, h5⟩ := ha.cons hn
  unfold floatExponent
  simp only [h2, Res.bind_ok]
  rw [if_pos he, if_neg (by decide), h4]
  obtain ⟨c0, l0, hes0⟩ : ∃ c l, es = c :: l := by
    cases es with
    | nil => exact absurd rfl hne
    | cons c l => exact ⟨c, l, rfl⟩
  have hc0 := hes c0 (by rw [hes0]; exact List.mem_cons_self)
  obtain ⟨m1, m2, m3, m4, m5, m6⟩ := digit_not hc0
  cases sg with
  | none =>
    simp only [Option.toList_none, List.nil_append] at h5
    have h5' := h5
    rw [hes0, List.cons_append] at h5'
    obtain ⟨g1, g2, g3, g4, g5⟩ := h5'.cons hn
    simp only [g2, Res.bind_ok]
    rw [if_neg (show ¬ (c0 = minus ∨ c0 = plus) by simp [m2, m3]), if_neg (show ¬ i + 1 = stop by omega)]
    simp only [g2, Res.bind_ok]
    rw [if_neg (by simp [m5, m1]), floatExp_digits hn hl es hes loopFuel (i + 1) 0 false h5 (by
      have := h5.length
      rw [List.length_append] at this
      unfold loopFuel; omega) (.inr hne) (Nat.zero_le _)]
    by_cases hv : digitsValue es 0 ≤ intMax
    · rw [if_pos hv, if_pos hv]
      simp only [Res.bind_ok]
      rw [if_neg m2, if_neg (by simp)]
      cases frac <;> simp
    · rw [if_neg hv, if_neg hv]
      rfl
  | some c =>
    simp only [Option.toList_some, List.cons_append, List.nil_append] at h5
    have hs := hsg c rfl
    obtain ⟨g1, g2, g3, g4, g5⟩ := h5.cons hn
    simp only [g2, Res.bind_ok]
    rw [if_pos (Or.symm hs), g4]
    have g5' := g5
    rw [hes0, List.cons_append] at g5'
    obtain ⟨k1, k2, k3, k4, k5⟩ := g5'.cons hn
    rw [if_neg (by omega), k2]
    simp only [Res.bind_ok]
    rw [if_neg (by simp [m5, m1]), floatExp_digits hn hl es hes loopFuel (i + 1 + 1) 0 false g5 (by
      have := g5.length
      rw [List.length_append] at this
      unfold loopFuel; omega) (.inr hne) (Nat.zero_le _)]
    by_cases hv : digitsValue es 0 ≤ intMax
    · rw [if_pos hv, if_pos hv]
      simp only [Res.bind_ok, Option.some.injEq]
      cases frac <;> rfl
    · rw [if_neg hv, if_neg hv]
      rfl

/-- The integer part and what follows -/
theorem floatInt_stop {α : Type} {A : Arith α} {s : Bytes} {stop i fuel : Nat} {signed : α → α} {r : α} {h : Bool} {c : Nat} {l : Bytes}
    (hn : NoNul s) (ha : At s stop i (c :: l)) (hc : c = dot ∨ isE c = true) :
    floatInt A s stop signed (fuel + 1) i r h = .ok (.cont (i, r, h)) := by
  obtain ⟨h1, h2, h3, h4, h5⟩ := ha.cons hn
  rw [floatInt, if_pos h1, h2]
  simp only [Res.bind_ok]
  rw [if_pos (.inr hc)]

theorem parseFloat_numeral {α : Type} {A : Arith α} {card : Card} {w : Nat} (hn : NoNul card.string)
    (hc : card.cur ≤ card.string.length) (hw : card.cur + w < 256) {a : Nat} {n : Numeral} {rest : Bytes} (hv : n.Valid)
    (hr : Ends rest) (hf : field card.string card.cur w = List.replicate a blank ++ (n.text ++ rest)) :
    (n.expFits → card.parseFloat A w = .ok (n.compute A)) ∧ (¬ n.expFits → card.parseFloat A w = .ub) := by
  obtain ⟨sg, ds, frac, exp⟩ := n
  obtain ⟨v1, v2, v3, v4, v5⟩ := hv
  simp only at v1 v2 v3 v4 v5
  have h0 := At.start hc hw
  obtain ⟨j, e1, e2⟩ := skipBlanks_spec hn _ loopFuel _ h0 (by have := h0.length; unfold loopFuel; omega)
  -- the text behind the sign
  generalize htail : ds ++ ((Numeral.fracText ⟨sg, ds, frac, exp⟩) ++ (Numeral.expText ⟨sg, ds, frac, exp⟩)) = tail at *
  have htext : (Numeral.text ⟨sg, ds, frac, exp⟩) = sg.toList ++ tail := by
    unfold Numeral.text; rw [← htail]
  -- the first character behind the sign
  obtain ⟨c1, t1, hc1, hc1'⟩ : ∃ c1 t1, tail = c1 :: t1 ∧ (isDigit c1 = true ∨ c1 = dot) := by
    cases ds with
    | cons c l => exact ⟨c, _, htail.symm, .inl (v2 c List.mem_cons_self)⟩
    | nil =>
      rcases v5 with h | ⟨h, _⟩
      · exact absurd rfl h
      · cases frac with
        | none => exact absurd rfl h
        | some fs => exact ⟨dot, _, htail.symm, .inr rfl⟩
  have hc1n : c1 ≠ blank ∧ c1 ≠ minus ∧ c1 ≠ plus ∧ c1 ≠ 0 := by
    rcases hc1' with h | h
    · obtain ⟨m1, m2, m3, m4, m5, m6⟩ := digit_not h
      exact ⟨m1, m2, m3, m5⟩
    · rw [h]; decide
  have hhead : ((Numeral.text ⟨sg, ds, frac, exp⟩) ++ rest).head? ≠ some blank := by
    rw [htext, hc1]
    cases sg with
    | none => simpa using hc1n.1
    | some c =>
      have := (sign_not_digit (v1 c rfl)).2.2.2.1
      simpa using this
  rw [hf, dropWhile_blanks a hhead, htext, List.append_assoc] at e2
  unfold Card.parseFloat
  simp only [e1, Res.bind_ok]
  -- the sign
  obtain ⟨k, c0, s1, s2, s3, s4, s5, s6⟩ : ∃ k c0, At card.string (card.cur + w) k (tail ++ rest) ∧ j ≠ card.cur + w ∧
      charAt card.string j = .ok c0 ∧ c0 ≠ 0 ∧ (if c0 = minus ∨ c0 = plus then inc8 j else j) = k ∧
      (c0 = minus ↔ sg = some minus) := by
    cases sg with
    | none =>
      simp only [Option.toList_none, List.nil_append] at e2
      have e2' := e2
      rw [hc1, List.cons_append] at e2'
      obtain ⟨g1, g2, g3, g4, g5⟩ := e2'.cons hn
      refine ⟨j, c1, e2, by omega, g2, g3, ?_, ?_⟩
      · rw [if_neg]
        intro h
        rcases h with h | h
        · exact hc1n.2.1 h
        · exact hc1n.2.2.1 h
      · constructor
        · intro h; exact absurd h hc1n.2.1
        · intro h; cases h
    | some c =>
      simp only [Option.toList_some, List.cons_append, List.nil_append] at e2
      obtain ⟨g1, g2, g3, g4, g5⟩ := e2.cons hn
      refine ⟨j + 1, c, g5, by omega, g2, g3, ?_, ?_⟩
      · rw [if_pos (v1 c rfl).symm, g4]
      · simp
  rw [if_neg s2]
  simp only [s3, Res.bind_ok]
  rw [if_neg s4, s5]
  have hsigned : (fun v : α => if c0 = minus then A.mul v (A.neg (A.ofNat 1)) else A.mul v (A.ofNat 1)) =
      (Numeral.signed A ⟨sg, ds, frac, exp⟩) := by
    funext v
    unfold Numeral.signed
    simp only [s6]
  rw [hsigned]
  generalize hsg : (Numeral.signed A ⟨sg, ds, frac, exp⟩) = signed
  have s1' := s1
  rw [hc1, List.cons_append] at s1'
  obtain ⟨g1, g2, g3, g4, g5⟩ := s1'.cons hn
  rw [if_neg (show ¬ k = card.cur + w by omega)]
  simp only [g2, Res.bind_ok]
  rw [if_neg (by simp [g3, hc1n.1])]
  unfold floatBody
  -- the digits
  rw [← htail, List.append_assoc] at s1
  obtain ⟨k2, d1, d2⟩ := floatInt_digits (A := A) (signed := signed) hn ds v2 (loopFuel - ds.length) k (A.ofNat 0) false s1
  have hlen : ds.length < 256 := by
    have := s1.length
    rw [List.length_append] at this
    omega
  rw [show loopFuel - ds.length + ds.length = loopFuel by unfold loopFuel; omega] at d2
  obtain ⟨fuel, hfuel⟩ : ∃ k, loopFuel - ds.length = k + 1 := ⟨loopFuel - ds.length - 1, by unfold loopFuel; omega⟩
  rw [hfuel] at d2
  rw [d2]
  simp only [Bool.false_or] at d2 ⊢
  cases frac with
  | none =>
    have hne : ds ≠ [] := by
      rcases v5 with h | ⟨h, _⟩
      · exact h
      · exact absurd rfl h
    have hemp : (!ds.isEmpty) = true := by
      cases ds with
      | nil => exact absurd rfl hne
      | cons _ _ => rfl
    rw [hemp]
    simp only [Numeral.fracText, List.nil_append] at d1
    cases exp with
    | none =>
      simp only [Numeral.expText, List.nil_append] at d1
      refine ⟨fun _ => ?_, fun h => absurd (fun _ _ _ h => by cases h) h⟩
      have hval : (Numeral.compute A ⟨sg, ds, none, none⟩) = signed (foldDigits A ds (A.ofNat 0)) := by
        unfold Numeral.compute Numeral.sum
        rw [hsg]
      rw [hval, floatInt]
      rcases Ends.cases hr d1 hn with h1 | ⟨h1, h2⟩ | ⟨h1, h2⟩
      · rw [if_neg (by omega)]
        simp only [Res.bind_ok]
        rw [if_pos h1]
      · rw [if_pos h1, h2]
        simp only [Res.bind_ok, true_or, if_true]
        rw [if_neg (by omega)]
        simp only [h2, Res.bind_ok, if_true]
      · rw [if_pos h1, h2]
        simp only [Res.bind_ok]
        rw [if_neg (by decide), if_neg (by decide), if_pos trivial]
        rfl
    | some x =>
      obtain ⟨e, esg, es⟩ := x
      obtain ⟨w1, w2, w3, w4⟩ := v4 e esg es rfl
      simp only [Numeral.expText, List.cons_append, List.append_assoc] at d1
      rw [floatInt_stop hn d1 (.inr w1)]
      obtain ⟨p1, p2, p3, p4, p5⟩ := d1.cons hn
      simp only [Res.bind_ok]
      rw [if_neg (by omega)]
      simp only [p2, Res.bind_ok]
      rw [if_neg p3, if_neg (isE_not w1).2.1, floatExponent_spec hn w1 w2 w3 w4 hr d1]
      have hfit : (Numeral.expFits ⟨sg, ds, none, some (e, esg, es)⟩) ↔ digitsValue es 0 ≤ intMax := by
        unfold Numeral.expFits
        constructor
        · intro h; exact h e esg es rfl
        · intro h e' sg' es' heq
          cases heq
          exact h
      rw [hfit]
      refine ⟨fun h => ?_, fun h => if_neg h⟩
      rw [if_pos h]
      unfold Numeral.compute Numeral.sum
      rw [hsg]
  | some fs =>
    simp only [Numeral.fracText, List.cons_append, List.append_assoc] at d1
    rw [floatInt_stop hn d1 (.inl rfl)]
    obtain ⟨p1, p2, p3, p4, p5⟩ := d1.cons hn
    simp only [Res.bind_ok]
    rw [if_neg (by omega)]
    simp only [p2, Res.bind_ok]
    rw [if_neg p3, if_pos trivial, p4]
    obtain ⟨k3, q1, q2⟩ := floatFrac_digits (A := A) (signed := signed) (r := foldDigits A ds (A.ofNat 0)) hn fs (v3 fs rfl)
      (loopFuel - fs.length) (k2 + 1) (A.ofNat 0) (A.ofNat 1) p5
    have hlen2 : fs.length < 256 := by
      have := p5.length
      rw [List.length_append] at this
      omega
    rw [show loopFuel - fs.length + fs.length = loopFuel by unfold loopFuel; omega] at q2
    obtain ⟨fuel2, hfuel2⟩ : ∃ k, loopFuel - fs.length = k + 1 := ⟨loopFuel - fs.length - 1, by unfold loopFuel; omega⟩
    rw [hfuel2] at q2
    rw [q2]
    cases exp with
    | none =>
      simp only [Numeral.expText, List.nil_append] at q1
      refine ⟨fun _ => ?_, fun h => absurd (fun _ _ _ h => by cases h) h⟩
      have hval : (Numeral.compute A ⟨sg, ds, some fs, none⟩) = signed (A.add (foldDigits A ds (A.ofNat 0))
          (A.div (foldDigits A fs (A.ofNat 0)) (foldScale A fs (A.ofNat 1)))) := by
        unfold Numeral.compute Numeral.sum
        rw [hsg]
      rw [hval, floatFrac]
      rcases Ends.cases hr q1 hn with h1 | ⟨h1, h2⟩ | ⟨h1, h2⟩
      · rw [if_neg (by omega)]
        simp only [Res.bind_ok]
        rw [if_pos h1]
      · rw [if_pos h1, h2]
        simp only [Res.bind_ok, true_or, if_true]
        rw [if_neg (by omega)]
        simp only [h2, Res.bind_ok, if_true]
      · rw [if_pos h1, h2]
        simp only [Res.bind_ok]
        rw [if_neg (by decide), if_neg (by decide), if_pos trivial]
        rfl
    | some x =>
      obtain ⟨e, esg, es⟩ := x
      obtain ⟨w1, w2, w3, w4⟩ := v4 e esg es rfl
      have hne : ds ≠ [] := by
        rcases v5 with h | ⟨_, h⟩
        · exact h
        · cases h
      have hemp : (!ds.isEmpty) = true := by
        cases ds with
        | nil => exact absurd rfl hne
        | cons _ _ => rfl
      rw [hemp]
      simp only [Numeral.expText, List.cons_append, List.append_assoc] at q1
      obtain ⟨t1', t2, t3, t4, t5⟩ := q1.cons hn
      rw [floatFrac, if_pos t1', t2]
      simp only [Res.bind_ok]
      rw [if_pos (.inr w1)]
      simp only [Res.bind_ok]
      rw [if_neg (by omega)]
      simp only [t2, Res.bind_ok]
      rw [if_neg t3, floatExponent_spec hn w1 w2 w3 w4 hr q1]
      have hfit : (Numeral.expFits ⟨sg, ds, some fs, some (e, esg, es)⟩) ↔ digitsValue es 0 ≤ intMax := by
        unfold Numeral.expFits
        constructor
        · intro h; exact h e esg es rfl
        · intro h e' sg' es' heq
          cases heq
          exact h
      rw [hfit]
      refine ⟨fun h => ?_, fun h => if_neg h⟩
      rw [if_pos h]
      unfold Numeral.compute Numeral.sum
      rw [hsg]

end Dyna.Card
