import Verif.Props.CardFloat
import Mathlib.Algebra.Field.Rat
import Mathlib.Tactic.Ring
import Mathlib.Tactic.NormNum
/-!
# The value of floating point fields (C57)

The parser with exact arithmetic: what it computes up to the rounding of `float` and `double`.
-/

namespace Dyna.Card

/-- Exact arithmetic -/
def exact : Arith ℚ where
  ofNat := fun n => (n : ℚ)
  neg := fun x => -x
  add := fun x y => x + y
  mul := fun x y => x * y
  div := fun x y => x / y
  pow10 := fun e => (10 : ℚ) ^ e

/-- The number that a numeral means: sign · (digits + fraction / 10^(length of fraction)) · 10^exponent -/
def Numeral.value (n : Numeral) : ℚ :=
  (if n.sign = some minus then -1 else 1) *
  ((digitsValue n.digits 0 : ℚ) +
    (match n.frac with
      | none => 0
      | some fs => (digitsValue fs 0 : ℚ) / 10 ^ fs.length)) *
  (match n.exp with
    | none => 1
    | some (_, sg, es) => if sg = some minus then 1 / (10 : ℚ) ^ digitsValue es 0 else (10 : ℚ) ^ digitsValue es 0)

theorem foldDigits_exact (ds : Bytes) (r : Nat) : foldDigits exact ds (r : ℚ) = (digitsValue ds r : ℚ) := by
  induction ds generalizing r with
  | nil => rfl
  | cons c ds ih =>
    have : foldDigits exact (c :: ds) (r : ℚ) = foldDigits exact ds (((r * 10 + digitVal c : Nat) : ℚ)) := by
      simp [foldDigits, exact]
    rw [this, ih]
    rfl

theorem foldScale_exact (ds : Bytes) (r : ℚ) : foldScale exact ds r = r * 10 ^ ds.length := by
  induction ds generalizing r with
  | nil => simp [foldScale]
  | cons c ds ih =>
    have : foldScale exact (c :: ds) r = foldScale exact ds (r * 10) := by simp [foldScale, exact]
    rw [this, ih, List.length_cons, pow_succ]
    ring

theorem compute_exact (n : Numeral) : n.compute exact = n.value := by
  have h0 : foldDigits exact n.digits (exact.ofNat 0) = (digitsValue n.digits 0 : ℚ) := by
    have := foldDigits_exact n.digits 0
    simpa [exact] using this
  have hsum : n.sum exact = (digitsValue n.digits 0 : ℚ) +
      (match n.frac with
        | none => 0
        | some fs => (digitsValue fs 0 : ℚ) / 10 ^ fs.length) := by
    unfold Numeral.sum
    rw [h0]
    cases n.frac with
    | none => simp
    | some fs =>
      have h1 : foldDigits exact fs (exact.ofNat 0) = (digitsValue fs 0 : ℚ) := by
        have := foldDigits_exact fs 0
        simpa [exact] using this
      simp only
      rw [h1, foldScale_exact]
      simp [exact]
  unfold Numeral.compute Numeral.value Numeral.signed
  cases hx : n.exp with
  | none =>
    simp only
    rw [hsum]
    by_cases hm : n.sign = some minus
    · rw [if_pos hm, if_pos hm]
      simp only [exact]
      push_cast
      ring
    · rw [if_neg hm, if_neg hm]
      simp only [exact]
      push_cast
      ring
  | some x =>
    obtain ⟨e, sg, es⟩ := x
    simp only
    rw [hsum]
    have hp : exact.pow10 (if sg = some minus then -(digitsValue es 0 : Int) else (digitsValue es 0 : Int)) =
        if sg = some minus then 1 / (10 : ℚ) ^ digitsValue es 0 else (10 : ℚ) ^ digitsValue es 0 := by
      simp only [exact]
      split
      · rw [zpow_neg, zpow_natCast, one_div]
      · rw [zpow_natCast]
    rw [hp]
    by_cases hm : n.sign = some minus
    · rw [if_pos hm, if_pos hm]
      simp only [exact]
      push_cast
      ring
    · rw [if_neg hm, if_neg hm]
      simp only [exact]
      push_cast
      ring

/-- C57: a field with a decimal number — optional sign, digits, optional fraction, optional exponent with optional sign, blanks
before and after — is read as the value of that number, up to the rounding of the arithmetic operations. The digits of the exponent must be
an `int`. -/
theorem c57_value {card : Card} {w a b : Nat} (n : Numeral) (hn : NoNul card.string) (hc : card.cur ≤ card.string.length)
    (hw : card.cur + w < 256) (hv : n.Valid) (he : n.expFits)
    (hf : field card.string card.cur w = List.replicate a blank ++ n.text ++ List.replicate b blank) :
    card.parseFloat exact w = .ok n.value := by
  have hr : Ends (List.replicate b blank) := by
    cases b with
    | zero => exact .inl rfl
    | succ b => exact .inr rfl
  rw [List.append_assoc] at hf
  rw [(parseFloat_numeral hn hc hw hv hr hf).1 he, compute_exact]

/-- C57: the two functions for `float` and `double` apply the same operations in the same order, so with any
arithmetic the result is determined by the numeral and not by the blanks around it or the place in the card. -/
theorem c57_position {α : Type} (A : Arith α) {card card' : Card} {w w' a a' b b' : Nat} (n : Numeral)
    (hn : NoNul card.string) (hc : card.cur ≤ card.string.length) (hw : card.cur + w < 256)
    (hn' : NoNul card'.string) (hc' : card'.cur ≤ card'.string.length) (hw' : card'.cur + w' < 256) (hv : n.Valid)
    (hf : field card.string card.cur w = List.replicate a blank ++ n.text ++ List.replicate b blank)
    (hf' : field card'.string card'.cur w' = List.replicate a' blank ++ n.text ++ List.replicate b' blank) :
    card.parseFloat A w = card'.parseFloat A w' := by
  have hr : ∀ b, Ends (List.replicate b blank) := by
    intro b
    cases b with
    | zero => exact .inl rfl
    | succ b => exact .inr rfl
  rw [List.append_assoc] at hf hf'
  have h1 := parseFloat_numeral (A := A) hn hc hw hv (hr b) hf
  have h2 := parseFloat_numeral (A := A) hn' hc' hw' hv (hr b') hf'
  by_cases he : n.expFits
  · rw [h1.1 he, h2.1 he]
  · rw [h1.2 he, h2.2 he]

/-- C57: an integer in a field is read as this number by the floating point functions as well. -/
theorem c57_int {card : Card} {w a b : Nat} (v : Int) (hn : NoNul card.string) (hc : card.cur ≤ card.string.length)
    (hw : card.cur + w < 256)
    (hf : field card.string card.cur w = List.replicate a blank ++ bs (toString v) ++ List.replicate b blank) :
    card.parseFloat exact w = .ok (v : ℚ) := by
  obtain ⟨f1, f2⟩ := toDigits_facts v.natAbs
  obtain ⟨c, l, e1, e2⟩ := toDigits_cons v.natAbs
  have hne : (Nat.toDigits 10 v.natAbs).map Char.toNat ≠ [] := by rw [e1]; exact List.cons_ne_nil _ _
  rw [bs_toString] at hf
  by_cases hneg : v < 0
  · rw [if_pos hneg] at hf
    have := c57_value (a := a) (b := b) ⟨some minus, (Nat.toDigits 10 v.natAbs).map Char.toNat, none, none⟩ hn hc hw
      ⟨(by intro c h; cases h; exact .inr rfl), f1, (by intro _ h; cases h), (by intro _ _ _ h; cases h), .inl hne⟩
      (by intro _ _ _ h; cases h) (by rw [hf]; simp [Numeral.text, Numeral.fracText, Numeral.expText])
    rw [this]
    simp only [Numeral.value, f2, if_true]
    congr 1
    have : (v.natAbs : ℚ) = -(v : ℚ) := by
      rw [← Int.cast_natCast, show ((v.natAbs : Nat) : Int) = -v by omega, Int.cast_neg]
    rw [add_zero, mul_one, this]
    push_cast
    ring
  · rw [if_neg hneg] at hf
    have := c57_value (a := a) (b := b) ⟨none, (Nat.toDigits 10 v.natAbs).map Char.toNat, none, none⟩ hn hc hw
      ⟨(by intro c h; cases h), f1, (by intro _ h; cases h), (by intro _ _ _ h; cases h), .inl hne⟩
      (by intro _ _ _ h; cases h) (by rw [hf]; simp [Numeral.text, Numeral.fracText, Numeral.expText])
    rw [this]
    simp only [Numeral.value, f2]
    congr 1
    have : (v.natAbs : ℚ) = (v : ℚ) := by
      rw [← Int.cast_natCast, show ((v.natAbs : Nat) : Int) = v by omega]
    rw [add_zero, mul_one, this]
    simp

/-- Not vacuous: -12.5e-1 is a numeral, and its value is -1.25. -/
example : (⟨some minus, bs "12", some (bs "5"), some (lowerE, some minus, bs "1")⟩ : Numeral).text = bs "-12.5e-1" ∧
    (⟨some minus, bs "12", some (bs "5"), some (lowerE, some minus, bs "1")⟩ : Numeral).value = -5 / 4 := by
  refine ⟨by decide +kernel, ?_⟩
  have h1 : digitsValue (bs "12") 0 = 12 := by decide +kernel
  have h2 : digitsValue (bs "5") 0 = 5 := by decide +kernel
  have h3 : digitsValue (bs "1") 0 = 1 := by decide +kernel
  have h4 : (bs "5").length = 1 := by decide +kernel
  simp only [Numeral.value, h1, h2, h3, h4, if_true]
  norm_num

/-- Not accepted, although such numbers occur: a fraction without digits before the dot cannot have an exponent. -/
theorem c57_dot_exponent : (⟨bs ".5e1", 0, 10⟩ : Card).parseFloat exact 10 = .err ∧
    (⟨bs "5.0d1", 0, 10⟩ : Card).parseFloat exact 10 = .err := by
  refine ⟨by rfl, by rfl⟩

end Dyna.Card
