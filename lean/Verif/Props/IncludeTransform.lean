import Verif.IncludeTransform
import Verif.Props.CardFloat
import Verif.Props.CardValue
/-!
# INCLUDE_TRANSFORM (C63) and DEFINE_TRANSFORMATION (C64)
-/

namespace Dyna.Transform

open Dyna Dyna.Card

/-! ## Specification -/

/-- A card of complete fields: at most 24 fields of ten characters, no NUL. (LS-DYNA cards have eight.) -/
structure FieldsOk (fields : List Bytes) : Prop where
  width : ∀ f ∈ fields, f.length = 10
  noNul : ∀ f ∈ fields, NoNul f
  few : fields.length ≤ 24

/-- The field holds a number: blanks, optional sign, digits, optionally a dot with digits and an
exponent, and then nothing but what follows a blank. -/
def IsNumber (f : Bytes) : Prop := ∃ n, IsNumeral f n ∧ n.frac ≠ some []

/-- The field is an integer: blanks, optional minus, digits, and then nothing but what follows a blank. -/
def ShowsInt (f : Bytes) (v : Int) : Prop :=
  ∃ n, IsNumeral f n ∧ n.frac = none ∧ n.exp = none ∧ n.sign ≠ some plus ∧
    v = if n.sign = some minus then -(digitsValue n.digits 0 : Int) else digitsValue n.digits 0

/-- What a column for an integer means: the integer; a number with a fraction or an exponent as it is converted to
an integer; or the default if the field holds no number or is missing. -/
inductive IntColumn {α : Type} (A : Arith α) (toInt : α → Res Int) (default : Int) : Option Bytes → Int → Prop where
  | missing : IntColumn A toInt default none default
  | noNumber (f : Bytes) : ¬ IsNumber f → IntColumn A toInt default (some f) default
  | int (f : Bytes) (v : Int) : ShowsInt f v → IntColumn A toInt default (some f) v
  | float (f : Bytes) (n : Numeral) (v : Int) : IsNumeral f n → n.frac ≠ some [] → (n.frac ≠ none ∨ n.exp ≠ none) →
      toInt (n.compute A) = .ok v → IntColumn A toInt default (some f) v

/-- What a column for a floating point number means: the number as `double` computes it, or the
default if the field holds no number or is missing. -/
inductive FloatColumn {α : Type} (A : Arith α) (default : α) : Option Bytes → α → Prop where
  | missing : FloatColumn A default none default
  | noNumber (f : Bytes) : ¬ IsNumber f → FloatColumn A default (some f) default
  | num (f : Bytes) (n : Numeral) : IsNumeral f n → n.frac ≠ some [] →
      FloatColumn A default (some f) (n.compute A)

/-- What a column for a text means: the text without blanks around it. -/
def textColumn (f : Option Bytes) : Option Bytes := f.map trim

/-- Field `j` of the fields of a card that may be missing. -/
def fieldAt (card : Option (List Bytes)) (j : Nat) : Option Bytes := (card.getD [])[j]?

/-- The contents of an INCLUDE_TRANSFORM keyword with the file name `name` and then the given
cards. -/
structure Describes {α : Type} (A : Arith α) (toInt : α → Res Int) (name : Bytes) (cards : List (List Bytes))
    (it : IncludeTransform α) : Prop where
  fileName : it.fileName = some (trim name)
  offsets : it.offsets.length = 7 ∧
    ∀ j (h : j < it.offsets.length), IntColumn A toInt 0 (fieldAt cards[0]? j) it.offsets[j]
  idroff : IntColumn A toInt 0 (fieldAt cards[1]? 0) it.idroff
  prefix_ : it.prefix_ = textColumn (fieldAt cards[1]? 2)
  suffix : it.suffix = textColumn (fieldAt cards[1]? 3)
  factors : it.factors.length = 3 ∧
    ∀ j (h : j < it.factors.length), FloatColumn A (A.ofNat 1) (fieldAt cards[2]? j) it.factors[j]
  fcttem : it.fcttem = textColumn (fieldAt cards[2]? 3)
  incout1 : IntColumn A toInt 0 (fieldAt cards[2]? 4) it.incout1
  tranid : IntColumn A toInt 0 (fieldAt cards[3]? 0) it.tranid

/-- The text of a card of fields. -/
def cardOf (fields : List Bytes) (cur width : Nat) : Card := ⟨fields.flatten, cur, width⟩

/-! ## Cursor over complete fields -/

theorem flatten_length {fields : List Bytes} (h : ∀ f ∈ fields, f.length = 10) :
    fields.flatten.length = 10 * fields.length := by
  induction fields with
  | nil => rfl
  | cons f r ih =>
    rw [List.flatten_cons, List.length_append, h f (by simp), ih (fun g hg => h g (List.mem_cons_of_mem _ hg)),
      List.length_cons]
    omega

theorem flatten_drop {fields : List Bytes} (h : ∀ f ∈ fields, f.length = 10) : ∀ j,
    fields.flatten.drop (10 * j) = (fields.drop j).flatten := by
  induction fields with
  | nil => intro j; simp
  | cons f r ih =>
    intro j
    cases j with
    | zero => simp
    | succ j =>
      rw [List.flatten_cons, show 10 * (j + 1) = f.length + 10 * j by rw [h f (by simp)]; omega,
        ← List.drop_drop, List.drop_left, List.drop_succ_cons]
      exact ih (fun g hg => h g (List.mem_cons_of_mem _ hg)) j

theorem flatten_field {fields : List Bytes} (h : ∀ f ∈ fields, f.length = 10) {j : Nat} (hj : j < fields.length) :
    field fields.flatten (10 * j) 10 = fields[j] := by
  unfold field
  rw [flatten_drop h, List.drop_eq_getElem_cons hj, List.flatten_cons]
  exact List.take_left' (h _ (List.getElem_mem hj))

theorem FieldsOk.noNul_flatten {fields : List Bytes} (h : FieldsOk fields) : NoNul fields.flatten := by
  intro c hc
  obtain ⟨f, h1, h2⟩ := List.mem_flatten.1 hc
  exact h.noNul f h1 c h2

/-- The card with the cursor at field `j`. -/
def at_ (fields : List Bytes) (j : Nat) : Card := ⟨fields.flatten, 10 * j, 10⟩

theorem at_done {fields : List Bytes} (h : FieldsOk fields) {j : Nat} (hj : j ≤ fields.length) :
    (at_ fields j).done = .ok (decide (j = fields.length)) := by
  have hl := flatten_length h.width
  have := h.few
  have hc := c47_next_width (card := at_ fields j) (w := 10) h.noNul_flatten
    (by simp only [at_]; omega) (by decide)
  by_cases he : j = fields.length
  · rw [(hc.2.1 (by simp only [at_]; omega)).2]
    simp [he]
  · rw [hc.2.2.1 (by simp only [at_]; omega)]
    simp [he]

theorem at_next {fields : List Bytes} (h : FieldsOk fields) {j : Nat} (hj : j < fields.length) :
    (at_ fields j).next = .ok (at_ fields (j + 1)) := by
  have hl := flatten_length h.width
  have := h.few
  have hc := c47_next_width (card := at_ fields j) (w := 10) h.noNul_flatten
    (by simp only [at_]; omega) (by decide)
  unfold Card.next
  rw [show (at_ fields j).width = 10 from rfl, hc.1 (by simp only [at_]; omega) (by decide)]
  rfl

theorem at_field {fields : List Bytes} (h : FieldsOk fields) {j : Nat} (hj : j < fields.length) :
    field (at_ fields j).string (at_ fields j).cur 10 = fields[j] := flatten_field h.width hj

theorem at_bounds {fields : List Bytes} (h : FieldsOk fields) {j : Nat} (hj : j ≤ fields.length) :
    (at_ fields j).cur ≤ (at_ fields j).string.length ∧ (at_ fields j).cur + 10 < 255 := by
  have hl := flatten_length h.width
  have := h.few
  simp only [at_]
  omega

/-! ## Values -/

theorem ends_replicate (b : Nat) : Ends (List.replicate b blank) := by
  cases b with
  | zero => exact .inl rfl
  | succ b => exact .inr rfl

/-- What `toString` writes is such an integer. -/
theorem showsInt_toString (v : Int) (a b : Nat) :
    ShowsInt (List.replicate a blank ++ bs (toString v) ++ List.replicate b blank) v := by
  obtain ⟨f1, f2⟩ := toDigits_facts v.natAbs
  obtain ⟨c, l, e1, e2⟩ := toDigits_cons v.natAbs
  have hne : (Nat.toDigits 10 v.natAbs).map Char.toNat ≠ [] := by rw [e1]; exact List.cons_ne_nil _ _
  rw [bs_toString]
  by_cases hneg : v < 0
  · rw [if_pos hneg]
    refine ⟨⟨some minus, (Nat.toDigits 10 v.natAbs).map Char.toNat, none, none⟩,
      ⟨⟨(by intro c h; cases h; exact .inr rfl), f1, (by intro _ h; cases h), (by intro _ _ _ h; cases h), .inl hne⟩,
        hne, a, _, ends_replicate b, ?_⟩, rfl, rfl, (by simp [minus, plus]), ?_⟩
    · simp [Numeral.text, Numeral.fracText, Numeral.expText]
    · rw [if_pos rfl, f2]; omega
  · rw [if_neg hneg]
    refine ⟨⟨none, (Nat.toDigits 10 v.natAbs).map Char.toNat, none, none⟩,
      ⟨⟨(by intro c h; cases h), f1, (by intro _ h; cases h), (by intro _ _ _ h; cases h), .inl hne⟩,
        hne, a, _, ends_replicate b, ?_⟩, rfl, rfl, (by simp), ?_⟩
    · simp [Numeral.text, Numeral.fracText, Numeral.expText]
    · rw [if_neg (by simp), f2]; omega

theorem showsInt_parse {card : Card} {w : Nat} (hn : NoNul card.string) (hc : card.cur ≤ card.string.length)
    (hw : card.cur + w < 255) (hw' : w ≤ 18) {v : Int} (h : ShowsInt (field card.string card.cur w) v) :
    card.parseInt w = .ok v := by
  obtain ⟨n, ⟨hv, hne, a, rest, hr, e⟩, hf, hx, hp, hval⟩ := h
  have htext : n.text = n.sign.toList ++ n.digits := by
    simp [Numeral.text, Numeral.fracText, Numeral.expText, hf, hx]
  have hb : digitsValue n.digits 0 ≤ int64Max := by
    have h1 := digitsValue_bound hv.digits 0
    have hlen := field_length card.string card.cur w
    rw [e, htext] at hlen
    simp only [List.length_append] at hlen
    have h2 : (10 : Nat) ^ n.digits.length ≤ 10 ^ 18 := Nat.pow_le_pow_right (by decide) (by omega)
    unfold int64Max
    omega
  rw [parseInt_eq hn hc (by omega), e, htext, hval]
  cases hsg : n.sign with
  | none =>
    have := intField_word (a := a) (neg := false) (rest := rest) hne hv.digits hb hr
    simp only [Bool.false_eq_true, if_false, List.nil_append] at this
    rw [if_neg (by decide)]
    exact this
  | some c =>
    rcases hv.sign c hsg with hpl | hm
    · rw [hsg, hpl] at hp
      exact absurd rfl hp
    · have := intField_word (a := a) (neg := true) (rest := rest) hne hv.digits hb hr
      simp only [if_true] at this
      rw [hm, if_pos rfl]
      exact this

theorem getType_string {fields : List Bytes} (h : FieldsOk fields) {j : Nat} (hj : j < fields.length)
    (hno : ¬ IsNumber fields[j]) : (at_ fields j).getType 10 = .ok .string := by
  obtain ⟨hb1, hb2⟩ := at_bounds h (Nat.le_of_lt hj)
  obtain ⟨t, h1, h2, h3⟩ := getType_spec (card := at_ fields j) (w := 10) h.noNul_flatten hb1 hb2
  rw [at_field h hj] at h2 h3
  cases t with
  | string => exact h1
  | int =>
    obtain ⟨n, hn, hf, _⟩ := h2 rfl
    exact absurd ⟨n, hn, by rw [hf]; simp⟩ hno
  | float =>
    obtain ⟨n, hn, hf, _⟩ := h3 rfl
    exact absurd ⟨n, hn, hf⟩ hno

theorem tryInt_spec {α : Type} (A : Arith α) (toInt : α → Res Int) {fields : List Bytes} (h : FieldsOk fields)
    {j : Nat} (hj : j < fields.length) {d v : Int} (hc : IntColumn A toInt d (some fields[j]) v) :
    tryInt A toInt (at_ fields j) d = .ok v := by
  obtain ⟨hb1, hb2⟩ := at_bounds h (Nat.le_of_lt hj)
  unfold tryInt
  rw [show (at_ fields j).width = 10 from rfl]
  cases hc with
  | noNumber _ hno =>
    rw [getType_string h hj hno]
    rfl
  | int _ v hs =>
    obtain ⟨n, hn, hf, he, _⟩ := id hs
    rw [← at_field h hj] at hn hs
    rw [getType_numeral h.noNul_flatten hb1 (by omega) hn (by rw [hf]; simp), if_pos ⟨hf, he⟩]
    simp only [Res.bind_ok]
    rw [showsInt_parse h.noNul_flatten hb1 hb2 (by omega) hs]
    rfl
  | float _ n v hn hf hne hv =>
    rw [← at_field h hj] at hn
    rw [getType_numeral h.noNul_flatten hb1 (by omega) hn hf,
      if_neg (by rintro ⟨h1, h2⟩; rcases hne with h | h; exacts [h h1, h h2])]
    have hp : (at_ fields j).parseFloat A 10 = .ok (n.compute A) := by
      obtain ⟨hv, _, a, rest, hr, e⟩ := id hn
      exact (parseFloat_numeral h.noNul_flatten hb1 (by omega) hv hr e).1 (hn.expFits (by decide))
    simp only [Res.bind_ok, hp]
    exact hv

theorem tryFloat_spec {α : Type} (A : Arith α) {fields : List Bytes} (h : FieldsOk fields)
    {j : Nat} (hj : j < fields.length) {d v : α} (hc : FloatColumn A d (some fields[j]) v) :
    tryFloat A (at_ fields j) d = .ok v := by
  obtain ⟨hb1, hb2⟩ := at_bounds h (Nat.le_of_lt hj)
  unfold tryFloat
  rw [show (at_ fields j).width = 10 from rfl]
  cases hc with
  | noNumber _ hno =>
    rw [getType_string h hj hno]
    rfl
  | num _ n hn hf =>
    rw [← at_field h hj] at hn
    rw [getType_numeral h.noNul_flatten hb1 (by omega) hn hf]
    have hv : (at_ fields j).parseFloat A 10 = .ok (n.compute A) := by
      obtain ⟨hv, _, a, rest, hr, e⟩ := id hn
      exact (parseFloat_numeral h.noNul_flatten hb1 (by omega) hv hr e).1 (hn.expFits (by decide))
    simp only [Res.bind_ok]
    split
    · rename_i h1; rw [hv]; rfl
    · rename_i h1; rw [hv]; rfl
    · rename_i h1; split at h1 <;> cases h1

/-- The loop over consecutive values. -/
theorem values_spec {β : Type} {try_ : Card → β → Res β} {column : β → Option Bytes → β → Prop} {d : β}
    (hmiss : ∀ v, column d none v → v = d) {fields : List Bytes} (h : FieldsOk fields)
    (htry : ∀ j (hj : j < fields.length) v, column d (some fields[j]) v → try_ (at_ fields j) d = .ok v) :
    ∀ (vs : List β) (j : Nat), j ≤ fields.length →
      (∀ k (hk : k < vs.length), column d fields[j + k]? vs[k]) →
      values try_ (List.replicate vs.length d) (at_ fields j) =
        .ok (vs, at_ fields (min fields.length (j + vs.length))) := by
  intro vs
  induction vs with
  | nil =>
    intro j hj _
    simp only [List.length_nil, List.replicate_zero, values, at_done h hj, Res.bind_ok, Nat.add_zero,
      Nat.min_eq_right hj]
  | cons v vs ih =>
    intro j hj hcol
    rw [List.length_cons, List.replicate_succ, values, at_done h hj]
    simp only [Res.bind_ok]
    by_cases he : j = fields.length
    · simp only [he, decide_true, if_true]
      have hall : ∀ k (hk : k < (v :: vs).length), (v :: vs)[k] = d := by
        intro k hk
        have := hcol k hk
        rw [List.getElem?_eq_none (by omega)] at this
        exact hmiss _ this
      have heq : d :: List.replicate vs.length d = v :: vs := by
        apply List.ext_getElem
        · simp
        · intro k h1 h2
          rw [hall k h2]
          simp only [← List.replicate_succ, List.getElem_replicate]
      rw [heq, Nat.min_eq_left (by omega)]
    · have hlt : j < fields.length := by omega
      simp only [he, decide_false, Bool.false_eq_true, if_false]
      have h0 := hcol 0 (by simp)
      rw [Nat.add_zero, List.getElem?_eq_getElem hlt] at h0
      rw [htry j hlt _ h0]
      simp only [Res.bind_ok, at_next h hlt]
      rw [ih (j + 1) hlt (fun k hk => by
        have := hcol (k + 1) (by simp; omega)
        simpa [Nat.add_assoc, Nat.add_comm 1 k] using this)]
      simp only [Res.bind_ok, List.getElem_cons_zero]
      rw [show j + 1 + vs.length = j + (vs.length + 1) by omega]

theorem string_spec {fields : List Bytes} (h : FieldsOk fields) {j : Nat} (hj : j < fields.length) :
    (at_ fields j).parseString 10 = .ok (trim fields[j]) := by
  obtain ⟨hb1, hb2⟩ := at_bounds h (Nat.le_of_lt hj)
  have := c49_string (card := at_ fields j) (w := 10) h.noNul_flatten hb1 (by omega)
  rw [this, at_field h hj]

/-! ## The cards of INCLUDE_TRANSFORM -/

theorem IntColumn.default {α : Type} {A : Arith α} {toInt : α → Res Int} {d v : Int} (h : IntColumn A toInt d none v) : v = d := by cases h; rfl
theorem FloatColumn.default {α : Type} {A : Arith α} {d v : α} (h : FloatColumn A d none v) : v = d := by
  cases h; rfl

theorem fieldAt_some (f : List Bytes) (j : Nat) : fieldAt (some f) j = f[j]? := rfl
theorem fieldAt_none (j : Nat) : fieldAt none j = none := rfl

theorem begin_at {card : Card} {fields : List Bytes} (h : card.string = fields.flatten) :
    card.begin valueWidth = at_ fields 0 := by
  unfold Card.begin at_ valueWidth
  rw [← h]

theorem card1 {α : Type} (A : Arith α) (toInt : α → Res Int) {card : Card} {fields : List Bytes}
    (h : FieldsOk fields) (hs : card.string = fields.flatten) {it : IncludeTransform α} {vs : List Int}
    (h0 : it.offsets = List.replicate 7 0) (hl : vs.length = 7)
    (hv : ∀ j (hj : j < vs.length), IntColumn A toInt 0 fields[j]? vs[j]) :
    includeTransformCard A toInt it card 1 = .ok { it with offsets := vs } := by
  unfold includeTransformCard
  simp only
  rw [begin_at hs, h0, ← hl]
  rw [values_spec (column := IntColumn A toInt) (d := 0) (fun v => IntColumn.default) h
    (fun j hj v hc => tryInt_spec A toInt h hj hc) vs 0 (Nat.zero_le _) (by simpa using hv)]
  rfl

theorem card2 {α : Type} (A : Arith α) (toInt : α → Res Int) {card : Card} {fields : List Bytes}
    (h : FieldsOk fields) (hs : card.string = fields.flatten) {it : IncludeTransform α} {v : Int}
    (h0 : it.idroff = 0) (h1 : it.prefix_ = none) (h2 : it.suffix = none)
    (hv : IntColumn A toInt 0 fields[0]? v) :
    includeTransformCard A toInt it card 2 =
      .ok { it with idroff := v, prefix_ := textColumn fields[2]?, suffix := textColumn fields[3]? } := by
  unfold includeTransformCard
  simp only
  rw [begin_at hs, at_done h (Nat.zero_le _), h0]
  simp only [Res.bind_ok]
  by_cases n0 : 0 = fields.length
  · have : fields = [] := List.length_eq_zero_iff.1 n0.symm
    subst this
    simp only [List.getElem?_nil] at hv
    rw [if_pos (by simp), IntColumn.default hv]
    cases it
    simp_all [textColumn]
  rw [if_neg (by simpa using n0)]
  have l0 : 0 < fields.length := by omega
  rw [List.getElem?_eq_getElem l0] at hv
  rw [tryInt_spec A toInt h l0 hv]
  simp only [Res.bind_ok, at_next h l0, at_done h (Nat.succ_le_of_lt l0)]
  by_cases n1 : 0 + 1 = fields.length
  · rw [if_pos (by simpa using n1), List.getElem?_eq_none (by omega), List.getElem?_eq_none (by omega)]
    cases it
    simp_all [textColumn]
  rw [if_neg (by simpa using n1)]
  have l1 : 1 < fields.length := by omega
  simp only [Nat.zero_add, at_next h l1, Res.bind_ok, at_done h (Nat.succ_le_of_lt l1)]
  by_cases n2 : 1 + 1 = fields.length
  · rw [if_pos (by simpa using n2), List.getElem?_eq_none (by omega), List.getElem?_eq_none (by omega)]
    cases it
    simp_all [textColumn]
  rw [if_neg (by simpa using n2)]
  have l2 : 2 < fields.length := by omega
  rw [show (at_ fields (1 + 1)).width = 10 from rfl, string_spec h l2]
  simp only [Res.bind_ok, at_next h l2, at_done h (Nat.succ_le_of_lt l2)]
  rw [List.getElem?_eq_getElem l2]
  by_cases n3 : 2 + 1 = fields.length
  · rw [if_pos (by simpa using n3), List.getElem?_eq_none (by omega)]
    cases it
    simp_all [textColumn]
  rw [if_neg (by simpa using n3)]
  have l3 : 3 < fields.length := by omega
  rw [show (at_ fields (2 + 1)).width = 10 from rfl, string_spec h l3, List.getElem?_eq_getElem l3]
  rfl

theorem card3 {α : Type} (A : Arith α) (toInt : α → Res Int) {card : Card} {fields : List Bytes}
    (h : FieldsOk fields) (hs : card.string = fields.flatten) {it : IncludeTransform α} {vs : List α} {v : Int}
    (h0 : it.factors = List.replicate 3 (A.ofNat 1)) (h1 : it.fcttem = none) (h2 : it.incout1 = 0) (hl : vs.length = 3)
    (hvs : ∀ j (hj : j < vs.length), FloatColumn A (A.ofNat 1) fields[j]? vs[j])
    (hv : IntColumn A toInt 0 fields[4]? v) :
    includeTransformCard A toInt it card 3 =
      .ok { it with factors := vs, fcttem := textColumn fields[3]?, incout1 := v } := by
  unfold includeTransformCard
  simp only
  rw [begin_at hs, h0, ← hl]
  rw [values_spec (column := FloatColumn A) (d := A.ofNat 1) (fun v => FloatColumn.default) h
    (fun j hj v hc => tryFloat_spec A h hj hc) vs 0 (Nat.zero_le _) (by simpa using hvs)]
  simp only [Res.bind_ok, hl, Nat.zero_add]
  rw [at_done h (Nat.min_le_left _ _)]
  simp only [Res.bind_ok]
  by_cases n3 : fields.length ≤ 3
  · rw [if_pos (by simpa using n3), List.getElem?_eq_none (by omega)]
    rw [List.getElem?_eq_none (by omega)] at hv
    rw [IntColumn.default hv]
    cases it
    simp_all [textColumn]
  rw [if_neg (by simp; omega), Nat.min_eq_right (by omega)]
  have l3 : 3 < fields.length := by omega
  rw [show (at_ fields 3).width = 10 from rfl, string_spec h l3, List.getElem?_eq_getElem l3]
  simp only [Res.bind_ok, at_next h l3, at_done h (Nat.succ_le_of_lt l3)]
  by_cases n4 : 3 + 1 = fields.length
  · rw [if_pos (by simpa using n4)]
    rw [List.getElem?_eq_none (by omega)] at hv
    rw [IntColumn.default hv]
    cases it
    simp_all [textColumn]
  rw [if_neg (by simpa using n4)]
  have l4 : 4 < fields.length := by omega
  rw [List.getElem?_eq_getElem l4] at hv
  rw [h2, tryInt_spec A toInt h l4 hv]
  rfl

theorem card4 {α : Type} (A : Arith α) (toInt : α → Res Int) {card : Card} {fields : List Bytes}
    (h : FieldsOk fields) (hs : card.string = fields.flatten) {it : IncludeTransform α} {v : Int}
    (h0 : it.tranid = 0) (hv : IntColumn A toInt 0 fields[0]? v) :
    includeTransformCard A toInt it card 4 = .ok { it with tranid := v } := by
  unfold includeTransformCard
  simp only
  rw [begin_at hs, at_done h (Nat.zero_le _), h0]
  simp only [Res.bind_ok]
  by_cases n0 : 0 = fields.length
  · have : fields = [] := List.length_eq_zero_iff.1 n0.symm
    subst this
    simp only [List.getElem?_nil] at hv
    rw [if_pos (by simp), IntColumn.default hv]
    cases it
    simp_all
  rw [if_neg (by simpa using n0)]
  have l0 : 0 < fields.length := by omega
  rw [List.getElem?_eq_getElem l0] at hv
  rw [tryInt_spec A toInt h l0 hv]
  rfl

theorem offsets_default {α : Type} {A : Arith α} {toInt : α → Res Int} {vs : List Int} (hl : vs.length = 7)
    (h : ∀ j (hj : j < vs.length), IntColumn A toInt 0 (fieldAt none j) vs[j]) : vs = List.replicate 7 0 := by
  apply List.ext_getElem
  · simp [hl]
  · intro k h1 h2
    rw [List.getElem_replicate]
    exact (h k h1).default

theorem factors_default {α : Type} {A : Arith α} {vs : List α} (hl : vs.length = 3)
    (h : ∀ j (hj : j < vs.length), FloatColumn A (A.ofNat 1) (fieldAt none j) vs[j]) :
    vs = List.replicate 3 (A.ofNat 1) := by
  apply List.ext_getElem
  · simp [hl]
  · intro k h1 h2
    rw [List.getElem_replicate]
    exact (h k h1).default

theorem includeTransformLoop_rest {α : Type} (A : Arith α) (toInt : α → Res Int) (cards : List Card)
    (it : IncludeTransform α) : includeTransformLoop A toInt cards 5 it = .ok it := by
  cases cards <;> rfl

/-- C63: an INCLUDE_TRANSFORM keyword with a file name and cards of complete ten character fields is
read as what its columns mean: the seven offsets of the second card, the offset, the prefix and the
suffix of the third, the three factors, the temperature text and the flag of the fourth and the
transformation of the fifth; everything that is missing or no number has its default, and further
cards are not looked at. The former position of the cards' cursors does not matter. -/
theorem c63_include_transform {α : Type} (A : Arith α) (toInt : α → Res Int) (name : Bytes)
    (fs : List (List Bytes)) (cards : List Card)
    (hcards : cards.map (·.string) = name :: fs.map List.flatten)
    (hname : NoNul name) (hok : ∀ f ∈ fs, FieldsOk f) (it : IncludeTransform α)
    (hd : Describes A toInt name fs it) :
    includeTransform A toInt cards = .ok it := by
  obtain ⟨d1, ⟨d2, d2'⟩, d3, d4, d5, ⟨d6, d6'⟩, d7, d8, d9⟩ := hd
  have i1 : (IncludeTransform.initial A).offsets = List.replicate 7 0 := rfl
  have i2 : (IncludeTransform.initial A).factors = List.replicate 3 (A.ofNat 1) := rfl
  obtain ⟨fileName, offsets, idroff, pre, suf, factors, fcttem, incout1, tranid⟩ := it
  simp only at d1 d2 d2' d3 d4 d5 d6 d6' d7 d8 d9
  cases cards with
  | nil => simp at hcards
  | cons c0 cards =>
    simp only [List.map_cons, List.cons.injEq] at hcards
    obtain ⟨hc0, hcards⟩ := hcards
    unfold includeTransform includeTransformLoop
    rw [if_pos (by decide)]
    have hw : includeTransformCard A toInt (IncludeTransform.initial A) c0 0 =
        .ok { IncludeTransform.initial A with fileName := some (trim name) } := by
      unfold includeTransformCard
      simp only
      rw [c49_whole (by rw [hc0]; exact hname), hc0]
      rfl
    rw [hw]
    simp only [Res.bind_ok]
    subst d1 d4 d5 d7
    cases fs with
    | nil =>
      simp only [List.map_nil, List.map_eq_nil_iff] at hcards
      subst hcards
      simp only [List.getElem?_nil] at *
      rw [offsets_default d2 d2', factors_default d6 d6', IntColumn.default d3, IntColumn.default d8,
        IntColumn.default d9]
      rfl
    | cons f1 fs =>
    cases cards with
    | nil => simp at hcards
    | cons c1 cards =>
    simp only [List.map_cons, List.cons.injEq] at hcards
    obtain ⟨hc1, hcards⟩ := hcards
    unfold includeTransformLoop
    rw [if_pos (by decide), card1 A toInt (hok f1 (by simp)) hc1 (by rfl) d2 (by simpa [fieldAt_some] using d2')]
    simp only [Res.bind_ok]
    simp only [List.getElem?_cons_zero, List.getElem?_cons_succ] at *
    cases fs with
    | nil =>
      simp only [List.map_nil, List.map_eq_nil_iff] at hcards
      subst hcards
      simp only [List.getElem?_nil] at *
      rw [factors_default d6 d6', IntColumn.default d3, IntColumn.default d8, IntColumn.default d9]
      rfl
    | cons f2 fs =>
    cases cards with
    | nil => simp at hcards
    | cons c2 cards =>
    simp only [List.map_cons, List.cons.injEq] at hcards
    obtain ⟨hc2, hcards⟩ := hcards
    unfold includeTransformLoop
    rw [if_pos (by decide), card2 A toInt (hok f2 (by simp)) hc2 (by rfl) (by rfl) (by rfl) (by simpa [fieldAt_some] using d3)]
    simp only [Res.bind_ok]
    simp only [List.getElem?_cons_zero, List.getElem?_cons_succ] at *
    cases fs with
    | nil =>
      simp only [List.map_nil, List.map_eq_nil_iff] at hcards
      subst hcards
      simp only [List.getElem?_nil] at *
      rw [factors_default d6 d6', IntColumn.default d8, IntColumn.default d9]
      rfl
    | cons f3 fs =>
    cases cards with
    | nil => simp at hcards
    | cons c3 cards =>
    simp only [List.map_cons, List.cons.injEq] at hcards
    obtain ⟨hc3, hcards⟩ := hcards
    unfold includeTransformLoop
    rw [if_pos (by decide), card3 A toInt (hok f3 (by simp)) hc3 (by rfl) (by rfl) (by rfl) d6 (by simpa [fieldAt_some] using d6') (by simpa [fieldAt_some] using d8)]
    simp only [Res.bind_ok]
    simp only [List.getElem?_cons_zero, List.getElem?_cons_succ] at *
    cases fs with
    | nil =>
      simp only [List.map_nil, List.map_eq_nil_iff] at hcards
      subst hcards
      simp only [List.getElem?_nil] at *
      rw [IntColumn.default d9]
      rfl
    | cons f4 fs =>
    cases cards with
    | nil => simp at hcards
    | cons c4 cards =>
    simp only [List.map_cons, List.cons.injEq] at hcards
    obtain ⟨hc4, hcards⟩ := hcards
    unfold includeTransformLoop
    rw [if_pos (by decide), card4 A toInt (hok f4 (by simp)) hc4 (by rfl) (by simpa [fieldAt_some] using d9)]
    simp only [Res.bind_ok]
    exact includeTransformLoop_rest A toInt cards _

/-! ## DEFINE_TRANSFORMATION -/

/-- What a card with an option means: the name is the first field, the seven parameters are the
next ones (0 if missing or no number); a card without fields gives the name NULL. -/
structure DescribesOption {α : Type} (A : Arith α) (fields : List Bytes) (o : Option_ α) : Prop where
  name : o.name = ((fields[0]?).map trim).getD (bs "NULL")
  count : o.parameters.length = 7
  parameters : ∀ j (h : j < o.parameters.length),
    FloatColumn A (A.ofNat 0) fields[j + 1]? o.parameters[j]

theorem optionCard_spec {α : Type} (A : Arith α) {card : Card} {fields : List Bytes} (h : FieldsOk fields)
    (hs : card.string = fields.flatten) {o : Option_ α} (hd : DescribesOption A fields o) :
    optionCard A (card.begin valueWidth) = .ok o := by
  obtain ⟨name, ps⟩ := o
  obtain ⟨d1, d2, d3⟩ := hd
  simp only at d1 d2 d3
  unfold optionCard
  rw [begin_at hs, at_done h (Nat.zero_le _)]
  simp only [Res.bind_ok]
  by_cases n0 : 0 = fields.length
  · have : fields = [] := List.length_eq_zero_iff.1 n0.symm
    subst this
    rw [if_pos (by simp)]
    simp only [List.getElem?_nil] at d1 d3
    have : ps = List.replicate 7 (A.ofNat 0) := by
      apply List.ext_getElem
      · simp [d2]
      · intro k h1 h2
        rw [List.getElem_replicate]
        exact (d3 k h1).default
    rw [this, d1]
    rfl
  · have l0 : 0 < fields.length := by omega
    rw [if_neg (by simpa using n0), show (at_ fields 0).width = 10 from rfl, string_spec h l0]
    simp only [Res.bind_ok, at_next h l0]
    have := values_spec (column := FloatColumn A) (d := A.ofNat 0) (fun v => FloatColumn.default) h
      (fun j hj v hc => tryFloat_spec A h hj hc) ps (0 + 1) (by omega) (fun k hk => by
        have := d3 k hk
        rw [Nat.add_comm k 1] at this
        simpa using this)
    rw [d2] at this
    rw [this]
    simp only [Res.bind_ok]
    rw [d1, List.getElem?_eq_getElem l0]
    rfl

theorem defineLoop_options {α : Type} (A : Arith α) (toInt : α → Res Int) (isTitle : Bool) :
    ∀ (cards : List Card) (fs : List (List Bytes)) (os : List (Option_ α)) (i : Nat) (dt : DefineTransformation α),
      cards.map (·.string) = fs.map List.flatten → (∀ f ∈ fs, FieldsOk f) →
      List.Forall₂ (DescribesOption A) fs os → (if isTitle then 2 else 1) ≤ i →
      defineTransformationLoop A toInt isTitle cards i dt = .ok { dt with options := dt.options ++ os } := by
  intro cards
  induction cards with
  | nil =>
    intro fs os i dt hc _ hd _
    cases fs with
    | cons f fs => simp at hc
    | nil =>
      cases hd
      simp [defineTransformationLoop]
  | cons c cards ih =>
    intro fs os i dt hc hok hd hi
    cases fs with
    | nil => simp at hc
    | cons f fs =>
      simp only [List.map_cons, List.cons.injEq] at hc
      cases hd with
      | cons h1 h2 =>
        rename_i o os
        unfold defineTransformationLoop defineTransformationCard
        simp only
        have hi0 : i ≠ 0 := by split at hi <;> omega
        have hi1 : ¬ (i = 1 ∧ isTitle = true) := by
          rintro ⟨e1, e2⟩
          rw [e2, if_pos rfl] at hi
          omega
        rw [if_neg hi0, if_neg hi1, optionCard_spec A (hok f (by simp)) hc.1 h1]
        simp only [Res.bind_ok]
        rw [ih fs os (i + 1) _ hc.2 (fun g hg => hok g (List.mem_cons_of_mem _ hg)) h2 (by omega)]
        simp

/-- The transformation number of a card that may be empty. -/
theorem tranid_card {α : Type} (A : Arith α) (toInt : α → Res Int) {card : Card} {fields : List Bytes}
    (h : FieldsOk fields) (hs : card.string = fields.flatten) {v : Int} (hv : IntColumn A toInt 0 fields[0]? v) :
    tryInt A toInt (card.begin valueWidth) 0 = .ok v := by
  rw [begin_at hs]
  by_cases n0 : 0 = fields.length
  · have : fields = [] := List.length_eq_zero_iff.1 n0.symm
    subst this
    simp only [List.getElem?_nil] at hv
    rw [IntColumn.default hv]
    rfl
  · have l0 : 0 < fields.length := by omega
    rw [List.getElem?_eq_getElem l0] at hv
    exact tryInt_spec A toInt h l0 hv

/-- C64: a DEFINE_TRANSFORMATION keyword is read as its number (first field of the first card) and one
option for every further card, in their order. -/
theorem c64_define_transformation {α : Type} (A : Arith α) (toInt : α → Res Int) (f : List Bytes)
    (fs : List (List Bytes)) (cards : List Card)
    (hcards : cards.map (·.string) = (f :: fs).map List.flatten) (hok : ∀ g ∈ f :: fs, FieldsOk g)
    (tranid : Int) (hid : IntColumn A toInt 0 f[0]? tranid) (os : List (Option_ α))
    (hos : List.Forall₂ (DescribesOption A) fs os) :
    defineTransformation A toInt cards false = .ok ⟨tranid, none, os⟩ := by
  cases cards with
  | nil => simp at hcards
  | cons c cards =>
    simp only [List.map_cons, List.cons.injEq] at hcards
    unfold defineTransformation defineTransformationLoop defineTransformationCard
    simp only [if_true, Bool.false_eq_true, if_false]
    rw [tranid_card A toInt (hok f (by simp)) hcards.1 hid]
    simp only [Res.bind_ok]
    rw [defineLoop_options A toInt false cards fs os 1 _ hcards.2 (fun g hg => hok g (List.mem_cons_of_mem _ hg)) hos
      (by simp)]
    simp

/-- C64: with a title the first card is the title (without blanks around it) and the second one has
the number. -/
theorem c64_define_transformation_title {α : Type} (A : Arith α) (toInt : α → Res Int) (title : Bytes)
    (f : List Bytes) (fs : List (List Bytes)) (cards : List Card)
    (hcards : cards.map (·.string) = title :: (f :: fs).map List.flatten) (htitle : NoNul title)
    (hok : ∀ g ∈ f :: fs, FieldsOk g)
    (tranid : Int) (hid : IntColumn A toInt 0 f[0]? tranid) (os : List (Option_ α))
    (hos : List.Forall₂ (DescribesOption A) fs os) :
    defineTransformation A toInt cards true = .ok ⟨tranid, some (trim title), os⟩ := by
  cases cards with
  | nil => simp at hcards
  | cons c0 cards =>
    cases cards with
    | nil => simp at hcards
    | cons c cards =>
      simp only [List.map_cons, List.cons.injEq] at hcards
      obtain ⟨h0, h1, h2⟩ := hcards
      unfold defineTransformation defineTransformationLoop defineTransformationCard
      simp only [if_true]
      rw [c49_whole (card := c0.begin valueWidth) (by rw [show (c0.begin valueWidth).string = c0.string from rfl, h0]; exact htitle)]
      simp only [Res.bind_ok]
      unfold defineTransformationLoop defineTransformationCard
      simp only [Nat.zero_add, Nat.one_ne_zero, if_false, and_self, if_true]
      rw [tranid_card A toInt (hok f (by simp)) h1 hid]
      simp only [Res.bind_ok]
      rw [defineLoop_options A toInt true cards fs os 2 _ h2 (fun g hg => hok g (List.mem_cons_of_mem _ hg)) hos
        (by simp)]
      rw [show (c0.begin valueWidth).string = c0.string from rfl, h0]
      simp

/-! ## Non-vacuity and findings -/

instance (s : Bytes) : Decidable (NoNul s) := inferInstanceAs (Decidable (∀ c ∈ s, c ≠ 0))

/-- A keyword without cards gives the initial values, and further cards than the five are ignored. -/
theorem c63_no_cards {α : Type} (A : Arith α) (toInt : α → Res Int) :
    includeTransform A toInt [] = .ok ⟨none, [0, 0, 0, 0, 0, 0, 0], 0, none, none, [A.ofNat 1, A.ofNat 1, A.ofNat 1],
      none, 0, 0⟩ := rfl

/-- A transformation keyword without cards. -/
theorem c64_no_cards {α : Type} (A : Arith α) (toInt : α → Res Int) (isTitle : Bool) :
    defineTransformation A toInt [] isTitle = .ok ⟨0, none, []⟩ := rfl

/-- Conversion of the exact value to an integer (cut off). -/
def cut (q : ℚ) : Res Int := .ok (if 0 ≤ q then q.floor else q.ceil)

/-- Decide that a field is no number: it is classified as a string. -/
theorem not_number {f : Bytes} (hn : NoNul f) (hl : f.length = 10)
    (h : (⟨f, 0, 10⟩ : Card).getType 10 = .ok .string) : ¬ IsNumber f := by
  rintro ⟨n, h1, h2⟩
  have hf : field f 0 10 = f := by unfold field; rw [List.drop_zero, ← hl, List.take_length]
  have := getType_numeral (card := ⟨f, 0, 10⟩) (w := 10) (n := n) hn (Nat.zero_le _) (by simp) (by rw [hf]; exact h1) h2
  rw [this] at h
  split at h <;> cases h

def exName : Bytes := bs "  bracket.k "
def exCards : List (List Bytes) :=
  [[bs "      1000", bs "     -2000", bs "          ", bs "      3.75", bs "abc       "],
   [bs "         7", bs "          ", bs "  pre     ", bs "suf       "],
   [bs "      0.25", bs "          "],
   [bs "        12"],
   [bs "ignored   "]]
def exCardList : List Card := [⟨exName, 3, 8⟩, ⟨exCards[0].flatten, 0, 0⟩, ⟨exCards[1].flatten, 5, 1⟩,
  ⟨exCards[2].flatten, 0, 0⟩, ⟨exCards[3].flatten, 0, 0⟩, ⟨exCards[4].flatten, 0, 0⟩]
def exResult : IncludeTransform ℚ :=
  ⟨some (bs "bracket.k"), [1000, -2000, 0, 3, 0, 0, 0], 7, some (bs "pre"), some (bs "suf"), [1/4, 1, 1], none, 0, 12⟩

/-- A decimal number with blanks before it. -/
theorem decimal_numeral (a : Nat) (ds fs : Bytes) (h1 : ∀ c ∈ ds, isDigit c = true) (h2 : ∀ c ∈ fs, isDigit c = true)
    (hne : ds ≠ []) : IsNumeral (List.replicate a blank ++ (ds ++ dot :: fs)) ⟨none, ds, some fs, none⟩ := by
  refine ⟨⟨(by intro c h; cases h), h1, (by intro f h; cases h; exact h2), (by intro _ _ _ h; cases h), .inl hne⟩, hne,
    a, [], .inl rfl, ?_⟩
  simp [Numeral.text, Numeral.fracText, Numeral.expText]

/-- Not vacuous: all kinds of columns (integers, a blank, a fraction, a text and missing ones). -/
theorem ex_describes : exCardList.map (·.string) = exName :: exCards.map List.flatten ∧ NoNul exName ∧
    (∀ f ∈ exCards, FieldsOk f) ∧ Describes exact cut exName exCards exResult := by
  have n1 : ¬ IsNumber (bs "          ") := not_number (by decide) (by decide) (by decide +kernel)
  have n2 : ¬ IsNumber (bs "abc       ") := not_number (by decide) (by decide) (by decide +kernel)
  have i1 : ShowsInt (bs "      1000") 1000 := showsInt_toString 1000 6 0
  have i2 : ShowsInt (bs "     -2000") (-2000) := by
    have := showsInt_toString (-2000) 5 0
    rw [bs_toString] at this
    exact this
  have i3 : ShowsInt (bs "         7") 7 := showsInt_toString 7 9 0
  have i4 : ShowsInt (bs "        12") 12 := showsInt_toString 12 8 0
  have f1 : IsNumeral (bs "      3.75") ⟨none, bs "3", some (bs "75"), none⟩ :=
    decimal_numeral 6 (bs "3") (bs "75") (by decide) (by decide) (by decide)
  have f2 : IsNumeral (bs "      0.25") ⟨none, bs "0", some (bs "25"), none⟩ :=
    decimal_numeral 6 (bs "0") (bs "25") (by decide) (by decide) (by decide)
  have hv3 : cut ((⟨none, bs "3", some (bs "75"), none⟩ : Numeral).compute exact) = .ok 3 := by decide +kernel
  have hv0 : (1/4 : ℚ) = (⟨none, bs "0", some (bs "25"), none⟩ : Numeral).compute exact := by decide +kernel
  refine ⟨rfl, by decide, ?_, ?_⟩
  · intro f hf
    exact ⟨by revert f; decide, by revert f; decide, by revert f; decide⟩
  · refine ⟨by decide +kernel, ⟨rfl, ?_⟩, .int _ _ i3, by decide +kernel, by decide +kernel, ⟨rfl, ?_⟩, rfl,
      .missing, .int _ _ i4⟩
    · intro j hj
      match j, hj with
      | 0, _ => exact .int _ _ i1
      | 1, _ => exact .int _ _ i2
      | 2, _ => exact .noNumber _ n1
      | 3, _ => exact .float _ _ _ f1 (by decide) (.inl (by decide)) hv3
      | 4, _ => exact .noNumber _ n2
      | 5, _ => exact .missing
      | 6, _ => exact .missing
    · intro j hj
      match j, hj with
      | 0, _ =>
        show FloatColumn exact _ _ (1/4 : ℚ)
        rw [hv0]
        exact .num _ _ f2 (by decide)
      | 1, _ => exact .noNumber _ n1
      | 2, _ => exact .missing

example : includeTransform exact cut exCardList = .ok exResult :=
  c63_include_transform exact cut exName exCards exCardList ex_describes.1 ex_describes.2.1 ex_describes.2.2.1 exResult
    ex_describes.2.2.2

/-- Not vacuous: a title, a number and two options. -/
example : defineTransformation exact cut [⟨bs " turn ", 0, 0⟩, ⟨bs "        12", 0, 0⟩, ⟨bs "ROTATE          0.25", 0, 0⟩,
    ⟨[], 0, 0⟩] true =
    .ok ⟨12, some (bs "turn"), [⟨bs "ROTATE", [1/4, 0, 0, 0, 0, 0, 0]⟩, ⟨bs "NULL", [0, 0, 0, 0, 0, 0, 0]⟩]⟩ := by
  have f2 : IsNumeral (bs "      0.25") ⟨none, bs "0", some (bs "25"), none⟩ :=
    decimal_numeral 6 (bs "0") (bs "25") (by decide) (by decide) (by decide)
  have hv : (1/4 : ℚ) = (⟨none, bs "0", some (bs "25"), none⟩ : Numeral).compute exact := by decide +kernel
  have h0 : (0 : ℚ) = exact.ofNat 0 := by decide +kernel
  refine c64_define_transformation_title exact cut (bs " turn ") [bs "        12"]
    [[bs "ROTATE    ", bs "      0.25"], []] _ rfl (by decide) ?_ 12 (.int _ _ (showsInt_toString 12 8 0)) _ ?_
  · intro f hf
    exact ⟨by revert f; decide, by revert f; decide, by revert f; decide⟩
  · refine .cons ⟨by decide +kernel, rfl, ?_⟩ (.cons ⟨by decide +kernel, rfl, ?_⟩ .nil)
    · intro j hj
      match j, hj with
      | 0, _ =>
        show FloatColumn exact _ _ (1/4 : ℚ)
        rw [hv]
        exact .num _ _ f2 (by decide)
      | 1, _ => exact .missing
      | 2, _ => exact .missing
      | 3, _ => exact .missing
      | 4, _ => exact .missing
      | 5, _ => exact .missing
      | 6, _ => exact .missing
    · intro j hj
      match j, hj with
      | 0, _ => exact .missing
      | 1, _ => exact .missing
      | 2, _ => exact .missing
      | 3, _ => exact .missing
      | 4, _ => exact .missing
      | 5, _ => exact .missing
      | 6, _ => exact .missing

/-- Finding: "1." and ".5" are not numbers for these keywords, so the value of the column is the default; and a plus
makes an integer 0. -/
theorem c63_ignored :
    includeTransform exact cut [⟨bs "a.k", 0, 0⟩, ⟨bs "        +5", 0, 0⟩, ⟨[], 0, 0⟩, ⟨bs "        2.        .5", 0, 0⟩] =
      .ok ⟨some (bs "a.k"), [0, 0, 0, 0, 0, 0, 0], 0, none, none, [1, 1, 1], none, 0, 0⟩ := by decide +kernel

/-- Finding: a field that is cut off at the end of the line (no trailing blanks) makes the code read behind the text. -/
theorem c63_short : includeTransform exact cut [⟨bs "a.k", 0, 0⟩, ⟨bs "         5    6", 0, 0⟩] = .ub ∧
    defineTransformation exact cut [⟨bs "         5", 0, 0⟩, ⟨bs "MIRROR", 0, 0⟩] false = .ub := by
  refine ⟨by decide +kernel, by decide +kernel⟩

end Dyna.Transform
