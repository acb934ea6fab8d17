import Verif.PyArray
import Verif.Props.CppArray
/-!
# Property C79: arrays and strings in Python
-/

namespace Dyna.Py

open Dyna Dyna.Cpp

/-! ## Specification -/

/-- Specification: the part of a text in front of its first NUL byte. -/
def cut (t : Bytes) : Bytes := t.takeWhile (· ≠ 0)

/-- Specification: one text is in front of another one in the alphabet, where a prefix is in front of the
longer text. -/
def Before (t u : Bytes) : Prop := LexLt t u

instance (t u : Bytes) : Decidable (Before t u) := LexLt.dec t u

/-! ## Items -/

theorem pyIter_eq {α : Type} (xs rest : List α) (h : xs.length < u64) :
    ∀ (n i fuel : Nat), xs.length = i + n → n < fuel →
      iterFrom (Arr.mk (xs ++ rest) xs.length) fuel i = .ok (xs.drop i) := by
  intro n
  induction n with
  | zero =>
    intro i fuel hi hf
    obtain ⟨f, rfl⟩ : ∃ f, fuel = f + 1 := ⟨fuel - 1, by omega⟩
    rw [iterFrom, getitem, (c54_array_at xs rest i h).2 (by omega), List.drop_eq_nil_of_le (by omega)]
  | succ n ih =>
    intro i fuel hi hf
    obtain ⟨f, rfl⟩ : ∃ f, fuel = f + 1 := ⟨fuel - 1, by omega⟩
    have hlt : i < xs.length := by omega
    rw [iterFrom, getitem, (c54_array_at xs rest i h).1 hlt]
    dsimp only
    rw [ih (i + 1) f (by omega) (by omega), List.drop_eq_getElem_cons hlt]
    rfl

/-- C79: `array[i]` is the element for every index below `len(array)` and `IndexError` for all others, and
`for x in array` visits exactly the elements in order. -/
theorem c79_items {α : Type} (xs rest : List α) (h : xs.length < u64) :
    (∀ (i : Nat) (hi : i < xs.length), getitem (Arr.mk (xs ++ rest) xs.length) i = .ok xs[i]) ∧
    (∀ i : Nat, xs.length ≤ i → getitem (Arr.mk (xs ++ rest) xs.length) i = .err) ∧
    (∀ fuel : Nat, xs.length < fuel → iterFrom (Arr.mk (xs ++ rest) xs.length) fuel 0 = .ok xs) :=
  ⟨fun i hi => (c54_array_at xs rest i h).1 hi, fun i hi => (c54_array_at xs rest i h).2 hi,
   fun fuel hf => by simpa using pyIter_eq xs rest h xs.length 0 fuel (by omega) hf⟩

/-! ## Comparison with lists -/

theorem seqEq_eq {α : Type} [DecidableEq α] (xs rest : List α) (ys : List α) (h : xs.length < u64)
    (hl : xs.length = ys.length) :
    ∀ (n i : Nat), xs.length = i + n →
      seqEqLoop (Arr.mk (xs ++ rest) xs.length) (ys.map some) n i = .ok (decide (xs.drop i = ys.drop i)) := by
  intro n
  induction n with
  | zero =>
    intro i hi
    rw [seqEqLoop, List.drop_eq_nil_of_le (by omega), List.drop_eq_nil_of_le (by omega)]
    rfl
  | succ n ih =>
    intro i hi
    have hx : i < xs.length := by omega
    have hy : i < ys.length := by omega
    rw [seqEqLoop, (c54_array_at xs rest i h).1 hx, List.drop_eq_getElem_cons hx, List.drop_eq_getElem_cons hy]
    have hm : (ys.map some)[i]? = some (some ys[i]) := by simp [hy]
    simp only [Res.bind_ok, hm]
    by_cases e : xs[i] = ys[i]
    · rw [if_neg (by simpa using e), ih (i + 1) (by omega)]
      simp only [List.cons.injEq, e, true_and]
    · rw [if_pos e]
      simp only [List.cons.injEq, e, false_and, decide_false]
      rfl

/-- C79: an array of numbers equals a list or tuple of numbers exactly if both hold the same numbers. -/
theorem c79_list_eq {α : Type} [DecidableEq α] (xs rest ys : List α) (h : xs.length < u64) :
    numEquals (Arr.mk (xs ++ rest) xs.length) (.seq (ys.map some)) = .ok (decide (xs = ys)) := by
  unfold numEquals
  dsimp only
  by_cases hl : xs.length = ys.length
  · rw [if_neg (by simpa using hl), seqEq_eq xs rest ys h hl xs.length 0 (by omega)]
    simp
  · rw [if_pos (by simpa using hl), decide_eq_false (fun e => hl (by rw [e]))]

/-- C79: an array of numbers is never equal to something that is no list or tuple, in particular to no other array
and no `str`, whatever it holds. -/
theorem c79_other_eq {α : Type} [DecidableEq α] (a : Arr α) (o : Obj α) (h : ∀ items, o ≠ .seq items) :
    numEquals a o = .ok false := by
  cases o with
  | seq items => exact absurd rfl (h items)
  | _ => rfl

/-! ## Comparison with `str` -/

theorem textEqLoop_eq (t rest o : Bytes) (h : t.length < u64) (hl : t.length = o.length) :
    ∀ (n i : Nat), i + n ≤ t.length →
      textEqLoop (Arr.mk (t ++ rest) t.length) o n i = .ok (decide ((t.drop i).take n = (o.drop i).take n)) := by
  intro n
  induction n with
  | zero => intro i _; rw [textEqLoop]; simp
  | succ n ih =>
    intro i hi
    have hx : i < t.length := by omega
    have hy : i < o.length := by omega
    rw [textEqLoop, (c54_array_at t rest i h).1 hx, List.drop_eq_getElem_cons hx, List.drop_eq_getElem_cons hy]
    have hb : byteAt o i = .ok o[i] := by unfold byteAt; rw [List.getElem?_eq_getElem hy]
    simp only [hb, Res.bind_ok, List.take_succ_cons]
    by_cases e : t[i] = o[i]
    · rw [if_neg (by simpa using e), ih (i + 1) (by omega)]
      simp [e]
    · rw [if_pos e]
      simp [e, pure]

/-- C79, exactly what `text == "…"` answers: the last byte is not compared, and comparing two empty texts is
an exception. -/
theorem c79_text_eq_exact (t rest : Bytes) (s : PyStr) (h : t.length < u64) :
    textEquals (Arr.mk (t ++ rest) t.length) (.str s) =
      if t.length ≠ s.bytes.length then .ok false
      else if t = [] then .err
      else .ok (decide (t.dropLast = s.bytes.dropLast)) := by
  unfold textEquals
  dsimp only
  by_cases hl : t.length = s.bytes.length
  · rw [if_neg (by simpa using hl), if_neg (by simpa using hl)]
    by_cases h0 : t = []
    · rw [if_pos h0]
      subst h0
      have hb : s.bytes = [] := List.length_eq_zero_iff.mp hl.symm
      rw [hb]
      have : sub64 ([] : Bytes).length 1 = (u64 - 2) + 1 := by unfold sub64 u64; rfl
      rw [this, textEqLoop]
      rfl
    · rw [if_neg h0]
      have hpos : 0 < t.length := List.length_pos_iff.mpr h0
      have : sub64 t.length 1 = t.length - 1 := by unfold sub64 u64 at *; omega
      rw [this, textEqLoop_eq t rest s.bytes h hl (t.length - 1) 0 (by omega)]
      simp only [List.drop_zero]
      rw [List.dropLast_eq_take, List.dropLast_eq_take, hl]
  · rw [if_pos (by simpa using hl), if_pos (by simpa using hl)]

/-- C79, the part that holds: a text that is not empty equals the `str` of its bytes, and a text that does not
equal a `str` has other bytes. -/
theorem c79_text_eq_partial (t rest : Bytes) (s : PyStr) (h : t.length < u64) :
    (t ≠ [] → t = s.bytes → textEquals (Arr.mk (t ++ rest) t.length) (.str s) = .ok true) ∧
    (textEquals (Arr.mk (t ++ rest) t.length) (.str s) = .ok false → t ≠ s.bytes) := by
  rw [c79_text_eq_exact t rest s h]
  refine ⟨fun h0 e => ?_, fun e hc => ?_⟩
  · rw [if_neg (by simp [e]), if_neg h0, e]
    simp
  · rw [if_neg (by simp [hc])] at e
    split at e
    · exact nomatch e
    · simp [hc] at e

/-- C79 is violated: texts that differ in their last character are equal for Python. -/
theorem c79_last_character (t rest : Bytes) (c d : Nat) (s : PyStr) (hs : s.bytes = t ++ [d])
    (h : t.length + 1 < u64) :
    textEquals (Arr.mk (t ++ [c] ++ rest) (t ++ [c]).length) (.str s) = .ok true := by
  rw [c79_text_eq_exact (t ++ [c]) rest s (by simpa using h), hs]
  simp

/-- C79 is violated: an empty text compared with `""` is an exception. -/
theorem c79_empty_text (rest : Bytes) : textEquals (Arr.mk rest 0) (.str ⟨[]⟩) = .err := by
  have := c79_text_eq_exact [] rest ⟨[]⟩ (by unfold u64; decide)
  simpa [PyStr.bytes] using this

/-- C79: an array of text and anything else than a `str` is not equal. -/
theorem c79_text_other (a : Arr Nat) (items : List (Option Nat)) :
    textEquals a (.seq items) = .ok false ∧ textEquals a .other = .ok false := ⟨rfl, rfl⟩

/-! ## Order -/

theorem strncmp_sign : ∀ (n : Nat) (p q r1 r2 : Bytes), p.length = n → q.length = n →
    ∃ z : Int, strncmp n (p ++ r1) (q ++ r2) = .ok z ∧ (z < 0 ↔ LexLt (cut p) (cut q)) ∧
      (z > 0 ↔ LexLt (cut q) (cut p)) := by
  intro n
  induction n with
  | zero =>
    intro p q r1 r2 hp hq
    rw [List.length_eq_zero_iff.mp hp, List.length_eq_zero_iff.mp hq]
    exact ⟨0, rfl, by simp [cut, LexLt.irrefl], by simp [cut, LexLt.irrefl]⟩
  | succ n ih =>
    intro p q r1 r2 hp hq
    match p, q, hp, hq with
    | c :: p, d :: q, hp, hq =>
      simp only [List.cons_append, strncmp]
      by_cases e : c = d
      · subst e
        rw [if_neg (by simp)]
        by_cases e0 : c = 0
        · rw [if_pos e0]
          subst e0
          exact ⟨0, rfl, by simp [cut, LexLt.irrefl], by simp [cut, LexLt.irrefl]⟩
        · rw [if_neg e0]
          obtain ⟨z, hz, h1, h2⟩ := ih p q r1 r2 (by simpa using hp) (by simpa using hq)
          refine ⟨z, hz, ?_, ?_⟩
          · rw [h1]; simp [cut, e0, LexLt]
          · rw [h2]; simp [cut, e0, LexLt]
      · rw [if_pos e]
        refine ⟨_, rfl, ?_, ?_⟩
        · by_cases c0 : c = 0
          · subst c0
            have : d ≠ 0 := fun h => e h.symm
            simp [cut, this, LexLt]; omega
          · by_cases d0 : d = 0
            · subst d0
              simp [cut, c0, LexLt]
            · simp [cut, c0, d0, LexLt, e]; omega
        · by_cases c0 : c = 0
          · subst c0
            have : d ≠ 0 := fun h => e h.symm
            simp [cut, this, LexLt]
          · by_cases d0 : d = 0
            · subst d0
              simp [cut, c0, LexLt]; omega
            · have e' : ¬ d = c := fun h => e h.symm
              simp [cut, c0, d0, LexLt, e']

/-- C79, exactly what `<` and `>` answer: both texts are cut to the length of the shorter one and at their
first NUL byte, then they are compared in the order of the alphabet. Nothing outside of the texts is read. -/
theorem c79_order_exact (t u r1 r2 : Bytes) :
    lessThan ⟨t ++ r1, t.length⟩ ⟨u ++ r2, u.length⟩ =
      .ok (decide (LexLt (cut (t.take u.length)) (cut (u.take t.length)))) ∧
    greaterThan ⟨t ++ r1, t.length⟩ ⟨u ++ r2, u.length⟩ =
      .ok (decide (LexLt (cut (u.take t.length)) (cut (t.take u.length)))) := by
  unfold lessThan greaterThan
  dsimp only
  by_cases h : t.length ≤ u.length
  · rw [if_pos h, if_pos h, List.take_of_length_le h]
    obtain ⟨z, hz, h1, h2⟩ := strncmp_sign t.length t (u.take t.length) r1 (u.drop t.length ++ r2) rfl
      (by simp [h])
    rw [← List.append_assoc, List.take_append_drop] at hz
    rw [hz]
    simp only [Res.bind_ok, pure, h1, h2, and_self]
  · have h' : u.length ≤ t.length := by omega
    rw [if_neg h, if_neg h, List.take_of_length_le h']
    obtain ⟨z, hz, h1, h2⟩ := strncmp_sign u.length u (t.take u.length) r2 (t.drop u.length ++ r1) rfl
      (by simp [h'])
    rw [← List.append_assoc, List.take_append_drop] at hz
    rw [hz]
    simp only [Res.bind_ok, pure, h1, h2, and_self]

theorem cut_self {t : Bytes} (h : 0 ∉ t) : cut t = t := by
  induction t with
  | nil => rfl
  | cons c t ih =>
    simp only [List.mem_cons, not_or] at h
    have hc : c ≠ 0 := fun e => h.1 e.symm
    have := ih h.2
    unfold cut at *
    rw [List.takeWhile_cons, if_pos (by simpa using hc), this]

theorem cut_take {t : Bytes} (h : 0 ∉ t) (n : Nat) : cut (t.take n) = t.take n :=
  cut_self (fun hc => h (List.mem_of_mem_take hc))

/-- C79: `a < b` is `b > a`, and never both `a < b` and `a > b`. -/
theorem c79_mirror (t u r1 r2 : Bytes) :
    lessThan ⟨t ++ r1, t.length⟩ ⟨u ++ r2, u.length⟩ = greaterThan ⟨u ++ r2, u.length⟩ ⟨t ++ r1, t.length⟩ ∧
    ¬ (lessThan ⟨t ++ r1, t.length⟩ ⟨u ++ r2, u.length⟩ = .ok true ∧
       greaterThan ⟨t ++ r1, t.length⟩ ⟨u ++ r2, u.length⟩ = .ok true) := by
  rw [(c79_order_exact t u r1 r2).1, (c79_order_exact t u r1 r2).2, (c79_order_exact u t r2 r1).2]
  refine ⟨rfl, fun ⟨h1, h2⟩ => ?_⟩
  simp only [Res.ok.injEq, decide_eq_true_eq] at h1 h2
  exact h1.asymm h2

/-- C79, the part that holds: if none of the texts begins with the other one, `<` and `>` are the order of the
alphabet. -/
theorem c79_order_partial (t u r1 r2 : Bytes) (ht : 0 ∉ t) (hu : 0 ∉ u) (h1 : ¬ t <+: u) (h2 : ¬ u <+: t) :
    lessThan ⟨t ++ r1, t.length⟩ ⟨u ++ r2, u.length⟩ = .ok (decide (Before t u)) ∧
    greaterThan ⟨t ++ r1, t.length⟩ ⟨u ++ r2, u.length⟩ = .ok (decide (Before u t)) := by
  rw [(c79_order_exact t u r1 r2).1, (c79_order_exact t u r1 r2).2, cut_take ht, cut_take hu]
  have key : ∀ a b : Bytes, ¬ a <+: b → ¬ b <+: a →
      (LexLt (a.take b.length) (b.take a.length) ↔ LexLt a b) := by
    intro a
    induction a with
    | nil => intro b ha _; exact absurd (List.nil_prefix) ha
    | cons c a ih =>
      intro b ha hb
      cases b with
      | nil => exact absurd (List.nil_prefix) hb
      | cons d b =>
        simp only [List.length_cons, List.take_succ_cons, LexLt]
        by_cases e : c = d
        · subst e
          rw [ih b (fun h => ha (by simpa using h)) (fun h => hb (by simpa using h))]
        · simp [e]
  simp only [Before, key t u h1 h2, key u t h2 h1, and_self]

/-- C79, for texts of the same length `<` and `>` are the order of the alphabet. -/
theorem c79_order_same_length (t u r1 r2 : Bytes) (ht : 0 ∉ t) (hu : 0 ∉ u) (hl : t.length = u.length) :
    lessThan ⟨t ++ r1, t.length⟩ ⟨u ++ r2, u.length⟩ = .ok (decide (Before t u)) ∧
    greaterThan ⟨t ++ r1, t.length⟩ ⟨u ++ r2, u.length⟩ = .ok (decide (Before u t)) := by
  rw [(c79_order_exact t u r1 r2).1, (c79_order_exact t u r1 r2).2,
    List.take_of_length_le (by omega), List.take_of_length_le (by omega), cut_self ht, cut_self hu]
  exact ⟨rfl, rfl⟩

/-- C79 is violated: a text and a longer text that begins with it are neither in front of each other nor behind
each other, so that sorting is not determined: with two ends `c < d`, `t` is not ordered with `t ++ c` and not
with `t ++ d`, but they are ordered with each other. -/
theorem c79_prefix_not_ordered (t : Bytes) (c d : Nat) (ht : 0 ∉ t) (hc : c ≠ 0) (hcd : c < d) :
    lessThan ⟨t, t.length⟩ ⟨t ++ [c], (t ++ [c]).length⟩ = .ok false ∧
    greaterThan ⟨t, t.length⟩ ⟨t ++ [c], (t ++ [c]).length⟩ = .ok false ∧
    lessThan ⟨t, t.length⟩ ⟨t ++ [d], (t ++ [d]).length⟩ = .ok false ∧
    greaterThan ⟨t, t.length⟩ ⟨t ++ [d], (t ++ [d]).length⟩ = .ok false ∧
    lessThan ⟨t ++ [c], (t ++ [c]).length⟩ ⟨t ++ [d], (t ++ [d]).length⟩ = .ok true ∧
    Before t (t ++ [c]) := by
  have pre : ∀ e : Nat, lessThan ⟨t, t.length⟩ ⟨t ++ [e], (t ++ [e]).length⟩ = .ok false ∧
      greaterThan ⟨t, t.length⟩ ⟨t ++ [e], (t ++ [e]).length⟩ = .ok false := by
    intro e
    have := c79_order_exact t (t ++ [e]) [] []
    rw [List.append_nil, List.append_nil] at this
    rw [this.1, this.2, List.take_of_length_le (l := t) (by simp)]
    simp [LexLt.irrefl]
  have lex : ∀ (a : Bytes) (x y : Nat), x < y → LexLt (a ++ [x]) (a ++ [y]) := by
    intro a x y hxy
    induction a with
    | nil => exact Or.inl hxy
    | cons z a ih => exact Or.inr ⟨rfl, ih⟩
  have lexp : ∀ (a : Bytes) (x : Nat), LexLt a (a ++ [x]) := by
    intro a x
    induction a with
    | nil => trivial
    | cons z a ih => exact Or.inr ⟨rfl, ih⟩
  refine ⟨(pre c).1, (pre c).2, (pre d).1, (pre d).2, ?_, lexp t c⟩
  have hd : d ≠ 0 := by omega
  have := c79_order_same_length (t ++ [c]) (t ++ [d]) [] []
    (by simp [ht]; exact fun h => hc h.symm) (by simp [ht]; exact fun h => hd h.symm) (by simp)
  rw [List.append_nil, List.append_nil] at this
  rw [this.1]
  simp [Before, lex t c d hcd]

/-! ## Strings -/

/-- C79: the operators of a `String` work on its text. -/
theorem c79_view (t rest : Bytes) (h : 0 ∉ t) : view (t ++ 0 :: rest) = .ok ⟨t ++ 0 :: rest, t.length⟩ := by
  unfold view strSize
  rw [strlen_eq t rest h]
  rfl

/-- C79: `String(s)` and `SizedString(s)` hold the bytes of `s`: a `String` up to the first NUL byte. -/
theorem c79_new (s : PyStr) :
    (0 ∉ s.bytes → strSize (newString s) = .ok s.bytes.length ∧ strStr (newString s) = .ok s.bytes) ∧
    strStr (newString s) = .ok (cut s.bytes) ∧
    sizedStr (newSized s) = .ok s.bytes := by
  have hs : ∀ (b : Bytes), strStr (b ++ [0]) = .ok (cut b) := by
    intro b
    induction b with
    | nil => rfl
    | cons c b ih =>
      by_cases hc : c = 0
      · subst hc; simp [strStr, cut]
      · simp [strStr, hc, cut, ih, pure]
  refine ⟨fun h => ⟨strlen_eq s.bytes [] h, ?_⟩, hs s.bytes, ?_⟩
  · rw [newString, hs, cut_self h]
  · have := c54_sized_str s.bytes []
    rwa [List.append_nil] at this

theorem joinChars_eq : ∀ (items : List (Option PyStr)) (b : Bytes),
    joinChars items = .ok b ↔ items.map (Option.map PyStr.bytes) = b.map (fun c => some [c]) := by
  intro items
  induction items with
  | nil => intro b; cases b <;> simp [joinChars]
  | cons it items ih =>
    intro b
    cases it with
    | none => cases b <;> simp [joinChars]
    | some s =>
      rw [joinChars]
      split
      · rename_i c hc
        cases b with
        | nil => cases joinChars items <;> simp
        | cons d b =>
          have := ih b
          cases hj : joinChars items with
          | ok x =>
            rw [hj] at this
            simp only [Res.bind_ok, pure, List.map_cons, Option.map_some, hc, List.cons.injEq, Option.some.injEq,
              Res.ok.injEq, and_true, ← this]
          | err => rw [hj] at this; simp_all
          | ub => rw [hj] at this; simp_all
          | abort => rw [hj] at this; simp_all
      · rename_i hne
        cases b with
        | nil => simp
        | cons d b =>
          simp only [List.map_cons, Option.map_some, List.cons.injEq, Option.some.injEq]
          constructor
          · intro h; exact nomatch h
          · intro h; exact absurd h.1 (hne d)

/-- C79: a list or tuple makes a string exactly if all items are single characters of one byte, and then it is
the string of these bytes. -/
theorem c79_new_of_list (items : List (Option PyStr)) (b : Bytes) :
    (stringOfSeq items = .ok (b ++ [0]) ↔ items.map (Option.map PyStr.bytes) = b.map (fun c => some [c])) ∧
    (sizedOfSeq items = .ok ⟨b, b.length⟩ ↔ items.map (Option.map PyStr.bytes) = b.map (fun c => some [c])) := by
  unfold stringOfSeq sizedOfSeq
  rw [← joinChars_eq]
  cases hj : joinChars items <;> simp [pure]
  intro h; rw [h]

/-- C79: `text[i] = "c"` replaces exactly this character; an index behind the end, or a `str` that is not one
character, is an exception. -/
theorem c79_setitem (t : Bytes) (index : Nat) (c : Nat) (h : t.length < u64) :
    (index < t.length → setChar ⟨t, t.length⟩ index ⟨[[c]]⟩ = .ok ⟨t.set index c, t.length⟩) ∧
    (t.length ≤ index → setChar ⟨t, t.length⟩ index ⟨[[c]]⟩ = .err) ∧
    (∀ s : PyStr, s.chars.length ≠ 1 → setChar ⟨t, t.length⟩ index s = .err) := by
  have := c54_array_set t index c h
  refine ⟨fun hi => ?_, fun hi => ?_, fun s hs => ?_⟩
  · simp [setChar, byteAt, PyStr.bytes, this.1 hi]
  · simp [setChar, byteAt, PyStr.bytes, this.2 hi]
  · simp [setChar, hs]

/-- C79, a character of several bytes is cut to its first byte. -/
theorem c79_setitem_cut (t : Bytes) (index c : Nat) (more : Bytes) (h : t.length < u64) (hi : index < t.length) :
    setChar ⟨t, t.length⟩ index ⟨[c :: more]⟩ = .ok ⟨t.set index c, t.length⟩ := by
  simp [setChar, byteAt, PyStr.bytes, (c54_array_set t index c h).1 hi]

/-! ## Examples -/

/-- The text `"elem"` against other texts. -/
example :
    textEquals ⟨bs "elem", 4⟩ (.str ⟨(bs "elem").map (fun c => [c])⟩) = .ok true ∧
    textEquals ⟨bs "elem", 4⟩ (.str ⟨(bs "elex").map (fun c => [c])⟩) = .ok true ∧
    textEquals ⟨bs "elem", 4⟩ (.str ⟨(bs "exem").map (fun c => [c])⟩) = .ok false ∧
    lessThan ⟨bs "elem", 4⟩ ⟨bs "node", 4⟩ = .ok true ∧
    numEquals ⟨[7, 8, 9], 3⟩ (.seq [some 7, some 8, some 9]) = .ok true ∧
    iterFrom (Arr.mk [7, 8, 9] 3) 5 0 = .ok [7, 8, 9] ∧
    stringOfSeq [some ⟨[[97]]⟩, some ⟨[[98]]⟩] = .ok (bs "ab" ++ [0]) := by
  decide +kernel

/-- The hypotheses of `c79_order_partial` hold for "elem" and "elbow". -/
example : lessThan ⟨bs "elem", 4⟩ ⟨bs "elbow", 5⟩ = .ok (decide (Before (bs "elem") (bs "elbow"))) := by
  have := (c79_order_partial (bs "elem") (bs "elbow") [] [] (by decide) (by decide) (by decide) (by decide)).1
  simpa [bs] using this

end Dyna.Py
