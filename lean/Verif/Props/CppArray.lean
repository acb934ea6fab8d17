import Verif.CppArray
/-!
# Property C54: bounds and comparisons of the C++ wrappers
-/

namespace Dyna.Cpp

open Dyna

/-! ## Arrays -/

/-- C54: an array of the elements `xs` (with whatever behind them in memory): every index below
the size gives the element, every other index throws. -/
theorem c54_array_at {α : Type} (xs rest : List α) (index : Nat) (h : xs.length < u64) :
    (∀ hi : index < xs.length, (Arr.mk (xs ++ rest) xs.length).at index = .ok xs[index]) ∧
    (xs.length ≤ index → (Arr.mk (xs ++ rest) xs.length).at index = .err) := by
  refine ⟨fun hi => ?_, fun hi => ?_⟩
  · have : ¬ (xs.length = 0 ∨ index > sub64 xs.length 1) := by
      unfold sub64 u64 at *; omega
    unfold Arr.at
    rw [if_neg this]
    simp [cell, List.getElem?_append_left hi, List.getElem?_eq_getElem hi]
  · have : xs.length = 0 ∨ index > sub64 xs.length 1 := by
      unfold sub64 u64 at *; omega
    unfold Arr.at
    rw [if_pos this]

/-- C54: a write through a valid index changes exactly that element; a write through any other
index throws. -/
theorem c54_array_set {α : Type} (xs : List α) (index : Nat) (v : α) (h : xs.length < u64) :
    (index < xs.length →
      (Arr.mk xs xs.length).set index v = .ok ⟨xs.set index v, xs.length⟩) ∧
    (xs.length ≤ index → (Arr.mk xs xs.length).set index v = .err) := by
  have h0 := c54_array_at xs [] index h
  rw [List.append_nil] at h0
  refine ⟨fun hi => ?_, fun hi => ?_⟩
  · simp [Arr.set, h0.1 hi]
  · simp [Arr.set, h0.2 hi]

theorem iterFrom_eq {α : Type} (rest : List α) (s : Nat) : ∀ (xs pre : List α),
    (Arr.mk (pre ++ xs ++ rest) s).iterFrom xs.length pre.length = .ok xs := by
  intro xs
  induction xs with
  | nil => intro pre; rfl
  | cons x xs ih =>
    intro pre
    have := ih (pre ++ [x])
    simp only [List.append_assoc, List.singleton_append, List.length_append,
      List.length_singleton, List.cons_append, List.nil_append] at this
    simp [Arr.iterFrom, cell, this]

/-- C54: iterating over the array visits exactly its elements in order. -/
theorem c54_array_iter {α : Type} (xs rest : List α) :
    (Arr.mk (xs ++ rest) xs.length).iter = .ok xs := by
  simpa [Arr.iter] using iterFrom_eq rest xs.length xs []

theorem eqLoop_eq {α : Type} [DecidableEq α] (r1 r2 : List α) : ∀ (xs ys p q : List α),
    xs.length = ys.length → p.length = q.length →
    eqLoop (p ++ xs ++ r1) (q ++ ys ++ r2) xs.length p.length = .ok (decide (xs = ys)) := by
  intro xs
  induction xs with
  | nil => intro ys p q h _; cases ys <;> simp_all [eqLoop]
  | cons x xs ih =>
    intro ys p q h hp
    cases ys with
    | nil => simp at h
    | cons y ys =>
      have := ih ys (p ++ [x]) (q ++ [y]) (by simpa using h) (by simp [hp])
      simp only [List.append_assoc, List.singleton_append, List.length_append,
        List.length_singleton] at this
      simp only [List.length_cons, List.append_assoc, List.cons_append, eqLoop, cell,
        List.getElem?_append_right (Nat.le_refl _), Nat.sub_self, List.getElem?_cons_zero,
        Res.ofOption_some, Res.bind_ok]
      rw [show (q ++ y :: (ys ++ r2))[p.length]? = some y by rw [hp]; simp]
      simp only [Res.ofOption_some, Res.bind_ok]
      by_cases hxy : x = y
      · subst hxy; simpa using this
      · simp [hxy]

/-- C54: two arrays (or two sized strings) compare equal exactly if they have the same
elements. -/
theorem c54_array_eq {α : Type} [DecidableEq α] (xs ys r1 r2 : List α) :
    (Arr.mk (xs ++ r1) xs.length).eq (Arr.mk (ys ++ r2) ys.length) = .ok (decide (xs = ys)) := by
  unfold Arr.eq
  by_cases h : xs.length = ys.length
  · simpa [h] using h ▸ eqLoop_eq r1 r2 xs ys [] [] h rfl
  · have : xs ≠ ys := fun e => h (by rw [e])
    simp [h, this]

/-! ## `String` -/

theorem strlen_eq (t rest : Bytes) (h : 0 ∉ t) : strlenFrom (t ++ 0 :: rest) = .ok t.length := by
  induction t with
  | nil => rfl
  | cons c t ih =>
    simp only [List.mem_cons, not_or] at h
    have hc : ¬ c = 0 := fun e => h.1 e.symm
    simp [strlenFrom, hc, ih h.2]

/-- C54: size, emptiness and `std::string` value of a `String` are those of its text. -/
theorem c54_string_text (t rest : Bytes) (h : 0 ∉ t) :
    strSize (t ++ 0 :: rest) = .ok t.length ∧
    strEmpty (t ++ 0 :: rest) = .ok (decide (t = [])) ∧
    strStr (t ++ 0 :: rest) = .ok t := by
  refine ⟨strlen_eq t rest h, ?_, ?_⟩
  · cases t with
    | nil => rfl
    | cons c t =>
      simp only [List.mem_cons, not_or] at h
      have hc : ¬ c = 0 := fun e => h.1 e.symm
      simp [strEmpty, cell, hc]
  · induction t with
    | nil => rfl
    | cons c t ih =>
      simp only [List.mem_cons, not_or] at h
      have hc : ¬ c = 0 := fun e => h.1 e.symm
      simp [strStr, hc, ih h.2]

/-- C54: indexing a `String` returns the character for every index below its length and throws
for every other index. -/
theorem c54_string_at (t rest : Bytes) (h : 0 ∉ t) (index : Nat) :
    (∀ hi : index < t.length, strAt (t ++ 0 :: rest) index = .ok t[index]) ∧
    (t.length ≤ index → strAt (t ++ 0 :: rest) index = .err) := by
  unfold strAt
  induction t generalizing index with
  | nil => exact ⟨fun hi => by simp at hi, fun _ => rfl⟩
  | cons c t ih =>
    simp only [List.mem_cons, not_or] at h
    have hc : ¬ c = 0 := fun e => h.1 e.symm
    cases index with
    | zero => simp [strAtLoop, hc]
    | succ k =>
      have := ih h.2 k
      simp only [List.cons_append, strAtLoop, hc, if_false, Nat.add_one_ne_zero,
        Nat.add_sub_cancel, List.length_cons, Nat.add_lt_add_iff_right, List.getElem_cons_succ,
        Nat.add_le_add_iff_right]
      exact this

/-- C54: comparing a `String` with a C string or with another `String` is true exactly if the
texts are equal. -/
theorem c54_string_eq (t u r1 r2 : Bytes) (ht : 0 ∉ t) (hu : 0 ∉ u) :
    strEq (t ++ 0 :: r1) (u ++ 0 :: r2) = .ok (decide (t = u)) := by
  induction t generalizing u with
  | nil =>
    cases u with
    | nil => rfl
    | cons d u =>
      simp only [List.mem_cons, not_or] at hu
      have hd : ¬ d = 0 := fun e => hu.1 e.symm
      simp [strEq, hd]
  | cons c t ih =>
    simp only [List.mem_cons, not_or] at ht
    have hc : ¬ c = 0 := fun e => ht.1 e.symm
    cases u with
    | nil => simp [strEq, hc]
    | cons d u =>
      simp only [List.mem_cons, not_or] at hu
      have hd : ¬ d = 0 := fun e => hu.1 e.symm
      by_cases hcd : c = d
      · subst hcd; simp [strEq, hc, ih u ht.2 hu.2]
      · simp [strEq, hc, hd, hcd]

/-- C54: comparing a `String` with a `std::string` without NUL is true exactly if the texts are
equal. -/
theorem c54_string_eq_std (t u r : Bytes) (ht : 0 ∉ t) (hu : 0 ∉ u) :
    strEqStd (t ++ 0 :: r) u = .ok (decide (t = u)) := c54_string_eq t u r [] ht hu

/-- A `std::string` with a NUL inside is cut at the NUL: it compares equal to the part in
front. (Every text up to the NUL compares equal although the texts differ.) -/
theorem c54_std_cut (t u v r : Bytes) (ht : 0 ∉ t) (hu : 0 ∉ u) :
    strEqStd (t ++ 0 :: r) (u ++ 0 :: v) = .ok (decide (t = u)) := by
  unfold strEqStd cStr
  rw [List.append_assoc, List.cons_append]
  exact c54_string_eq t u r (v ++ [0]) ht hu

/-! ## `SizedString` -/

theorem sizedEqLoop_eq (t u r1 r2 : Bytes) (hu : 0 ∉ u) :
    sizedEqLoop (t ++ r1) t.length (u ++ 0 :: r2) = .ok (decide (t = u)) := by
  induction t generalizing u with
  | nil =>
    cases u with
    | nil => cases r1 <;> rfl
    | cons d u =>
      simp only [List.mem_cons, not_or] at hu
      have hd : ¬ d = 0 := fun e => hu.1 e.symm
      cases r1 <;> simp [sizedEqLoop, hd]
  | cons c t ih =>
    cases u with
    | nil => simp [sizedEqLoop]
    | cons d u =>
      simp only [List.mem_cons, not_or] at hu
      have hd : ¬ d = 0 := fun e => hu.1 e.symm
      by_cases hcd : c = d
      · subst hcd; simp [sizedEqLoop, hd, ih u hu.2]
      · simp [sizedEqLoop, hd, hcd]

/-- C54: comparing a `SizedString` (or an array of characters) with a C string is true exactly
if the texts are equal, even if the sized string contains NUL characters. -/
theorem c54_sized_eq (t u r1 r2 : Bytes) (hu : 0 ∉ u) :
    sizedEq ⟨t ++ r1, t.length⟩ (u ++ 0 :: r2) = .ok (decide (t = u)) := by
  unfold sizedEq
  by_cases h : t = []
  · subst h
    cases u with
    | nil => rfl
    | cons d u =>
      simp only [List.mem_cons, not_or] at hu
      have hd : ¬ d = 0 := fun e => hu.1 e.symm
      simp [cell, hd]
  · have : ¬ t.length = 0 := by simpa using h
    simp only [this, if_false]
    exact sizedEqLoop_eq t u r1 r2 hu

/-- C54: the same for a `std::string` without NUL. -/
theorem c54_sized_eq_std (t u r : Bytes) (hu : 0 ∉ u) :
    sizedEqStd ⟨t ++ r, t.length⟩ u = .ok (decide (t = u)) := c54_sized_eq t u r [] hu

/-- C54: a `SizedString` converts to a `std::string` with exactly its characters. -/
theorem c54_sized_str (t r : Bytes) : sizedStr ⟨t ++ r, t.length⟩ = .ok t := by
  unfold sizedStr
  split
  · next h => simp at h; subst h; rfl
  · exact c54_array_iter t r

/-! ## `String` against `SizedString` -/

theorem mixedEqLoop_spec (t u r1 r2 : Bytes) (ht : 0 ∉ t) (hu64 : u.length < u64) :
    ∀ (n i : Nat), u.length - i < n → i ≤ u.length → i ≤ t.length →
    t.take i = u.take i →
    mixedEqLoop (t ++ 0 :: r1) ⟨u ++ r2, u.length⟩ n i =
      .ok (decide (t = u ∧ ∀ j (hj : j < t.length), i ≤ j → j < charToSize t[j])) := by
  intro n
  induction n with
  | zero => intro i h; omega
  | succ n ih =>
    intro i hn hiu hit hpre
    unfold mixedEqLoop
    rcases Nat.lt_or_ge i t.length with hlt | hge
    · have hc : cell (t ++ 0 :: r1) i = .ok t[i] := by
        simp [cell, List.getElem?_append_left hlt, List.getElem?_eq_getElem hlt]
      rw [hc]
      simp only [Res.bind_ok]
      by_cases hcond : i < charToSize t[i] ∧ i < u.length
      · rw [if_pos hcond, (c54_string_at t r1 ht i).1 hlt, (c54_array_at u r2 i hu64).1 hcond.2]
        simp only
        by_cases hxy : t[i] = u[i]
        · simp only [hxy, ne_eq, not_true_eq_false, if_false]
          rw [ih (i + 1) (by omega) (by omega) (by omega) (by
            rw [List.take_succ_eq_append_getElem hlt, List.take_succ_eq_append_getElem hcond.2,
              hpre]
            exact congrArg (fun x => u.take i ++ [x]) hxy)]
          congr 1
          rw [decide_eq_decide]
          constructor
          · rintro ⟨e, hj⟩
            refine ⟨e, fun j hj1 hj2 => ?_⟩
            by_cases hji : j = i
            · subst hji; exact hcond.1
            · exact hj j hj1 (by omega)
          · rintro ⟨e, hj⟩
            exact ⟨e, fun j hj1 hj2 => hj j hj1 (by omega)⟩
        · have hne : t ≠ u := fun e => hxy (by subst e; rfl)
          simp [hxy, hne]
      · rw [if_neg hcond]
        have hz : t[i] ≠ 0 := fun e => ht (e ▸ List.getElem_mem hlt)
        have : ¬ (t = u ∧ ∀ j (hj : j < t.length), i ≤ j → j < charToSize t[j]) := by
          rintro ⟨e, hj⟩
          exact hcond ⟨hj i hlt (Nat.le_refl _), by rw [← e]; exact hlt⟩
        simp [hz, this]
    · have hi : i = t.length := by omega
      have hc : cell (t ++ 0 :: r1) i = .ok 0 := by simp [cell, hi]
      rw [hc]
      simp only [Res.bind_ok]
      have h0 : ¬ (i < charToSize 0 ∧ i < u.length) := by
        simp [charToSize]
      rw [if_neg h0]
      have hiff : (t = u ∧ ∀ j (hj : j < t.length), i ≤ j → j < charToSize t[j]) ↔
          i = u.length := by
        constructor
        · rintro ⟨e, _⟩; rw [hi, e]
        · intro e
          refine ⟨?_, fun j hj hij => by omega⟩
          rw [hi, List.take_length] at hpre
          rw [hpre, ← hi, e, List.take_length]
      simp only [Res.pure_eq, beq_self_eq_true, Bool.and_true, Res.ok.injEq]
      rw [show (i == u.length) = decide (i = u.length) from rfl, decide_eq_decide]
      exact hiff.symm

/-- What comparing a `String` with a `SizedString` computes, for every pair of texts: true
exactly if the texts are equal **and** the code of every character is greater than its
position. -/
theorem c54_mixed_eq_exact (t u r1 r2 : Bytes) (ht : 0 ∉ t) (hu : u.length < u64) :
    mixedEq (t ++ 0 :: r1) ⟨u ++ r2, u.length⟩ =
      .ok (decide (t = u ∧ ∀ j (hj : j < t.length), j < charToSize t[j])) := by
  have := mixedEqLoop_spec t u r1 r2 ht hu (u.length + 1) 0 (by omega) (by omega) (by omega) rfl
  simpa [mixedEq] using this

/-- C54 for `String` against `SizedString`: correct for texts of at most 32 characters without
control characters. (Missing: longer texts, for which the property is false, see
`c54_mixed_eq_wrong`.) -/
theorem c54_mixed_eq_partial (t u r1 r2 : Bytes) (ht : ∀ c ∈ t, 32 ≤ c ∧ c < 256)
    (hl : t.length ≤ 32) (hu : u.length < u64) :
    mixedEq (t ++ 0 :: r1) ⟨u ++ r2, u.length⟩ = .ok (decide (t = u)) := by
  have h0 : 0 ∉ t := fun h => by have := ht 0 h; omega
  rw [c54_mixed_eq_exact t u r1 r2 h0 hu]
  congr 1
  rw [decide_eq_decide]
  refine ⟨fun h => h.1, fun h => ⟨h, fun j hj => ?_⟩⟩
  have := ht _ (List.getElem_mem hj)
  unfold charToSize u64
  split <;> omega

/-- C54 is false for `String` against `SizedString`: for every text of more than 127 ASCII
characters the comparison with the same text gives false. -/
theorem c54_mixed_eq_wrong (t r1 r2 : Bytes) (ht : ∀ c ∈ t, 0 < c ∧ c < 128)
    (hl : 127 < t.length) (hu : t.length < u64) :
    mixedEq (t ++ 0 :: r1) ⟨t ++ r2, t.length⟩ = .ok false := by
  have h0 : 0 ∉ t := fun h => by have := ht 0 h; omega
  rw [c54_mixed_eq_exact t t r1 r2 h0 hu]
  have : ¬ (t = t ∧ ∀ j (hj : j < t.length), j < charToSize t[j]) := by
    rintro ⟨_, h⟩
    have h1 := h 127 hl
    have := ht _ (List.getElem_mem hl)
    unfold charToSize at h1
    rw [if_pos this.2] at h1
    omega
  rw [decide_eq_false this]

-- non-vacuity of C54 (tests)
example : (Arr.mk [7, 8, 9] 3).at 2 = .ok 9 ∧ (Arr.mk [7, 8, 9] 3).at 3 = .err ∧
    (Arr.mk ([] : List Nat) 0).at 0 = .err ∧
    strAt [65, 66, 0, 67] 1 = .ok 66 ∧ strAt [65, 66, 0, 67] 3 = .err ∧
    strEq [65, 66, 0, 67] [65, 66, 0] = .ok true ∧ strEq [65, 66, 0] [65, 0] = .ok false ∧
    sizedEq ⟨[65, 66, 67], 2⟩ [65, 66, 0] = .ok true ∧
    mixedEq [65, 66, 0] ⟨[65, 66, 67], 2⟩ = .ok true ∧
    mixedEq (bs "a text of 33 blanks and letters  !" ++ [0])
      ⟨bs "a text of 33 blanks and letters  !", 34⟩ = .ok false := by decide +kernel

end Dyna.Cpp
