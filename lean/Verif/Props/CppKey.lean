import Verif.CppKey
import Verif.Props.KeyFile
/-!
# Properties of the keywords of the C++ interface (C72)
-/

namespace Dyna

/-- A loop over a slice of at least one keyword visits the keywords of the slice in order and ends. -/
theorem visitSlice_spec (n : Nat) : ∀ (k start fuel : Nat), start + k < n → k + 1 < fuel →
    visitSlice n fuel ⟨some start, k⟩ = .ok (List.range' start (k + 1)) := by
  intro k
  induction k with
  | zero =>
    intro start fuel h hf
    obtain ⟨f, rfl⟩ : ∃ f, fuel = f + 2 := ⟨fuel - 2, by omega⟩
    simp only [visitSlice, sliceEnd, SliceIt.next]
    rw [if_neg (by simp), if_pos (by omega)]
    simp [Res.bind_ok]
  | succ k ih =>
    intro start fuel h hf
    obtain ⟨f, rfl⟩ : ∃ f, fuel = f + 1 := ⟨fuel - 1, by omega⟩
    rw [visitSlice, if_neg (by simp [sliceEnd])]
    dsimp only
    rw [if_pos (by omega)]
    have hn : SliceIt.next ⟨some start, k + 1⟩ = ⟨some (start + 1), k⟩ := by
      simp [SliceIt.next]
    rw [hn, ih (start + 1) f (by omega) (by omega)]
    simp only [Res.bind_ok]
    rw [List.range'_succ (n := k + 1)]

/-- C72: a loop over any slice of a list of keywords visits each of its keywords once, in order, and indexing it
gives the same keywords; behind the last one there is an exception. -/
theorem c72_slice (n start size : Nat) (h0 : 0 < size) (h : start + size ≤ n) (hn : n < 2 ^ 64) :
    (∀ fuel, size < fuel → visitSlice n fuel (sliceBegin start size) = .ok (List.range' start size)) ∧
    (∀ i, sliceIndex start size i = (List.range' start size)[i]?) := by
  constructor
  · intro fuel hf
    have hb : sliceBegin start size = ⟨some start, size - 1⟩ := by
      have e : (size + (u64 - 1)) % u64 = size - 1 := by unfold u64; omega
      unfold sliceBegin
      rw [e]
    rw [hb, visitSlice_spec n (size - 1) start fuel (by omega) (by omega), Nat.sub_add_cancel h0]
  · intro i
    unfold sliceIndex
    by_cases hi : i < size
    · rw [if_neg (by omega)]
      simp [hi]
    · rw [if_pos (by omega), List.getElem?_eq_none (by simp; omega)]

/-- C72: in the keywords of a key file (sorted by name), `keywords[name]` followed by a loop visits exactly the keywords of that name in the
order of the file; for a name that does not occur there is an exception. Missing to the English property: names that are first in the list
and occur several times (`c72_first_name`: the first keyword may be missed), and names of more than 990
bytes that do not occur (`c72_long_name_ub`). -/
theorem c72_loop_partial (names : List Bytes) (hs : SortedNames names) (hn : names.length < 2 ^ 64) (name : Bytes)
    (h : names.head? ≠ some name ∨ (positions names name).length ≤ 1) :
    (name ∈ names → ∃ start size, keywordsSlice names name = .ok (some (start, size)) ∧ size = (positions names name).length ∧
      ∀ fuel, names.length < fuel →
        visitSlice names.length fuel (sliceBegin start size) = .ok (positions names name)) ∧
    (name ∉ names → name.length ≤ 990 → keywordsSlice names name = .ok none) := by
  obtain ⟨h1, h2⟩ := c46_key_file_get_slice_partial names hs name h
  constructor
  · intro hm
    obtain ⟨start, size, e1, e2⟩ := h2 hm
    have hsub : ∀ i ∈ List.range' start size, i < names.length := by
      rw [e2]
      intro i hi
      exact List.mem_range.1 (List.mem_filter.1 hi).1
    have h0 : 0 < size := by
      rcases Nat.eq_zero_or_pos size with hz | hz
      · subst hz
        obtain ⟨i, hi, he⟩ := List.getElem_of_mem hm
        have : i ∈ positions names name := by
          unfold positions
          rw [List.mem_filter]
          refine ⟨List.mem_range.2 hi, ?_⟩
          simp [List.getElem?_eq_getElem hi, he]
        rw [← e2] at this
        simp at this
      · exact hz
    have hle : start + size ≤ names.length := by
      have := hsub (start + (size - 1)) (by rw [List.mem_range'_1]; omega)
      omega
    refine ⟨start, size, ?_, by rw [← e2, List.length_range'], fun fuel hf => ?_⟩
    · unfold keywordsSlice
      rw [e1]
      rfl
    · rw [(c72_slice names.length start size h0 hle hn).1 fuel (by omega), e2]
  · intro hm hl
    unfold keywordsSlice
    rw [h1 hm]
    simp only [Res.bind_ok]
    have e1 : (bs "The keyword \"").length = 13 := by decide
    have e2 : (bs "\" could not be found").length = 20 := by decide
    rw [if_neg (by unfold keywordNotFoundText; simp only [List.length_append, e1, e2]; omega)]

/-- C72: for the first name in the list the loop visits all keywords of that name or all but the first. -/
theorem c72_first_name (names : List Bytes) (hs : SortedNames names) (hn : names.length < 2 ^ 64) (name : Bytes)
    (h : names.head? = some name) :
    ∃ start size, keywordsSlice names name = .ok (some (start, size)) ∧
      ∀ fuel, names.length < fuel → ∃ l, visitSlice names.length fuel (sliceBegin start size) = .ok l ∧
        (l = positions names name ∨ (2 ≤ (positions names name).length ∧ l = (positions names name).tail)) := by
  obtain ⟨p, k, hr⟩ := run_exists names name hs
  have hp := (hr.iff 0).1 (by rw [← List.head?_eq_getElem?]; exact h)
  have hle := hr.le
  rw [hr.positions]
  unfold keywordsSlice
  rcases keyFileGetSlice_run hr with ⟨h1, h2⟩ | ⟨h1, _, h2⟩ | ⟨h1, h2, _, h3⟩
  · omega
  · refine ⟨p, k, by rw [h2]; rfl, fun fuel hf => ⟨_, (c72_slice names.length p k (by omega) hle hn).1 fuel (by omega), .inl rfl⟩⟩
  · refine ⟨1, k - 1, by rw [h3]; rfl, fun fuel hf =>
      ⟨_, (c72_slice names.length 1 (k - 1) (by omega) (by omega) hn).1 fuel (by omega), .inr ⟨by simp; omega, ?_⟩⟩⟩
    subst h1
    obtain ⟨k, rfl⟩ : ∃ j, k = j + 1 := ⟨k - 1, by omega⟩
    rw [List.range'_succ]
    simp

/-- C72: asking for a name of more than 990 bytes that does not occur overruns the memory of the message. -/
theorem c72_long_name_ub (names : List Bytes) (hs : SortedNames names) (name : Bytes) (hm : name ∉ names)
    (hl : 990 < name.length) : keywordsSlice names name = .ub := by
  have h : names.head? ≠ some name := fun h => hm (List.mem_of_mem_head? h)
  unfold keywordsSlice
  rw [(c46_key_file_get_slice_partial names hs name (.inl h)).1 hm]
  simp only [Res.bind_ok]
  have e1 : (bs "The keyword \"").length = 13 := by decide
  have e2 : (bs "\" could not be found").length = 20 := by decide
  rw [if_pos (by unfold keywordNotFoundText; simp only [List.length_append, e1, e2]; omega)]

/-- C72: a slice that would reach over the end of the list is no use of the interface: its last keyword does not exist. -/
theorem c72_slice_outside (n start size : Nat) (h0 : 0 < size) (h : n < start + size) (hs : size < u64) (fuel : Nat) (hf : size < fuel) :
    visitSlice n fuel (sliceBegin start size) = .ub := by
  have main : ∀ (k start fuel : Nat), n ≤ start + k → k + 1 < fuel → visitSlice n fuel ⟨some start, k⟩ = .ub := by
    intro k
    induction k with
    | zero =>
      intro start fuel h1 h2
      obtain ⟨f, rfl⟩ : ∃ f, fuel = f + 1 := ⟨fuel - 1, by omega⟩
      rw [visitSlice, if_neg (by simp [sliceEnd])]
      simp only
      rw [if_neg (by omega)]
    | succ k ih =>
      intro start fuel h1 h2
      obtain ⟨f, rfl⟩ : ∃ f, fuel = f + 1 := ⟨fuel - 1, by omega⟩
      rw [visitSlice, if_neg (by simp [sliceEnd])]
      simp only
      split
      · have e : SliceIt.next ⟨some start, k + 1⟩ = ⟨some (start + 1), k⟩ := by simp [SliceIt.next]
        rw [e, ih (start + 1) f (by omega) (by omega)]
        rfl
      · rfl
  have hb : sliceBegin start size = ⟨some start, size - 1⟩ := by
    have e : (size + (u64 - 1)) % u64 = size - 1 := by
      unfold u64 at hs ⊢
      omega
    unfold sliceBegin
    rw [e]
  rw [hb]
  exact main (size - 1) start fuel (by omega) (by omega)

/-- C72: a loop over a keyword visits all its cards in order; indexing gives the same cards and an exception behind them. -/
theorem c72_cards (n : Nat) : (∀ fuel, n < fuel → visitCards n fuel 0 = .ok (List.range n)) ∧
    (∀ i, cardIndex n i = (List.range n)[i]?) := by
  constructor
  · have main : ∀ (k fuel i : Nat), i + k = n → k < fuel → visitCards n fuel i = .ok (List.range' i k) := by
      intro k
      induction k with
      | zero =>
        intro fuel i hi hf
        obtain ⟨f, rfl⟩ : ∃ f, fuel = f + 1 := ⟨fuel - 1, by omega⟩
        rw [visitCards, if_pos (by omega)]
        rfl
      | succ k ih =>
        intro fuel i hi hf
        obtain ⟨f, rfl⟩ : ∃ f, fuel = f + 1 := ⟨fuel - 1, by omega⟩
        rw [visitCards, if_neg (by omega), if_pos (by omega), ih f (i + 1) (by omega) (by omega)]
        simp only [Res.bind_ok]
        rw [List.range'_succ]
    intro fuel hf
    rw [main n fuel 0 (by omega) hf, List.range_eq_range']
  · intro i
    unfold cardIndex
    by_cases hi : i < n
    · rw [if_neg (by omega), List.getElem?_range hi]
    · rw [if_pos (by omega), List.getElem?_eq_none (by simp; omega)]

/-- Not vacuous: three nodes of a file. -/
example : SortedNames [bs "KEYWORD", bs "NODE", bs "NODE", bs "NODE", bs "PART"] ∧
    keywordsSlice [bs "KEYWORD", bs "NODE", bs "NODE", bs "NODE", bs "PART"] (bs "NODE") = .ok (some (1, 3)) ∧
    visitSlice 5 9 (sliceBegin 1 3) = .ok [1, 2, 3] := by
  refine ⟨by unfold SortedNames; decide +kernel, by decide +kernel, by decide +kernel⟩

end Dyna
