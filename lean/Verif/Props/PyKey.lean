import Verif.PyKey
import Verif.Props.CppKey
/-!
# Property C96: keywords of a key file in Python
-/

namespace Dyna.PyKey

open Dyna

/-- Specification: an index of a sequence of length `n`: numbers below `n` are valid. -/
def validIndex (n : Nat) : Arg → Option Nat
  | .int i => if 0 ≤ i ∧ i < n then some i.toNat else none
  | _ => none

theorem sizeArg_nat {i : Nat} (h : i < 2 ^ 64) : sizeArg (.int i) = some i := by
  simp only [sizeArg]
  rw [if_pos ⟨by omega, by unfold u64; omega⟩]
  rfl

theorem sizeArg_some {a : Arg} {i : Nat} (h : sizeArg a = some i) : a = .int i := by
  unfold sizeArg at h
  split at h
  · rename_i j
    split at h
    · rename_i hj
      simp only [Option.some.injEq] at h
      rw [← h]
      congr 1
      omega
    · cases h
  · cases h

theorem sizeArg_lt {a : Arg} {i : Nat} (h : sizeArg a = some i) : i < 2 ^ 64 := by
  unfold sizeArg at h
  split at h
  · split at h
    · rename_i hj
      simp only [Option.some.injEq] at h
      unfold u64 at hj
      omega
    · cases h
  · cases h

theorem valid_item {n : Nat} {a : Arg} {i : Nat} (h : validIndex n a = some i) :
    a = .int i ∧ i < n := by
  unfold validIndex at h
  split at h
  · split at h
    · simp only [Option.some.injEq] at h
      rw [← h]
      exact ⟨by congr 1; omega, by omega⟩
    · cases h
  · cases h

theorem sliceIndex_none {start size i : Nat} (h : ¬ i < size) : sliceIndex start size i = none := by
  unfold sliceIndex
  rw [if_pos]
  omega

theorem cardIndex_none {size i : Nat} (h : ¬ i < size) : cardIndex size i = none := by
  unfold cardIndex
  rw [if_pos]
  omega

theorem callIndex_some {α : Type} (f : Nat → Option α) {i : Nat} {k : α} (h : f i = some k) :
    callIndex f (some i) = .val k := by
  simp only [callIndex, h]

theorem callIndex_none {α : Type} (f : Nat → Option α) {i : Nat} (h : f i = none) :
    callIndex f (some i) = .raised .runtime := by
  simp only [callIndex, h]

theorem sliceItem_nat (start size : Nat) {i : Nat} (h : i < 2 ^ 64) :
    sliceItem (start, size) (.int i) = if i < size then .val (start + i) else .raised .runtime := by
  unfold sliceItem
  rw [sizeArg_nat h]
  clear h
  by_cases hi : i < size
  · rw [if_pos hi]
    exact callIndex_some _ (by unfold sliceIndex; exact if_neg (by omega))
  · rw [if_neg hi]
    exact callIndex_none _ (sliceIndex_none hi)

theorem keywordItem_nat (n : Nat) {i : Nat} (h : i < 2 ^ 64) :
    keywordItem n (.int i) = if i < n then .val i else .raised .runtime := by
  unfold keywordItem
  rw [sizeArg_nat h]
  clear h
  by_cases hi : i < n
  · rw [if_pos hi]
    exact callIndex_some _ (by unfold cardIndex; exact if_neg (by omega))
  · rw [if_neg hi]
    exact callIndex_none _ (cardIndex_none hi)

/-- C96: indexing a slice or a keyword with a valid index gives that keyword or card; every other argument raises. -/
theorem c96_index (start size n : Nat) (hs : size < 2 ^ 64) (hn : n < 2 ^ 64) (a : Arg) :
    (∀ i, validIndex size a = some i → sliceItem (start, size) a = .val (start + i)) ∧
    (validIndex size a = none → ∃ e, sliceItem (start, size) a = .raised e) ∧
    (∀ i, validIndex n a = some i → keywordItem n a = .val i) ∧
    (validIndex n a = none → ∃ e, keywordItem n a = .raised e) := by
  have hv : ∀ (m : Nat) (i : Nat), validIndex m (.int i) = none → ¬ i < m := by
    intro m i h hi
    simp only [validIndex] at h
    rw [if_pos ⟨by omega, by omega⟩] at h
    cases h
  refine ⟨fun i h => ?_, fun h => ?_, fun i h => ?_, fun h => ?_⟩
  · obtain ⟨rfl, hi⟩ := valid_item h
    rw [sliceItem_nat _ _ (Nat.lt_trans hi hs), if_pos hi]
  · cases hz : sizeArg a with
    | none => exact ⟨.type, by unfold sliceItem; rw [hz]; rfl⟩
    | some i =>
      have := sizeArg_some hz
      subst this
      rw [sliceItem_nat _ _ (sizeArg_lt hz), if_neg (hv _ _ h)]
      exact ⟨_, rfl⟩
  · obtain ⟨rfl, hi⟩ := valid_item h
    rw [keywordItem_nat _ (Nat.lt_trans hi hn), if_pos hi]
  · cases hz : sizeArg a with
    | none => exact ⟨.type, by unfold keywordItem; rw [hz]; rfl⟩
    | some i =>
      have := sizeArg_some hz
      subst this
      rw [keywordItem_nat _ (sizeArg_lt hz), if_neg (hv _ _ h)]
      exact ⟨_, rfl⟩

/-- Auxiliary: a loop over an object whose first `n` items exist and whose next one raises a `RuntimeError`. -/
theorem forLoop_runtime {α : Type} {item : Arg → Got α} {f : Nat → α} {n : Nat}
    (h1 : ∀ i : Nat, i < n → item (.int i) = .val (f i)) (h2 : item (.int n) = .raised .runtime) :
    ∀ (k fuel i : Nat), i + k = n → k < fuel → forLoop item fuel i = some ((List.range' i k).map f, some .runtime)
  | 0, fuel, i, hi, hf => by
    obtain ⟨g, rfl⟩ : ∃ g, fuel = g + 1 := ⟨fuel - 1, by omega⟩
    have : i = n := by omega
    subst this
    simp [forLoop, h2]
  | k + 1, fuel, i, hi, hf => by
    obtain ⟨g, rfl⟩ : ∃ g, fuel = g + 1 := ⟨fuel - 1, by omega⟩
    simp only [forLoop, h1 i (by omega)]
    rw [forLoop_runtime h1 h2 k g (i + 1) (by omega) (by omega)]
    simp [List.range'_succ]

/-- C96: a loop over a slice or over a keyword visits each keyword or card once, in order. What is missing: the loop
should end then, but it always ends with a `RuntimeError`, also for an object without elements. -/
theorem c96_for_partial (start size n : Nat) (hs : size < 2 ^ 64) (hn : n < 2 ^ 64) (fuel : Nat) :
    (size < fuel → forLoop (sliceItem (start, size)) fuel 0 = some (List.range' start size, some .runtime)) ∧
    (n < fuel → forLoop (keywordItem n) fuel 0 = some (List.range n, some .runtime)) := by
  constructor
  · intro hf
    have := forLoop_runtime (item := sliceItem (start, size)) (f := fun i => start + i) (n := size)
      (fun i hi => (c96_index start size n hs hn (.int i)).1 i (by
        simp only [validIndex]; rw [if_pos ⟨by omega, by omega⟩]; rfl))
      (by rw [sliceItem_nat _ _ hs, if_neg (by omega)]) size fuel 0 (by omega) hf
    rw [this]
    congr 2
    refine List.ext_getElem (by simp) (fun i h1 h2 => ?_)
    simp
  · intro hf
    have := forLoop_runtime (item := keywordItem n) (f := id) (n := n)
      (fun i hi => (c96_index start size n hs hn (.int i)).2.2.1 i (by
        simp only [validIndex]; rw [if_pos ⟨by omega, by omega⟩]; rfl))
      (by rw [keywordItem_nat _ hn, if_neg (by omega)]) n fuel 0 (by omega) hf
    rw [this, List.map_id, List.range_eq_range']

/-- C96 is violated: a loop over `Keywords` ends with a `TypeError` at once, whatever keywords there are. -/
theorem c96_keywords_loop (names : List Bytes) (i : Nat) : keywordsItem names (.int i) = .ok (.raised .type) := rfl

/-- Specification: the objects that a list of results has, if none of them is an exception. -/
def vals {α : Type} : List (Got α) → Option (List α)
  | [] => some []
  | .val a :: l => (vals l).map (a :: ·)
  | .raised _ :: _ => none

theorem vals_map {α : Type} (f : Nat → α) (l : List Nat) : vals (l.map fun i => Got.val (f i)) = some (l.map f) := by
  induction l with
  | nil => rfl
  | cons i l ih => simp only [List.map_cons, vals, ih, Option.map_some]

/-- C96: with `range(len(…))`, `keywords[name]` gives exactly the keywords of that name, in the order of the list, and
each of them exactly its cards, in order; a name that does not exist raises. What is missing: if several keywords have
the first name of the list, one of them can be missing (`c72_first_name`), and the message for a long name that does not
exist overruns a buffer (`c72_long_name_ub`). -/
theorem c96_items_partial (ks : List Keyword) (hs : SortedNames (ks.map Keyword.name)) (hn : ks.length < 2 ^ 64)
    (hc : ∀ k ∈ ks, k.cards.length < 2 ^ 64) (name : Bytes)
    (h : (ks.map Keyword.name).head? ≠ some name ∨ (positions (ks.map Keyword.name) name).length ≤ 1) :
    (name ∈ ks.map Keyword.name → ∃ s, keywordsItem (ks.map Keyword.name) (.str name) = .ok (.val s) ∧
      ∃ l, vals (allItems (sliceItem s) s.2) = some l ∧ l = positions (ks.map Keyword.name) name ∧
        ∀ i ∈ l, ∃ k, ks[i]? = some k ∧ k.name = name ∧
          vals (allItems (keywordItem k.cards.length) k.cards.length) = some (List.range k.cards.length)) ∧
    (name ∉ ks.map Keyword.name → name.length ≤ 990 →
      keywordsItem (ks.map Keyword.name) (.str name) = .ok (.raised .runtime)) := by
  obtain ⟨h1, h2⟩ := c72_loop_partial (ks.map Keyword.name) hs (by simpa using hn) name h
  have hall : ∀ n, n < 2 ^ 64 → vals (allItems (keywordItem n) n) = some (List.range n) := by
    intro n hn
    have : allItems (keywordItem n) n = (List.range n).map fun i => Got.val (id i) := by
      unfold allItems
      refine List.map_congr_left (fun i hi => ?_)
      have hi := List.mem_range.1 hi
      exact (c96_index 0 0 n (by omega) hn (.int i)).2.2.1 i (by
        simp only [validIndex]; rw [if_pos ⟨by omega, by omega⟩]; rfl)
    rw [this, vals_map, List.map_id]
  constructor
  · intro hm
    obtain ⟨start, size, e1, e2, e3⟩ := h1 hm
    have hsz : size ≤ ks.length := by
      rw [e2]
      unfold positions
      exact Nat.le_trans (List.length_filter_le _ _) (by simp)
    refine ⟨(start, size), by simp only [keywordsItem, e1, Res.bind_ok], positions (ks.map Keyword.name) name, ?_, rfl, ?_⟩
    · have : allItems (sliceItem (start, size)) size = (List.range size).map fun i => Got.val (start + i) := by
        unfold allItems
        refine List.map_congr_left (fun i hi => ?_)
        have hi := List.mem_range.1 hi
        exact (c96_index start size 0 (by omega) (by omega) (.int i)).1 i (by
          simp only [validIndex]; rw [if_pos ⟨by omega, by omega⟩]; rfl)
      show vals (allItems (sliceItem (start, size)) size) = _
      rw [this, vals_map (fun i => start + i)]
      obtain ⟨h46a, h46b⟩ := c46_key_file_get_slice_partial (ks.map Keyword.name) hs name h
      obtain ⟨st, sz, f1, f2⟩ := h46b hm
      unfold keywordsSlice at e1
      rw [f1] at e1
      simp only [Res.bind_ok, Res.ok.injEq, Option.some.injEq, Prod.mk.injEq] at e1
      obtain ⟨rfl, rfl⟩ := e1
      rw [← f2]
      refine congrArg some ?_
      refine List.ext_getElem (by simp) (fun i h1 h2 => ?_)
      simp
    · intro i hi
      unfold positions at hi
      obtain ⟨hi1, hi2⟩ := List.mem_filter.1 hi
      simp only [List.mem_range, List.length_map] at hi1
      rw [List.getElem?_map, List.getElem?_eq_getElem hi1] at hi2
      simp only [Option.map_some, Option.some.injEq, decide_eq_true_eq] at hi2
      exact ⟨ks[i], List.getElem?_eq_getElem hi1, hi2, hall _ (hc _ (List.getElem_mem hi1))⟩
  · intro hm hl
    simp only [keywordsItem, h2 hm hl, Res.bind_ok]

/-- Not vacuous: a list with two keywords `NODE`; a loop over its cards ends with an exception. -/
theorem c96_example :
    let ks : List Keyword := [⟨bs "ELEMENT", [bs "1"]⟩, ⟨bs "NODE", [bs "1", bs "2"]⟩, ⟨bs "NODE", [bs "3"]⟩]
    keywordsItem (ks.map Keyword.name) (.str (bs "NODE")) = .ok (.val (1, 2)) ∧
    keywordsItem (ks.map Keyword.name) (.str (bs "PART")) = .ok (.raised .runtime) ∧
    sliceItem (1, 2) (.int 1) = .val 2 ∧ sliceItem (1, 2) (.int 2) = .raised .runtime ∧
    sliceItem (1, 2) (.int (-1)) = .raised .type ∧
    forLoop (sliceItem (1, 2)) 5 0 = some ([1, 2], some .runtime) ∧
    vals (allItems (sliceItem (1, 2)) 2) = some [1, 2] ∧ positions (ks.map Keyword.name) (bs "NODE") = [1, 2] := by
  decide +kernel

end Dyna.PyKey
