import Verif.Common
/-!
# Binary search

Model of `/repo/src/binary_search.c`. All search functions of that (generated) file
share one recursion, all `_insert` functions another one; they only differ in the
comparison. The comparison is the parameter `cmp`: `cmp i` is the `int` obtained by
comparing the searched value with `arr[i]`, and `none` if `arr[i]` lies outside the
array.
-/

namespace Dyna

/-- Models `/repo/src/binary_search.c:36-75` (`binout_directory_binary_search_entry`),
`:129-166` (`d3_word_binary_search`), and `key_file_binary_search` (`:268-306`), which are
textually the same recursion with a different comparison.
`ok (some i)` models returning `i`, `ok none` models returning `~0`.
`start > end` never occurs with valid calls; it is mapped to `ub` because the unsigned
difference then wraps. Profiling calls are omitted. -/
def bsearch (cmp : Nat → Option Int) (s e : Nat) : Res (Option Nat) :=
  if s = e then
    match cmp s with
    | none => .ub
    | some c => if c = 0 then .ok (some s) else .ok none
  else if _h : e < s then .ub
  else
    let half := s + (e - s) / 2
    match cmp half with
    | none => .ub
    | some c =>
      if c < 0 then bsearch cmp s half
      else if c > 0 then
        if half = e - 1 then bsearch cmp e e
        else bsearch cmp half e
      else .ok (some half)
termination_by e - s
decreasing_by all_goals omega

/-- Models `/repo/src/binary_search.c:77-127` (`binout_directory_binary_search_entry_insert`),
and with other comparisons `d3_word_binary_search_insert` (`:168-216`) and
`key_file_binary_search_insert` (`:218-266`) of the same file. The result is `(found, index)`. -/
def bsearchInsert (cmp : Nat → Option Int) (s e : Nat) : Res (Bool × Nat) :=
  if s = e then
    match cmp s with
    | none => .ub
    | some c =>
      if c = 0 then .ok (true, s)
      else if c > 0 then .ok (false, s + 1)
      else .ok (false, s)
  else if _h : e < s then .ub
  else
    let half := s + (e - s) / 2
    match cmp half with
    | none => .ub
    | some c =>
      if c < 0 then bsearchInsert cmp s half
      else if c > 0 then
        if half = e - 1 then bsearchInsert cmp e e
        else bsearchInsert cmp half e
      else .ok (true, half)
termination_by e - s
decreasing_by all_goals omega

/-- The comparison results along `[s, e]` are those of a sorted array: first positive
(value larger than the element), then zero, then negative. Part of the specification, models no code. -/
def Descending (c : Nat → Int) (s e : Nat) : Prop :=
  ∀ i j, s ≤ i → i ≤ j → j ≤ e → (0 ≤ c j → 0 ≤ c i) ∧ (0 < c j → 0 < c i)

theorem Descending.mono {c : Nat → Int} {s e s' e' : Nat} (h : Descending c s e)
    (hs : s ≤ s') (he : e' ≤ e) : Descending c s' e' :=
  fun i j h1 h2 h3 => h i j (by omega) h2 (by omega)

theorem bsearch_spec (cmp : Nat → Option Int) (c : Nat → Int) (s e : Nat) (hse : s ≤ e)
    (hc : ∀ i, s ≤ i → i ≤ e → cmp i = some (c i)) (hd : Descending c s e) :
    (∃ i, bsearch cmp s e = .ok (some i) ∧ s ≤ i ∧ i ≤ e ∧ c i = 0) ∨
    (bsearch cmp s e = .ok none ∧ ∀ i, s ≤ i → i ≤ e → c i ≠ 0) := by
  induction hn : e - s using Nat.strongRecOn generalizing s e with
  | ind n ih =>
  rw [bsearch]
  by_cases hEq : s = e
  · subst hEq
    simp only [if_true, hc s (Nat.le_refl _) (Nat.le_refl _)]
    by_cases h0 : c s = 0
    · left; exact ⟨s, by simp [h0]⟩
    · right; refine ⟨by simp [h0], ?_⟩
      intro i h1 h2; have : i = s := by omega
      subst this; exact h0
  · have hlt : ¬ e < s := by omega
    simp only [hEq, if_false, hlt, dif_neg, not_false_iff]
    have hr : s ≤ s + (e - s) / 2 ∧ s + (e - s) / 2 < e := by omega
    generalize hh : s + (e - s) / 2 = half at hr ⊢
    rw [hc half (by omega) (by omega)]
    simp only
    by_cases hneg : c half < 0
    · simp only [hneg, if_true]
      rcases ih (half - s) (by omega) s half (by omega) (fun i h1 h2 => hc i h1 (by omega))
        (hd.mono (Nat.le_refl _) (by omega)) rfl with ⟨i, h1, h2, h3, h4⟩ | ⟨h1, h2⟩
      · left; exact ⟨i, h1, h2, by omega, h4⟩
      · right; refine ⟨h1, fun i hi1 hi2 => ?_⟩
        by_cases hi : i ≤ half
        · exact h2 i hi1 hi
        · intro h0
          have := (hd half i (by omega) (by omega) (by omega)).1 (by omega)
          omega
    · simp only [hneg, if_false]
      by_cases hpos : c half > 0
      · simp only [hpos, if_true]
        have key : ∀ i, s ≤ i → i ≤ half → c i ≠ 0 := fun i h1 h2 h0 => by
          have := (hd i half (by omega) (by omega) (by omega)).2 hpos
          omega
        by_cases hl : half = e - 1
        · simp only [if_pos hl]
          rcases ih (e - e) (by omega) e e (Nat.le_refl _) (fun i h1 h2 => hc i (by omega) h2)
            (hd.mono (by omega) (Nat.le_refl _)) rfl with ⟨i, h1, h2, h3, h4⟩ | ⟨h1, h2⟩
          · left; exact ⟨i, h1, by omega, h3, h4⟩
          · right; refine ⟨h1, fun i hi1 hi2 => ?_⟩
            by_cases hi : i ≤ half
            · exact key i hi1 hi
            · exact h2 i (by omega) hi2
        · simp only [if_neg hl]
          rcases ih (e - half) (by omega) half e (by omega) (fun i h1 h2 => hc i (by omega) h2)
            (hd.mono (by omega) (Nat.le_refl _)) rfl with ⟨i, h1, h2, h3, h4⟩ | ⟨h1, h2⟩
          · left; exact ⟨i, h1, by omega, h3, h4⟩
          · right; refine ⟨h1, fun i hi1 hi2 => ?_⟩
            by_cases hi : i ≤ half
            · exact key i hi1 hi
            · exact h2 i (by omega) hi2
      · simp only [hpos, if_false]
        left; exact ⟨half, rfl, by omega, by omega, by omega⟩

theorem bsearchInsert_spec (cmp : Nat → Option Int) (c : Nat → Int) (s e : Nat) (hse : s ≤ e)
    (hc : ∀ i, s ≤ i → i ≤ e → cmp i = some (c i)) (hd : Descending c s e) :
    (∃ i, bsearchInsert cmp s e = .ok (true, i) ∧ s ≤ i ∧ i ≤ e ∧ c i = 0) ∨
    (∃ i, bsearchInsert cmp s e = .ok (false, i) ∧ s ≤ i ∧ i ≤ e + 1 ∧
      (∀ j, s ≤ j → j < i → 0 < c j) ∧ (∀ j, i ≤ j → j ≤ e → c j < 0)) := by
  induction hn : e - s using Nat.strongRecOn generalizing s e with
  | ind n ih =>
  rw [bsearchInsert]
  by_cases hEq : s = e
  · subst hEq
    simp only [if_true, hc s (Nat.le_refl _) (Nat.le_refl _)]
    by_cases h0 : c s = 0
    · left; exact ⟨s, by simp [h0]⟩
    · right
      simp only [h0, if_false]
      by_cases hp : c s > 0
      · refine ⟨s + 1, by simp [hp], by omega, by omega, ?_, ?_⟩
        · intro j h1 h2; have : j = s := by omega
          subst this; exact hp
        · intro j h1 h2; omega
      · refine ⟨s, by simp [hp], by omega, by omega, ?_, ?_⟩
        · intro j h1 h2; omega
        · intro j h1 h2; have : j = s := by omega
          subst this; omega
  · have hlt : ¬ e < s := by omega
    simp only [hEq, if_false, hlt, dif_neg, not_false_iff]
    have hr : s ≤ s + (e - s) / 2 ∧ s + (e - s) / 2 < e := by omega
    generalize hh : s + (e - s) / 2 = half at hr ⊢
    rw [hc half (by omega) (by omega)]
    simp only
    by_cases hneg : c half < 0
    · simp only [hneg, if_true]
      rcases ih (half - s) (by omega) s half (by omega) (fun i h1 h2 => hc i h1 (by omega))
        (hd.mono (Nat.le_refl _) (by omega)) rfl with ⟨i, h1, h2, h3, h4⟩ | ⟨i, h1, h2, h3, h4, h5⟩
      · left; exact ⟨i, h1, h2, by omega, h4⟩
      · right
        refine ⟨i, h1, h2, by omega, h4, fun j hj1 hj2 => ?_⟩
        by_cases hj : j ≤ half
        · exact h5 j hj1 hj
        · have hx : ¬ (0 ≤ c j) := fun h0 => by
            have := (hd half j (by omega) (by omega) (by omega)).1 h0
            omega
          omega
    · simp only [hneg, if_false]
      by_cases hpos : c half > 0
      · simp only [hpos, if_true]
        have key : ∀ i, s ≤ i → i ≤ half → 0 < c i := fun i h1 h2 =>
          (hd i half (by omega) (by omega) (by omega)).2 hpos
        by_cases hl : half = e - 1
        · simp only [if_pos hl]
          rcases ih (e - e) (by omega) e e (Nat.le_refl _) (fun i h1 h2 => hc i (by omega) h2)
            (hd.mono (by omega) (Nat.le_refl _)) rfl with
            ⟨i, h1, h2, h3, h4⟩ | ⟨i, h1, h2, h3, h4, h5⟩
          · left; exact ⟨i, h1, by omega, h3, h4⟩
          · right; refine ⟨i, h1, by omega, h3, fun j hj1 hj2 => ?_, h5⟩
            by_cases hj : j ≤ half
            · exact key j hj1 hj
            · exact h4 j (by omega) hj2
        · simp only [if_neg hl]
          rcases ih (e - half) (by omega) half e (by omega) (fun i h1 h2 => hc i (by omega) h2)
            (hd.mono (by omega) (Nat.le_refl _)) rfl with
            ⟨i, h1, h2, h3, h4⟩ | ⟨i, h1, h2, h3, h4, h5⟩
          · left; exact ⟨i, h1, by omega, h3, h4⟩
          · right; refine ⟨i, h1, by omega, h3, fun j hj1 hj2 => ?_, h5⟩
            by_cases hj : j ≤ half
            · exact key j hj1 hj
            · exact h4 j (by omega) hj2
      · simp only [hpos, if_false]
        left; exact ⟨half, rfl, by omega, by omega, by omega⟩

/-- Models `/repo/src/binary_search.c:32-34` (`d3_word_cmp`). -/
def d3WordCmp (a b : Nat) : Int := if a > b then 1 else if a < b then -1 else 0

/-- Models `/repo/src/d3plot.c:3073-3080` (`d3plot_index_for_id`): a binary search over
`[0, num_ids - 1]`; for `num_ids = 0` the end index wraps to `SIZE_MAX`. -/
def indexForId (id : Nat) (ids : List Nat) : Res (Option Nat) :=
  bsearch (fun i => (ids[i]?).map (d3WordCmp id)) 0 (sub64 ids.length 1)

end Dyna
