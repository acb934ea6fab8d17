import Verif.KeyFile
/-!
# Properties C44-C46: the keyword list and its lookups
-/

namespace Dyna

/-! ## Runs of equal names -/

/-- The names equal to `value` are those at the positions `p ≤ i < p + k`; smaller names are in
front and larger names behind. -/
structure Run (names : List Bytes) (value : Bytes) (p k : Nat) : Prop where
  le : p + k ≤ names.length
  lt : ∀ i n, names[i]? = some n → i < p → LexLt n value
  eq : ∀ i n, names[i]? = some n → p ≤ i → i < p + k → n = value
  gt : ∀ i n, names[i]? = some n → p + k ≤ i → LexLt value n

theorem run_exists (names : List Bytes) (value : Bytes) (hs : SortedNames names) :
    ∃ p k, Run names value p k := by
  induction names with
  | nil => exact ⟨0, 0, by simp, by simp, by simp, by simp⟩
  | cons a as ih =>
    have hs' : SortedNames as := (List.pairwise_cons.1 hs).2
    have hle := (List.pairwise_cons.1 hs).1
    obtain ⟨p, k, hr⟩ := ih hs'
    rcases LexLt.total a value with h | h | h
    · refine ⟨p + 1, k, by have := hr.le; simp; omega, ?_, ?_, ?_⟩
      · intro i n hi hip
        cases i with
        | zero => simp at hi; subst hi; exact h
        | succ i => exact hr.lt i n (by simpa using hi) (by omega)
      · intro i n hi h1 h2
        cases i with
        | zero => omega
        | succ i => exact hr.eq i n (by simpa using hi) (by omega) (by omega)
      · intro i n hi h1
        cases i with
        | zero => omega
        | succ i => exact hr.gt i n (by simpa using hi) (by omega)
    · have hp : p = 0 ∨ as.length = 0 := by
        by_cases h0 : p = 0
        · exact .inl h0
        · right
          cases as with
          | nil => rfl
          | cons b bs =>
            have h1 := hr.lt 0 b (by simp) (by omega)
            exact absurd (h ▸ h1) (hle b (by simp))
      have hp : p = 0 := by have := hr.le; omega
      subst hp
      refine ⟨0, k + 1, by have := hr.le; simp; omega, fun i n _ hi => by omega, ?_, ?_⟩
      · intro i n hi h1 h2
        cases i with
        | zero => simp at hi; rw [← hi, h]
        | succ i => exact hr.eq i n (by simpa using hi) (by omega) (by omega)
      · intro i n hi h1
        cases i with
        | zero => omega
        | succ i => exact hr.gt i n (by simpa using hi) (by omega)
    · refine ⟨0, 0, by simp, fun i n _ hi => by omega, fun i n _ h1 h2 => by omega, ?_⟩
      intro i n hi _
      cases i with
      | zero => simp at hi; subst hi; exact h
      | succ i =>
        have hm : n ∈ as := List.mem_of_getElem? (by simpa using hi)
        rcases LexLt.total value n with h1 | h1 | h1
        · exact h1
        · exact absurd (h1 ▸ h) (hle n hm)
        · exact absurd (h1.trans h) (hle n hm)

theorem Run.iff {names : List Bytes} {value : Bytes} {p k : Nat} (hr : Run names value p k)
    (i : Nat) : names[i]? = some value ↔ p ≤ i ∧ i < p + k := by
  constructor
  · intro h
    refine ⟨?_, ?_⟩
    · apply Nat.le_of_not_lt; intro h1; exact LexLt.irrefl _ (hr.lt i value h h1)
    · apply Nat.lt_of_not_le; intro h1; exact LexLt.irrefl _ (hr.gt i value h h1)
  · intro ⟨h1, h2⟩
    have hl : i < names.length := by have := hr.le; omega
    rw [List.getElem?_eq_getElem hl]
    exact congrArg some (hr.eq i _ (List.getElem?_eq_getElem hl) h1 h2)

theorem Run.mem_iff {names : List Bytes} {value : Bytes} {p k : Nat} (hr : Run names value p k) :
    value ∈ names ↔ 0 < k := by
  constructor
  · intro h
    obtain ⟨i, hi⟩ := List.getElem?_of_mem h
    have := (hr.iff i).1 hi; omega
  · intro h
    exact List.mem_of_getElem? ((hr.iff p).2 (by omega))

/-- The positions of `name` in a list of names, in ascending order: the specification of the
lookups. -/
def positions (names : List Bytes) (name : Bytes) : List Nat :=
  (List.range names.length).filter (fun i => decide (names[i]? = some name))

theorem range_split {p k n : Nat} (h : p + k ≤ n) :
    List.range n = List.range' 0 p ++ List.range' p k ++ List.range' (p + k) (n - (p + k)) := by
  rw [List.range_eq_range', show n = p + k + (n - (p + k)) by omega]
  rw [← List.range'_append_1, ← List.range'_append_1]
  simp

theorem Run.positions {names : List Bytes} {value : Bytes} {p k : Nat}
    (hr : Run names value p k) : positions names value = List.range' p k := by
  unfold Dyna.positions
  rw [range_split hr.le, List.filter_append, List.filter_append]
  have h1 : (List.range' 0 p).filter (fun i => decide (names[i]? = some value)) = [] := by
    rw [List.filter_eq_nil_iff]
    intro i hi
    simp only [List.mem_range'_1] at hi
    simp only [decide_eq_true_eq, hr.iff]; omega
  have h2 : (List.range' p k).filter (fun i => decide (names[i]? = some value)) =
      List.range' p k := by
    rw [List.filter_eq_self]
    intro i hi
    simp only [List.mem_range'_1] at hi
    simp only [decide_eq_true_eq, hr.iff]; omega
  have h3 : (List.range' (p + k) (names.length - (p + k))).filter
      (fun i => decide (names[i]? = some value)) = [] := by
    rw [List.filter_eq_nil_iff]
    intro i hi
    simp only [List.mem_range'_1] at hi
    simp only [decide_eq_true_eq, hr.iff]; omega
  rw [h1, h2, h3]; simp

theorem Run.ne {names : List Bytes} {value n : Bytes} {p k i : Nat} (hr : Run names value p k)
    (h : names[i]? = some n) : (strcmp n value = 0 ↔ p ≤ i ∧ i < p + k) := by
  rw [strcmp_eq_zero, ← hr.iff i, h]; simp

/-! ## The loops -/

theorem skipEqual_run {names : List Bytes} {value : Bytes} {p k i : Nat}
    (hr : Run names value p k) (h1 : p ≤ i) (h2 : i ≤ p + k) :
    skipEqual names value i = if p + k < names.length then .ok (p + k) else .ub := by
  induction hn : p + k - i generalizing i with
  | zero =>
    have hi : i = p + k := by omega
    rw [skipEqual]
    split
    · rename_i h; rw [List.getElem?_eq_none_iff] at h
      rw [if_neg (by omega)]
    · rename_i n h
      have hl := (List.getElem?_eq_some_iff.1 h).1
      rw [if_neg (by rw [hr.ne h]; omega), if_pos (by omega), hi]
  | succ d ih =>
    have hle := hr.le
    rw [skipEqual]
    split
    · rename_i h; rw [List.getElem?_eq_none_iff] at h; omega
    · rename_i n h
      rw [if_pos ((hr.ne h).2 (by omega)), ih (by omega) (by omega) (by omega)]

theorem walkBack_run {names : List Bytes} {value : Bytes} {p k f : Nat}
    (hr : Run names value p k) (h1 : p ≤ f) (h2 : f < p + k) :
    walkBack names value f = .ok (p - 1) := by
  have hle := hr.le
  have hone : ∀ i, i < p → i + 1 = p → walkBack names value i = .ok i := by
    intro i hi hip
    cases i with
    | zero => rfl
    | succ i =>
      rw [walkBack]
      have hl : i + 1 < names.length := by omega
      rw [List.getElem?_eq_getElem hl]
      simp only
      rw [if_neg (by rw [hr.ne (List.getElem?_eq_getElem hl)]; omega)]
  induction f with
  | zero => simp [walkBack]; omega
  | succ f ih =>
    rw [walkBack]
    have hl : f + 1 < names.length := by omega
    rw [List.getElem?_eq_getElem hl]
    simp only
    rw [if_pos ((hr.ne (List.getElem?_eq_getElem hl)).2 (by omega))]
    by_cases hp : p ≤ f
    · exact ih hp (by omega)
    · rw [hone f (by omega) (by omega)]; congr 1; omega

theorem walkEnd_run {names : List Bytes} {value : Bytes} {p k i : Nat}
    (hr : Run names value p k) (h1 : p ≤ i) (h2 : i ≤ p + k) :
    walkEnd names value i = p + k := by
  induction hn : p + k - i generalizing i with
  | zero =>
    have hi : i = p + k := by omega
    rw [walkEnd]
    split
    · exact hi
    · rename_i n h
      rw [if_neg (by rw [hr.ne h]; omega), hi]
  | succ d ih =>
    have hle := hr.le
    rw [walkEnd]
    split
    · rename_i h; rw [List.getElem?_eq_none_iff] at h; omega
    · rename_i n h
      rw [if_pos ((hr.ne h).2 (by omega)), ih (by omega) (by omega) (by omega)]

theorem walkForward_eq (num index i j : Nat) (h : i ≤ num) (hj : j ≤ index) :
    walkForward num index i j = (min (i + (index - j)) num, min index (j + (num - i))) := by
  induction hn : num - i generalizing i j with
  | zero =>
    rw [walkForward, if_neg (by omega)]
    congr 1 <;> omega
  | succ d ih =>
    rw [walkForward]
    by_cases hji : j < index
    · rw [if_pos (by omega), ih (i + 1) (j + 1) (by omega) (by omega) (by omega)]
      congr 1 <;> omega
    · rw [if_neg (by omega)]
      congr 1 <;> omega

theorem keySearch_run {names : List Bytes} {value : Bytes} {p k : Nat} (hne : names ≠ [])
    (hr : Run names value p k) :
    (k = 0 ∧ keySearch names value = .ok none) ∨
    (∃ f, p ≤ f ∧ f < p + k ∧ keySearch names value = .ok (some f)) := by
  have h0 : 0 < names.length := List.length_pos_iff.2 hne
  have hle := hr.le
  let c : Nat → Int := fun i => match names[i]? with
    | some e => strcmp value e
    | none => 0
  have hci : ∀ i (h : i < names.length), c i = strcmp value names[i] := fun i h => by
    simp [c, List.getElem?_eq_getElem h]
  have hneg : ∀ i (h : i < names.length), (c i < 0 ↔ p + k ≤ i) := by
    intro i h
    rw [hci i h, strcmp_neg]
    refine ⟨fun hx => ?_, fun hx => hr.gt i _ (List.getElem?_eq_getElem h) hx⟩
    apply Nat.le_of_not_lt; intro h1
    by_cases h2 : i < p
    · exact (hr.lt i _ (List.getElem?_eq_getElem h) h2).asymm hx
    · have := hr.eq i _ (List.getElem?_eq_getElem h) (by omega) h1
      rw [this] at hx; exact LexLt.irrefl _ hx
  have hpos : ∀ i (h : i < names.length), (0 < c i ↔ i < p) := by
    intro i h
    rw [hci i h, strcmp_pos]
    refine ⟨fun hx => ?_, fun hx => hr.lt i _ (List.getElem?_eq_getElem h) hx⟩
    apply Nat.lt_of_not_le; intro h1
    by_cases h2 : p + k ≤ i
    · exact (hr.gt i _ (List.getElem?_eq_getElem h) h2).asymm hx
    · have := hr.eq i _ (List.getElem?_eq_getElem h) h1 (by omega)
      rw [this] at hx; exact LexLt.irrefl _ hx
  have hcmp : ∀ i, 0 ≤ i → i ≤ names.length - 1 →
      (fun i => (names[i]?).map (strcmp value)) i = some (c i) := by
    intro i _ hi
    have hi' : i < names.length := by omega
    simp [c, List.getElem?_eq_getElem hi']
  have hd : Descending c 0 (names.length - 1) := by
    intro i j _ hij hj
    have := hneg i (by omega)
    have := hneg j (by omega)
    have := hpos i (by omega)
    have := hpos j (by omega)
    omega
  unfold keySearch
  rcases bsearch_spec _ c 0 (names.length - 1) (by omega) hcmp hd with
    ⟨i, h1, _, h3, h4⟩ | ⟨h1, h2⟩
  · right
    have := hneg i (by omega)
    have := hpos i (by omega)
    exact ⟨i, by omega, by omega, h1⟩
  · left
    refine ⟨?_, h1⟩
    apply Nat.eq_zero_of_not_pos
    intro hk
    have := hneg p (by omega)
    have := hpos p (by omega)
    exact h2 p (by omega) (by omega) (by omega)

/-! ## C45: key_file_get -/

theorem keyFileGet_run {names : List Bytes} {name : Bytes} {p k : Nat}
    (hr : Run names name p k) (index : Nat) :
    keyFileGet names name index =
      if k ≠ 0 ∧ p + index = names.length then .ub
      else if index < k then .ok (some (p + index)) else .ok none := by
  have hle := hr.le
  unfold keyFileGet
  by_cases h0 : names.length = 0
  · rw [if_pos h0, if_neg (by omega), if_neg (by omega)]
  rw [if_neg h0]
  rcases keySearch_run (fun h => h0 (by simp [h])) hr with ⟨hk, h1⟩ | ⟨f, hf1, hf2, h1⟩
  · rw [h1, if_neg (by omega), if_neg (by omega)]; rfl
  · rw [h1]
    simp only [Res.bind_ok]
    by_cases hz : f = 0 ∧ index = 0
    · rw [if_pos hz, if_neg (by omega), if_pos (by omega)]
      congr 2; omega
    rw [if_neg hz, walkBack_run hr hf1 hf2]
    simp only [Res.bind_ok]
    have hl : p - 1 < names.length := by omega
    have hstart : (if p - 1 ≠ 0 ∨ strcmp names[p - 1] name ≠ 0 then p - 1 + 1 else p - 1) = p := by
      have := hr.ne (List.getElem?_eq_getElem hl)
      by_cases hp : p = 0
      · rw [if_neg (by omega)]; omega
      · rw [if_pos (by omega)]; omega
    rw [List.getElem?_eq_getElem hl]
    simp only
    rw [hstart, walkForward_eq _ _ _ _ (by omega) (by omega)]
    simp only [Nat.sub_zero, Nat.zero_add]
    by_cases hend : index ≤ names.length - p
    · rw [if_pos (by omega), show min (p + index) names.length = p + index by omega]
      by_cases hlt : p + index < names.length
      · rw [List.getElem?_eq_getElem hlt]
        simp only
        have hne := hr.ne (List.getElem?_eq_getElem hlt)
        by_cases hik : index < k
        · rw [if_pos (hne.2 (by omega)), if_neg (by omega), if_pos hik]
        · rw [if_neg (by omega), if_neg (by omega), if_neg hik]
      · rw [List.getElem?_eq_none (by omega)]
        simp only
        rw [if_pos (by omega)]
    · rw [if_neg (by omega), if_neg (by omega), if_neg (by omega)]

/-- C45, proved part: in a list sorted by name, looking up the `index`-th keyword of a name
returns it (as its position in the list), or NULL if the name occurs `index` times or less -
unless `index` is the number of keywords from the first one with that name to the end of the
list. Missing: that case, in which the code reads behind the list (`c45_get_ub`). -/
theorem c45_key_file_get_partial (names : List Bytes) (hs : SortedNames names) (name : Bytes)
    (index : Nat)
    (h : ∀ p, (positions names name).head? = some p → p + index ≠ names.length) :
    keyFileGet names name index = .ok ((positions names name)[index]?) := by
  obtain ⟨p, k, hr⟩ := run_exists names name hs
  rw [keyFileGet_run hr, hr.positions]
  rw [hr.positions] at h
  rw [if_neg]
  · by_cases hik : index < k
    · rw [if_pos hik, List.getElem?_range' hik]; simp
    · rw [if_neg hik, List.getElem?_eq_none (by simp; omega)]
  · rintro ⟨h1, h2⟩
    refine h p ?_ h2
    cases k with
    | zero => omega
    | succ k => simp [List.range'_succ]

/-- C45 for the indices that a caller iterating over the keywords of one name uses and that
exist: the call returns the `index`-th one. -/
theorem c45_key_file_get_existing (names : List Bytes) (hs : SortedNames names) (name : Bytes)
    (index p : Nat) (h : (positions names name)[index]? = some p) :
    keyFileGet names name index = .ok (some p) ∧ names[p]? = some name := by
  have hp : names[p]? = some name := by
    have := List.mem_of_getElem? h
    unfold positions at this
    rw [List.mem_filter] at this
    simpa using this.2
  refine ⟨?_, hp⟩
  obtain ⟨q, k, hr⟩ := run_exists names name hs
  rw [hr.positions] at h
  have hik : index < k := by
    have := (List.getElem?_eq_some_iff.1 h).1; simpa using this
  rw [List.getElem?_range' hik] at h
  have hle := hr.le
  rw [keyFileGet_run hr, if_neg (by omega), if_pos hik]
  simp at h; rw [h]

/-- The excluded case of C45, exactly: the call reads the keyword behind the end of the list if
and only if the name occurs and `index` is the number of keywords from its first occurrence to
the end of the list. In particular asking for "one more" of the name that is sorted last. -/
theorem c45_get_ub (names : List Bytes) (hs : SortedNames names) (name : Bytes) (index : Nat) :
    keyFileGet names name index = .ub ↔
      ∃ p, (positions names name).head? = some p ∧ p + index = names.length := by
  obtain ⟨p, k, hr⟩ := run_exists names name hs
  rw [keyFileGet_run hr, hr.positions]
  constructor
  · intro h
    by_cases hc : k ≠ 0 ∧ p + index = names.length
    · refine ⟨p, ?_, hc.2⟩
      cases k with
      | zero => omega
      | succ k => simp [List.range'_succ]
    · rw [if_neg hc] at h; split at h <;> cases h
  · rintro ⟨q, h1, h2⟩
    cases k with
    | zero => simp at h1
    | succ k =>
      simp [List.range'_succ] at h1
      subst h1
      rw [if_pos ⟨by omega, h2⟩]

-- non-vacuity of C45 (tests), and the excluded case
example : SortedNames [bs "A", bs "B", bs "B", bs "D"] ∧
    positions [bs "A", bs "B", bs "B", bs "D"] (bs "B") = [1, 2] ∧
    keyFileGet [bs "A", bs "B", bs "B", bs "D"] (bs "B") 1 = .ok (some 2) ∧
    keyFileGet [bs "A", bs "B", bs "B", bs "D"] (bs "B") 2 = .ok none ∧
    keyFileGet [bs "A", bs "B", bs "B", bs "D"] (bs "B") 3 = .ub ∧
    keyFileGet [bs "A", bs "B", bs "B", bs "D"] (bs "D") 1 = .ub ∧
    keyFileGet [bs "A", bs "B", bs "B", bs "D"] (bs "C") 0 = .ok none := by
  refine ⟨?_, ?_, ?_, ?_, ?_, ?_, ?_⟩
  · unfold SortedNames; decide +kernel
  all_goals decide +kernel

/-! ## C46: key_file_get_slice -/

theorem keyFileGetSlice_run {names : List Bytes} {name : Bytes} {p k : Nat}
    (hr : Run names name p k) :
    (k = 0 ∧ keyFileGetSlice names name = .ok none) ∨
    (k ≠ 0 ∧ (p ≠ 0 ∨ keySearch names name = .ok (some 0)) ∧
      keyFileGetSlice names name = .ok (some (p, k))) ∨
    (p = 0 ∧ 1 < k ∧ keySearch names name ≠ .ok (some 0) ∧
      keyFileGetSlice names name = .ok (some (1, k - 1))) := by
  have hle := hr.le
  unfold keyFileGetSlice
  by_cases h0 : names.length = 0
  · rw [if_pos h0]; left; exact ⟨by omega, rfl⟩
  rw [if_neg h0]
  rcases keySearch_run (fun h => h0 (by simp [h])) hr with ⟨hk, h1⟩ | ⟨f, hf1, hf2, h1⟩
  · rw [h1]; left; exact ⟨hk, rfl⟩
  · right
    have hstop : (if f ≠ names.length - 1 then walkEnd names name f - 1 else f) = p + k - 1 := by
      split
      · rw [walkEnd_run hr hf1 (by omega)]
      · omega
    rw [h1]
    simp only [Res.bind_ok]
    rw [hstop]
    by_cases hf : f = 0
    · left
      refine ⟨by omega, .inr (by rw [hf]), ?_⟩
      rw [if_neg (by omega)]
      simp only [Res.bind_ok]
      congr 3 <;> omega
    · rw [if_pos hf, walkBack_run hr hf1 hf2]
      simp only [Res.bind_ok]
      by_cases hp : p = 0
      · right
        refine ⟨hp, by omega, ?_, ?_⟩
        · simp; omega
        · congr 3 <;> omega
      · left
        refine ⟨by omega, .inl hp, ?_⟩
        congr 3 <;> omega

/-- C46 fails for a name that is sorted first: of three keywords A the slice contains two. -/
theorem c46_slice_misses_first :
    keyFileGetSlice [bs "A", bs "A", bs "A", bs "B"] (bs "A") = .ok (some (1, 2)) ∧
    positions [bs "A", bs "A", bs "A", bs "B"] (bs "A") = [0, 1, 2] := by decide +kernel

/-- C46, proved part: in a list sorted by name, the slice of a name is NULL with size 0 if the
name does not occur, and otherwise consists of exactly the positions of the name, provided that
the first keyword of the list has another name or the name occurs once only. Missing: names that
are sorted first and occur several times (see `c46_slice_first_name` and
`c46_slice_misses_first`). -/
theorem c46_key_file_get_slice_partial (names : List Bytes) (hs : SortedNames names)
    (name : Bytes)
    (h : names.head? ≠ some name ∨ (positions names name).length ≤ 1) :
    (name ∉ names → keyFileGetSlice names name = .ok none) ∧
    (name ∈ names → ∃ start size, keyFileGetSlice names name = .ok (some (start, size)) ∧
      List.range' start size = positions names name) := by
  obtain ⟨p, k, hr⟩ := run_exists names name hs
  rw [hr.positions] at h ⊢
  rw [hr.mem_iff]
  rcases keyFileGetSlice_run hr with ⟨h1, h2⟩ | ⟨h1, _, h2⟩ | ⟨h1, h2, _, h3⟩
  · exact ⟨fun _ => h2, fun hk => by omega⟩
  · exact ⟨fun hk => by omega, fun _ => ⟨p, k, h2, rfl⟩⟩
  · exfalso
    rcases h with h | h
    · apply h
      have := (hr.iff 0).2 (by omega)
      rw [List.head?_eq_getElem?]; exact this
    · simp at h; omega

/-- The excluded case of C46: for a name that is sorted first and occurs `k > 1` times, the slice
is either exact or misses exactly the first keyword. It never leaves the list. -/
theorem c46_slice_first_name (names : List Bytes) (hs : SortedNames names)
    (name : Bytes) (h : names.head? = some name) :
    ∃ start size, keyFileGetSlice names name = .ok (some (start, size)) ∧
      (List.range' start size = positions names name ∨
       List.range' start size = (positions names name).tail) := by
  obtain ⟨p, k, hr⟩ := run_exists names name hs
  rw [hr.positions]
  have hp := (hr.iff 0).1 (by rw [← List.head?_eq_getElem?]; exact h)
  rcases keyFileGetSlice_run hr with ⟨h1, h2⟩ | ⟨h1, _, h2⟩ | ⟨h1, h2, _, h3⟩
  · omega
  · exact ⟨p, k, h2, .inl rfl⟩
  · refine ⟨1, k - 1, h3, .inr ?_⟩
    subst h1
    cases k with
    | zero => omega
    | succ k => simp [List.range'_succ]

-- non-vacuity of C46 (tests)
example : SortedNames [bs "A", bs "B", bs "B", bs "D"] ∧
    [bs "A", bs "B", bs "B", bs "D"].head? ≠ some (bs "B") ∧
    keyFileGetSlice [bs "A", bs "B", bs "B", bs "D"] (bs "B") = .ok (some (1, 2)) ∧
    keyFileGetSlice [bs "A", bs "B", bs "B", bs "D"] (bs "C") = .ok none := by
  refine ⟨?_, ?_, ?_, ?_⟩
  · unfold SortedNames; decide +kernel
  all_goals decide +kernel

/-! ## C44: the list built by key_file_parse -/

/-- Specification: the callbacks for one keyword block. Either one call without card, or one call
for every card with the indices 0, 1, ..., or (a multi-line file name that is cut off by the end
of the file) one call with the card and without index. -/
def BlockEvents (b : Keyword) (evs : List KeyEvent) : Prop :=
  (b.cards = [] ∧ evs = [⟨b.name, none, none⟩]) ∨
  (b.cards ≠ [] ∧ evs = b.cards.mapIdx (fun i c => ⟨b.name, some c, some i⟩)) ∨
  (∃ c, b.cards = [c] ∧ evs = [⟨b.name, some c, none⟩])

/-- Specification: the callbacks for the keyword blocks of a file, in file order. -/
inductive FileEvents : List Keyword → List KeyEvent → Prop
  | nil : FileEvents [] []
  | cons {b bs e es} : BlockEvents b e → FileEvents bs es → FileEvents (b :: bs) (e ++ es)

theorem runCallbacks_append (st : KeyState) (a b : List KeyEvent) :
    runCallbacks st (a ++ b) = (do let st' ← runCallbacks st a; runCallbacks st' b) := by
  induction a generalizing st with
  | nil => simp [runCallbacks]
  | cons e es ih =>
    simp only [List.cons_append, runCallbacks]
    cases parseCallback st e <;> simp [ih]

/-- If the value is the largest one and occurs at least twice, the search never returns the last
position. -/
theorem bsearchInsert_not_last (cmp : Nat → Option Int) (s e : Nat) (hse : s < e)
    (hc : ∀ i, s ≤ i → i ≤ e → ∃ c, cmp i = some c ∧ 0 ≤ c) (h1 : cmp (e - 1) = some 0)
    (i : Nat) (h : bsearchInsert cmp s e = .ok (true, i)) : i < e := by
  induction hn : e - s using Nat.strongRecOn generalizing s with
  | ind n ih =>
  rw [bsearchInsert, if_neg (by omega), dif_neg (by omega)] at h
  simp only at h
  obtain ⟨c, h2, h3⟩ := hc (s + (e - s) / 2) (by omega) (by omega)
  rw [h2] at h
  simp only at h
  rw [if_neg (by omega)] at h
  by_cases hp : c > 0
  · rw [if_pos hp] at h
    by_cases hl : s + (e - s) / 2 = e - 1
    · rw [hl, h1] at h2; simp at h2; omega
    · rw [if_neg hl] at h
      exact ih (e - (s + (e - s) / 2)) (by omega) (s + (e - s) / 2) (by omega)
        (fun i h1 h2 => hc i (by omega) h2) h rfl
  · rw [if_neg hp] at h
    simp at h; omega

theorem keySearchInsert_not_last (names : List Bytes) (value : Bytes) (p k : Nat)
    (hr : Run names value p k) (hk : 2 ≤ k) (hend : p + k = names.length) (i : Nat)
    (h : keySearchInsert names value = .ok (true, i)) : i + 1 < names.length := by
  have := bsearchInsert_not_last _ 0 (names.length - 1) (by omega) ?_ ?_ i h
  · omega
  · intro j _ hj
    have hl : j < names.length := by omega
    refine ⟨strcmp value names[j], by simp [List.getElem?_eq_getElem hl], ?_⟩
    apply Int.not_lt.1
    rw [strcmp_neg]
    intro hx
    by_cases hjp : j < p
    · exact (hr.lt j _ (List.getElem?_eq_getElem hl) hjp).asymm hx
    · have := hr.eq j _ (List.getElem?_eq_getElem hl) (by omega) (by omega)
      rw [this] at hx; exact LexLt.irrefl _ hx
  · have := (hr.iff (names.length - 1 - 1)).2 (by omega)
    simp only [this, Option.map_some, Option.some.injEq]
    rw [strcmp_eq_zero]

theorem insertPos_spec (names : List Bytes) (value : Bytes) {p k : Nat}
    (hs : SortedNames names) (hr : Run names value p k) :
    insertPos names value =
      if 2 ≤ k ∧ p + k = names.length then .ub else .ok (p + k) := by
  have hle := hr.le
  unfold insertPos
  by_cases h0 : names = []
  · subst h0; simp at hle; rw [if_pos rfl, if_neg (by omega)]; congr 1; omega
  rw [if_neg h0]
  have hl0 := List.length_pos_iff.2 h0
  rcases keySearchInsert_spec names value h0 hs with ⟨i, h1, h2⟩ | ⟨i, h1, h2, h3, h4⟩
  · rw [h1]
    have hi := (hr.iff i).1 h2
    simp only [Res.bind_ok, if_true]
    by_cases hlast : i + 1 = names.length
    · -- only possible for a single equal name
      have hk1 : ¬ 2 ≤ k := by
        intro hk
        have := keySearchInsert_not_last names value p k hr hk (by omega) i h1
        omega
      rw [if_neg (by omega), if_neg (by omega)]; congr 1; omega
    · rw [if_pos hlast, skipEqual_run hr (by omega) (by omega)]
      by_cases hc : p + k < names.length
      · rw [if_pos hc, if_neg (by omega)]
      · rw [if_neg hc, if_pos (by omega)]
  · rw [h1]
    have hk0 : k = 0 := by
      apply Nat.eq_zero_of_not_pos
      intro hk
      have hmem := hr.mem_iff.2 hk
      rw [← List.take_append_drop i names, List.mem_append] at hmem
      rcases hmem with hm | hm
      · exact LexLt.irrefl _ (h3 _ hm)
      · exact LexLt.irrefl _ (h4 _ hm)
    have hip : i = p := by
      subst hk0
      rcases Nat.lt_trichotomy i p with hlt | heq | hgt
      · have hl : i < names.length := by omega
        have ha := hr.lt i _ (List.getElem?_eq_getElem hl) hlt
        have hb := h4 names[i] (by
          rw [List.mem_drop_iff_getElem]; exact ⟨0, by omega, by simp⟩)
        exact absurd hb ha.asymm
      · exact heq
      · have hl : p < names.length := by omega
        have ha := hr.gt p _ (List.getElem?_eq_getElem hl) (by omega)
        have hb := h3 names[p] (by
          rw [List.mem_take_iff_getElem]; exact ⟨p, by omega, by simp⟩)
        exact absurd hb ha.asymm
    simp only [Res.bind_ok]
    rw [if_neg (by simp), if_neg (by omega)]; congr 1; omega

theorem addCards (name : Bytes) (A D : List Keyword) (cs l : List Bytes) (j : Nat) :
    runCallbacks { keywords := A ++ ⟨name, cs⟩ :: D, cur := some A.length }
      (l.mapIdx (fun i c => ⟨name, some c, some (i + (j + 1))⟩)) =
    .ok { keywords := A ++ ⟨name, cs ++ l⟩ :: D, cur := some A.length } := by
  induction l generalizing cs j with
  | nil => simp [runCallbacks]
  | cons c l ih =>
    rw [List.mapIdx_cons]
    simp only [runCallbacks, parseCallback]
    rw [if_neg (by simp)]
    simp only [Res.bind_ok, addCard]
    rw [List.getElem?_append_right (Nat.le_refl _), Nat.sub_self]
    simp only [List.getElem?_cons_zero, Res.bind_ok]
    rw [List.set_append_right _ _ (Nat.le_refl _), Nat.sub_self, List.set_cons_zero]
    have := ih (cs ++ [c]) (j + 1)
    simp only [List.append_assoc, List.singleton_append] at this
    rw [← this]
    congr 1
    apply List.mapIdx_eq_mapIdx_iff.2
    intro i hi
    simp; omega

theorem newKeyword_ok {st : KeyState} {name : Bytes} {i : Nat}
    (h : insertPos (st.keywords.map Keyword.name) name = .ok i) :
    newKeyword st name = .ok
      { keywords := st.keywords.take i ++ ⟨name, []⟩ :: st.keywords.drop i, cur := some i } := by
  unfold newKeyword; rw [h]; rfl

theorem addCard_ok (name : Bytes) (A D : List Keyword) (cs : List Bytes) (c : Bytes) :
    addCard { keywords := A ++ ⟨name, cs⟩ :: D, cur := some A.length } c =
      .ok { keywords := A ++ ⟨name, cs ++ [c]⟩ :: D, cur := some A.length } := by
  simp only [addCard]
  rw [List.getElem?_append_right (Nat.le_refl _), Nat.sub_self]
  simp only [List.getElem?_cons_zero]
  rw [List.set_append_right _ _ (Nat.le_refl _), Nat.sub_self, List.set_cons_zero]

theorem blockStep_ok {st : KeyState} {b : Keyword} {evs : List KeyEvent} {i : Nat}
    (h : BlockEvents b evs) (hi : insertPos (st.keywords.map Keyword.name) b.name = .ok i)
    (hle : i ≤ st.keywords.length) :
    runCallbacks st evs =
      .ok { keywords := st.keywords.take i ++ b :: st.keywords.drop i, cur := some i } := by
  have hA : (st.keywords.take i).length = i := by simp; omega
  obtain ⟨bn, bc⟩ := b
  rcases h with ⟨h1, h2⟩ | ⟨h1, h2⟩ | ⟨c, h1, h2⟩
  · simp only at h1 h2 hi; subst h1 h2
    simp only [runCallbacks, parseCallback]
    rw [if_pos (by simp), newKeyword_ok hi]
    rfl
  · simp only at h1 h2 hi; subst h2
    cases bc with
    | nil => exact absurd rfl h1
    | cons c l =>
      rw [List.mapIdx_cons]
      simp only [runCallbacks, parseCallback]
      rw [if_pos (by simp), newKeyword_ok hi]
      simp only [Res.bind_ok]
      have e1 := addCard_ok bn (st.keywords.take i) (st.keywords.drop i) [] c
      rw [hA] at e1
      rw [e1]
      simp only [Res.bind_ok]
      have e2 := addCards bn (st.keywords.take i) (st.keywords.drop i) ([] ++ [c]) l 0
      rw [hA] at e2
      exact e2
  · simp only at h1 h2 hi; subst h1 h2
    simp only [runCallbacks, parseCallback]
    rw [if_pos (by simp), newKeyword_ok hi]
    simp only [Res.bind_ok]
    have e1 := addCard_ok bn (st.keywords.take i) (st.keywords.drop i) [] c
    rw [hA] at e1
    rw [e1]
    rfl

theorem blockStep_ub {st : KeyState} {b : Keyword} {evs : List KeyEvent}
    (h : BlockEvents b evs) (hi : insertPos (st.keywords.map Keyword.name) b.name = .ub) :
    runCallbacks st evs = .ub := by
  have key : ∀ ev es, ev.name = b.name → (ev.index = some 0 ∨ ev.index = none) →
      runCallbacks st (ev :: es) = .ub := by
    intro ev es h1 h2
    simp only [runCallbacks, parseCallback]
    rw [if_pos (.inr h2)]
    unfold newKeyword
    rw [h1, hi]; rfl
  obtain ⟨bn, bc⟩ := b
  rcases h with ⟨h1, h2⟩ | ⟨h1, h2⟩ | ⟨c, h1, h2⟩
  · subst h2; exact key _ _ rfl (.inr rfl)
  · subst h2
    cases bc with
    | nil => exact absurd rfl h1
    | cons c l => rw [List.mapIdx_cons]; exact key _ _ rfl (.inl rfl)
  · subst h2; exact key _ _ rfl (.inr rfl)

theorem Run.count {names : List Bytes} {value : Bytes} {p k : Nat} (hr : Run names value p k) :
    (names.filter (fun n => decide (n = value))).length = k := by
  have hle := hr.le
  have hsplit : names = names.take p ++ (names.drop p).take k ++ names.drop (p + k) := by
    rw [List.append_assoc, ← List.drop_drop, List.take_append_drop, List.take_append_drop]
  have h1 : (names.take p).filter (fun n => decide (n = value)) = [] := by
    rw [List.filter_eq_nil_iff]
    intro n hn
    obtain ⟨i, hi, rfl⟩ := List.mem_take_iff_getElem.1 hn
    have hl : i < names.length := by omega
    have := hr.lt i _ (List.getElem?_eq_getElem hl) (by omega)
    simp only [decide_eq_true_eq]
    intro he; rw [he] at this; exact LexLt.irrefl _ this
  have h3 : (names.drop (p + k)).filter (fun n => decide (n = value)) = [] := by
    rw [List.filter_eq_nil_iff]
    intro n hn
    obtain ⟨i, hi, rfl⟩ := List.mem_drop_iff_getElem.1 hn
    have hl : p + k + i < names.length := by omega
    have := hr.gt (p + k + i) _ (List.getElem?_eq_getElem hl) (by omega)
    simp only [decide_eq_true_eq]
    intro he; rw [he] at this; exact LexLt.irrefl _ this
  have h2 : ((names.drop p).take k).filter (fun n => decide (n = value)) =
      (names.drop p).take k := by
    rw [List.filter_eq_self]
    intro n hn
    obtain ⟨i, hi, rfl⟩ := List.mem_take_iff_getElem.1 hn
    simp only [List.length_drop] at hi
    have hl : p + i < names.length := by omega
    have := hr.eq (p + i) _ (List.getElem?_eq_getElem hl) (by omega) (by omega)
    simp only [List.getElem_drop, decide_eq_true_eq]; exact this
  rw [hsplit, List.filter_append, List.filter_append, h1, h2, h3]
  simp; omega

theorem Run.last_iff {names : List Bytes} {value : Bytes} {p k : Nat} (hr : Run names value p k) :
    p + k = names.length ↔ ∀ n ∈ names, ¬ LexLt value n := by
  have hle := hr.le
  constructor
  · intro h n hn
    obtain ⟨i, hi⟩ := List.getElem?_of_mem hn
    have hl := (List.getElem?_eq_some_iff.1 hi).1
    by_cases hip : i < p
    · exact (hr.lt i n hi hip).asymm
    · rw [hr.eq i n hi (by omega) (by omega)]; exact LexLt.irrefl _
  · intro h
    apply Nat.le_antisymm hle
    apply Nat.le_of_not_lt
    intro hl
    exact h _ (List.getElem_mem hl) (hr.gt _ _ (List.getElem?_eq_getElem hl) (Nat.le_refl _))

/-- Keywords of one name, in order. -/
def named (ks : List Keyword) (n : Bytes) : List Keyword := ks.filter (fun k => decide (k.name = n))

/-- `ks` contains the same keywords as `blocks`, those of the same name in the same order. -/
def SameKeywords (ks blocks : List Keyword) : Prop := ∀ n, named ks n = named blocks n

theorem SameKeywords.mem_iff {ks blocks : List Keyword} (h : SameKeywords ks blocks) (k : Keyword) :
    k ∈ ks ↔ k ∈ blocks := by
  have := h k.name
  unfold named at this
  have e : ∀ l : List Keyword, k ∈ l ↔ k ∈ l.filter (fun x => decide (x.name = k.name)) := by
    intro l; simp [List.mem_filter]
  rw [e ks, this, ← e]

theorem count_eq_named (ks : List Keyword) (n : Bytes) :
    ((ks.map Keyword.name).filter (fun x => decide (x = n))).length = (named ks n).length := by
  unfold named
  rw [List.filter_map, List.length_map]
  rfl

theorem keywords_insert {ks : List Keyword} {b : Keyword} {p k : Nat}
    (hs : SortedNames (ks.map Keyword.name)) (hr : Run (ks.map Keyword.name) b.name p k) :
    SortedNames ((ks.take (p + k) ++ b :: ks.drop (p + k)).map Keyword.name) ∧
    SameKeywords (ks.take (p + k) ++ b :: ks.drop (p + k)) (ks ++ [b]) := by
  have hle := hr.le
  simp only [List.length_map] at hle
  have htake : ∀ x ∈ ks.take (p + k), ¬ LexLt b.name x.name := by
    intro x hx
    obtain ⟨i, hi, rfl⟩ := List.mem_take_iff_getElem.1 hx
    have hl : i < ks.length := by omega
    have hi' : (ks.map Keyword.name)[i]? = some ks[i].name := by simp [hl]
    by_cases hip : i < p
    · exact (hr.lt i _ hi' hip).asymm
    · rw [hr.eq i _ hi' (by omega) (by omega)]; exact LexLt.irrefl _
  have hdrop : ∀ x ∈ ks.drop (p + k), LexLt b.name x.name := by
    intro x hx
    obtain ⟨i, hi, rfl⟩ := List.mem_drop_iff_getElem.1 hx
    have hl : p + k + i < ks.length := by omega
    have hi' : (ks.map Keyword.name)[p + k + i]? = some ks[p + k + i].name := by simp [hl]
    exact hr.gt _ _ hi' (by omega)
  constructor
  · unfold SortedNames at *
    rw [List.map_append, List.map_cons, List.pairwise_append, List.pairwise_cons]
    refine ⟨by rw [List.map_take]; exact hs.take, ⟨?_, by rw [List.map_drop]; exact hs.drop⟩, ?_⟩
    · intro n hn
      obtain ⟨x, hx, rfl⟩ := List.mem_map.1 hn
      exact (hdrop x hx).asymm
    · intro n hn m hm
      obtain ⟨x, hx, rfl⟩ := List.mem_map.1 hn
      rcases List.mem_cons.1 hm with h | h
      · rw [h]; exact htake x hx
      · obtain ⟨y, hy, rfl⟩ := List.mem_map.1 h
        exact not_lexLt_trans (htake x hx) (hdrop y hy).asymm
  · intro n
    unfold named
    conv => rhs; rw [← List.take_append_drop (p + k) ks]
    simp only [List.filter_append, List.append_assoc, List.filter_cons, List.filter_nil]
    congr 1
    by_cases hb : b.name = n
    · have : (ks.drop (p + k)).filter (fun k => decide (k.name = n)) = [] := by
        rw [List.filter_eq_nil_iff]
        intro x hx
        have := hdrop x hx
        simp only [decide_eq_true_eq]
        intro he; rw [he, hb] at this; exact LexLt.irrefl _ this
      rw [this]; simp [hb]
    · simp [hb]

/-- The block `b` makes the parser read behind its keyword list: at least two of the blocks in
front of it have the same name and none has a larger one. -/
def Overrun (earlier : List Keyword) (b : Keyword) : Prop :=
  2 ≤ (named earlier b.name).length ∧ ∀ x ∈ earlier, ¬ LexLt b.name x.name

theorem runCallbacks_spec {bl : List Keyword} {evs : List KeyEvent} (hev : FileEvents bl evs) :
    ∀ (st : KeyState) (pre : List Keyword), SortedNames (st.keywords.map Keyword.name) →
      SameKeywords st.keywords pre →
      ((∃ a b c, bl = a ++ b :: c ∧ Overrun (pre ++ a) b) ∧ runCallbacks st evs = .ub) ∨
      ((¬ ∃ a b c, bl = a ++ b :: c ∧ Overrun (pre ++ a) b) ∧
        ∃ st', runCallbacks st evs = .ok st' ∧ SortedNames (st'.keywords.map Keyword.name) ∧
          SameKeywords st'.keywords (pre ++ bl)) := by
  induction hev with
  | nil =>
    intro st pre hs hk
    right
    refine ⟨?_, st, rfl, hs, by simpa using hk⟩
    rintro ⟨a, b, c, h, _⟩
    simp at h
  | @cons b bl e es hb _ ih =>
    intro st pre hs hk
    rw [runCallbacks_append]
    obtain ⟨p, k, hr⟩ := run_exists _ b.name hs
    have hpos := insertPos_spec _ _ hs hr
    have hover : (2 ≤ k ∧ p + k = (st.keywords.map Keyword.name).length) ↔ Overrun pre b := by
      unfold Overrun
      rw [hr.last_iff, ← hr.count, count_eq_named, hk b.name]
      have : (∀ n ∈ st.keywords.map Keyword.name, ¬ LexLt b.name n) ↔
          ∀ x ∈ pre, ¬ LexLt b.name x.name := by
        constructor
        · intro h x hx
          exact h _ (List.mem_map.2 ⟨x, (hk.mem_iff x).2 hx, rfl⟩)
        · intro h n hn
          obtain ⟨x, hx, rfl⟩ := List.mem_map.1 hn
          exact h x ((hk.mem_iff x).1 hx)
      rw [this]
    by_cases ho : Overrun pre b
    · left
      refine ⟨⟨[], b, bl, rfl, by simpa using ho⟩, ?_⟩
      rw [if_pos (hover.2 ho)] at hpos
      rw [blockStep_ub hb hpos]; rfl
    · rw [if_neg (fun h => ho (hover.1 h))] at hpos
      have hle : p + k ≤ st.keywords.length := by have := hr.le; simpa using this
      rw [blockStep_ok hb hpos hle]
      simp only [Res.bind_ok]
      obtain ⟨h1, h2⟩ := keywords_insert hs hr
      have hk2 : SameKeywords (st.keywords.take (p + k) ++ b :: st.keywords.drop (p + k))
          (pre ++ [b]) := by
        intro n
        rw [h2 n]
        have := hk n
        unfold named at this ⊢
        rw [List.filter_append, List.filter_append, this]
      have hiff : (∃ a b' c, b :: bl = a ++ b' :: c ∧ Overrun (pre ++ a) b') ↔
          (∃ a b' c, bl = a ++ b' :: c ∧ Overrun (pre ++ [b] ++ a) b') := by
        constructor
        · rintro ⟨a, b', c, h, ho'⟩
          cases a with
          | nil =>
            simp only [List.nil_append, List.cons.injEq] at h
            rw [List.append_nil, ← h.1] at ho'
            exact absurd ho' ho
          | cons x a =>
            simp only [List.cons_append, List.cons.injEq] at h
            refine ⟨a, b', c, h.2, ?_⟩
            rw [h.1]; simpa using ho'
        · rintro ⟨a, b', c, h, ho'⟩
          exact ⟨b :: a, b', c, by simp [h], by simpa using ho'⟩
      rw [hiff, show pre ++ b :: bl = pre ++ [b] ++ bl by simp]
      exact ih _ (pre ++ [b]) h1 hk2

/-- C44, proved part: if no block overruns the list (see `Overrun`), the callbacks for a file
with the keyword blocks `blocks` produce a list that is sorted by name and consists, for every
name, of exactly the blocks of that name with all their cards, in file order. Missing: files with
an overrunning block, for which the code reads behind its list (`c44_overrun_ub`). -/
theorem c44_keyword_list_partial (blocks : List Keyword) (evs : List KeyEvent)
    (hev : FileEvents blocks evs)
    (hno : ∀ earlier b later, blocks = earlier ++ b :: later → ¬ Overrun earlier b) :
    ∃ ks, buildKeywords evs = .ok ks ∧ SortedNames (ks.map Keyword.name) ∧
      ∀ n, ks.filter (fun k => decide (k.name = n)) =
        blocks.filter (fun k => decide (k.name = n)) := by
  rcases runCallbacks_spec hev {} [] (by simp [SortedNames]) (fun n => rfl) with
    ⟨⟨a, b, c, h1, h2⟩, _⟩ | ⟨_, st, h1, h2, h3⟩
  · exact absurd (by simpa using h2) (hno a b c h1)
  · refine ⟨st.keywords, ?_, h2, ?_⟩
    · unfold buildKeywords; rw [h1]; rfl
    · intro n; exact h3 n

/-- The excluded case of C44, exactly: the code executes undefined behaviour if and only if some
block has two earlier blocks of the same name and no earlier block with a larger name, for
example a file whose first three keywords are all `*PART`. -/
theorem c44_overrun_ub (blocks : List Keyword) (evs : List KeyEvent)
    (hev : FileEvents blocks evs) :
    buildKeywords evs = .ub ↔
      ∃ earlier b later, blocks = earlier ++ b :: later ∧ Overrun earlier b := by
  rcases runCallbacks_spec hev {} [] (by simp [SortedNames]) (fun n => rfl) with
    ⟨⟨a, b, c, h1, h2⟩, h3⟩ | ⟨h1, st, h2, _, _⟩
  · refine ⟨fun _ => ⟨a, b, c, h1, by simpa using h2⟩, fun _ => ?_⟩
    unfold buildKeywords; rw [h3]; rfl
  · constructor
    · intro h; unfold buildKeywords at h; rw [h2] at h; cases h
    · intro h; exact absurd (by simpa using h) h1

/-- C44: in every file whose keyword names occur at most twice the list is built as described. -/
theorem c44_keyword_list_at_most_twice (blocks : List Keyword) (evs : List KeyEvent)
    (hev : FileEvents blocks evs)
    (htwice : ∀ n, (blocks.filter (fun k => decide (k.name = n))).length ≤ 2) :
    ∃ ks, buildKeywords evs = .ok ks ∧ SortedNames (ks.map Keyword.name) ∧
      ∀ n, ks.filter (fun k => decide (k.name = n)) =
        blocks.filter (fun k => decide (k.name = n)) := by
  apply c44_keyword_list_partial blocks evs hev
  intro a b c h ho
  have := htwice b.name
  rw [h, List.filter_append] at this
  have h2 := ho.1
  unfold named at h2
  simp at this
  omega

/-- C44: the list contains every block exactly as often as the file does. -/
theorem c44_keyword_list_perm (blocks : List Keyword) (evs : List KeyEvent)
    (hev : FileEvents blocks evs) (ks : List Keyword) (h : buildKeywords evs = .ok ks) :
    ks.Perm blocks := by
  rcases runCallbacks_spec hev {} [] (by simp [SortedNames]) (fun n => rfl) with
    ⟨_, h3⟩ | ⟨_, st, h2, _, h3⟩
  · unfold buildKeywords at h; rw [h3] at h; cases h
  · unfold buildKeywords at h; rw [h2] at h
    simp only [Res.bind_ok, Res.ok.injEq] at h
    subst h
    rw [List.perm_iff_count]
    intro k
    have e : ∀ l : List Keyword, l.count k =
        (l.filter (fun x => decide (x.name = k.name))).count k := by
      intro l; rw [List.count_filter]; simp
    rw [e, e blocks]
    have := h3 k.name
    unfold named at this
    rw [this]; simp

-- non-vacuity of C44 (tests)
example : ∃ blocks evs, FileEvents blocks evs ∧
    (∀ n, (blocks.filter (fun k => decide (k.name = n))).length ≤ 2) ∧
    buildKeywords evs = .ok [⟨bs "END", []⟩, ⟨bs "NODE", [bs "1", bs "2"]⟩, ⟨bs "NODE", [bs "3"]⟩,
      ⟨bs "PART", [bs "p"]⟩] := by
  refine ⟨[⟨bs "NODE", [bs "1", bs "2"]⟩, ⟨bs "PART", [bs "p"]⟩, ⟨bs "NODE", [bs "3"]⟩,
    ⟨bs "END", []⟩], _,
    .cons (.inr (.inl ⟨by simp, rfl⟩)) (.cons (.inr (.inl ⟨by simp, rfl⟩))
      (.cons (.inr (.inl ⟨by simp, rfl⟩)) (.cons (.inl ⟨rfl, rfl⟩) .nil))), ?_, ?_⟩
  · intro n
    have h1 : bs "NODE" ≠ bs "PART" := by decide +kernel
    have h2 : bs "NODE" ≠ bs "END" := by decide +kernel
    have h3 : bs "PART" ≠ bs "END" := by decide +kernel
    simp only [List.filter_cons, List.filter_nil, decide_eq_true_eq]
    by_cases e1 : bs "NODE" = n
    · subst e1; simp [h1.symm, h2.symm]
    · rw [if_neg e1, if_neg e1]
      split <;> split <;> simp
  · decide +kernel

-- the overrun is reachable: three equal keywords at the beginning of a file
example : ∃ blocks evs, FileEvents blocks evs ∧ buildKeywords evs = .ub := by
  refine ⟨[⟨bs "PART", [bs "a"]⟩, ⟨bs "PART", [bs "b"]⟩, ⟨bs "PART", [bs "c"]⟩], _,
    .cons (.inr (.inl ⟨by simp, rfl⟩)) (.cons (.inr (.inl ⟨by simp, rfl⟩))
      (.cons (.inr (.inl ⟨by simp, rfl⟩)) .nil)), ?_⟩
  decide +kernel

end Dyna
