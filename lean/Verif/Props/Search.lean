import Verif.DirectoryLemmas
import Verif.Path
import Verif.StringBuilder
/-!
# Properties C01-C06 and C52: searches, paths, string builder
-/

namespace Dyna

/-! ## C01 -/

/-- C01: on an ascending, non-empty id list the lookup returns a position of the id if it
occurs and "not found" otherwise (in particular no access outside the list). -/
theorem c01_index_for_id_exact (ids : List Nat) (hs : ids.Pairwise (· ≤ ·)) (hne : ids ≠ [])
    (hlen : ids.length < u64) (id : Nat) :
    (id ∈ ids → ∃ i, indexForId id ids = .ok (some i) ∧ ids[i]? = some id) ∧
    (id ∉ ids → indexForId id ids = .ok none) := by
  have h0 : 0 < ids.length := List.length_pos_iff.2 hne
  have hsub : sub64 ids.length 1 = ids.length - 1 := by
    unfold sub64 u64 at *; omega
  unfold indexForId
  rw [hsub]
  let c : Nat → Int := fun i => match ids[i]? with
    | some x => d3WordCmp id x
    | none => 0
  have hci : ∀ i (h : i < ids.length), c i = d3WordCmp id ids[i] := fun i h => by
    simp [c, List.getElem?_eq_getElem h]
  have hz : ∀ a b, d3WordCmp a b = 0 ↔ a = b := by
    intro a b; unfold d3WordCmp; split
    · simp; omega
    · split <;> simp <;> omega
  have hcmp : ∀ i, 0 ≤ i → i ≤ ids.length - 1 →
      (fun i => (ids[i]?).map (d3WordCmp id)) i = some (c i) := by
    intro i _ hi
    have hi' : i < ids.length := by omega
    simp [c, List.getElem?_eq_getElem hi']
  have hd : Descending c 0 (ids.length - 1) := by
    intro i j _ hij hj
    have hj' : j < ids.length := by omega
    have hi' : i < ids.length := by omega
    rw [hci i hi', hci j hj']
    have hle : ids[i] ≤ ids[j] := by
      by_cases he : i = j
      · subst he; exact Nat.le_refl _
      · exact (List.pairwise_iff_getElem.1 hs) i j hi' hj' (by omega)
    unfold d3WordCmp
    constructor
    · intro h
      split at h
      · split <;> omega
      · split at h
        · omega
        · split
          · omega
          · split <;> omega
    · intro h
      split at h
      · split <;> omega
      · split at h <;> omega
  rcases bsearch_spec _ c 0 (ids.length - 1) (by omega) hcmp hd with
    ⟨i, h1, _, h3, h4⟩ | ⟨h1, h2⟩
  · have hi' : i < ids.length := by omega
    rw [hci i hi', hz] at h4
    refine ⟨fun _ => ⟨i, h1, by rw [List.getElem?_eq_getElem hi', h4]⟩, fun hn => ?_⟩
    exact absurd (h4 ▸ List.getElem_mem hi') hn
  · refine ⟨fun hm => ?_, fun _ => h1⟩
    obtain ⟨i, hi, he⟩ := List.mem_iff_getElem.1 hm
    exact absurd (by rw [hci i hi, hz]; exact he.symm) (h2 i (by omega) (by omega))

/-- The excluded case of C01: an empty list is read out of bounds. -/
theorem c01_empty_is_ub (id : Nat) : indexForId id [] = .ub := by
  simp [indexForId, sub64, u64, bsearch]

-- non-vacuity of C01 (test)
example : [3, 5, 5, 9].Pairwise (· ≤ ·) ∧ [3, 5, 5, 9] ≠ [] ∧ [3, 5, 5, 9].length < u64 ∧
    indexForId 9 [3, 5, 5, 9] = .ok (some 3) ∧ indexForId 4 [3, 5, 5, 9] = .ok none := by
  decide +kernel

/-! ## C02 -/

/-- C02 for the binout directory (names are distinct there): 'found' exactly if the name is
present, otherwise the position that keeps the order. -/
theorem c02_directory_insert_point (kids : List Entry) (value : Bytes)
    (hs : kids.Pairwise (fun a b => LexLt a.name b.name))
    (hl : ∀ e ∈ kids, e.nameOk = true) :
    ((∃ e ∈ kids, e.name = value) →
      ∃ i e, searchInsert value kids = .ok (true, i) ∧ kids[i]? = some e ∧ e.name = value) ∧
    ((¬ ∃ e ∈ kids, e.name = value) →
      ∃ i, searchInsert value kids = .ok (false, i) ∧ i ≤ kids.length ∧
        ∀ new : Entry, new.name = value →
          (kids.take i ++ new :: kids.drop i).Pairwise (fun a b => LexLt a.name b.name)) := by
  rcases searchInsert_spec value hs hl with ⟨i, e, h1, h2, h3⟩ | ⟨i, h1, h2, h3, h4⟩
  · refine ⟨fun _ => ⟨i, e, h1, h2, h3⟩, fun hn => ?_⟩
    exact absurd ⟨e, List.mem_of_getElem? h2, h3⟩ hn
  · refine ⟨?_, fun _ => ⟨i, h1, h2, fun new hnew => ?_⟩⟩
    · rintro ⟨e, he, heq⟩
      rw [← List.take_append_drop i kids, List.mem_append] at he
      rcases he with he | he
      · have := h3 e he; rw [heq] at this; exact absurd this (LexLt.irrefl _)
      · have := h4 e he; rw [heq] at this; exact absurd this (LexLt.irrefl _)
    · subst hnew
      exact pairwise_insertAt hs h3 h4

/-- The insertion search over a list of names that may repeat (the keyword list,
`/repo/src/key.c:98-101`). -/
def keySearchInsert (names : List Bytes) (value : Bytes) : Res (Bool × Nat) :=
  bsearchInsert (fun i => (names[i]?).map (strcmp value)) 0 (names.length - 1)

/-- Names in non-descending order. -/
def SortedNames (names : List Bytes) : Prop := names.Pairwise (fun a b => ¬ LexLt b a)

theorem not_lexLt_trans {a b c : Bytes} (h1 : ¬ LexLt b a) (h2 : ¬ LexLt c b) : ¬ LexLt c a := by
  intro h
  rcases LexLt.total a b with h3 | h3 | h3
  · exact h2 (h.trans h3)
  · subst h3; exact h2 h
  · exact h1 h3

theorem keySearchInsert_spec (names : List Bytes) (value : Bytes) (hne : names ≠ [])
    (hs : SortedNames names) :
    (∃ i, keySearchInsert names value = .ok (true, i) ∧ names[i]? = some value) ∨
    (∃ i, keySearchInsert names value = .ok (false, i) ∧ i ≤ names.length ∧
      (∀ n ∈ names.take i, LexLt n value) ∧ (∀ n ∈ names.drop i, LexLt value n)) := by
  unfold keySearchInsert
  have h0 : 0 < names.length := List.length_pos_iff.2 hne
  let c : Nat → Int := fun i => match names[i]? with
    | some e => strcmp value e
    | none => 0
  have hci : ∀ i (h : i < names.length), c i = strcmp value names[i] := fun i h => by
    simp [c, List.getElem?_eq_getElem h]
  have hcmp : ∀ i, 0 ≤ i → i ≤ names.length - 1 →
      (fun i => (names[i]?).map (strcmp value)) i = some (c i) := by
    intro i _ hi
    have hi' : i < names.length := by omega
    simp [c, List.getElem?_eq_getElem hi']
  have hd : Descending c 0 (names.length - 1) := by
    intro i j _ hij hj
    have hj' : j < names.length := by omega
    have hi' : i < names.length := by omega
    rw [hci i hi', hci j hj']
    by_cases he : i = j
    · subst he; exact ⟨id, id⟩
    · have hle : ¬ LexLt names[j] names[i] :=
        (List.pairwise_iff_getElem.1 hs) i j hi' hj' (by omega)
      have ni := strcmp_neg value names[i]
      have nj := strcmp_neg value names[j]
      have pi := strcmp_pos value names[i]
      have pj := strcmp_pos value names[j]
      refine ⟨fun h => ?_, fun h => ?_⟩
      · have hv : ¬ LexLt value names[j] := fun hx => by have := nj.2 hx; omega
        have := not_lexLt_trans hle hv
        have : ¬ strcmp value names[i] < 0 := fun hx => this (ni.1 hx)
        omega
      · have hx := pj.1 h
        rcases LexLt.total names[i] names[j] with h1 | h1 | h1
        · exact pi.2 (h1.trans hx)
        · rw [h1]; exact h
        · exact absurd h1 hle
  rcases bsearchInsert_spec _ c 0 (names.length - 1) (by omega) hcmp hd with
    ⟨i, h1, _, h3, h4⟩ | ⟨i, h1, _, h3, h4, h5⟩
  · left
    have hi' : i < names.length := by omega
    refine ⟨i, h1, ?_⟩
    rw [hci i hi', strcmp_eq_zero] at h4
    rw [List.getElem?_eq_getElem hi', h4]
  · right
    refine ⟨i, h1, by omega, ?_, ?_⟩
    · intro e he
      obtain ⟨j, hj, rfl⟩ := List.mem_take_iff_getElem.1 he
      have := h4 j (by omega) (by omega)
      rw [hci j (by omega)] at this
      exact (strcmp_pos _ _).1 this
    · intro e he
      obtain ⟨j, hj, rfl⟩ := List.mem_drop_iff_getElem.1 he
      have := h5 (i + j) (by omega) (by omega)
      rw [hci (i + j) (by omega)] at this
      exact (strcmp_neg _ _).1 this

/-- C02 for lists in which names may repeat. -/
theorem c02_keyword_insert_point (names : List Bytes) (value : Bytes) (hne : names ≠ [])
    (hs : SortedNames names) :
    (value ∈ names → ∃ i, keySearchInsert names value = .ok (true, i) ∧
      names[i]? = some value) ∧
    (value ∉ names → ∃ i, keySearchInsert names value = .ok (false, i) ∧ i ≤ names.length ∧
      SortedNames (names.take i ++ value :: names.drop i)) := by
  rcases keySearchInsert_spec names value hne hs with ⟨i, h1, h2⟩ | ⟨i, h1, h2, h3, h4⟩
  · exact ⟨fun _ => ⟨i, h1, h2⟩, fun hn => absurd (List.mem_of_getElem? h2) hn⟩
  · refine ⟨fun he => ?_, fun _ => ⟨i, h1, h2, ?_⟩⟩
    · rw [← List.take_append_drop i names, List.mem_append] at he
      rcases he with he | he
      · exact absurd (h3 _ he) (LexLt.irrefl _)
      · exact absurd (h4 _ he) (LexLt.irrefl _)
    · unfold SortedNames at *
      rw [List.pairwise_append]
      refine ⟨hs.take, ?_, ?_⟩
      · rw [List.pairwise_cons]; exact ⟨fun a ha hx => (h4 a ha).asymm hx, hs.drop⟩
      · intro a ha b hb hx
        rcases List.mem_cons.1 hb with hb | hb
        · subst hb; exact (h3 a ha).asymm hx
        · exact ((h3 a ha).trans (h4 b hb)).asymm hx

-- non-vacuity of C02 (tests)
example : SortedNames [bs "A", bs "B", bs "B", bs "D"] ∧
    keySearchInsert [bs "A", bs "B", bs "B", bs "D"] (bs "C") = .ok (false, 3) ∧
    keySearchInsert [bs "A", bs "B", bs "B", bs "D"] (bs "B") = .ok (true, 1) := by
  refine ⟨?_, ?_, ?_⟩
  · unfold SortedNames; decide +kernel
  · decide +kernel
  · decide +kernel

/-! ## C03 -/

/-- C03: a path view walks over exactly the non-empty pieces between separators. -/
theorem c03_path_components (s : Bytes) (h0 : 0 ∉ s) (hne : s ≠ []) :
    pvElems s = .ok (components s) := pvElems_eq s h0 hne

/-- The specification used by C03, `components`, in terms of the pieces themselves: joining
non-empty separator-free pieces with any positive number of separators, with any number of
separators around, and taking the components gives back the pieces. -/
theorem c03_components_of_pieces (pieces : List (Bytes × Nat)) (lead : Nat)
    (h : ∀ p ∈ pieces, p.1 ≠ [] ∧ SEP ∉ p.1) :
    components (List.replicate lead SEP ++
      (pieces.map (fun p => p.1 ++ List.replicate (p.2 + 1) SEP)).flatten) =
      pieces.map Prod.fst := by
  have hlead : ∀ (n : Nat) (t : Bytes), components (List.replicate n SEP ++ t) = components t := by
    intro n t
    induction n with
    | zero => simp
    | succ n ih => simp [List.replicate_succ, components_sep, ih]
  rw [hlead]
  induction pieces with
  | nil => simp [components_nil]
  | cons p ps ih =>
    obtain ⟨h1, h2⟩ := h p (by simp)
    simp only [List.map_cons, List.flatten_cons, List.replicate_succ, List.append_assoc,
      List.cons_append]
    have ih' := ih (fun q hq => h q (by simp [hq]))
    simp only [List.replicate_succ] at ih'
    rw [components_append_sep _ _ h2 h1, hlead, ih']

example : components (bs "//nodout///metadata/ids/") = [bs "nodout", bs "metadata", bs "ids"] ∧
    pvElems (bs "//nodout///metadata/ids/") = .ok [bs "nodout", bs "metadata", bs "ids"] := by
  decide +kernel

/-! ## C04 -/

/-- C04 fails for names with bytes above 127: `strcmp` puts "e" before 0xC3, the signed
comparison puts it behind. -/
theorem c04_order_disagrees_non_ascii :
    strcmp [101] [195] < 0 ∧ 0 < pvStrcmp [101] [195] := by decide

/-- C04, proved part: equality is exact for all byte strings, and for names of 7-bit
characters the comparison has the sign of `strcmp`. Missing: names with other bytes, for
which the statement is false (`c04_order_disagrees_non_ascii`). -/
theorem c04_comparison_partial (a b : Bytes) :
    ((∀ c ∈ a, c < 256) → (∀ c ∈ b, c < 256) → (pvStrcmp a b = 0 ↔ a = b)) ∧
    (Ascii a → Ascii b →
      (pvStrcmp a b < 0 ↔ strcmp a b < 0) ∧ (0 < pvStrcmp a b ↔ 0 < strcmp a b)) := by
  refine ⟨pvStrcmp_eq_zero a b, fun ha hb => ⟨?_, ?_⟩⟩
  · rw [pvStrcmp_neg a b ha hb, strcmp_neg]
  · rw [pvStrcmp_pos a b ha hb, strcmp_pos]

example : Ascii (bs "legend") ∧ Ascii (bs "legend_ids") ∧
    pvStrcmp (bs "legend") (bs "legend_ids") < 0 := by decide +kernel

/-! ## C05 -/

/-- C05: the components of a joined path are those of the parts. -/
theorem c05_path_join (lhs rhs : Bytes) (h : lhs ≠ []) :
    ∃ r, pathJoin lhs rhs = .ok r ∧ components r = components lhs ++ components rhs :=
  pathJoin_components lhs rhs h

/-- C05, exact text for parts without separators at the joint. -/
theorem c05_path_join_text (lhs rhs : Bytes) (c d : Byte) (hc : c ≠ SEP) (hd : d ≠ SEP)
    (hl : lhs ≠ []) :
    pathJoin (lhs ++ [c]) (d :: rhs) = .ok (lhs ++ [c] ++ SEP :: d :: rhs) := by
  have h0 : 0 < lhs.length := List.length_pos_iff.2 hl
  unfold pathJoin
  rw [if_neg (by simp)]
  have hb : backSep (lhs ++ [c]) ((lhs ++ [c]).length - 1) = lhs.length := by
    simp only [List.length_append, List.length_singleton, Nat.add_sub_cancel]
    cases hn : lhs.length with
    | zero => omega
    | succ n =>
      unfold backSep
      rw [← hn]
      rw [if_neg (by simp [hc])]
  rw [hb]
  simp only
  rw [List.take_of_length_le (by simp)]
  cases rhs with
  | nil => simp [skipLead]
  | cons e es => simp [skipLead, hd]

/-- The excluded case of C05. -/
theorem c05_empty_lhs_is_ub (rhs : Bytes) : pathJoin [] rhs = .ub := by simp [pathJoin]

example : pathJoin (bs "dir//") (bs "/sub/file") = .ok (bs "dir/sub/file") := by decide +kernel

/-! ## C06 -/

/-- C06 fails for relative paths with a one-character first component: the parent of "a/b"
is reported to end at 0 (the root) instead of 1. -/
theorem c06_relative_wrong :
    pathMoveUp (bs "a/b") = some 0 ∧
    components ((bs "a/b").take 0) ≠ (components (bs "a/b")).dropLast := by decide +kernel

/-- ... and "ab/", which has no parent, is reported to have one. -/
theorem c06_relative_wrong' : pathMoveUp (bs "ab/") = some 0 := by decide +kernel

/-- C06, proved part: for every absolute path, "no parent" is reported exactly for the root,
and cutting at the returned index leaves all components but the last. Missing: relative
paths, for which the statement is false (`c06_relative_wrong`). -/
theorem c06_path_move_up_partial (s : Bytes) (h0 : s.head? = some SEP) :
    (pathMoveUp s = none ↔ components s = []) ∧
    (∀ r, pathMoveUp s = some r → components (s.take r) = (components s).dropLast) := by
  have := pathMoveUp_abs s h0
  cases h : pathMoveUp s with
  | none => rw [h] at this; simp only at this; simp [this]
  | some r => rw [h] at this; simp only at this; simp [this]

theorem backNonSep_rel (s : Bytes) (i : Nat) (h : i < s.length) :
    (backNonSep s i ≤ i ∧ s[backNonSep s i]? = some SEP ∧
      ∃ b, SEP ∉ b ∧ s.take (i + 1) = s.take (backNonSep s i) ++ SEP :: b ∧ (s[i]? ≠ some SEP → b ≠ [])) ∨
    (backNonSep s i = 0 ∧ SEP ∉ s.take (i + 1)) := by
  induction i with
  | zero =>
    by_cases h0 : s[0]? = some SEP
    · exact .inl (backNonSep_spec s 0 h h0)
    · right
      refine ⟨rfl, ?_⟩
      rw [take_succ_getElem s 0 h]
      rw [List.getElem?_eq_getElem h] at h0
      simpa using fun e => h0 (by rw [e])
  | succ n ih =>
    unfold backNonSep
    by_cases hc : s[n + 1]? = some SEP
    · simp only [hc, ne_eq, not_true, if_false]
      refine .inl ⟨Nat.le_refl _, trivial, [], by simp, ?_, by simp⟩
      rw [take_succ_getElem s (n + 1) h]
      have : s[n + 1] = SEP := by rw [List.getElem?_eq_getElem h] at hc; simpa using hc
      rw [this]
    · simp only [hc, ne_eq, not_false_eq_true, if_true]
      have hne : s[n + 1] ≠ SEP := by rw [List.getElem?_eq_getElem h] at hc; simpa using hc
      rcases ih (by omega) with ⟨h1, h2, b, h3, h4, _⟩ | ⟨h1, h2⟩
      · refine .inl ⟨by omega, h2, b ++ [s[n + 1]], ?_, ?_, by simp⟩
        · simp [h3]; exact fun e => hne e.symm
        · rw [take_succ_getElem s (n + 1) h, h4]; simp
      · refine .inr ⟨h1, ?_⟩
        rw [take_succ_getElem s (n + 1) h]
        simp only [List.mem_append, List.mem_singleton, not_or]
        exact ⟨h2, fun e => hne e.symm⟩

theorem moveUp_step_rel (s : Bytes) (c : Byte) (hc : c ≠ SEP) (l : Nat) (hl : l < s.length) (h0 : s[0]? = some c)
    (hs : s[l]? = some SEP) :
    (components (s.take l) = [[c]] ∧ (if backSep s l ≠ 0 then backSep s l + 1 else backSep s l) = 0) ∨
    (components (s.take l) ≠ [[c]] ∧
      components (s.take (if backSep s l ≠ 0 then backSep s l + 1 else backSep s l)) = components (s.take l)) := by
  have hk := backSep_components s l hl
  rw [take_succ_getElem s l hl] at hk
  have : s[l] = SEP := by rw [List.getElem?_eq_getElem hl] at hs; simpa using hs
  rw [this, components_snoc_sep] at hk
  have hone : components (s.take 1) = [[c]] := by
    cases s with
    | nil => simp at h0
    | cons d ds =>
      simp at h0; subst h0
      simpa using components_noSep [d] (by simpa using fun e => hc e.symm) (by simp)
  rw [← hk]
  by_cases hz : backSep s l = 0
  · left
    simp only [hz, ne_eq, not_true, if_false, and_true]
    exact hone
  · right
    rw [if_pos hz]
    refine ⟨?_, rfl⟩
    intro e
    -- the character at `backSep s l` is not a separator, so the first `backSep s l + 1 ≥ 2` characters are not one character
    have hlt : backSep s l < s.length := by have := backSep_le s l; omega
    have hst := backSep_stop s l hz
    rw [take_succ_getElem s _ hlt] at e
    have hne : s[backSep s l] ≠ SEP := by rw [List.getElem?_eq_getElem hlt] at hst; simpa using hst
    obtain ⟨n, hn⟩ : ∃ n, backSep s l = n + 1 := ⟨backSep s l - 1, by omega⟩
    cases s with
    | nil => simp at h0
    | cons d ds =>
      simp at h0; subst h0
      rw [components_take_drop _ d ((ds.take n) ++ [(d :: ds)[backSep (d :: ds) l]]) (by simp [hn]) hc] at e
      simp only [List.cons.injEq] at e
      obtain ⟨e1, e2⟩ := e
      simp only [hn, List.take_succ_cons, List.cons_append] at e1 e2
      have hd : notSep d = true := by simp [notSep, hc]
      rw [List.takeWhile_cons, if_pos hd] at e1
      rw [List.dropWhile_cons, if_pos hd] at e2
      simp only [List.cons.injEq, true_and] at e1
      have e3 : (ds.take n ++ [(d :: ds)[n + 1]'(hn ▸ hlt)]).dropWhile notSep =
          ds.take n ++ [(d :: ds)[n + 1]'(hn ▸ hlt)] := by
        have := List.takeWhile_append_dropWhile (p := notSep) (l := ds.take n ++ [(d :: ds)[n + 1]'(hn ▸ hlt)])
        rw [e1, List.nil_append] at this
        exact this
      rw [e3] at e2
      have hne' : (d :: ds)[n + 1]'(hn ▸ hlt) ≠ SEP := by
        have : (d :: ds)[backSep (d :: ds) l] = (d :: ds)[n + 1]'(hn ▸ hlt) := by simp only [hn]
        rw [← this]; exact hne
      -- a text whose last character is not a separator has a component
      have hcomp : ∀ (t : Bytes) (x : Byte), x ≠ SEP → components (t ++ [x]) ≠ [] := by
        intro t x hx
        induction t with
        | nil => rw [List.nil_append, components_noSep [x] (by simpa using fun e => hx e.symm) (by simp)]; simp
        | cons y ys ih =>
          by_cases hy : y = SEP
          · subst hy; rw [List.cons_append, components_sep]; exact ih
          · rw [List.cons_append, components_take_drop _ y (ys ++ [x]) rfl hy]; simp
      exact hcomp _ _ hne' e2

/-- C06, the rest: the exact behaviour on relative paths. With one component there is no parent, and that is
reported unless the component has at least two characters and is followed by a separator (then 0 is returned). With
several components the returned index cuts off the last one, except for two components of which the first has a
single character, where 0 is returned. -/
theorem c06_relative (s : Bytes) (c : Byte) (hc : c ≠ SEP) (h0 : s.head? = some c) :
    ((components s).length = 1 →
      pathMoveUp s = if s.getLast? = some SEP ∧ components s ≠ [[c]] then some 0 else none) ∧
    (2 ≤ (components s).length → ∃ r, pathMoveUp s = some r ∧
      (if (components s).dropLast = [[c]] then r = 0 else components (s.take r) = (components s).dropLast)) := by
  have h0' : s[0]? = some c := by rw [← h0]; simp [List.head?_eq_getElem?]
  have hne : s ≠ [] := by intro e; rw [e] at h0; simp at h0
  unfold pathMoveUp
  rcases lastSepFrom_spec s 0 none with ⟨h1, h2⟩ | ⟨a, b, h1, h2, h3⟩
  · rw [h2]
    have hcs := components_noSep s h1 hne
    refine ⟨fun _ => ?_, fun h => by rw [hcs] at h; simp at h⟩
    rw [if_neg]
    intro hh
    exact h1 (List.mem_of_getLast? hh.1)
  · rw [h3]
    simp only [Nat.zero_add]
    have hal : a.length < s.length := by rw [h1]; simp
    have hsa : s[a.length]? = some SEP := by rw [h1]; simp
    have hta : s.take a.length = a := by rw [h1]; simp
    have hane : a ≠ [] := by
      intro e
      rw [h1, e] at h0
      simp at h0
      exact hc h0.symm
    by_cases htrail : a.length + 1 = s.length
    · simp only [htrail, if_true]
      have hb : b = [] := by
        rw [h1] at htrail; simp at htrail; exact htrail
      subst hb
      have hlast : s.getLast? = some SEP := by rw [h1]; simp
      have hc1 := backSep_components s a.length hal
      rw [show s.take (a.length + 1) = s from by rw [htrail]; simp] at hc1
      by_cases hz : backSep s a.length = 0
      · simp only [hz, if_true]
        rw [hz] at hc1
        have hone : components s = [[c]] := by
          rw [← hc1]
          cases s with
          | nil => simp at h0
          | cons d ds =>
            simp at h0; subst h0
            simpa using components_noSep [d] (by simpa using fun e => hc e.symm) (by simp)
        refine ⟨fun _ => ?_, fun h => by rw [hone] at h; simp at h⟩
        rw [if_neg (fun hh => hh.2 hone)]
      · simp only [hz, if_false]
        have hlt : backSep s a.length < s.length := by
          have := backSep_le s a.length; omega
        have hstop := backSep_stop s a.length hz
        rcases backNonSep_rel s (backSep s a.length) hlt with ⟨h4, h5, b', h6, h7, h8⟩ | ⟨h4, h5⟩
        · have hb' := h8 hstop
          have hcomp : components s = components (s.take (backNonSep s (backSep s a.length))) ++ [b'] := by
            rw [← hc1, h7, components_snoc _ b' h6 hb']
          have hst := moveUp_step_rel s c hc (backNonSep s (backSep s a.length)) (by omega) h0' h5
          constructor
          · intro h
            exfalso
            rw [hcomp] at h
            simp only [List.length_append, List.length_singleton] at h
            have hnil : components (s.take (backNonSep s (backSep s a.length))) = [] :=
              List.length_eq_zero_iff.1 (by omega)
            have hpos : 0 < backNonSep s (backSep s a.length) := by
              rcases Nat.eq_zero_or_pos (backNonSep s (backSep s a.length)) with e | e
              · rw [e, h0'] at h5
                simp at h5
                exact absurd h5 hc
              · exact e
            obtain ⟨n, hn⟩ : ∃ n, backNonSep s (backSep s a.length) = n + 1 := ⟨_, (Nat.succ_pred_eq_of_pos hpos).symm⟩
            rw [hn] at hnil
            cases s with
            | nil => simp at h0
            | cons d ds =>
              simp at h0; subst h0
              rw [List.take_succ_cons, components_take_drop _ d (ds.take n) rfl hc] at hnil
              simp at hnil
          · intro _
            refine ⟨_, rfl, ?_⟩
            rw [hcomp, List.dropLast_concat]
            rcases hst with ⟨e1, e2⟩ | ⟨e1, e2⟩
            · rw [if_pos e1, e2]
            · rw [if_neg e1, e2]
        · rw [h4]
          simp only [backSep, ne_eq, not_true, if_false]
          have hone : components s = [s.take (backSep s a.length + 1)] := by
            rw [← hc1]
            exact components_noSep _ h5 (by
              intro e
              have := congrArg List.length e
              simp at this
              exact hne this)
          refine ⟨fun _ => ?_, fun h => by rw [hone] at h; simp at h⟩
          rw [if_pos]
          refine ⟨hlast, ?_⟩
          rw [hone]
          intro e
          have := congrArg (fun l => (l.map List.length)) e
          simp at this
          omega
    · simp only [htrail, if_false]
      have hb : b ≠ [] := by
        intro e; apply htrail; rw [h1, e]; simp
      have hcomp : components s = components a ++ [b] := by rw [h1, components_snoc a b h2 hb]
      have hst := moveUp_step_rel s c hc a.length hal h0' hsa
      rw [hta] at hst
      constructor
      · intro h
        exfalso
        rw [hcomp] at h
        simp only [List.length_append, List.length_singleton] at h
        have hnil : components a = [] := List.length_eq_zero_iff.1 (by omega)
        cases a with
        | nil => exact hane rfl
        | cons d ds =>
          have : d = c := by rw [h1] at h0; simpa using h0
          subst this
          rw [components_take_drop _ d ds rfl hc] at hnil
          simp at hnil
      · intro _
        refine ⟨_, rfl, ?_⟩
        rw [hcomp, List.dropLast_concat]
        rcases hst with ⟨e1, e2⟩ | ⟨e1, e2⟩
        · rw [if_pos e1, e2]
        · rw [if_neg e1, e2]

example : pathMoveUp (bs "ab//cd/") = some 2 ∧ pathMoveUp (bs "a/b/c") = some 3 ∧ pathMoveUp (bs "a/b") = some 0 ∧
    pathMoveUp (bs "ab/") = some 0 ∧ pathMoveUp (bs "a/") = none ∧ pathMoveUp (bs "ab") = none := by decide +kernel

example : (bs "/nodout//d000001/").head? = some SEP ∧
    pathMoveUp (bs "/nodout//d000001/") = some 7 ∧ pathMoveUp (bs "///") = none := by
  decide +kernel

/-! ## C52 -/

/-- C52: for every sequence of appends of NUL-free text on a new builder, no write leaves the
allocation, and the text handed out is the concatenation; before the first append there is
no buffer. -/
theorem c52_string_builder (ops : List SBOp) (h : ∀ op ∈ ops, 0 ∉ op.text) :
    ∃ b, sbRun {} ops = .ok b ∧
      (ops = [] → (sbMove b).1 = none) ∧
      (ops ≠ [] → ∃ buf, (sbMove b).1 = some buf ∧
        readCStr buf = some (ops.map SBOp.text).flatten) ∧
      (sbMove b).2 = {} := by
  obtain ⟨b, h1, h2, h3⟩ := sbRun_inv (b := {}) (t := []) (.inl ⟨rfl, rfl⟩) ops
  refine ⟨b, h1, ?_, ?_, rfl⟩
  · intro ho; subst ho; simp [sbRun] at h1; subst h1; rfl
  · intro ho
    have hb := h3 ho
    rcases h2 with ⟨h4, _⟩ | ⟨rest, h4, _, _⟩
    · subst h4; exact absurd rfl hb
    · refine ⟨_, h4, ?_⟩
      rw [List.nil_append, readCStr_text]
      intro hm
      rw [List.mem_flatten] at hm
      obtain ⟨l, hl, h0⟩ := hm
      obtain ⟨op, hop, rfl⟩ := List.mem_map.1 hl
      exact h op hop h0

example : (match sbRun {} [.append (bs "ab"), .char 46, .append [], .appendLen (bs "cd")] with
    | .ok b => (sbMove b).1.bind readCStr
    | _ => none) = some (bs "ab.cd") := by decide +kernel

end Dyna
