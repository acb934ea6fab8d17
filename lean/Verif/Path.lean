import Verif.PathView
/-!
# Paths

Model of `path_move_up` and `path_join` of `/repo/src/path.c`. The `_real` variants are
the same functions on the modelled platform (`REAL_PATH_SEP == '/'`).
-/

namespace Dyna

/-- The loop `while (path[i] == PATH_SEP) { if (i == 0) break; i--; }`
(`/repo/src/path.c:59-64`, `:83-88`, `:165-170`). `i` is always inside the string. -/
def backSep (s : Bytes) : Nat → Nat
  | 0 => 0
  | i + 1 => if s[i + 1]? = some SEP then backSep s i else i + 1

/-- The loop `while (path[i] != PATH_SEP) { if (i == 0) break; i--; }`
(`/repo/src/path.c:73-78`). -/
def backNonSep (s : Bytes) : Nat → Nat
  | 0 => 0
  | i + 1 => if s[i + 1]? ≠ some SEP then backNonSep s i else i + 1

/-- The loop computing the last position of a separator (`/repo/src/path.c:41-49`). -/
def lastSepFrom : Bytes → Nat → Option Nat → Option Nat
  | [], _, last => last
  | c :: cs, i, last => lastSepFrom cs (i + 1) (if c = SEP then some i else last)

/-- Models `/repo/src/path.c:37-95` (`path_move_up`) on a NUL terminated string without
inner NUL; `none` models the result `~0`. -/
def pathMoveUp (s : Bytes) : Option Nat :=
  match lastSepFrom s 0 none with
  | none => none
  | some l =>
    let step (l : Nat) : Option Nat :=
      let l2 := backSep s l
      some (if l2 ≠ 0 then l2 + 1 else l2)
    if l + 1 = s.length then
      let l1 := backSep s l
      if l1 = 0 then none else step (backNonSep s l1)
    else step l

/-- The loop `while (rhs[j] == PATH_SEP) { if (j == rhs_len - 1) break; j++; }`
(`/repo/src/path.c:173-178`), on the suffix that starts at `j`; the result is the suffix at
which the loop stops. -/
def skipLead : Bytes → Bytes
  | [] => []
  | [c] => [c]
  | c :: d :: ds => if c = SEP then skipLead (d :: ds) else c :: d :: ds

/-- Models `/repo/src/path.c:157-190` (`path_join`). For an empty `lhs` the code reads
`lhs[SIZE_MAX]`. -/
def pathJoin (lhs rhs : Bytes) : Res Bytes :=
  if lhs = [] then .ub
  else
    let i := backSep lhs (lhs.length - 1)
    .ok (lhs.take (i + 1) ++ SEP :: skipLead rhs)

/-! ## Lemmas -/

theorem components_snoc_sep (a : Bytes) : components (a ++ [SEP]) = components a := by
  rw [components_append_sep' a [], components_nil, List.append_nil]

theorem take_succ_getElem {α : Type} (s : List α) (i : Nat) (h : i < s.length) :
    s.take (i + 1) = s.take i ++ [s[i]] := List.take_succ_eq_append_getElem h

theorem backSep_le (s : Bytes) (i : Nat) : backSep s i ≤ i := by
  induction i with
  | zero => simp [backSep]
  | succ n ih => unfold backSep; split <;> omega

theorem backSep_components (s : Bytes) (i : Nat) (h : i < s.length) :
    components (s.take (backSep s i + 1)) = components (s.take (i + 1)) := by
  induction i with
  | zero => simp [backSep]
  | succ n ih =>
    unfold backSep
    split
    · rename_i hc
      rw [ih (by omega), take_succ_getElem s (n + 1) h]
      have : s[n + 1] = SEP := by rw [List.getElem?_eq_getElem h] at hc; simpa using hc
      rw [this, components_snoc_sep]
    · rfl

theorem backSep_stop (s : Bytes) (i : Nat) (h : backSep s i ≠ 0) :
    s[backSep s i]? ≠ some SEP := by
  induction i with
  | zero => simp [backSep] at h
  | succ n ih =>
    unfold backSep at h ⊢
    split
    · rename_i hc; rw [if_pos hc] at h; exact ih h
    · rename_i hc; exact hc

theorem backNonSep_spec (s : Bytes) (i : Nat) (h : i < s.length) (h0 : s[0]? = some SEP) :
    backNonSep s i ≤ i ∧ s[backNonSep s i]? = some SEP ∧
    ∃ b, SEP ∉ b ∧ s.take (i + 1) = s.take (backNonSep s i) ++ SEP :: b ∧
      (s[i]? ≠ some SEP → b ≠ []) := by
  induction i with
  | zero =>
    refine ⟨by simp [backNonSep], by simpa [backNonSep] using h0, [], by simp, ?_, ?_⟩
    · rw [take_succ_getElem s 0 h]
      have : s[0] = SEP := by rw [List.getElem?_eq_getElem h] at h0; simpa using h0
      simp [backNonSep, this]
    · intro hc; exact absurd h0 hc
  | succ n ih =>
    unfold backNonSep
    by_cases hc : s[n + 1]? = some SEP
    · simp only [hc, ne_eq, not_true, if_false]
      refine ⟨Nat.le_refl _, trivial, [], by simp, ?_, by simp⟩
      rw [take_succ_getElem s (n + 1) h]
      have : s[n + 1] = SEP := by rw [List.getElem?_eq_getElem h] at hc; simpa using hc
      rw [this]
    · simp only [hc, ne_eq, not_false_eq_true, if_true]
      obtain ⟨h1, h2, b, h3, h4, _⟩ := ih (by omega)
      have hne : s[n + 1] ≠ SEP := by rw [List.getElem?_eq_getElem h] at hc; simpa using hc
      refine ⟨by omega, h2, b ++ [s[n + 1]], ?_, ?_, by simp⟩
      · simp [h3]; exact fun e => hne e.symm
      · rw [take_succ_getElem s (n + 1) h, h4]; simp

theorem lastSepFrom_spec (s : Bytes) (i : Nat) (last : Option Nat) :
    (SEP ∉ s ∧ lastSepFrom s i last = last) ∨
    (∃ a b, s = a ++ SEP :: b ∧ SEP ∉ b ∧ lastSepFrom s i last = some (i + a.length)) := by
  induction s generalizing i last with
  | nil => left; simp [lastSepFrom]
  | cons c cs ih =>
    unfold lastSepFrom
    rcases ih (i + 1) (if c = SEP then some i else last) with ⟨h1, h2⟩ | ⟨a, b, h1, h2, h3⟩
    · by_cases hc : c = SEP
      · right; exact ⟨[], cs, by simp [hc], h1, by rw [h2]; simp [hc]⟩
      · left; refine ⟨?_, by rw [h2]; simp [hc]⟩
        simp [h1]; exact fun e => hc e.symm
    · right; refine ⟨c :: a, b, by simp [h1], h2, ?_⟩
      rw [h3]; simp; omega

theorem components_snoc (a b : Bytes) (hb : SEP ∉ b) (hne : b ≠ []) :
    components (a ++ SEP :: b) = components a ++ [b] := by
  rw [components_append_sep', components_noSep b hb hne]

theorem skipLead_components (s : Bytes) : components (skipLead s) = components s := by
  induction s with
  | nil => rfl
  | cons c cs ih =>
    cases cs with
    | nil => rfl
    | cons d ds =>
      unfold skipLead
      split
      · rename_i hc; subst hc; rw [ih, components_sep]
      · rfl

/-- The common tail of `path_move_up` gives the parent when `l` is the separator in front
of the last component. -/
theorem moveUp_step (s : Bytes) (l : Nat) (hl : l < s.length) (h0 : s[0]? = some SEP)
    (hs : s[l]? = some SEP) :
    components (s.take (if backSep s l ≠ 0 then backSep s l + 1 else backSep s l)) =
      components (s.take l) := by
  have hc := backSep_components s l hl
  rw [take_succ_getElem s l hl] at hc
  have : s[l] = SEP := by rw [List.getElem?_eq_getElem hl] at hs; simpa using hs
  rw [this, components_snoc_sep] at hc
  rw [← hc]
  split
  · rfl
  · rename_i hz
    have hz : backSep s l = 0 := by simpa using hz
    rw [hz]
    cases s with
    | nil => simp at hl
    | cons c cs =>
      simp at h0; subst h0
      simp [components_sep]

theorem pathMoveUp_abs (s : Bytes) (h0 : s.head? = some SEP) :
    match pathMoveUp s with
    | none => components s = []
    | some r => components s ≠ [] ∧ components (s.take r) = (components s).dropLast := by
  have h0' : s[0]? = some SEP := by rw [← h0]; simp [List.head?_eq_getElem?]
  have hmem : SEP ∈ s := by
    cases s with
    | nil => simp at h0
    | cons c cs => simp at h0; simp [h0]
  unfold pathMoveUp
  rcases lastSepFrom_spec s 0 none with ⟨h1, _⟩ | ⟨a, b, h1, h2, h3⟩
  · exact absurd hmem h1
  · rw [h3]
    simp only [Nat.zero_add]
    have hal : a.length < s.length := by rw [h1]; simp
    have hsa : s[a.length]? = some SEP := by rw [h1]; simp
    have hta : s.take a.length = a := by rw [h1]; simp
    by_cases htrail : a.length + 1 = s.length
    · simp only [htrail, if_true]
      have hb : b = [] := by
        rw [h1] at htrail; simp at htrail; exact htrail
      subst hb
      have hc1 := backSep_components s a.length hal
      rw [show s.take (a.length + 1) = s from by rw [htrail]; simp] at hc1
      by_cases hz : backSep s a.length = 0
      · simp only [hz, if_true]
        rw [hz] at hc1
        rw [← hc1]
        cases s with
        | nil => simp at h0
        | cons c cs => simp at h0; subst h0; simp [components_sep, components_nil]
      · simp only [hz, if_false]
        have hlt : backSep s a.length < s.length := by
          have := backSep_le s a.length; omega
        obtain ⟨h4, h5, b', h6, h7, h8⟩ := backNonSep_spec s (backSep s a.length) hlt h0'
        have hb' := h8 (backSep_stop s a.length hz)
        have hst := moveUp_step s (backNonSep s (backSep s a.length)) (by omega) h0' h5
        rw [hst, ← hc1, h7, components_snoc _ b' h6 hb']
        simp
    · simp only [htrail, if_false]
      have hb : b ≠ [] := by
        intro e; apply htrail; rw [h1, e]; simp
      have hst := moveUp_step s a.length hal h0' hsa
      rw [hst, hta]
      conv => rhs; rw [h1]
      constructor
      · rw [h1, components_snoc a b h2 hb]; simp
      · rw [components_snoc a b h2 hb]; simp

theorem pathJoin_components (lhs rhs : Bytes) (h : lhs ≠ []) :
    ∃ r, pathJoin lhs rhs = .ok r ∧ components r = components lhs ++ components rhs := by
  unfold pathJoin
  rw [if_neg h]
  refine ⟨_, rfl, ?_⟩
  have hl : 0 < lhs.length := List.length_pos_iff.2 h
  rw [components_append_sep', backSep_components _ _ (by omega), skipLead_components]
  rw [show lhs.length - 1 + 1 = lhs.length from by omega, List.take_length]

end Dyna
