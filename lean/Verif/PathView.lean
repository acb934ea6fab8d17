import Verif.CStr
/-!
# Path views

Model of `/repo/src/path_view.c`. A string is a byte list `s` followed by a NUL
terminator at index `s.length`; reading behind the terminator gives `none`.
-/

namespace Dyna

/-- `PATH_SEP`, `/repo/src/path.h`. Code: `/repo/src/path.h:31`. -/
def SEP : Byte := 47

/-- `path_view_t`, `/repo/src/path_view.h` (without the string pointer). C uses `int`
indices; strings are assumed shorter than 2^31. Code: `/repo/src/path_view.h:60-64`. -/
structure PV where
  start : Nat
  stop : Nat
deriving DecidableEq, Repr

/-- Read of `string[i]`: the terminator is readable, nothing behind it is.
Code: `/repo/src/path_view.c:34-87` (accesses to `string`). -/
def rd (s : Bytes) (i : Nat) : Option Byte :=
  if i < s.length then s[i]? else if i = s.length then some 0 else none

/-- The loop `while (string[i] == PATH_SEP) i++` (`/repo/src/path_view.c:68-71`, `:51-53`). -/
def skipSep (s : Bytes) (i : Nat) : Option Nat :=
  match rd s i with
  | none => none
  | some c => if h : c = SEP ∧ i < s.length then skipSep s (i + 1) else some i
termination_by s.length - i
decreasing_by omega

/-- The loop `while (string[i + 1] != PATH_SEP && string[i + 1] != '\0') i++`
(`/repo/src/path_view.c:46-48`, `:80-82`). -/
def scanEnd (s : Bytes) (i : Nat) : Option Nat :=
  match rd s (i + 1) with
  | none => none
  | some c => if h : c ≠ SEP ∧ c ≠ 0 ∧ i < s.length then scanEnd s (i + 1) else some i
termination_by s.length - i
decreasing_by omega

/-- Models `/repo/src/path_view.c:34-61` (`path_view_new`). -/
def pvNew (s : Bytes) : Res PV :=
  match s with
  | [] => .abort
  | c :: _ =>
    if c ≠ SEP then
      match scanEnd s 0 with
      | none => .ub
      | some e => .ok ⟨0, e⟩
    else if rd s 1 = some SEP then
      match skipSep s 2 with
      | none => .ub
      | some i => .ok ⟨i - 1, i - 1⟩
    else .ok ⟨0, 0⟩

/-- Models `/repo/src/path_view.c:63-87` (`path_view_advance`); `none` models the result 0. -/
def pvAdvance (s : Bytes) (pv : PV) : Res (Option PV) :=
  match skipSep s (pv.stop + 1) with
  | none => .ub
  | some i =>
    match rd s i with
    | none => .ub
    | some c =>
      if c = 0 then .ok none
      else
        match scanEnd s i with
        | none => .ub
        | some e => .ok (some ⟨i, e⟩)

/-- The bytes a view covers (`/repo/src/path_view.c:120-127`, `path_view_stralloc`). -/
def pvStr (s : Bytes) (pv : PV) : Bytes := (s.drop pv.start).take (pv.stop - pv.start + 1)

/-- The components delivered by advancing a view until it reports the end. `fuel` bounds
the number of steps; `pvRest_eq` shows that the length of the string always suffices.
Code: `/repo/src/path_view.c:63-87`. -/
def pvRest (s : Bytes) : Nat → PV → Res (List Bytes)
  | 0, _ => .ub
  | fuel + 1, pv =>
    match pvAdvance s pv with
    | .ok none => .ok []
    | .ok (some pv') =>
      match pvRest s fuel pv' with
      | .ok l => .ok (pvStr s pv' :: l)
      | .err => .err
      | .ub => .ub
      | .abort => .abort
    | .err => .err
    | .ub => .ub
    | .abort => .abort

/-- All components visited by `path_view_new` followed by `path_view_advance` until the
end. For a path that starts with a separator the first view is the root, which is not a
component (the directory code advances over it). Code: `/repo/src/path_view.c:34-87`. -/
def pvElems (s : Bytes) : Res (List Bytes) :=
  match pvNew s with
  | .ok pv =>
    match pvRest s (s.length + 1) pv with
    | .ok l => .ok (if s.head? = some SEP then l else pvStr s pv :: l)
    | .err => .err
    | .ub => .ub
    | .abort => .abort
  | .err => .err
  | .ub => .ub
  | .abort => .abort

/-! ## Specification -/

/-- Specification: split a string at every separator. Part of the specification, models no code. -/
def splitSep : Bytes → List Bytes
  | [] => [[]]
  | c :: cs =>
    if c = SEP then [] :: splitSep cs
    else match splitSep cs with
      | [] => [[c]]
      | p :: ps => (c :: p) :: ps

/-- Specification: the components of a path are the non-empty pieces between separators.
Part of the specification, models no code. -/
def components (s : Bytes) : List Bytes := (splitSep s).filter (fun p => p ≠ [])

/-! ## Lemmas -/

/-- Code: `/repo/src/path.h:31`. -/
def isSep (c : Byte) : Bool := c == SEP
/-- Code: `/repo/src/path.h:31`. -/
def notSep (c : Byte) : Bool := c != SEP

@[simp] theorem isSep_iff (c : Byte) : isSep c = true ↔ c = SEP := by simp [isSep]
@[simp] theorem notSep_iff (c : Byte) : notSep c = true ↔ c ≠ SEP := by simp [notSep]
@[simp] theorem notSep_false (c : Byte) : notSep c = false ↔ c = SEP := by simp [notSep]
@[simp] theorem isSep_false (c : Byte) : isSep c = false ↔ c ≠ SEP := by simp [isSep]

theorem splitSep_ne_nil (s : Bytes) : splitSep s ≠ [] := by
  cases s with
  | nil => simp [splitSep]
  | cons c cs => unfold splitSep; split; · simp
                 split <;> simp

theorem components_nil : components [] = [] := by simp [components, splitSep]

theorem components_sep (cs : Bytes) : components (SEP :: cs) = components cs := by
  simp [components, splitSep]

theorem splitSep_append (a b : Bytes) (h : SEP ∉ a) :
    splitSep (a ++ SEP :: b) = a :: splitSep b := by
  induction a with
  | nil => simp [splitSep]
  | cons c cs ih =>
    have hc : c ≠ SEP := fun e => h (by simp [e])
    have := ih (fun e => h (by simp [e]))
    simp [splitSep, hc, this]

theorem splitSep_noSep (a : Bytes) (h : SEP ∉ a) : splitSep a = [a] := by
  induction a with
  | nil => simp [splitSep]
  | cons c cs ih =>
    have hc : c ≠ SEP := fun e => h (by simp [e])
    have := ih (fun e => h (by simp [e]))
    simp [splitSep, hc, this]

theorem components_noSep (a : Bytes) (h : SEP ∉ a) (hne : a ≠ []) : components a = [a] := by
  simp [components, splitSep_noSep a h, hne]

theorem components_append_sep (a b : Bytes) (h : SEP ∉ a) (hne : a ≠ []) :
    components (a ++ SEP :: b) = a :: components b := by
  simp [components, splitSep_append a b h, hne]

/-- Splitting distributes over a separator anywhere. -/
theorem components_append_sep' (a b : Bytes) :
    components (a ++ SEP :: b) = components a ++ components b := by
  have key : ∀ t, splitSep (t ++ SEP :: b) = splitSep t ++ splitSep b := by
    intro t
    induction t with
    | nil => simp [splitSep]
    | cons x xs ihx =>
      by_cases hx : x = SEP
      · simp [splitSep, hx, ihx]
      · simp only [List.cons_append, splitSep, hx, if_false, ihx]
        cases h : splitSep xs with
        | nil => exact absurd h (splitSep_ne_nil xs)
        | cons p ps => simp
  simp only [components, key, List.filter_append]

theorem mem_takeWhile {α : Type} {p : α → Bool} {l : List α} {x : α} (h : x ∈ l.takeWhile p) :
    p x = true := by
  induction l with
  | nil => simp at h
  | cons a as ih =>
    rw [List.takeWhile_cons] at h
    split at h
    · rcases List.mem_cons.1 h with h | h
      · subst h; assumption
      · exact ih h
    · simp at h

theorem components_dropSep (s : Bytes) :
    components (s.dropWhile isSep) = components s := by
  induction s with
  | nil => rfl
  | cons c cs ih =>
    by_cases hc : c = SEP
    · subst hc; simp [ih, components_sep]
    · simp [hc]

theorem components_take_drop (s : Bytes) (c : Byte) (cs : Bytes) (hs : s = c :: cs)
    (hc : c ≠ SEP) :
    components s = s.takeWhile notSep :: components (s.dropWhile notSep) := by
  have hsplit : s = s.takeWhile notSep ++ s.dropWhile notSep :=
    (List.takeWhile_append_dropWhile).symm
  have hno : SEP ∉ s.takeWhile notSep := by
    intro h
    have := mem_takeWhile h
    simp at this
  have hne : s.takeWhile notSep ≠ [] := by
    subst hs; simp [hc]
  cases hd : s.dropWhile notSep with
  | nil =>
    rw [hd, List.append_nil] at hsplit
    rw [components_nil]
    conv => lhs; rw [hsplit]
    exact components_noSep _ hno hne
  | cons d ds =>
    have hdS : d = SEP := by
      have := List.head?_dropWhile_not notSep s
      rw [hd] at this
      simpa using this
    subst hdS
    rw [components_sep]
    conv => lhs; rw [hsplit, hd]
    exact components_append_sep _ _ hno hne

theorem rd_lt {s : Bytes} {i : Nat} (h : i < s.length) : rd s i = some s[i] := by
  simp [rd, h]

theorem rd_len (s : Bytes) : rd s s.length = some 0 := by simp [rd]

theorem skipSep_eq (s : Bytes) (i : Nat) (h : i ≤ s.length) :
    skipSep s i = some (i + ((s.drop i).takeWhile isSep).length) := by
  induction hn : s.length - i generalizing i with
  | zero =>
    have : i = s.length := by omega
    subst this
    rw [skipSep, rd_len]; simp
  | succ n ih =>
    have hi : i < s.length := by omega
    rw [skipSep, rd_lt hi]
    rw [List.drop_eq_getElem_cons hi]
    by_cases hc : s[i] = SEP
    · simp only [hc, hi, true_and, dif_pos, List.takeWhile_cons]
      rw [ih (i + 1) (by omega) (by omega)]
      simp; omega
    · simp only [hc, false_and, dif_neg, not_false_eq_true, List.takeWhile_cons]
      simp [hc]

theorem scanEnd_eq (s : Bytes) (h0 : 0 ∉ s) (i : Nat) (h : i < s.length) :
    scanEnd s i = some (i + ((s.drop (i + 1)).takeWhile notSep).length) := by
  induction hn : s.length - i generalizing i with
  | zero => omega
  | succ n ih =>
    rw [scanEnd]
    by_cases hi : i + 1 < s.length
    · rw [rd_lt hi, List.drop_eq_getElem_cons hi]
      have hz : s[i + 1] ≠ 0 := fun e => h0 (e ▸ List.getElem_mem hi)
      by_cases hc : s[i + 1] = SEP
      · simp only [hc, ne_eq, not_true, false_and, dif_neg, not_false_eq_true,
          List.takeWhile_cons]
        simp
      · simp only [ne_eq, hc, not_false_eq_true, hz, h, and_self, dif_pos]
        rw [ih (i + 1) hi (by omega)]
        have hb : notSep s[i + 1] = true := by simp [hc]
        simp only [List.takeWhile_cons, hb, if_true, List.length_cons, Option.some.injEq]
        omega
    · have he : i + 1 = s.length := by omega
      rw [he, rd_len]; simp

theorem dropWhile_eq_drop {α : Type} (p : α → Bool) (l : List α) :
    l.dropWhile p = l.drop (l.takeWhile p).length := by
  induction l with
  | nil => rfl
  | cons a as ih =>
    simp only [List.dropWhile_cons, List.takeWhile_cons]
    split <;> simp_all

theorem takeWhile_eq_take {α : Type} (p : α → Bool) (l : List α) :
    l.takeWhile p = l.take (l.takeWhile p).length := by
  induction l with
  | nil => rfl
  | cons a as ih =>
    simp only [List.takeWhile_cons]
    split
    · simp only [List.length_cons, List.take_succ_cons]; rw [← ih]
    · simp

/-- One advance, expressed on the remaining suffix of the string. -/
theorem pvAdvance_spec (s : Bytes) (h0 : 0 ∉ s) (pv : PV) (h : pv.stop < s.length) :
    ((s.drop (pv.stop + 1)).dropWhile isSep = [] ∧ pvAdvance s pv = .ok none) ∨
    (∃ pv', pvAdvance s pv = .ok (some pv') ∧ pv.stop < pv'.start ∧ pv'.start ≤ pv'.stop ∧
      pv'.stop < s.length ∧
      (∃ c cs, (s.drop (pv.stop + 1)).dropWhile isSep = c :: cs ∧ c ≠ SEP) ∧
      pvStr s pv' = ((s.drop (pv.stop + 1)).dropWhile isSep).takeWhile notSep ∧
      s.drop (pv'.stop + 1) =
        ((s.drop (pv.stop + 1)).dropWhile isSep).dropWhile notSep) := by
  unfold pvAdvance
  rw [skipSep_eq s _ (by omega)]
  rw [dropWhile_eq_drop, List.drop_drop]
  generalize hk : ((s.drop (pv.stop + 1)).takeWhile isSep).length = k
  simp only
  have hkl : k ≤ (s.drop (pv.stop + 1)).length := by
    rw [← hk]; exact List.IsPrefix.length_le (List.takeWhile_prefix _)
  rw [List.length_drop] at hkl
  by_cases hi : pv.stop + 1 + k < s.length
  · right
    rw [rd_lt hi]
    have hz : s[pv.stop + 1 + k] ≠ 0 := fun e => h0 (e ▸ List.getElem_mem hi)
    have hns : s[pv.stop + 1 + k] ≠ SEP := by
      have hd := List.head?_dropWhile_not isSep (s.drop (pv.stop + 1))
      rw [dropWhile_eq_drop, hk, List.drop_drop, List.drop_eq_getElem_cons hi] at hd
      simpa only [List.head?_cons, isSep_false] using hd
    have hb : notSep s[pv.stop + 1 + k] = true := by simp [hns]
    simp only [hz, if_false]
    rw [scanEnd_eq s h0 _ hi]
    refine ⟨_, rfl, by simp; omega, by simp, ?_, ⟨_, _, List.drop_eq_getElem_cons hi, hns⟩, ?_, ?_⟩
    · have := List.IsPrefix.length_le (List.takeWhile_prefix notSep (l := s.drop (pv.stop + 1 + k + 1)))
      rw [List.length_drop] at this
      simp only; omega
    · simp only [pvStr]
      rw [List.drop_eq_getElem_cons hi]
      simp only [hb, List.takeWhile_cons, if_true]
      rw [show ∀ n, pv.stop + 1 + k + n - (pv.stop + 1 + k) + 1 = n + 1 from fun n => by omega]
      rw [List.take_succ_cons, ← takeWhile_eq_take]
    · rw [List.drop_eq_getElem_cons hi]
      simp only [hb, List.dropWhile_cons, if_true]
      rw [dropWhile_eq_drop, List.drop_drop]
      congr 1; omega
  · left
    have he : pv.stop + 1 + k = s.length := by omega
    rw [he, rd_len]; simp

theorem pvRest_eq (s : Bytes) (h0 : 0 ∉ s) (fuel : Nat) (pv : PV) (h : pv.stop < s.length)
    (hf : s.length - pv.stop ≤ fuel) :
    pvRest s fuel pv = .ok (components (s.drop (pv.stop + 1))) := by
  induction fuel generalizing pv with
  | zero => omega
  | succ n ih =>
    rw [pvRest]
    rcases pvAdvance_spec s h0 pv h with ⟨h1, h2⟩ | ⟨pv', h1, h2, h3, h4, ⟨c, cs, h5, h6⟩, h7, h8⟩
    · rw [h2]; simp only
      rw [← components_dropSep, h1, components_nil]
    · rw [h1]; simp only
      rw [ih pv' h4 (by omega)]
      simp only
      rw [h7, h8, ← components_take_drop _ c cs h5 h6, components_dropSep]

theorem pvNew_abs (s : Bytes) (h : s.head? = some SEP) :
    ∃ pv, pvNew s = .ok pv ∧ pv.start = pv.stop ∧ pv.stop < s.length ∧
      components (s.drop (pv.stop + 1)) = components s := by
  cases s with
  | nil => simp at h
  | cons c cs =>
    simp at h; subst h
    unfold pvNew
    simp only [ne_eq, not_true, if_false]
    by_cases h1 : rd (SEP :: cs) 1 = some SEP
    · simp only [h1, if_true]
      have hl : 1 ≤ cs.length := by
        cases cs with
        | nil => simp [rd, SEP] at h1
        | cons _ _ => simp
      rw [skipSep_eq _ 2 (by simp; omega)]
      refine ⟨_, rfl, rfl, ?_, ?_⟩
      · have := List.IsPrefix.length_le (List.takeWhile_prefix isSep (l := (SEP :: cs).drop 2))
        rw [List.length_drop] at this
        simp only [List.length_cons] at *; omega
      · simp only
        generalize hk : (((SEP :: cs).drop 2).takeWhile isSep).length = k
        have hd := dropWhile_eq_drop isSep ((SEP :: cs).drop 2)
        rw [hk, List.drop_drop] at hd
        rw [show 2 + k - 1 + 1 = 2 + k from by omega, ← hd, components_dropSep]
        cases cs with
        | nil => simp at hl
        | cons d ds =>
          simp [rd] at h1
          subst h1
          simp [components_sep]
    · simp only [h1, if_false]
      exact ⟨_, rfl, rfl, by simp, by simp [components_sep]⟩

/-- Refinement of the index-level walk to the specification. -/
theorem pvElems_eq (s : Bytes) (h0 : 0 ∉ s) (hne : s ≠ []) :
    pvElems s = .ok (components s) := by
  unfold pvElems
  by_cases ha : s.head? = some SEP
  · obtain ⟨pv, h1, h2, h3, h4⟩ := pvNew_abs s ha
    rw [h1]; simp only
    rw [pvRest_eq s h0 _ pv h3 (by omega)]
    simp [ha, h4]
  · cases s with
    | nil => exact absurd rfl hne
    | cons c cs =>
      have hc : c ≠ SEP := by simpa using ha
      unfold pvNew
      simp only [ne_eq, hc, not_false_eq_true, if_true]
      rw [scanEnd_eq _ h0 0 (by simp)]
      simp only [Nat.zero_add, List.drop_succ_cons, List.drop_zero]
      have hle := List.IsPrefix.length_le (List.takeWhile_prefix notSep (l := cs))
      rw [pvRest_eq _ h0 _ _ (by simp only [List.length_cons]; omega) (by simp only [List.length_cons]; omega)]
      simp only [List.head?_cons, Option.some.injEq, hc, if_false, Res.ok.injEq]
      rw [components_take_drop (c :: cs) c cs rfl hc]
      have hb : notSep c = true := by simp [hc]
      simp only [pvStr, List.drop_zero, Nat.sub_zero, List.take_succ_cons, List.takeWhile_cons,
        List.dropWhile_cons, hb, if_true, List.drop_succ_cons]
      rw [← takeWhile_eq_take, ← dropWhile_eq_drop]

end Dyna
