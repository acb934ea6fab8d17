import Verif.PathReal
import Verif.Props.Search
/-!
# Property C94: paths of the file system
-/

namespace Dyna.PathReal

open Dyna

/-! ## Specification -/

/-- Specification: the pieces between separators. -/
def pieces (win : Bool) : Bytes → List Bytes
  | [] => [[]]
  | c :: cs =>
    if isRealSep win c then [] :: pieces win cs
    else match pieces win cs with
      | [] => [[c]]
      | p :: ps => (c :: p) :: ps

/-- Specification: the components of a path: the pieces that are not empty. -/
def realComponents (win : Bool) (s : Bytes) : List Bytes := (pieces win s).filter (· ≠ [])

/-- Auxiliary: all separators are `/`. -/
def norm (win : Bool) (s : Bytes) : Bytes := s.map fun c => if isRealSep win c then SEP else c

theorem isRealSep_norm (win : Bool) (c : Byte) :
    ((if isRealSep win c then SEP else c) = SEP) ↔ isRealSep win c = true := by
  by_cases h : isRealSep win c = true
  · simp [h]
  · rw [if_neg h]
    refine ⟨fun e => ?_, fun e => absurd e h⟩
    subst e
    unfold isRealSep
    cases win <;> simp

theorem norm_length (win : Bool) (s : Bytes) : (norm win s).length = s.length := by simp [norm]

theorem norm_take (win : Bool) (s : Bytes) (n : Nat) : (norm win s).take n = norm win (s.take n) := by
  simp [norm, List.map_take]

theorem norm_append (win : Bool) (a b : Bytes) : norm win (a ++ b) = norm win a ++ norm win b := by simp [norm]

theorem components_norm (win : Bool) (s : Bytes) : components (norm win s) = realComponents win s := by
  have key : ∀ s, splitSep (norm win s) = pieces win s := by
    intro s
    induction s with
    | nil => rfl
    | cons c cs ih =>
      have e : norm win (c :: cs) = (if isRealSep win c then SEP else c) :: norm win cs := rfl
      rw [e]
      unfold splitSep pieces
      rw [ih]
      by_cases h : isRealSep win c = true
      · simp [h]
      · rw [if_neg (fun hh => h ((isRealSep_norm win c).1 hh)), if_neg h]
        simp only [h]
        rfl
  unfold components realComponents
  rw [key]

theorem get_norm (win : Bool) (s : Bytes) (i : Nat) :
    ((norm win s)[i]? = some SEP) ↔ (s[i]?.any (isRealSep win)) = true := by
  unfold norm
  rw [List.getElem?_map]
  cases s[i]? with
  | none => simp
  | some c => simp only [Option.map_some, Option.some.injEq, Option.any_some]; exact isRealSep_norm win c

theorem backSep_norm (win : Bool) (s : Bytes) (i : Nat) : Dyna.backSep (norm win s) i = backSep win s i := by
  induction i with
  | zero => rfl
  | succ n ih =>
    unfold Dyna.backSep backSep
    by_cases h : (norm win s)[n + 1]? = some SEP
    · rw [if_pos h, if_pos ((get_norm win s (n + 1)).1 h), ih]
    · rw [if_neg h, if_neg (fun hh => h ((get_norm win s (n + 1)).2 hh))]

theorem backNonSep_norm (win : Bool) (s : Bytes) (i : Nat) :
    Dyna.backNonSep (norm win s) i = backNonSep win s i := by
  induction i with
  | zero => rfl
  | succ n ih =>
    unfold Dyna.backNonSep backNonSep
    by_cases h : (norm win s)[n + 1]? = some SEP
    · rw [if_neg (fun hh => hh h), if_pos ((get_norm win s (n + 1)).1 h)]
    · rw [if_pos h, if_neg (fun hh => h ((get_norm win s (n + 1)).2 hh)), ih]

theorem lastSepFrom_norm (win : Bool) (s : Bytes) (i : Nat) (last : Option Nat) :
    Dyna.lastSepFrom (norm win s) i last = lastSepFrom win s i last := by
  induction s generalizing i last with
  | nil => rfl
  | cons c cs ih =>
    have e : norm win (c :: cs) = (if isRealSep win c then SEP else c) :: norm win cs := rfl
    rw [e]
    unfold Dyna.lastSepFrom lastSepFrom
    rw [ih]
    by_cases h : isRealSep win c = true
    · rw [if_pos ((isRealSep_norm win c).2 h), if_pos h]
    · rw [if_neg (fun hh => h ((isRealSep_norm win c).1 hh)), if_neg h]

theorem moveUp_norm (win : Bool) (s : Bytes) : pathMoveUpReal win s = pathMoveUp (norm win s) := by
  unfold pathMoveUpReal pathMoveUp upFrom
  simp only [lastSepFrom_norm, backSep_norm, backNonSep_norm, norm_length]
  cases lastSepFrom win s 0 none <;> rfl

theorem skipLead_norm (win : Bool) (s : Bytes) : norm win (skipLead win s) = Dyna.skipLead (norm win s) := by
  induction s with
  | nil => rfl
  | cons c cs ih =>
    cases cs with
    | nil => rfl
    | cons d ds =>
      have e : norm win (c :: d :: ds) = (if isRealSep win c then SEP else c) :: norm win (d :: ds) := rfl
      have e2 : norm win (d :: ds) = (if isRealSep win d then SEP else d) :: norm win ds := rfl
      rw [e, e2]
      unfold Dyna.skipLead skipLead
      rw [← e2, ← ih]
      by_cases h : isRealSep win c = true
      · rw [if_pos h, if_pos ((isRealSep_norm win c).2 h)]
      · rw [if_neg h, if_neg (fun hh => h ((isRealSep_norm win c).1 hh)), e]

/-- C94: on Linux the functions for real paths are those for paths in a binout. -/
theorem c94_linux (s t : Bytes) : pathMoveUpReal false s = pathMoveUp s ∧ pathJoinReal false s t = pathJoin s t := by
  have hn : ∀ s, norm false s = s := by
    intro s
    unfold norm
    rw [show (fun c => if isRealSep false c = true then SEP else c) = id from funext (fun c => by
      simp only [isRealSep, id_eq]
      by_cases h : c = SEP <;> simp [h])]
    simp
  refine ⟨by rw [moveUp_norm, hn], ?_⟩
  unfold pathJoinReal pathJoin
  have h1 := backSep_norm false s (s.length - 1)
  have h2 := skipLead_norm false t
  rw [hn] at h1 h2
  rw [hn] at h2
  simp only [h1, h2]
  rfl

/-- C94: `path_join_real` on both platforms: the components are those of the two paths, wherever separators of both
kinds are at the joint. -/
theorem c94_join (win : Bool) (lhs rhs : Bytes) (h : lhs ≠ []) :
    ∃ r, pathJoinReal win lhs rhs = .ok r ∧ realComponents win r = realComponents win lhs ++ realComponents win rhs := by
  unfold pathJoinReal
  rw [if_neg h]
  refine ⟨_, rfl, ?_⟩
  have hn : norm win lhs ≠ [] := by
    intro e
    exact h (by simpa [norm] using e)
  obtain ⟨r, h1, h2⟩ := c05_path_join (norm win lhs) (norm win rhs) hn
  rw [← components_norm, ← components_norm, ← components_norm, ← h2]
  congr 1
  unfold pathJoin at h1
  rw [if_neg hn] at h1
  simp only [Res.ok.injEq] at h1
  rw [← h1, norm_append, ← norm_take, backSep_norm, norm_length, ← skipLead_norm]
  congr 1
  have : isRealSep win (realSep win) = true := by cases win <;> simp [isRealSep, realSep]
  simp [norm, this]

/-- C94: `path_move_up_real` on an absolute path: no parent exactly for the root, otherwise the last component is cut
off. -/
theorem c94_move_up_absolute (win : Bool) (s : Bytes) (c : Byte) (h0 : s.head? = some c) (hc : isRealSep win c = true) :
    (pathMoveUpReal win s = none ↔ realComponents win s = []) ∧
    (∀ r, pathMoveUpReal win s = some r → realComponents win (s.take r) = (realComponents win s).dropLast) := by
  have hh : (norm win s).head? = some SEP := by
    unfold norm
    rw [List.head?_map, h0]
    simp [hc]
  have := c06_path_move_up_partial (norm win s) hh
  rw [moveUp_norm, ← components_norm]
  refine ⟨this.1, fun r hr => ?_⟩
  rw [← components_norm, ← norm_take]
  exact this.2 r hr

/-- C94: `path_move_up_real` on a path that begins with a component (relative, or with a drive on Windows): with
several components the last one is cut off, except for two components of which the first has a single character, where
0 is returned; with one component there is no parent, which is reported unless the component has at least two
characters and is followed by a separator. What is missing: those two exceptions should not exist. -/
theorem c94_move_up_relative_partial (win : Bool) (s : Bytes) (c : Byte) (h0 : s.head? = some c)
    (hc : isRealSep win c = false) :
    ((realComponents win s).length = 1 →
      pathMoveUpReal win s =
        if (s.getLast?.any (isRealSep win)) = true ∧ realComponents win s ≠ [[c]] then some 0 else none) ∧
    (2 ≤ (realComponents win s).length → ∃ r, pathMoveUpReal win s = some r ∧
      (if (realComponents win s).dropLast = [[c]] then r = 0
       else realComponents win (s.take r) = (realComponents win s).dropLast)) := by
  have hh : (norm win s).head? = some c := by
    unfold norm
    rw [List.head?_map, h0]
    simp [hc]
  have hsep : c ≠ SEP := by
    intro e
    subst e
    unfold isRealSep at hc
    cases win <;> simp at hc
  have hlast : ((norm win s).getLast? = some SEP) ↔ (s.getLast?.any (isRealSep win)) = true := by
    unfold norm
    rw [List.getLast?_map]
    cases s.getLast? with
    | none => simp
    | some d => simp only [Option.map_some, Option.some.injEq, Option.any_some]; exact isRealSep_norm win d
  have := c06_relative (norm win s) c hsep hh
  rw [moveUp_norm, ← components_norm]
  refine ⟨fun h => ?_, fun h => ?_⟩
  · rw [this.1 h]
    simp only [hlast]
  · obtain ⟨r, h1, h2⟩ := this.2 h
    refine ⟨r, h1, ?_⟩
    rw [← components_norm, ← norm_take]
    exact h2

/-- C94 is violated: the exceptions. -/
theorem c94_exceptions :
    pathMoveUpReal true (bs "a\\b") = some 0 ∧ realComponents true (bs "a\\b") = [bs "a", bs "b"] ∧
    pathMoveUpReal true (bs "ab\\") = some 0 ∧ realComponents true (bs "ab\\") = [bs "ab"] := by decide +kernel

/-- Not vacuous: paths of a drive, with both separators. -/
example : pathMoveUpReal true (bs "C:\\runs/a\\\\main.k") = some 9 ∧
    realComponents true (bs "C:\\runs/a\\\\main.k") = [bs "C:", bs "runs", bs "a", bs "main.k"] ∧
    pathJoinReal true (bs "C:\\runs/a\\") (bs "/sub\\inc.k") = .ok (bs "C:\\runs/a\\sub\\inc.k") ∧
    pathMoveUpReal false (bs "C:\\runs/a\\\\main.k") = some 7 := by decide +kernel

end Dyna.PathReal
