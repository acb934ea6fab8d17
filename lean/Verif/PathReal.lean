import Verif.Path
/-!
# Paths of the file system

Model of `path_move_up_real` and `path_join_real` (`/repo/src/path.c:97-155`, `:192-225`) on both platforms:
`win` is `_WIN32`.
-/

namespace Dyna.PathReal

open Dyna

/-- `LEGACY_PATH_SEP` (`/repo/src/path.h:33`). -/
def backslash : Byte := 92

/-- `CHAR_IS_REAL_PATH_SEP` (`/repo/src/path.h:36` and :39). -/
def isRealSep (win : Bool) (c : Byte) : Bool := if win then c == backslash || c == SEP else c == SEP

/-- `REAL_PATH_SEP` (`/repo/src/path.h:35` and :38). -/
def realSep (win : Bool) : Byte := if win then backslash else SEP

/-- `while (CHAR_IS_REAL_PATH_SEP(path[i])) { if (i == 0) break; i--; }`
(`/repo/src/path.c:119-124`, `:143-148`, `:200-205`). `i` is always inside the string. -/
def backSep (win : Bool) (s : Bytes) : Nat → Nat
  | 0 => 0
  | i + 1 => if (s[i + 1]?.any (isRealSep win)) = true then backSep win s i else i + 1

/-- `while (!CHAR_IS_REAL_PATH_SEP(path[i])) { if (i == 0) break; i--; }` (`/repo/src/path.c:133-138`). -/
def backNonSep (win : Bool) (s : Bytes) : Nat → Nat
  | 0 => 0
  | i + 1 => if (s[i + 1]?.any (isRealSep win)) = true then i + 1 else backNonSep win s i

/-- The loop computing the last position of a separator (`/repo/src/path.c:101-109`). -/
def lastSepFrom (win : Bool) : Bytes → Nat → Option Nat → Option Nat
  | [], _, last => last
  | c :: cs, i, last => lastSepFrom win cs (i + 1) (if isRealSep win c = true then some i else last)

/-- The end of `path_move_up_real` (`/repo/src/path.c:142-154`). -/
def upFrom (win : Bool) (s : Bytes) (l : Nat) : Option Nat :=
  let l2 := backSep win s l
  some (if l2 ≠ 0 then l2 + 1 else l2)

/-- Models `/repo/src/path.c:97-155` (`path_move_up_real`); `none` models the result `~0`. -/
def pathMoveUpReal (win : Bool) (s : Bytes) : Option Nat :=
  match lastSepFrom win s 0 none with
  | none => none
  | some l =>
    if l + 1 = s.length then
      let l1 := backSep win s l
      if l1 = 0 then none else upFrom win s (backNonSep win s l1)
    else upFrom win s l

/-- `while (CHAR_IS_REAL_PATH_SEP(rhs[j])) { if (j == rhs_len - 1) break; j++; }` (`/repo/src/path.c:208-213`), on
the suffix that starts at `j`. -/
def skipLead (win : Bool) : Bytes → Bytes
  | [] => []
  | [c] => [c]
  | c :: d :: ds => if isRealSep win c = true then skipLead win (d :: ds) else c :: d :: ds

/-- Models `/repo/src/path.c:192-225` (`path_join_real`). For an empty `lhs` the code reads `lhs[SIZE_MAX]`. -/
def pathJoinReal (win : Bool) (lhs rhs : Bytes) : Res Bytes :=
  if lhs = [] then .ub
  else .ok (lhs.take (backSep win lhs (lhs.length - 1) + 1) ++ realSep win :: skipLead win rhs)

end Dyna.PathReal
