import Verif.PathReal
import Verif.StringBuilder
/-!
# The path that a handle of a file stores

`multi_file_open` (`/repo/src/multi_file.c:35-55`) stores the path under which every further access opens the file, with
`path_is_abs` and `path_working_directory` (`/repo/src/path.c:286-341`) on both platforms (`win` is `_WIN32`). The working directory the
operating system reports is a parameter (`none`: it cannot be determined). `malloc` succeeds.
-/

namespace Dyna.PathOpen

open Dyna PathReal

/-- `path_is_abs`; the text is followed by its NUL, a character is only read if the ones in front of it are right.
Code: `/repo/src/path.c:328-341`. -/
def isAbs (win : Bool) (p : Bytes) : Bool :=
  if win then
    match p with
    | a :: b :: c :: _ => decide (65 ≤ a ∧ a ≤ 90) && b == 58 && isRealSep true c
    | _ => false
  else p.head? == some SEP

/-- The buffer of `path_working_directory`. On Linux it has 1024 characters, if the path does not fit `getcwd` fails and the buffer is
set to `"."`; on Windows the buffer has the right size, but the replacement `"."` ends with a newline instead of a NUL.
Code: `/repo/src/path.c:286-326`. -/
def workingDirectory (win : Bool) (wd : Option Bytes) : List (Option Byte) :=
  if win then
    match wd with
    | some w => (w ++ [0]).map some
    | none => [some 46, some 10]
  else
    match wd with
    | some w =>
      if w.length + 1 ≤ 1024 then (w ++ [0]).map some ++ List.replicate (1024 - (w.length + 1)) none
      else some 46 :: some 0 :: List.replicate 1022 none
    | none => some 46 :: some 0 :: List.replicate 1022 none

/-- `file_path` after `multi_file_open`. Code: `/repo/src/multi_file.c:40-46`. -/
def openPath (win : Bool) (wd : Option Bytes) (path : Bytes) : Res Bytes :=
  if isAbs win path then .ok path
  else
    match readCStr (workingDirectory win wd) with
    | none => .ub
    | some w => pathJoinReal win w path

end Dyna.PathOpen
