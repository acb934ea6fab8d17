import Verif.StringBuilder
/-!
# Finding files by a pattern on Windows

The Windows version of `binout_glob` (`/repo/src/binout_glob.c:29-90`). What the directory contains comes from the operating system:
`_findfirsti64` and `_findnexti64` deliver names without the directory, in an order of their own; they are the parameter `found`.
Strings are blocks of cells (`none`: never written). `malloc` and `realloc` succeed.
-/

namespace Dyna.WinGlob

open Dyna

/-- The loop that looks for the last separator; the argument is `i + 1`, so that 0 stands for `SIZE_MAX`. The result is `parent_len`,
`none` for `SIZE_MAX`. Code: `/repo/src/binout_glob.c:60-68`. -/
def parentScan (pattern : Bytes) : Nat → Res (Option Nat)
  | 0 => .ok none
  | i + 1 =>
    match (pattern ++ [0])[i]? with
    | none => .ub
    | some c => if c = 92 ∨ c = 47 then .ok (some (i + 1)) else parentScan pattern i

/-- `parent_len`: the loop starts at `pattern_len - 2` in 64 bit. Code: `/repo/src/binout_glob.c:56-68`. -/
def parentLen (pattern : Bytes) : Res (Option Nat) :=
  parentScan pattern ((sub64 pattern.length 2 + 1) % u64)

/-- The block for a name that has been found. Code: `/repo/src/binout_glob.c:46-48`. -/
def nameBlock (name : Bytes) : Res (List (Option Byte)) :=
  writeAt (List.replicate (name.length + 1) none) 0 (name ++ [0])

/-- `memcpy(&buf[p], buf, n)`: undefined if the two ranges overlap, or if a cell has not been written.
Code: `/repo/src/binout_glob.c:82`. -/
def copyWithin (buf : List (Option Byte)) (p n : Nat) : Res (List (Option Byte)) :=
  if n ≠ 0 ∧ p < n then .ub
  else if buf.length < n then .ub
  else
    match (buf.take n).mapM id with
    | none => .ub
    | some xs => writeAt buf p xs

/-- `strlen` of a block. Code: `/repo/src/binout_glob.c:78`. -/
def blockLen (buf : List (Option Byte)) : Res Nat :=
  match readCStr buf with
  | none => .ub
  | some s => .ok s.length

/-- Put the first `p` characters of the pattern in front of one name. Code: `/repo/src/binout_glob.c:77-86`. -/
def addParent (pattern : Bytes) (p : Nat) (buf : List (Option Byte)) : Res (List (Option Byte)) := do
  let n ← blockLen buf
  let buf ← copyWithin (reallocBuf (some buf) (p + n + 1)) p n
  let buf ← writeAt buf 0 (pattern.take p)
  writeAt buf (p + n) [0]

/-- A loop over the array of names. Code: `/repo/src/binout_glob.c:41-51`, `76-87`. -/
def eachBlock {α : Type} (f : α → Res (List (Option Byte))) : List α → Res (List (List (Option Byte)))
  | [] => .ok []
  | x :: xs => do
    let y ← f x
    let ys ← eachBlock f xs
    .ok (y :: ys)

/-- Without a folder the names are returned as they are. Code: `/repo/src/binout_glob.c:70-90`. -/
def prefixAll (pattern : Bytes) (blocks : List (List (Option Byte))) : Option Nat → Res (List (List (Option Byte)))
  | none => .ok blocks
  | some p => eachBlock (addParent pattern p) blocks

/-- `binout_glob` on Windows; the result is the array of blocks, `*num_files` is its length.
Code: `/repo/src/binout_glob.c:34-91`. -/
def glob (pattern : Bytes) (found : List Bytes) : Res (List (List (Option Byte))) := do
  let blocks ← eachBlock nameBlock found
  let p ← parentLen pattern
  prefixAll pattern blocks p

end Dyna.WinGlob
