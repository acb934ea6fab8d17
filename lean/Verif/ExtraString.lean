import Verif.Common
import Verif.CStr
/-!
# Strings with a fixed buffer and an extra block

Model of `/repo/src/extra_string.c` and of the type in `/repo/src/extra_string.h:34-41`.

The memory of a string is its array of 82 bytes and the block `extra` points to (an empty list
when the pointer is NULL). Reading or writing outside of the array or of the block is undefined
behaviour.
-/

namespace Dyna.ExtraString

open Dyna

/-- `EXTRA_STRING_BUFFER_SIZE` (`/repo/src/extra_string.h:36-37`). -/
def bufSize : Nat := 82

/-- `extra_string` (`/repo/src/extra_string.h:38-41`): the array and the allocated block. -/
structure ES where
  buffer : List Byte
  extra : List Byte
deriving DecidableEq, Repr

/-- `extra_string_get` (`/repo/src/extra_string.c:30-35`). -/
def get (s : ES) (i : Nat) : Res Byte :=
  if i < bufSize then Res.ofOption s.buffer[i]? else Res.ofOption s.extra[i - bufSize]?

/-- `extra_string_set` (`/repo/src/extra_string.c:37-43`). -/
def set (s : ES) (i : Nat) (v : Byte) : Res ES :=
  if i < bufSize then
    if i < s.buffer.length then .ok { s with buffer := s.buffer.set i v } else .ub
  else
    if i - bufSize < s.extra.length then .ok { s with extra := s.extra.set (i - bufSize) v }
    else .ub

/-- `memcpy(&dst[at], &src[from], n)` between two blocks of memory (used all over
`/repo/src/extra_string.c`): every byte has to lie inside of its block.
Code: `/repo/src/extra_string.c:45-73`. -/
def memcpy (dst : List Byte) (at_ : Nat) (src : List Byte) (from_ n : Nat) : Res (List Byte) :=
  if at_ + n ≤ dst.length ∧ from_ + n ≤ src.length then
    .ok (dst.take at_ ++ (src.drop from_).take n ++ dst.drop (at_ + n))
  else .ub

/-- `realloc` (`/repo/src/extra_string.c:50-51`): the old content as far as it fits, new bytes
have any value (`fresh`). The allocation always succeeds (simplification). -/
def realloc (old : List Byte) (n : Nat) (fresh : Nat → Byte) : List Byte :=
  (List.range n).map fun i => old.getD i (fresh i)

/-- `extra_string_copy` (`/repo/src/extra_string.c:45-62`). The sizes of the `memcpy` calls are
of type `size_t`, so a difference below zero is a size no block has (`u64`-wrapped). -/
def copy (fresh : Nat → Byte) (dst src : ES) (srcLen offset : Nat) : Res ES := do
  let b ← memcpy dst.buffer 0 src.buffer offset (sub64 bufSize offset)
  if srcLen ≥ bufSize then
    let e := realloc dst.extra (srcLen - bufSize + 1) fresh
    if offset ≠ 0 then
      let b ← memcpy b (bufSize - offset) src.extra 0 offset
      let e ← memcpy e 0 src.extra offset (sub64 (srcLen - bufSize + 1) offset)
      .ok ⟨b, e⟩
    else
      let e ← memcpy e 0 src.extra 0 (srcLen - bufSize + 1)
      .ok ⟨b, e⟩
  else .ok { dst with buffer := b }

/-- `extra_string_copy_to_string` (`/repo/src/extra_string.c:64-73`); `dst` is the memory behind
the destination pointer. -/
def copyToString (dst : List Byte) (src : ES) (dstLen : Nat) : Res (List Byte) := do
  if dstLen < bufSize then memcpy dst 0 src.buffer 0 dstLen
  else
    let d ← memcpy dst 0 src.buffer 0 bufSize
    memcpy d bufSize src.extra 0 (dstLen - bufSize + 1)

/-- Byte `i` of a C string given without its terminator.
Code: `/repo/src/extra_string.c:75-107` (`const char *rhs`). -/
def cget (s : Bytes) (i : Nat) : Res Byte := Res.ofOption (s ++ [0])[i]?

/-- Value of a `char` (signed on the modelled platform). Code: `/repo/src/extra_string.c:80`. -/
def sc (b : Byte) : Int := if b < 128 then (b : Int) else (b : Int) - 256

/-- How the loops over the array end: with a value returned or with the index.
Code: `/repo/src/extra_string.c:76-84`. -/
inductive Scan where
  | ret (v : Int)
  | at_ (i : Nat)
deriving DecidableEq, Repr

/-- The loop of `extra_string_compare` (`/repo/src/extra_string.c:76-84`). -/
def compareLoop (lhs : ES) (rhs : Bytes) (i : Nat) : Res Scan :=
  if _h : i < bufSize then do
    let a ← Res.ofOption lhs.buffer[i]?
    if a = 0 then .ok (.at_ i) else do
      let b ← cget rhs i
      if b = 0 then .ok (.at_ i)
      else if a ≠ b then .ok (.ret (sc a - sc b))
      else compareLoop lhs rhs (i + 1)
  else .ok (.at_ i)
termination_by bufSize - i
decreasing_by unfold bufSize at *; omega

/-- The C string starting at the block (up to its first NUL byte); reading on behind the block is
undefined behaviour. Code: `/repo/src/key.c:313-324`. -/
def cstrOf : List Byte → Res Bytes
  | [] => .ub
  | b :: r => if b = 0 then .ok [] else do .ok (b :: (← cstrOf r))

/-- `extra_string_compare` (`/repo/src/extra_string.c:75-107`). The part behind the array is
indexed with `i`, not with `i - EXTRA_STRING_BUFFER_SIZE`, as in the source (:87, :91).
Simplification: `strcmp` reads the two strings up to their ends. -/
def compare (lhs : ES) (rhs : Bytes) : Res Int := do
  match ← compareLoop lhs rhs 0 with
  | .ret v => .ok v
  | .at_ i =>
    if i = bufSize then
      let x ← Res.ofOption lhs.extra[i]?
      let r ← cget rhs i
      if x = 0 ∧ r = 0 then .ok 0
      else if x = 0 then .ok (-1)
      else do
        let e ← cstrOf lhs.extra
        .ok (strcmp e (rhs.drop i))
    else
      let a ← Res.ofOption lhs.buffer[i]?
      let b ← cget rhs i
      if a = 0 ∧ b = 0 then .ok 0
      else if a = 0 then .ok (-1)
      else .ok 1

/-- First loop of `extra_string_starts_with` (`/repo/src/extra_string.c:110-118`). -/
def prefixLoop (s : ES) (p : Bytes) (i : Nat) : Res Scan :=
  if _h : i < bufSize then do
    let a ← Res.ofOption s.buffer[i]?
    if a = 0 then .ok (.at_ i) else do
      let b ← cget p i
      if b = 0 then .ok (.at_ i)
      else if a ≠ b then .ok (.ret 0)
      else prefixLoop s p (i + 1)
  else .ok (.at_ i)
termination_by bufSize - i
decreasing_by unfold bufSize at *; omega

/-- Second loop of `extra_string_starts_with` (`/repo/src/extra_string.c:134-142`) from index `j`
of the block and `i` of the prefix; `true` is that it runs to its end. Recursion over the rest of
the block. -/
def prefixExtra (p : Bytes) : List Byte → Nat → Res Bool
  | [], _ => .ub
  | a :: r, i =>
    if a = 0 then .ok true else do
      let b ← cget p i
      if b = 0 then .ok true
      else if a ≠ b then .ok false
      else prefixExtra p r (i + 1)

/-- `extra_string_starts_with` (`/repo/src/extra_string.c:109-151`). Both exits behind the second
loop return 1 (:144-151), so they are one here. -/
def startsWith (s : ES) (p : Bytes) : Res Int := do
  match ← prefixLoop s p 0 with
  | .ret v => .ok v
  | .at_ i =>
    if i = bufSize then
      let b ← cget p i
      if b = 0 then .ok 1
      else
        let e ← prefixExtra p s.extra i
        .ok (if e then 1 else 0)
    else
      let a ← Res.ofOption s.buffer[i]?
      if a = 0 then
        let b ← cget p i
        .ok (if b = 0 then 1 else 0)
      else .ok 1

/-- `while (extra_string_get(s, i) == ' ') i++` (`/repo/src/key.c:302-304`); the loop cannot run
past the end of the memory (there `extra_string_get` is undefined behaviour). -/
def skipBlanks (s : ES) (i : Nat) : Res Nat :=
  if _h : i < bufSize + s.extra.length then do
    let c ← get s i
    if c = 32 then skipBlanks s (i + 1) else .ok i
  else .ub
termination_by bufSize + s.extra.length - i
decreasing_by omega

/-- The loop that computes `current_keyword_length` (`/repo/src/key.c:335-343`). -/
def nameLength (s : ES) (i : Nat) : Res Nat :=
  if _h : i < bufSize + s.extra.length then do
    let c ← get s i
    if c = 32 ∨ c = 0 then .ok i else nameLength s (i + 1)
  else .ub
termination_by bufSize + s.extra.length - i
decreasing_by omega

/-- The parser takes the name out of a keyword line (`/repo/src/key.c:300-306,331-344`): the memory
of `current_keyword_name` and `current_keyword_length`. `cur` is what `current_keyword_name` held
before. -/
def takeName (fresh : Nat → Byte) (cur line : ES) (lineLength : Nat) : Res (ES × Nat) := do
  let i ← skipBlanks line 0
  let name ← copy fresh cur line lineLength (i + 1)
  let n ← nameLength name 0
  let name ← set name n 0
  .ok (name, n)

/-- `keyword_name`, the string handed to the callback (`/repo/src/key.c:313-321,586-594`), and
`card.string` (`/repo/src/key.c:357-365`): the array itself if the length is short, a copy of it
else (`junk` is what `malloc` gives). -/
def nameForCallback (junk : List Byte) (name : ES) (n : Nat) : Res Bytes :=
  if n < bufSize then cstrOf name.buffer
  else do
    let d ← copyToString (junk.take (n + 1)) name n
    if n < d.length then cstrOf (d.set n 0) else .ub

/-! ## Specification -/

/-- The memory holds these bytes and then a NUL byte. Part of the specification, models no code. -/
structure Cells (s : ES) (cells : Bytes) : Prop where
  size : s.buffer.length = 82
  bytes : (cells ++ [0]) <+: (s.buffer ++ s.extra)

/-- The text of a string: the array has its 82 bytes, and the array and the block behind it hold
the bytes of the text and then a NUL byte. Part of the specification, models no code. -/
structure Holds (s : ES) (text : Bytes) : Prop extends Cells s text where
  noNul : 0 ∉ text

end Dyna.ExtraString
