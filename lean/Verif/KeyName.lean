import Verif.StringBuilder
import Verif.KeyParse
/-!
# Names of include files in memory

`_parse_multi_line_string` (`/repo/src/key.c:1571-1614`) on the `string_builder_t` it works with: the buffer is a list of cells, reading
a cell in front of or behind the buffer, or one that has never been written, is undefined behaviour. `KeyParse.multiLine` is the same
function on the text.
-/

namespace Dyna.Key

open Dyna

/-- `multi_line_string->buffer[multi_line_string->ptr - k]`. Code: `/repo/src/key.c:1596-1597`. -/
def cellBack (b : SB) (k : Nat) : Res Byte :=
  if b.ptr < k then .ub
  else
    match b.buffer with
    | none => .ub
    | some buf =>
      match buf[b.ptr - k]? with
      | some (some c) => .ok c
      | _ => .ub

/-- The loop that removes blanks at the end; the result is the new `ptr`. The condition reads `buffer[ptr - 1]` first and compares `ptr`
with 0 after that. Code: `/repo/src/key.c:1604-1608`. -/
def trimCells (buf : List (Option Byte)) : (ptr : Nat) → Res Nat
  | 0 => .ub
  | n + 1 =>
    match buf[n]? with
    | some (some c) => if c = charBlank then trimCells buf n else .ok (n + 1)
    | _ => .ub

/-- `" +"` at the end? The second cell is only read if the first one is a blank. Code: `/repo/src/key.c:1596-1597`. -/
def endsWithPlus (b : SB) : Res Bool := do
  let x ← cellBack b 2
  if x = charBlank then
    let y ← cellBack b 1
    .ok (decide (y = charPlus))
  else .ok false

/-- Append and look at the end. The result says if the name is complete. Code: `/repo/src/key.c:1591-1613`. -/
def nameAppend (b : SB) (s : Bytes) : Res (SB × Bool) := do
  let b ← sbAppendLen b s
  let more ← endsWithPlus b
  if more then .ok ({ b with ptr := b.ptr - 2 }, false)
  else
    match b.buffer with
    | none => .ub
    | some buf => do
      let n ← trimCells buf b.ptr
      let buf ← writeAt buf n [0]
      .ok ({ b with buffer := some buf, ptr := n }, true)

/-- `_parse_multi_line_string` on the `line_length` bytes of a card. Code: `/repo/src/key.c:1571-1614`. -/
def nameCard (b : SB) (cells : Bytes) : Res (SB × Bool) :=
  if b.cap = 0 then
    let rest := cells.dropWhile (· = charBlank)
    if rest = [] then do
      let b ← sbAppendChar b 0
      .ok (b, true)
    else nameAppend b rest
  else nameAppend b cells

end Dyna.Key
