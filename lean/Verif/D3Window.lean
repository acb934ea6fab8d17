import Verif.Common
/-!
# Families with more files than can be open at the same time (builds without thread safety)

Model of the parts of `/repo/src/d3_buffer.c` between `#ifdef NO_THREAD_SAFETY` and `#endif` (and `#else`):
`d3_buffer_open` (`:103-125`), `d3_buffer_next_file` (`:483-503`), `d3_buffer_seek` (`:572-692`), with
`multi_file_open` and `multi_file_close` of these builds (`/repo/src/multi_file.c:188-206`). Only which files are
open is modelled; what is read from an open file is the subject of C84 and C26.

Simplifications: `fopen` fails exactly if the process has as many open `FILE` objects as it may have
(`EMFILE`); file names are not modelled (`fopen(i)` opens the file `i`). Nothing else in the process opens or
closes files between the calls.
-/

namespace Dyna.Window

/-- The files of a `d3_buffer` (`/repo/src/d3_buffer.h:43-56`): `isOpen i` is `files[i].file != NULL`. `count` is the
number of open `FILE` objects of the process, `limit` the number it may have. -/
structure Win where
  num : Nat
  isOpen : Nat → Bool
  first : Nat
  last : Nat
  count : Nat
  limit : Nat

/-- `files[i].file = fopen(…)`: the new state and whether it has succeeded. A `FILE` object that was stored there
before is lost. Code: `/repo/src/d3_buffer.c:615-616`. -/
def Win.fopen (w : Win) (i : Nat) : Res (Win × Bool) :=
  if w.num ≤ i then .ub
  else if w.limit ≤ w.count then
    .ok ({ w with isOpen := fun j => if j = i then false else w.isOpen j }, false)
  else .ok ({ w with isOpen := fun j => if j = i then true else w.isOpen j, count := w.count + 1 }, true)

/-- `multi_file_close(&files[i].file)`. Code: `/repo/src/multi_file.c:197-206`. -/
def Win.close (w : Win) (i : Nat) : Res Win :=
  if w.num ≤ i then .ub
  else if w.isOpen i then
    .ok { w with isOpen := fun j => if j = i then false else w.isOpen j, count := w.count - 1 }
  else .ok w

/-- A loop that closes `n` files from `i` on. Code: `/repo/src/d3_buffer.c:595-600` and d3_buffer.c:661-665. -/
def Win.closeUp (w : Win) (i : Nat) : (n : Nat) → Res Win
  | 0 => .ok w
  | n + 1 => do
    let w ← w.close i
    w.closeUp (i + 1) n

/-- The loop that closes backwards while `i > stop`. Code: `/repo/src/d3_buffer.c:632-636`. -/
def Win.closeDown (w : Win) (stop : Nat) : (i : Nat) → Res Win
  | 0 => .ok w
  | i + 1 =>
    if stop < i + 1 then do
      let w ← w.close (i + 1)
      w.closeDown stop i
    else .ok w

/-- A loop that opens `n` files from `i` on; it ends with the first failure.
Code: `/repo/src/d3_buffer.c:611-627` and d3_buffer.c:669-686. -/
def Win.openUp (w : Win) (i : Nat) : (n : Nat) → Res (Win × Bool)
  | 0 => .ok (w, true)
  | n + 1 => do
    let r ← w.fopen i
    if r.2 then r.1.openUp (i + 1) n else .ok (r.1, false)

/-- The loop that opens backwards while `i >= cur`; behind index 0 comes the largest `size_t`, and
`files[i]` with it is outside of the array. Code: `/repo/src/d3_buffer.c:639-654`. -/
def Win.openDown (w : Win) (cur : Nat) : (i : Nat) → Res (Win × Bool)
  | 0 =>
    if cur ≤ 0 then do
      let r ← w.fopen 0
      if r.2 then .ub else .ok (r.1, false)
    else .ok (w, true)
  | i + 1 =>
    if cur ≤ i + 1 then do
      let r ← w.fopen (i + 1)
      if r.2 then r.1.openDown cur i else .ok (r.1, false)
    else .ok (w, true)

/-- `out_of_range`. Code: `/repo/src/d3_buffer.c:577-590`. -/
def Win.outOfRange (w : Win) (cur : Nat) : Bool :=
  if w.first < w.last then
    if cur > w.last then decide (cur - w.last > w.last - w.first + 1)
    else decide (sub64 w.first cur > w.last - w.first + 1)
  else false

/-- All files are closed and as many are opened at the new place. Code: `/repo/src/d3_buffer.c:592-628`. -/
def Win.jump (w : Win) (cur : Nat) : Res (Win × Bool) := do
  let range := w.last + 1 - w.first
  let w ← w.closeUp w.first range
  let offset := if w.num - cur < range then cur - (w.num - range) else 0
  let w := { w with first := cur - offset }
  let r ← w.openUp w.first range
  if r.2 then .ok ({ r.1 with last := cur - offset + range - 1 }, true) else .ok r

/-- The open files are moved backwards. Code: `/repo/src/d3_buffer.c:631-655`. -/
def Win.moveBack (w : Win) (cur : Nat) : Res (Win × Bool) := do
  let n := w.first - cur
  let w1 ← w.closeDown (sub64 w.last n) w.last
  let w2 := { w1 with last := sub64 w1.last n }
  let r ← w2.openDown cur w2.first
  if r.2 then .ok ({ r.1 with first := cur }, true) else .ok r

/-- The open files are moved forwards. Code: `/repo/src/d3_buffer.c:656-688`. -/
def Win.moveOn (w : Win) (cur : Nat) : Res (Win × Bool) := do
  let n := sub64 cur w.last
  let w1 ← w.closeUp w.first n
  let w2 := { w1 with first := w1.first + n }
  let r ← w2.openUp w2.last (cur + 1 - w2.last)
  if r.2 then .ok ({ r.1 with last := cur }, true) else .ok r

/-- The file `cur` is opened if it is not open, and the position is set (`fseek(NULL, …)` is undefined). The
second component is `false` if the error message is set. Code: `/repo/src/d3_buffer.c:572-701`. -/
def Win.seek (w : Win) (cur : Nat) : Res (Win × Bool) :=
  if w.num ≤ cur then .ub
  else if w.isOpen cur then .ok (w, true)
  else do
    let r ← if w.outOfRange cur then w.jump cur
      else if w.first < w.last then
        if cur < w.first then w.moveBack cur else w.moveOn cur
      else .ok (w, true)
    if r.2 then
      if r.1.isOpen cur then .ok r else .ub
    else .ok r

/-- `d3_buffer_next_file` for a file `cur` that is followed by another one. Code: `/repo/src/d3_buffer.c:437-511`. -/
def Win.next (w : Win) (cur : Nat) : Res (Win × Bool) :=
  if w.num ≤ cur + 1 then .ub
  else if w.isOpen (cur + 1) then .ok (w, true)
  else do
    let w ← w.close w.first
    let w := { w with first := w.first + 1, last := w.last + 1 }
    w.fopen (cur + 1)

/-- The files of a family are opened one after the other; those that cannot be opened because of the limit are
left out. Code: `/repo/src/d3_buffer.c:98-127`. -/
def openLoop (w : Win) (i : Nat) : (n : Nat) → Win
  | 0 => w
  | n + 1 =>
    if w.limit ≤ w.count then openLoop w (i + 1) n
    else openLoop { w with isOpen := fun j => if j = i then true else w.isOpen j, count := w.count + 1, last := i }
      (i + 1) n

/-- `d3_buffer_open` for `num` files while the process has `count` open files.
Code: `/repo/src/d3_buffer.c:69-147`; `none`: "No files could be opened because too many files are open". -/
def openWin (num count limit : Nat) : Option Win :=
  let w := openLoop ⟨num, fun _ => false, 0, u64 - 1, count, limit⟩ 0 num
  if w.last = u64 - 1 then none else some w

end Dyna.Window
