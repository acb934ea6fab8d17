import Verif.Common
/-!
# Line reader

Model of `/repo/src/line.c` and of the memory of `extra_string` (`/repo/src/extra_string.h`), and
of the start of the loop over all lines (`/repo/src/key.c:282-293`).

The memory of a line has 82 bytes and then `extra`, which grows; positions are counted over both.
The memory is not initialised: it can have any content. An access outside of the allocated memory
is undefined behaviour. Errors of `fread` are not modelled. The size of the chunks is a parameter (it
is 1 MiB in the program).
-/

namespace Dyna.Key

/-- `EXTRA_STRING_BUFFER_SIZE` (`/repo/src/extra_string.h:36-37`) -/
def bufferSize : Nat := 82
/-- `LINE_READER_BUFFER_SIZE` (`/repo/src/line.h:32`) -/
def chunkSize : Nat := 1048576

/-- Code: `/repo/src/line.c:87`. -/
def charNewline : Nat := 10
/-- Code: `/repo/src/line.c:85`. -/
def charReturn : Nat := 13
/-- Code: `/repo/src/line.c:31`. -/
def charComment : Nat := 36

/-- Memory of an `extra_string`: its content and the capacity of `extra`.
Code: `/repo/src/extra_string.h:38-41`. -/
structure Mem where
  get : Nat → Nat
  cap : Nat

/-- The position is inside of the allocated memory. Code: `/repo/src/extra_string.c:30-43`. -/
def Mem.inside (m : Mem) (i : Nat) : Bool := i < bufferSize || i - bufferSize < m.cap
/-- Code: `/repo/src/extra_string.c:37-43`. -/
def Mem.set (m : Mem) (i x : Nat) : Mem := { m with get := fun j => if j = i then x else m.get j }

/-- `line_reader_t` and the `FILE`: `rest` has not been read from the file, `chunk` are the bytes
of the buffer from `buffer_index` on. Code: `/repo/src/line.h:35-48`. -/
structure Reader where
  rest : Bytes
  eof : Bool
  chunk : Bytes
  mem : Mem

/-- The local state of `read_line`. `comment` is `none` for `~0`. Code: `/repo/src/line.c:47-60`. -/
structure LineSt where
  cursor : Nat
  len : Nat
  comment : Option Nat
  mem : Mem

/-- Where the cursor goes after a character (`/repo/src/line.c:91-104`); `len` has been
incremented. -/
def LineSt.advance (l : LineSt) : LineSt :=
  if l.len ≥ bufferSize ∧ l.len + 1 - bufferSize > l.mem.cap then
    { l with mem := { l.mem with cap := l.mem.cap + bufferSize }, cursor := l.len }
  else if l.len = bufferSize then { l with cursor := bufferSize }
  else { l with cursor := l.cursor + 1 }

/-- The loop over the bytes of the buffer (`/repo/src/line.c:76-105`): what is left of the
buffer. -/
def readBuffer : Bytes → LineSt → Res (Bytes × LineSt)
  | [], l => .ok ([], l)
  | x :: xs, l =>
    if l.mem.inside l.cursor = false then .ub
    else
      let l := { l with mem := l.mem.set l.cursor x }
      let l := if l.comment = none ∧ x = charComment then { l with comment := some l.len } else l
      if x = charReturn then readBuffer xs l
      else if x = charNewline then .ok (xs, l)
      else readBuffer xs ({ l with len := l.len + 1 } : LineSt).advance

/-- The loop until a new line has been found (`/repo/src/line.c:62-110`) with chunks of `n` bytes.
Every iteration reads at least one byte, so `rest.length + 1` iterations are enough
(`readLine_spec`). `feof` is set if `fread` gets less bytes than requested. -/
def lineLoop (n : Nat) : (fuel : Nat) → Reader → LineSt → Res (Reader × LineSt)
  | 0, _, _ => .abort
  | fuel + 1, r, l =>
    let r := if r.chunk = [] then
      { r with chunk := r.rest.take n, rest := r.rest.drop n, eof := r.eof || r.rest.length < n } else r
    if r.chunk = [] then .ok (r, l)
    else
      match readBuffer r.chunk l with
      | .ok (chunk, l) =>
        if l.mem.inside l.cursor = false then .ub
        else if l.mem.get l.cursor = charNewline then .ok ({ r with chunk := chunk }, l)
        else lineLoop n fuel { r with chunk := chunk } l
      | .err => .err
      | .ub => .ub
      | .abort => .abort

/-- What `read_line` leaves in the reader. `text` are the `line_length` characters of the line.
Code: `/repo/src/line.h:35-48`. -/
structure Line where
  text : Bytes
  comment : Option Nat
deriving DecidableEq, Repr

/-- Models `read_line` (`/repo/src/line.c:47-116`); `none` is the return value 0. -/
def readLine (n : Nat) (r : Reader) : Res (Reader × Option Line) :=
  if r.eof ∧ r.chunk = [] then .ok (r, none)
  else
    match lineLoop n (r.rest.length + 2) r ⟨0, 0, none, r.mem⟩ with
    | .ok (r', l) =>
      if l.mem.inside l.cursor = false then .ub
      else
        let mem := l.mem.set l.cursor 0
        .ok ({ r' with mem := mem }, some ⟨(List.range l.len).map mem.get, l.comment⟩)
    | .err => .err
    | .ub => .ub
    | .abort => .abort

/-- A comment behind a line is cut off in the memory of the reader (`extra_string_set`,
`/repo/src/key.c:286-293`, `/repo/src/extra_string.c:37-43`); `none` is an access outside of the
memory. -/
def Reader.cut (r : Reader) : (comment : Option Nat) → Option Reader
  | some (i + 1) => if r.mem.inside (i + 1) then some { r with mem := r.mem.set (i + 1) 0 } else none
  | _ => some r

/-- The loop of the parser over all lines (`/repo/src/key.c:282-293`). Every line but the last one uses up at
least one byte. -/
def readLines (n : Nat) : (fuel : Nat) → Reader → Res (List Line)
  | 0, _ => .abort
  | fuel + 1, r =>
    match readLine n r with
    | .ok (_, none) => .ok []
    | .ok (r, some line) =>
      match r.cut line.comment with
      | none => .ub
      | some r =>
        match readLines n fuel r with
        | .ok l => .ok (line :: l)
        | .err => .err
        | .ub => .ub
        | .abort => .abort
    | .err => .err
    | .ub => .ub
    | .abort => .abort

/-- The lines of a file: `new_line_reader` and the loop. `mem` is the content of the memory that has not been
initialised. Code: `/repo/src/line.c:28-45` and key.c:282-293. -/
def fileLines (n : Nat) (mem : Nat → Nat) (content : Bytes) : Res (List Line) :=
  readLines n (content.length + 2) ⟨content, false, [], ⟨mem, 0⟩⟩

end Dyna.Key
