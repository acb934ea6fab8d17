import Verif.Common
/-!
# Word wise access to a family of d3plot files

Model of `/repo/src/d3_buffer.c` (thread safe build).

Simplifications: `fopen`, `fseek` and `malloc` do not fail, and `fread` returns the bytes that
are in the file (the property of shared files, C23, is about that). `buffer.error_string` is
modelled by a flag. The text of error messages is not modelled. The size of the family in
bytes is smaller than 2^64.
-/

namespace Dyna.D3

/-- `d3_buffer` (`/repo/src/d3_buffer.h:45-56`): contents of the files, size of a word in bytes,
and whether `error_string` is set. -/
structure Buf where
  files : List Bytes
  ws : Nat
  err : Bool
deriving DecidableEq, Repr

/-- An open `d3_pointer` (`/repo/src/d3_buffer.h:33-37`): index of the file, position of the
`FILE` in bytes, and `cur_word`. -/
structure Pos where
  file : Nat
  pos : Nat
  word : Nat
deriving DecidableEq, Repr

/-- A `d3_pointer`. `none` is a pointer without a handle (`cur_file`, `cur_word` and `index` are
`ULONG_MAX`). Code: `/repo/src/d3_buffer.h:32-36`. -/
abbrev Ptr := Option Pos

/-- `ULONG_MAX`. Code: `/repo/src/d3_buffer.c:514-520`. -/
def ulongMax : Nat := u64 - 1

/-- All bytes of the family. Part of the specification, models no code. -/
def Buf.bytes (b : Buf) : Bytes := b.files.flatten

/-- Search for the file that contains a byte position.
Models `/repo/src/d3_buffer.c:521-531`; the result is the index of the file and the position
inside of it. -/
def locate : List Bytes → Nat → Nat → Option (Nat × Nat)
  | [], _, _ => none
  | f :: rest, i, p => if f.length > p then some (i, p) else locate rest (i + 1) (p - f.length)

/-- Models `d3_buffer_seek` (`/repo/src/d3_buffer.c:514-705`). -/
def seek (b : Buf) (word : Nat) : Buf × Ptr :=
  match locate b.files 0 (word * b.ws % u64) with
  | none => ({ b with err := true }, none)
  | some (i, p) => (b, some ⟨i, p, word⟩)

/-- Models `d3_pointer_close` (`/repo/src/d3_buffer.c:707-722`): `files[ULONG_MAX]` is out of
bounds. -/
def close (p : Ptr) : Res Ptr :=
  match p with
  | none => .ub
  | some _ => .ok none

/-- Models `d3_buffer_next_file` (`/repo/src/d3_buffer.c:437-512`). `none` instead of a new
position means that there is no other file (the function returns 0). -/
def nextFile (b : Buf) (p : Ptr) : Res Ptr :=
  match p with
  | none => .ub
  | some q =>
    match b.files[q.file]? with
    | none => .ub
    | some cur =>
      if q.file + 1 = b.files.length then .ok none
      else .ok (some ⟨q.file + 1, 0, q.word + (cur.length - q.pos) / b.ws⟩)

/-- Models the loop over the files (`/repo/src/d3_buffer.c:307-357`): `rest` are the files
behind `cur`, `need` the bytes that are still missing. The result is the pointer (`none`: no
file is left), and what has been stored. -/
def readLoop (ws : Nat) : (rest : List Bytes) → (cur : Bytes) → Pos → (need : Nat) → (acc : Bytes) →
    Ptr × Bytes
  | rest, cur, q, need, acc =>
    if cur.length - q.pos ≥ need then
      (some ⟨q.file, q.pos + need, q.word + need / ws⟩, acc ++ (cur.drop q.pos).take need)
    else
      match rest with
      | [] => (none, acc ++ cur.drop q.pos)
      | f :: rest =>
        readLoop ws rest f ⟨q.file + 1, 0, q.word + (cur.length - q.pos) / ws⟩
          (need - (cur.length - q.pos)) (acc ++ cur.drop q.pos)

/-- Models `d3_buffer_read_words` (`/repo/src/d3_buffer.c:282-359`): the new buffer and pointer
and the bytes that have been stored. -/
def readWords (b : Buf) (p : Ptr) (n : Nat) : Res (Buf × Ptr × Bytes) :=
  match p with
  | none => .ub
  | some q =>
    match b.files[q.file]? with
    | none => .ub
    | some cur =>
      if cur.length - q.pos ≥ n * b.ws % u64 then
        if n * b.ws ≤ cur.length - q.pos then
          .ok (b, some ⟨q.file, q.pos + n * b.ws, q.word + n⟩, (cur.drop q.pos).take (n * b.ws))
        else
          .ok ({ b with err := true }, some ⟨q.file, cur.length, q.word⟩, cur.drop q.pos)
      else
        match readLoop b.ws (b.files.drop (q.file + 1)) cur q (n * b.ws % u64) [] with
        | (none, bytes) => .ok ({ b with err := true }, none, bytes)
        | (some q', bytes) => .ok (b, some q', bytes)

/-- Models `d3_buffer_read_words_at` (`/repo/src/d3_buffer.c:361-377`). -/
def readWordsAt (b : Buf) (n word : Nat) : Res (Buf × Ptr × Bytes) :=
  match seek b word with
  | (b', p) => if b'.err then .ok (b', p, []) else readWords b' p n

/-- Models `d3_buffer_skip_words` (`/repo/src/d3_buffer.c:409-429`). -/
def skipWords (b : Buf) (p : Ptr) (n : Nat) : Res (Buf × Ptr) :=
  match p with
  | none => .ok ({ b with err := true }, none)
  | some q =>
    if ulongMax - n ≤ q.word then .ok ({ b with err := true }, none)
    else .ok (seek b (q.word + n))

/-- Models `d3_buffer_skip_bytes` (`/repo/src/d3_buffer.c:431-436`). -/
def skipBytes (b : Buf) (p : Ptr) (n : Nat) : Res (Buf × Ptr) := skipWords b p (n / b.ws)

/-- Value of bytes that are stored with the least significant byte first.
Code: `/repo/src/d3_buffer.c:147-153` (words are read into integers; little endian machine). -/
def leNat : Bytes → Nat
  | [] => 0
  | x :: xs => x + 256 * leNat xs

/-! ## Opening -/

/-- One of the control values that are read to find out the size of a word: read, close the
pointer, and use the default if there was an error.
Models e.g. `/repo/src/d3_buffer.c:147-153`. -/
def probe (b : Buf) (word dflt : Nat) : Res Nat :=
  readWordsAt b 1 word >>= fun (b', p, bytes) =>
  close p >>= fun _ =>
  if b'.err then .ok dflt else .ok (leNat bytes)

/-- Models `/repo/src/d3_buffer.c:219-235`. -/
def makesSense (ndim icode inum it ia : Nat) : Bool :=
  (ndim ≥ 2 && ndim ≤ 7) && (icode == 2 || icode == 6) &&
  ((inum ≥ 1 && inum ≤ 13) || (inum ≥ 21 && inum ≤ 26) || (inum ≥ 1001 && inum ≤ 1013) ||
    (inum ≥ 1021 && inum ≤ 1026)) &&
  (it ≤ 3 || (it ≥ 10 && it ≤ 13)) && (ia == 0 || ia == 1)

/-- The five values with one size of a word (`/repo/src/d3_buffer.c:145-217`). -/
def probeAll (b : Buf) : Res Bool :=
  probe b 15 0 >>= fun ndim =>
  probe b 17 0 >>= fun icode =>
  probe b 11 0 >>= fun inum =>
  probe b 19 999 >>= fun it =>
  probe b 22 999 >>= fun ia =>
  .ok (makesSense ndim icode inum it ia)

/-- The number in a file name, as `sprintf` writes it (`/repo/src/d3_buffer.c:99, 127`):
`"%02zu"` below 10 and `"%zu"` otherwise. -/
def decimal : Nat → Nat → Bytes
  | 0, _ => []
  | fuel + 1, n => if n < 10 then [48 + n] else decimal fuel (n / 10) ++ [48 + n % 10]

/-- Code: `/repo/src/d3_buffer.c:101-110` (`sprintf` of the number). -/
def indexString (i : Nat) : Bytes := if i < 10 then 48 :: decimal 4 i else decimal 4 i

/-- A C string: everything before the first 0. Code: `/repo/src/d3_buffer.c:90-97`. -/
def cStr (b : Bytes) : Bytes := b.takeWhile (· ≠ 0)

/-- The file name buffer after the number has been copied (`/repo/src/d3_buffer.c:90-97,
128-129`): three bytes of the number with its terminator, and a final 0. For the first file
the number is the empty string (the bytes behind its terminator do not matter). -/
def nameBuffer (root : Bytes) (i : Nat) : Bytes :=
  root ++ (if i = 0 then [0, 0, 0] else (indexString i ++ [0, 0]).take 3) ++ [0]

/-- Models the loop that collects the files (`/repo/src/d3_buffer.c:101-131`): `isFile` is
`path_is_file`, `read` gives the content of a file. -/
def collect (isFile : Bytes → Bool) (root : Bytes) : (left i : Nat) → List Bytes
  | 0, _ => []
  | left + 1, i =>
    if isFile (cStr (nameBuffer root i)) then
      cStr (nameBuffer root i) :: collect isFile root left (i + 1)
    else []

/-- Models `d3_buffer_open` (`/repo/src/d3_buffer.c:69-256`): the names of the files of the
family. -/
def family (isFile : Bytes → Bool) (root : Bytes) : List Bytes := collect isFile root 1000 0

/-- Models `d3_buffer_open` (`/repo/src/d3_buffer.c:69-256`) for a family with these contents.
-/
def openBuf (files : List Bytes) : Res Buf :=
  if files = [] then .err
  else
    probeAll ⟨files, 4, false⟩ >>= fun s32 =>
    probeAll ⟨files, 8, false⟩ >>= fun s64 =>
    if (!s32 && !s64) || (s32 && s64) then .err
    else .ok ⟨files, 4 + 4 * (if s64 then 1 else 0), false⟩

/-- Models `d3_buffer_open` on a file system. Code: `/repo/src/d3_buffer.c:69-256`. -/
def openFamily (isFile : Bytes → Bool) (content : Bytes → Bytes) (root : Bytes) : Res Buf :=
  openBuf ((family isFile root).map content)

end Dyna.D3
