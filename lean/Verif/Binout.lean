import Verif.Path
import Verif.Directory
/-!
# Opening binout files

Model of `binout_open` (`/repo/src/binout.c:61-320`), built with thread safety, on a 64 bit
little endian platform. A file is its byte list; the content does not change while it is
open. `malloc`/`realloc` never fail.
-/

namespace Dyna

/-- Little endian value of the bytes a field was read into: `fread` fills the low bytes of a
zero initialised `uint64_t` (`/repo/src/binout.c:166-171`, `:239-243`). -/
def leNat : Bytes → Nat
  | [] => 0
  | b :: t => b + 256 * leNat t

/-- `fread(dst, n, 1, file) == 1`: one object of `n` bytes; an object of size 0 is never
read (`/repo/src/binout.c:44-50`, `BIN_FILE_READ` with count 1). -/
def freadObj (f : Bytes) (pos n : Nat) : Option Bytes :=
  if n = 0 then none
  else if pos + n ≤ f.length then some ((f.drop pos).take n) else none

/-- `fread(dst, 1, n, file) == n`: `n` bytes (`/repo/src/binout.c:184-185`, `:248-249`). -/
def freadBytes (f : Bytes) (pos n : Nat) : Option Bytes :=
  if n = 0 then some []
  else if pos + n ≤ f.length then some ((f.drop pos).take n) else none

/-- `fseek(file, (long)off, SEEK_CUR)` for an unsigned 64 bit offset (`/repo/src/binout.c:256`,
`:276`; the parameter of `multi_file_seek` is a `long`, `/repo/src/multi_file.c:157`): values
from 2^63 on are negative offsets. A negative position or one beyond 2^63 - 1 is rejected;
a position behind the end of the file is not. -/
def fseekCur (pos off : Nat) : Option Nat :=
  if off < u64 / 2 then
    if pos + off < u64 / 2 then some (pos + off) else none
  else if u64 ≤ pos + off then some (pos + off - u64) else none

/-- The header fields that matter (`/repo/src/binout.h:35-44`). -/
structure Header where
  lenSize : Nat
  cmdSize : Nat
  typSize : Nat
deriving DecidableEq, Repr

/-- Read and check the header (`/repo/src/binout.c:118-141`); `.inr` is the message of the
error. -/
def readHeader (f : Bytes) : Header ⊕ Bytes :=
  match f with
  | _hs :: ls :: _os :: cs :: ts :: en :: ff :: _u :: _ =>
    if en ≠ 1 then .inr (bs "Unsupported Endianess")
    else if ls > 8 then .inr (bs "The record length field size is unsupported")
    else if cs > 8 then .inr (bs "The command length field size is unsupported")
    else if ts > 8 then .inr (bs "The typeid field size is unsupported")
    else if ff ≠ 0 then .inr (bs "The float format is unsupported")
    else .inl ⟨ls, cs, ts⟩
  | _ => .inr (bs "Failed to read header")

/-- A record as `binout_open` sees it.
Code: `/repo/src/binout.c:159-181` (locals `record_length`, `record_command` and the fields read from them). -/
inductive Rec where
  | cd (raw : Bytes)
  | data (ty : Nat) (name : Bytes) (size pos : Nat)
  | other (cmd : Nat)
deriving DecidableEq, Repr

/-- What reading at a position gives. Code: `/repo/src/binout.c:159-283`. -/
inductive RecRead where
  /-- the position is the end of the file -/
  | done
  /-- a read or seek fails; `cmd` is the command if it has been read -/
  | fail (cmd : Option Nat) (msg : Bytes)
  /-- the assertion on the length of a path fails -/
  | assertFail
  | rcd (r : Rec) (next : Nat)
deriving DecidableEq, Repr

/-- The C string in a buffer: everything in front of the first NUL.
Code: `/repo/src/binout.c:186-188` (the path buffer is used as a C string). -/
def cstr (b : Bytes) : Bytes := b.takeWhile (fun c => c != 0)

/-- Skip the payload of a DATA record (`/repo/src/binout.c:253-270`); the type is stored in
a `uint8_t`. -/
def finishData (ty : Nat) (name : Bytes) (size pos : Nat) : RecRead :=
  match fseekCur pos size with
  | none => .fail (some 3) (bs "Failed to skip Data of DATA record")
  | some next => .rcd (.data (ty % 256) name size pos) next

/-- Body of a DATA record at `p` (`/repo/src/binout.c:239-270`). -/
def readData (h : Header) (f : Bytes) (p dl : Nat) : RecRead :=
  match freadObj f p h.typSize with
  | none => .fail (some 3) (bs "Failed to read TYPEID of DATA record")
  | some ty =>
    match freadObj f (p + h.typSize) 1 with
    | none => .fail (some 3) (bs "Failed to read Name length of DATA record")
    | some nl =>
      let n := leNat nl
      match freadBytes f (p + h.typSize + 1) n with
      | none => .fail (some 3) (bs "Failed to read Name of DATA record")
      | some name =>
        let size := sub64 (sub64 (sub64 dl h.typSize) 1) n
        finishData (leNat ty) (cstr name) size (p + h.typSize + 1 + n)

/-- Body of a CD record at `p` (`/repo/src/binout.c:181-185`). -/
def readCd (f : Bytes) (p dl : Nat) : RecRead :=
  if dl < 1024 then
    match freadBytes f p dl with
    | none => .fail (some 2) (bs "Failed to read PATH of CD record")
    | some raw => .rcd (.cd raw) (p + dl)
  else .assertFail

/-- Skip a record with another command (`/repo/src/binout.c:272-282`). -/
def finishOther (cmd p dl : Nat) : RecRead :=
  match fseekCur p dl with
  | none => .fail (some cmd) (bs "Failed to skip data of a record")
  | some next => .rcd (.other cmd) next

/-- One iteration of the record loop without its effects (`/repo/src/binout.c:159-283`).
`ftell` never fails on a seekable file. -/
def readRecord (h : Header) (f : Bytes) (pos : Nat) : RecRead :=
  if pos = f.length then .done
  else
    match freadObj f pos h.lenSize with
    | none => .fail none (bs "Failed to read record length")
    | some lb =>
      match freadObj f (pos + h.lenSize) h.cmdSize with
      | none => .fail none (bs "Failed to read command")
      | some cb =>
        let cmd := leNat cb
        let p := pos + h.lenSize + h.cmdSize
        let dl := sub64 (sub64 (leNat lb) h.lenSize) h.cmdSize
        if cmd = 2 then readCd f p dl
        else if cmd = 3 then readData h f p dl
        else finishOther cmd p dl

/-- One component of a relative CD path applied to `current_path_string`
(`/repo/src/binout.c:201-222`). `path_move_up` returning `~0` makes the code write
`current_path_string[SIZE_MAX]`. -/
def applyComponent (cur comp : Bytes) : Res Bytes :=
  if pvStrcmp comp (bs "..") = 0 then
    match pathMoveUp cur with
    | none => .ub
    | some i => .ok (cur.take (if i = 0 then 1 else i))
  else if ¬ cur.length + comp.length + 1 < 1024 then .abort
  else
    match cur.getLast? with
    | none => .ub
    | some c => if c ≠ SEP then .ok (cur ++ SEP :: comp) else .ok (cur ++ comp)

/-- Code: `/repo/src/binout.c:199-226` (the loop over the components). -/
def applyComponents (cur : Bytes) : List Bytes → Res Bytes
  | [] => .ok cur
  | c :: cs => do
    let cur' ← applyComponent cur c
    applyComponents cur' cs

/-- Build the view on `current_path_string`, advance it once and collect the components
that `binout_directory_insert_folder` walks through (`/repo/src/binout.c:189-196`, `:227-231`);
`none` if the advance fails, which leaves the view at the root. The folder function asserts
that the first component starts at index 1 (`/repo/src/binout_directory.c:41`). -/
def viewTarget (p : Bytes) : Res (Option (List Bytes)) := do
  let pv ← pvNew p
  match ← pvAdvance p pv with
  | none => .ok none
  | some pv' =>
    if pv'.start ≠ 1 then .abort
    else do
      let rest ← pvRest p (p.length + 1) pv'
      .ok (some (pvStr p pv' :: rest))

/-- The path handling of a CD record (`/repo/src/binout.c:187-232`): the new
`current_path_string`, and the folder to insert, if any. The first argument is the current
string. For a relative path that ends at the root the view still covers the separator at
index 0 and the assertion of the folder function fails. -/
def changeDir (cur raw : Bytes) : Res (Bytes × Option (List Bytes)) :=
  let p := cstr raw
  if p.head? = some SEP then do
    let t ← viewTarget p
    .ok (p, t)
  else do
    let comps ← pvElems p
    let cur' ← applyComponents cur comps
    match ← viewTarget cur' with
    | none => .abort
    | some t => .ok (cur', some t)

/-- Local variables of the loop over the records of a file (`/repo/src/binout.c:145-157`). -/
structure PState where
  pos : Nat
  curPath : Bytes
  dir : DirState

/-- What parsing a file leaves behind: the directory and the error message, if any.
Code: `/repo/src/binout.c:145-157` and :283-290. -/
structure ParseOut where
  kids : List Entry
  error : Option Bytes

/-- Effect of one record on the local state. Code: `/repo/src/binout.c:179-271`. -/
def applyRec (fileIdx : Nat) (s : PState) (r : Rec) (next : Nat) : Res PState :=
  match r with
  | .cd raw => do
    let (cur', t) ← changeDir s.curPath raw
    match t with
    | none => .ok { pos := next, curPath := cur', dir := s.dir }
    | some path => do
      let d ← dirStep s.dir (.cd path)
      .ok { pos := next, curPath := cur', dir := d }
  | .data ty name size pos => do
    let d ← dirStep s.dir (.data name ⟨ty, size, fileIdx % 256, pos⟩)
    .ok { pos := next, curPath := s.curPath, dir := d }
  | .other _ => .ok { pos := next, curPath := s.curPath, dir := s.dir }

/-- The loop over the records (`/repo/src/binout.c:159-283`), for at most `fuel` iterations;
`none` says that the loop is still running. The assertion `current_folder != NULL` comes
before the reads of a DATA record. -/
def parseLoop (h : Header) (fileIdx : Nat) (f : Bytes) : Nat → PState → Res (Option ParseOut)
  | 0, _ => .ok none
  | fuel + 1, s =>
    match readRecord h f s.pos with
    | .done => .ok (some ⟨s.dir.kids, none⟩)
    | .assertFail => .abort
    | .fail cmd msg =>
      if cmd = some 3 ∧ s.dir.cur = none then .abort else .ok (some ⟨s.dir.kids, some msg⟩)
    | .rcd r next => do
      let s' ← applyRec fileIdx s r next
      parseLoop h fileIdx f fuel s'

/-- Parsing of one file (`/repo/src/binout.c:104-290`). `content = none`: `fopen` fails; the
text of `strerror` is not modelled, a fixed text stands for it. -/
def parseFile (fuel fileIdx : Nat) (content : Option Bytes) (kids : List Entry) :
    Res (Option ParseOut) :=
  match content with
  | none => .ok (some ⟨kids, some (bs "No such file or directory")⟩)
  | some f =>
    match readHeader f with
    | .inr msg => .ok (some ⟨kids, some msg⟩)
    | .inl h => parseLoop h fileIdx f fuel ⟨8, [SEP], ⟨kids, none⟩⟩

/-- State of the loop over the files.
Code: `/repo/src/binout.c:74-102` (locals of the loop over the files). -/
structure OpenState where
  kids : List Entry := []
  /-- `files[i]`: the content that is read through it, `none` after `multi_file_close` -/
  files : List (Option Bytes) := []
  errors : List Bytes := []

/-- Text of one error (`/repo/src/binout.c:757-769`, `_binout_add_file_error`); the string
builder calls concatenate, see `Verif/StringBuilder.lean`. -/
def fileError (name msg : Bytes) : Bytes := name ++ bs ": " ++ msg

/-- The loop over the files (`/repo/src/binout.c:102-291`). -/
def openFiles (fuel : Nat) : Nat → List (Bytes × Option Bytes) → OpenState →
    Res (Option OpenState)
  | _, [], st => .ok (some st)
  | i, (name, content) :: rest, st => do
    match ← parseFile fuel i content st.kids with
    | none => .ok none
    | some out =>
      match out.error with
      | none =>
        openFiles fuel (i + 1) rest ⟨out.kids, st.files ++ [content], st.errors⟩
      | some msg =>
        openFiles fuel (i + 1) rest
          ⟨out.kids, st.files ++ [none], st.errors ++ [fileError name msg]⟩

/-- The clean-up loop (`/repo/src/binout.c:295-314`): a closed file is replaced by the last
one and the array shrinks; `i` is the loop index. Every iteration makes `num_files - i`
smaller by one, so the first argument bounds the number of iterations exactly. -/
def cleanUpLoop : Nat → List (Option Bytes) → Nat → List (Option Bytes)
  | 0, files, _ => files
  | n + 1, files, i =>
    match files[i]? with
    | none => files
    | some none =>
      match files.getLast? with
      | none => files
      | some l => cleanUpLoop n ((files.set i l).dropLast) i
    | some (some _) => cleanUpLoop n files (i + 1)

/-- The clean-up of the array of files, from the first one. Code: `/repo/src/binout.c:295-314`. -/
def cleanUp (files : List (Option Bytes)) : List (Option Bytes) :=
  cleanUpLoop files.length files 0

/-- Join the errors with newlines (`/repo/src/binout.c:826-846`, `_binout_open_error`); no
error gives a null pointer (`string_builder_move` of an empty builder). -/
def joinErrors : List Bytes → Option Bytes
  | [] => none
  | [e] => some e
  | e :: es => match joinErrors es with
    | none => some e
    | some t => some (e ++ 10 :: t)

/-- The `binout_file` returned by `binout_open`. Code: `/repo/src/binout.h:47-60`. -/
structure BinFile where
  kids : List Entry
  files : List (Option Bytes)
  error : Option Bytes

/-- `binout_open` (`/repo/src/binout.c:61-320`) on the files that the pattern matches, in the
order of `glob`. -/
def binoutOpen (fuel : Nat) (pattern : Bytes) (files : List (Bytes × Option Bytes)) :
    Res (Option BinFile) :=
  if files = [] then
    .ok (some ⟨[], [], joinErrors [fileError pattern (bs "No files have been found")]⟩)
  else do
    match ← openFiles fuel 0 files {} with
    | none => .ok none
    | some st => .ok (some ⟨st.kids, cleanUp st.files, joinErrors st.errors⟩)

theorem cstr_eq {b : Bytes} (h : 0 ∉ b) : cstr b = b := by
  induction b with
  | nil => rfl
  | cons x xs ih =>
    simp only [List.mem_cons, not_or] at h
    have : (x != 0) = true := by simp; exact fun e => h.1 e.symm
    have ih' := ih h.2
    unfold cstr at *
    rw [List.takeWhile_cons]; simp [this, ih']

end Dyna
