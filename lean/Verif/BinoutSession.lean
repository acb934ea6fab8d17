import Verif.BinoutSimple
/-!
# Calls on an open binout and its error string

Model of `binout_get_type_id`, `binout_variable_exists`, `binout_get_children`
(`/repo/src/binout.c:348-401`), `_binout_read` (`/repo/src/binout_read.c:37-93`) with the error string that
they leave behind, and `binout_open_error` (`/repo/src/binout.c:411-420`), which hands out a copy of it.
Error texts are formatted into 1024 bytes with `sprintf`; a longer text is undefined behaviour. The text of
`strerror` is a parameter.
-/

namespace Dyna

/-- `_binout_get_type_name` (`/repo/src/binout.c:730-755`). -/
def typeName : Nat → Bytes
  | 1 => bs "INT8"
  | 2 => bs "INT16"
  | 3 => bs "INT32"
  | 4 => bs "INT64"
  | 5 => bs "UINT8"
  | 6 => bs "UINT16"
  | 7 => bs "UINT32"
  | 8 => bs "UINT64"
  | 9 => bs "FLOAT32"
  | 10 => bs "FLOAT64"
  | _ => bs "UNKNOWN"

/-- `NEW_ERROR_STRING_F` (`/repo/src/binout_defines.h:61-69`): `sprintf` into `format_buffer[1024]`
(the text and its terminator), then a copy of it replaces the error string. -/
def newError (b : BinFile) (text : Bytes) : Res BinFile :=
  if text.length + 1 > 1024 then .ub else .ok { b with error := some text }

/-- `BINOUT_CLEAR_ERROR_STRING` (`/repo/src/binout_defines.h:71-73`). -/
def clearError (b : BinFile) : BinFile := { b with error := none }

/-- `binout_get_type_id` (`/repo/src/binout.c:348-364`). -/
def sessTypeId (b : BinFile) (path : Bytes) : Res (Nat × BinFile) := do
  let b := clearError b
  match ← getFile b.kids path with
  | none => do
    let b ← newError b (bs "\"" ++ path ++ bs "\" has not been found")
    .ok (typeInvalid, b)
  | some i => .ok (i.varType, b)

/-- `binout_variable_exists` (`/repo/src/binout.c:366-376`). -/
def sessExists (b : BinFile) (path : Bytes) : Res (Bool × BinFile) := do
  match ← getFile b.kids path with
  | none => .ok (false, b)
  | some _ => .ok (true, b)

/-- `binout_get_children` (`/repo/src/binout.c:378-401`). -/
def sessChildren (b : BinFile) (path : Bytes) : Res (Option (List Bytes) × BinFile) := do
  let r ← getChildren b.kids path
  .ok (r, b)

/-- `_binout_read` (`/repo/src/binout_read.c:37-93`): `none` is the result NULL, otherwise the data and
`data_size`. `why` is the text of `strerror`. -/
def sessRead (why : Bytes) (b : BinFile) (path : Bytes) (ty : Nat) : Res (Option (Bytes × Nat) × BinFile) := do
  let b := clearError b
  match ← getFile b.kids path with
  | none => do
    let b ← newError b (bs "\"" ++ path ++ bs "\" has not been found")
    .ok (none, b)
  | some i =>
    if i.varType ≠ ty then do
      let b ← newError b (bs "\"" ++ path ++ bs "\" is of type " ++ typeName i.varType ++ bs " instead of " ++
        typeName ty)
      .ok (none, b)
    else if i.size = 0 then do
      let b ← newError b (bs "The file \"" ++ path ++ bs "\" is empty")
      .ok (none, b)
    else match b.files[i.fileIndex]? with
      | none => .ub
      | some none => do
        let b ← newError b (bs "Failed to access file of \"" ++ path ++ bs "\": " ++ why)
        .ok (none, b)
      | some (some c) =>
        if i.filePos ≥ u64 / 2 then do
          let b ← newError b (bs "Failed to seek to the position of \"" ++ path ++ bs "\"")
          .ok (none, b)
        else match freadObj c i.filePos i.size with
          | none => do
            let b ← newError b (bs "Failed to read \"" ++ path ++ bs "\"")
            .ok (none, b)
          | some d => .ok (some (d, i.size / typeSize ty), b)

/-- A call on an open binout. Code: `/repo/src/binout.c:348-401`, `/repo/src/binout_read.c:374-592`. -/
inductive Ask where
  /-- `binout_get_type_id` -/
  | typeId (path : Bytes)
  /-- `binout_variable_exists` -/
  | isThere (path : Bytes)
  /-- `binout_get_children` -/
  | children (path : Bytes)
  /-- `binout_read_<type>` -/
  | read (path : Bytes) (ty : Nat)
deriving DecidableEq, Repr

/-- What a call returns. Code: `/repo/src/binout.c:348-401`, `/repo/src/binout_read.c:374-592`. -/
inductive Answer where
  | type (t : Nat)
  | yesNo (a : Bool)
  | names (l : Option (List Bytes))
  | data (d : Option (Bytes × Nat))
deriving DecidableEq, Repr

/-- One call. Code: `/repo/src/binout.c:348-401`, `/repo/src/binout_read.c:37-93`. -/
def sessAsk (why : Bytes) (b : BinFile) : Ask → Res (Answer × BinFile)
  | .typeId p => do let (t, b) ← sessTypeId b p; .ok (.type t, b)
  | .isThere p => do let (a, b) ← sessExists b p; .ok (.yesNo a, b)
  | .children p => do let (l, b) ← sessChildren b p; .ok (.names l, b)
  | .read p ty => do let (d, b) ← sessRead why b p ty; .ok (.data d, b)

/-- A sequence of calls; the answers with the error string (`binout_open_error`,
`/repo/src/binout.c:411-420`) after each. -/
def sessRun (why : Bytes) (b : BinFile) : List Ask → Res (List (Answer × Option Bytes) × BinFile)
  | [] => .ok ([], b)
  | a :: as => do
    let (r, b) ← sessAsk why b a
    let (rs, b') ← sessRun why b as
    .ok ((r, b.error) :: rs, b')

end Dyna
