import Verif.Binout
import Verif.StringBuilder
/-!
# Reading from an opened binout

Model of `/repo/src/binout_read.c` and `binout_get_num_timesteps`. An entry that is a file
shares the storage of its size with the number of children of a folder, and its children
pointer is never initialised (`/repo/src/binout_directory.h:39-52`,
`/repo/src/binout_directory.c:181-189`); following it is undefined behaviour.
-/

namespace Dyna

/-- Models `/repo/src/binout.c:703-729` (`_binout_get_type_size`). -/
def typeSize : Nat → Nat
  | 1 => 1
  | 2 => 2
  | 3 => 4
  | 4 => 8
  | 5 => 1
  | 6 => 2
  | 7 => 4
  | 8 => 8
  | 9 => 4
  | 10 => 8
  | _ => 255

/-- Seek to the position of a variable and read it with one `fread` of its size
(`/repo/src/binout_read.c:60-90`, `:327-362`). A file index outside of the array is
undefined behaviour. Exclusive access to the file handle is the subject of
`Verif/MultiFile.lean`. -/
def readInfo (files : List (Option Bytes)) (i : FileInfo) : Res Bytes :=
  match files[i.fileIndex]? with
  | none => .ub
  | some none => .err
  | some (some c) =>
    if i.filePos < u64 / 2 then
      match freadObj c i.filePos i.size with
      | none => .err
      | some d => .ok d
    else .err

/-- Models `/repo/src/binout_read.c:37-93` (`_binout_read`): the data and the number of
values. The error string is set exactly if the result is `err`. -/
def binoutRead (b : BinFile) (path : Bytes) (ty : Nat) : Res (Bytes × Nat) := do
  match ← getFile b.kids path with
  | none => .err
  | some i =>
    if i.varType ≠ ty then .err
    else if i.size = 0 then .err
    else do
      let d ← readInfo b.files i
      .ok (d, i.size / typeSize ty)

/-- The tail of the loop of `_binout_is_d_string` (`/repo/src/binout.c:776-786`). -/
def allDigits : Bytes → Bool
  | [] => true
  | c :: cs => if ¬ (48 ≤ c ∧ c ≤ 57) then false else allDigits cs

/-- Models `/repo/src/binout.c:771-790` (`_binout_is_d_string`) on a C string. -/
def isDString (name : Bytes) : Bool :=
  match name with
  | [] => false
  | c :: cs => if c ≠ 100 then false else if allDigits cs then cs.length ≠ 0 else false

/-- The first entry that is a d folder (by name), as the loops
`/repo/src/binout.c:438-443` and `/repo/src/binout_read.c:149-158`, `:290-292` find it. -/
def firstD (kids : List Entry) : Option Nat :=
  match kids with
  | [] => none
  | e :: es => if isDString e.name then some 0 else (firstD es).map (· + 1)

/-- The loop that goes down from index `i` until a d folder is found
(`/repo/src/binout.c:452-456`, `/repo/src/binout_read.c:294-296`); without one it leaves the
array. -/
def lastDFrom (kids : List Entry) : Nat → Option Nat
  | 0 => match kids[0]? with
    | some e => if isDString e.name then some 0 else none
    | none => none
  | i + 1 => match kids[i + 1]? with
    | some e => if isDString e.name then some (i + 1) else lastDFrom kids i
    | none => none

/-- Models `/repo/src/binout.c:422-465` (`binout_get_num_timesteps`); `none` models `~0`. -/
def numTimesteps (kids : List Entry) (path : Bytes) : Res (Option Nat) := do
  let _ ← pvNew path
  if path.head? ≠ some SEP then .abort
  else do
    let cs ← pvElems path
    match ← dirGetChildren kids cs with
    | none => .ok none
    | some ch =>
      match ch with
      | [] => .ok (some 0)
      | .file _ _ :: _ => .ok none
      | .folder _ _ _ :: _ =>
        match firstD ch with
        | none => .ok (some 0)
        | some s =>
          match lastDFrom ch (ch.length - 1) with
          | none => .ub
          | some e => .ok (some (e - s + 1))

/-- The search inside of the first d folder (`/repo/src/binout_read.c:160-197`): the indices
of the entries that lead to the variable. A component that is not found is skipped. -/
def searchInD (kids : List Entry) : List Bytes → Res (List Nat)
  | [] => .err
  | c :: cs =>
    if kids.length = 0 then .err
    else
      match searchLookup c kids with
      | .ok none => searchInD kids cs
      | .ok (some i) =>
        match kids[i]? with
        | none => .ub
        | some (.file _ _) => if cs = [] then .ok [i] else .err
        | some (.folder _ _ ch) => do
          let p ← searchInD ch cs
          .ok (i :: p)
      | .err => .err
      | .ub => .ub
      | .abort => .abort

/-- The loop over the components (`/repo/src/binout_read.c:137-216`): the children of the
folder that contains the d folders, and the indices below the first d folder. -/
def searchTimedIn (kids : List Entry) : List Bytes → Res (List Entry × List Nat)
  | [] => .err
  | c :: cs =>
    if kids.length = 0 then .err
    else
      match searchLookup c kids with
      | .ok none =>
        match firstD kids with
        | none => .err
        | some d =>
          match kids[d]? with
          | none => .ub
          | some (.file _ i) => if i.size = 0 then .err else .ub
          | some (.folder _ _ ch) =>
            if ch.length = 0 then .err
            else do
              let p ← searchInD ch (c :: cs)
              .ok (kids, p)
      | .ok (some i) =>
        match kids[i]? with
        | none => .ub
        | some (.file _ _) => .err
        | some (.folder _ _ ch) => searchTimedIn ch cs
      | .err => .err
      | .ub => .ub
      | .abort => .abort

/-- Models `/repo/src/binout_read.c:109-217` (`_binout_search_timed`). The view is advanced
once before the first search, which skips the root of an absolute path and the first
component of a relative one. -/
def searchTimed (kids : List Entry) (path : Bytes) : Res (List Entry × List Nat) :=
  if kids.length = 0 then .err
  else do
    let pv ← pvNew path
    let cs ← pvRest path (path.length + 1) pv
    match cs with
    | [] => .err
    | c :: cs =>
      match searchLookup c kids with
      | .ok none => .err
      | .ok (some i) =>
        match kids[i]? with
        | none => .ub
        | some (.file _ _) => .err
        | some (.folder _ _ ch) => searchTimedIn ch cs
      | .err => .err
      | .ub => .ub
      | .abort => .abort

/-- Models `/repo/src/binout_read.c:219-271` (`_binout_open_timed_path`) on the children of
the d folder; `none` models the null pointer. The result of the search by name may be a
folder; using it as a variable reads uninitialised members. The name is a single
component (names of entries come from DATA records; a name with separators is outside of
the model of the search by name). -/
def openTimedPath (kids : List Entry) (name : Option Bytes) :
    List Nat → Res (Option (Bytes × FileInfo))
  | [] => .ok none
  | i :: p =>
    if kids.length < i + 1 then .ok none
    else
      match kids[i]? with
      | none => .ub
      | some (.file n info) =>
        if p ≠ [] then .ok none
        else
          match name with
          | none => .ok (some (n, info))
          | some v =>
            if strcmp n v ≠ 0 then
              match searchLookup v kids with
              | .ok none => .ok none
              | .ok (some j) =>
                match kids[j]? with
                | some (.file n' info') => .ok (some (n', info'))
                | _ => .ub
              | .err => .err
              | .ub => .ub
              | .abort => .abort
            else .ok (some (n, info))
      | some (.folder _ _ ch) => if p = [] then .ok none else openTimedPath ch name p

/-- `_binout_open_timed_path` on one entry of the array of d folders, which may be a file.
Code: `/repo/src/binout_read.c:219-271`. -/
def openTimedEntry (e : Entry) (name : Option Bytes) (p : List Nat) :
    Res (Option (Bytes × FileInfo)) :=
  match e with
  | .folder _ _ ch => openTimedPath ch name p
  | .file _ info =>
    match p with
    | [] => .ok none
    | i :: _ => if info.size < i + 1 then .ok none else .ub

/-- The loop over the time steps (`/repo/src/binout_read.c:314-367`): each one is read to
`data[k * d_file->size]`; `k` is the number of the time step. -/
def readSteps (files : List (Option Bytes)) (name : Bytes) (p : List Nat) :
    List Entry → Nat → List (Option Byte) → Res (List (Option Byte))
  | [], _, buf => .ok buf
  | d :: ds, k, buf => do
    match ← openTimedEntry d (some name) p with
    | none => .err
    | some (_, info) => do
      let bytes ← readInfo files info
      let buf' ← writeAt buf (k * info.size) bytes
      readSteps files name p ds (k + 1) buf'

/-- Models `/repo/src/binout_read.c:273-371` (`_binout_read_timed`): buffer, number of values
per time step, number of time steps. -/
def readTimed (b : BinFile) (path : Bytes) (ty : Nat) :
    Res (List (Option Byte) × Nat × Nat) := do
  let (ds, p) ← searchTimed b.kids path
  match firstD ds with
  | none => .ub
  | some s =>
    match lastDFrom ds (ds.length - 1) with
    | none => .ub
    | some e =>
      match ds[s]? with
      | none => .ub
      | some d0 => do
        match ← openTimedEntry d0 none p with
        | none => .abort
        | some (name, info) =>
          let steps := e - s + 1
          let values := info.size / typeSize ty
          if values = 0 then .err
          else do
            let buf ← readSteps b.files name p ((ds.drop s).take steps) 0
              (List.replicate (info.size * steps) none)
            .ok (buf, values, steps)

end Dyna
