import Verif.BinoutMem
import Verif.BinoutSession
/-!
# The memory and the file handles of the calls on an open binout

`binout_get_type_id`, `binout_variable_exists`, `binout_get_children`, `binout_read_<type>`,
`binout_read_timed_<type>`, `binout_get_num_timesteps`, `binout_simple_path_to_real` and `binout_open_error` once more, with
the blocks they allocate and release and the handles of the files they take and give back. The values are
those of `Verif.BinoutSession`, `Verif.BinoutRead` and `Verif.BinoutSimple`; `Verif.Props.BinoutCalls` proves that the
results agree.

Simplifications: those of `Verif.BinoutMem`. A look-up is undefined if any name or array of the directory has been
released, also if it would not look at it. A file has the one handle that `binout_open` has created
(`/repo/src/binout.c:104`); that a second one would be created is not modelled but undefined (it does not happen, as the
theorems show). One thread only; more than one is the subject of C22 and C23.
-/

namespace Dyna.BinoutCalls

open Dyna.KeyMem Dyna.BinoutMem

/-- An open binout: memory, structure, the text of `error_string`, and the files whose handle is locked.
Code: `/repo/src/binout.h:47-60` and `/repo/src/multi_file.h:40-54`. -/
structure Sess where
  mem : Mem
  bin : BinM
  text : Option Bytes
  busy : List Nat := []

/-- The binout without its blocks. Auxiliary of the model, no code of its own. -/
def Sess.file (s : Sess) : BinFile := ⟨eraseL s.bin.kids, s.bin.files.map (·.content), s.text⟩

mutual
/-- The blocks a look-up can read: names and arrays. Code: `/repo/src/binout_directory.h:38-50`. -/
def reads : EntryM → List Nat
  | .file _ nb _ => [nb]
  | .folder _ nb _ blk kids => nb :: (blk.toList ++ readsL kids)
/-- The same for an array. Code: `/repo/src/binout_directory.h:38-50`. -/
def readsL : List EntryM → List Nat
  | [] => []
  | e :: l => reads e ++ readsL l
end

/-- A look-up in the directory. Code: `/repo/src/binary_search.c:77-127`. -/
def Sess.look (s : Sess) : Res Unit := s.mem.useAll (s.bin.blk.toList ++ readsL s.bin.kids)

/-- `BINOUT_CLEAR_ERROR_STRING`. Code: `/repo/src/binout_defines.h:71-73`. -/
def Sess.clear (s : Sess) : Res Sess := do
  let m ← s.mem.freeOpt s.bin.err
  .ok { s with mem := m, bin := { s.bin with err := none }, text := none }

/-- `NEW_ERROR_STRING_F`. Code: `/repo/src/binout_defines.h:61-69`. -/
def Sess.fail (s : Sess) (text : Bytes) : Res Sess :=
  if text.length + 1 > 1024 then .ub
  else do
    let m ← s.mem.freeOpt s.bin.err
    .ok { s with mem := m.alloc.1, bin := { s.bin with err := some m.alloc.2 }, text := some text }

/-- `multi_file_access`: the one handle is taken if it is free. Code: `/repo/src/multi_file.c:80-113`. -/
def Sess.access (s : Sess) (i : Nat) : Res (Sess × Bytes) :=
  match s.bin.files[i]? with
  | none => .ub
  | some f =>
    match f.handles, f.fp, f.content with
    | some h, some p, some c =>
      if i ∈ s.busy then .ub
      else do
        useArr s.mem s.bin.fb
        s.mem.use h
        s.mem.use p
        .ok ({ s with busy := i :: s.busy }, c)
    | _, _, _ => .ub

/-- `multi_file_return`: unlocks the handle; unlocking one that is not locked is undefined.
Code: `/repo/src/multi_file.c:147-156`. -/
def Sess.giveBack (s : Sess) (i : Nat) : Res Sess :=
  if i ∈ s.busy then .ok { s with busy := s.busy.erase i } else .ub

/-- `binout_get_type_id`. Code: `/repo/src/binout.c:348-364`. -/
def typeIdM (s : Sess) (path : Bytes) : Res (Sess × Nat) := do
  let s ← s.clear
  s.look
  match ← getFile (eraseL s.bin.kids) path with
  | none => do
    let s ← s.fail (bs "\"" ++ path ++ bs "\" has not been found")
    .ok (s, typeInvalid)
  | some i => .ok (s, i.varType)

/-- `binout_variable_exists`. Code: `/repo/src/binout.c:366-376`. -/
def existsM (s : Sess) (path : Bytes) : Res (Sess × Bool) := do
  s.look
  match ← getFile (eraseL s.bin.kids) path with
  | none => .ok (s, false)
  | some _ => .ok (s, true)

/-- `binout_get_children`: an array of pointers to the names, null if there are no children.
Code: `/repo/src/binout.c:378-401`. -/
def childrenM (s : Sess) (path : Bytes) : Res (Sess × Option Nat × Option (List Bytes)) := do
  s.look
  match ← getChildren (eraseL s.bin.kids) path with
  | none => .ok (s, none, none)
  | some [] => .ok (s, none, some [])
  | some (n :: l) => .ok ({ s with mem := s.mem.alloc.1 }, some s.mem.alloc.2, some (n :: l))

/-- `binout_open_error`: a copy of the text. Code: `/repo/src/binout.c:411-420`. -/
def messageM (s : Sess) : Res (Sess × Option Nat × Option Bytes) :=
  match s.bin.err with
  | none => .ok (s, none, none)
  | some b => do
    s.mem.use b
    .ok ({ s with mem := s.mem.alloc.1 }, some s.mem.alloc.2, s.text)

/-- `binout_get_num_timesteps`. Code: `/repo/src/binout.c:422-465`. -/
def numStepsM (s : Sess) (path : Bytes) : Res (Sess × Option Nat) := do
  s.look
  let n ← numTimesteps (eraseL s.bin.kids) path
  .ok (s, n)

/-- The part of `_binout_read` that works with the file. Code: `/repo/src/binout_read.c:61-93`. -/
def readDataM (s : Sess) (path : Bytes) (i : FileInfo) (ty : Nat) : Res (Sess × Option Nat × Option (Bytes × Nat)) := do
  let a ← s.access i.fileIndex
  if i.filePos ≥ u64 / 2 then do
    let s ← a.1.giveBack i.fileIndex
    let s ← s.fail (bs "Failed to seek to the position of \"" ++ path ++ bs "\"")
    .ok (s, none, none)
  else do
    let data := a.1.mem.alloc
    match freadObj a.2 i.filePos i.size with
    | none => do
      let m ← data.1.free data.2
      let s ← { a.1 with mem := m }.giveBack i.fileIndex
      let s ← s.fail (bs "Failed to read \"" ++ path ++ bs "\"")
      .ok (s, none, none)
    | some d => do
      let s ← { a.1 with mem := data.1 }.giveBack i.fileIndex
      .ok (s, some data.2, some (d, i.size / typeSize ty))

/-- `_binout_read`. Code: `/repo/src/binout_read.c:37-93`. -/
def readM (s : Sess) (path : Bytes) (ty : Nat) : Res (Sess × Option Nat × Option (Bytes × Nat)) := do
  let s ← s.clear
  s.look
  match ← getFile (eraseL s.bin.kids) path with
  | none => do
    let s ← s.fail (bs "\"" ++ path ++ bs "\" has not been found")
    .ok (s, none, none)
  | some i =>
    if i.varType ≠ ty then do
      let s ← s.fail (bs "\"" ++ path ++ bs "\" is of type " ++ typeName i.varType ++ bs " instead of " ++ typeName ty)
      .ok (s, none, none)
    else if i.size = 0 then do
      let s ← s.fail (bs "The file \"" ++ path ++ bs "\" is empty")
      .ok (s, none, none)
    else readDataM s path i ty

/-! ## Variables of all time steps -/

/-- Number of folders that are entered in the first d folder; one `timed_path_t` is allocated for each.
Code: `/repo/src/binout_read.c:160-197`. -/
def depthInD (kids : List Entry) : List Bytes → Nat
  | [] => 0
  | c :: cs =>
    if kids.length = 0 then 0
    else
      match searchLookup c kids with
      | .ok none => depthInD kids cs
      | .ok (some i) =>
        match kids[i]? with
        | some (.folder _ _ ch) => depthInD ch cs + 1
        | _ => 0
      | _ => 0

/-- The same from the folder with the d folders on. Code: `/repo/src/binout_read.c:137-216`. -/
def depthIn (kids : List Entry) : List Bytes → Nat
  | [] => 0
  | c :: cs =>
    if kids.length = 0 then 0
    else
      match searchLookup c kids with
      | .ok none =>
        match firstD kids with
        | none => 0
        | some d =>
          match kids[d]? with
          | some (.folder _ _ ch) => depthInD ch (c :: cs)
          | _ => 0
      | .ok (some i) =>
        match kids[i]? with
        | some (.folder _ _ ch) => depthIn ch cs
        | _ => 0
      | _ => 0

/-- The same from the root on. Code: `/repo/src/binout_read.c:109-217`. -/
def timedDepth (kids : List Entry) (path : Bytes) : Nat :=
  if kids.length = 0 then 0
  else
    match (do let pv ← pvNew path; pvRest path (path.length + 1) pv : Res (List Bytes)) with
    | .ok (c :: cs) =>
      match searchLookup c kids with
      | .ok (some i) =>
        match kids[i]? with
        | some (.folder _ _ ch) => depthIn ch cs
        | _ => 0
      | _ => 0
    | _ => 0

/-- `malloc` of the elements of the path. Code: `/repo/src/binout_read.c:184-187`. -/
def allocN (m : Mem) : Nat → Mem × List Nat
  | 0 => (m, [])
  | n + 1 =>
    let r := allocN m.alloc.1 n
    (r.1, m.alloc.2 :: r.2)

/-- `timed_path_free`: the last element first. Code: `/repo/src/binout_read.c:102-107`. -/
def freePath (m : Mem) : List Nat → Res Mem
  | [] => .ok m
  | b :: l => do
    m.use b
    let m ← freePath m l
    m.free b

/-- Code: `/repo/src/binout_read.c:131`. -/
def notThere (path : Bytes) : Bytes := bs "The variable \"" ++ path ++ bs "\" does not exist"

/-- The message for a variable that is not found below a folder. Code: `/repo/src/binout_read.c:137-216`. -/
def searchWhyIn (path : Bytes) (kids : List Entry) : List Bytes → Bytes
  | [] => bs "The variable \"" ++ path ++ bs "\" is either metadata (not timed) or does not exist"
  | c :: cs =>
    if kids.length = 0 then notThere path
    else
      match searchLookup c kids with
      | .ok (some i) =>
        match kids[i]? with
        | some (.file _ _) => if cs = [] then bs "The variable \"" ++ path ++ bs "\" is not timed" else notThere path
        | some (.folder _ _ ch) => searchWhyIn path ch cs
        | none => notThere path
      | _ => notThere path

/-- The message for a variable that is not found. Code: `/repo/src/binout_read.c:114-136`. -/
def searchWhy (kids : List Entry) (path : Bytes) : Bytes :=
  if kids.length = 0 then bs "The binout directory is empty"
  else
    match (do let pv ← pvNew path; pvRest path (path.length + 1) pv : Res (List Bytes)) with
    | .ok (c :: cs) =>
      match searchLookup c kids with
      | .ok (some i) =>
        match kids[i]? with
        | some (.folder _ _ ch) => searchWhyIn path ch cs
        | _ => notThere path
      | _ => notThere path
    | _ => bs "The path \"" ++ path ++ bs "\" is too short"

/-- The message for a time step that is different. Code: `/repo/src/binout_read.c:326-331`. -/
def differs (path : Bytes) (k : Nat) : Bytes :=
  bs "The structure of variable \"" ++ path ++ bs "\" is invalid. Time Step " ++ bs (toString k) ++
    bs " differs from the first time step"

/-- Code: `/repo/src/binout_read.c:350`. -/
def noSeek (path : Bytes) : Bytes := bs "Failed to seek to the data of \"" ++ path ++ bs "\""

/-- Code: `/repo/src/binout_read.c:360-361`. -/
def noRead (path : Bytes) (k : Nat) : Bytes :=
  bs "Failed to read time step " ++ bs (toString k) ++ bs " of \"" ++ path ++ bs "\""

/-- The message of the loop over the time steps. Code: `/repo/src/binout_read.c:314-367`. -/
def stepsWhy (files : List (Option Bytes)) (path name : Bytes) (p : List Nat) : List Entry → Nat → Bytes
  | [], _ => []
  | d :: ds, k =>
    match openTimedEntry d (some name) p with
    | .ok none => differs path k
    | .ok (some (_, info)) =>
      match readInfo files info with
      | .err => if info.filePos ≥ u64 / 2 then noSeek path else noRead path k
      | _ => stepsWhy files path name p ds (k + 1)
    | _ => []

/-- The variable in the first time step: the d folders, its name and place, and the number of time steps.
Code: `/repo/src/binout_read.c:287-306`. -/
def timedHead (ds : List Entry) (p : List Nat) : Res (List Entry × Bytes × FileInfo) :=
  match firstD ds with
  | none => .ub
  | some s =>
    match lastDFrom ds (ds.length - 1) with
    | none => .ub
    | some e =>
      match ds[s]? with
      | none => .ub
      | some d0 => do
        match ← openTimedEntry d0 none p with
        | none => .abort
        | some (name, info) => .ok ((ds.drop s).take (e - s + 1), name, info)

/-- The message of a failed `_binout_read_timed`. Code: `/repo/src/binout_read.c:273-371`. -/
def timedWhy (b : BinFile) (path : Bytes) (ty : Nat) : Bytes :=
  match searchTimed b.kids path with
  | .ok (ds, p) =>
    match timedHead ds p with
    | .ok (steps, name, info) =>
      if info.size / typeSize ty = 0 then bs "The files of \"" ++ path ++ bs "\" are empty"
      else stepsWhy b.files path name p steps 0
    | _ => []
  | _ => searchWhy b.kids path

/-- `_binout_read_timed` with the error string. Code: `/repo/src/binout_read.c:273-371`. -/
def sessTimed (b : BinFile) (path : Bytes) (ty : Nat) :
    Res (Option (List (Option Byte) × Nat × Nat) × BinFile) :=
  match readTimed b path ty with
  | .ok v => .ok (some v, clearError b)
  | .err => do
    let b ← newError (clearError b) (timedWhy b path ty)
    .ok (none, b)
  | .ub => .ub
  | .abort => .abort

/-- The end of a time step that fails: data and path are released. Code: `/repo/src/binout_read.c:324-332`. -/
def giveUp (s : Sess) (data : Nat) (tp : List Nat) : Res Sess := do
  let m ← s.mem.free data
  let m ← freePath m tp
  .ok { s with mem := m }

/-- The loop over the time steps; `none`: an error string has been set.
Code: `/repo/src/binout_read.c:314-367`. -/
def readStepsM (path name : Bytes) (p : List Nat) (data : Nat) (tp : List Nat) :
    List Entry → Nat → Sess → List (Option Byte) → Res (Sess × Option (List (Option Byte)))
  | [], _, s, buf => .ok (s, some buf)
  | d :: ds, k, s, buf => do
    match ← openTimedEntry d (some name) p with
    | none => do
      let s ← giveUp s data tp
      let s ← s.fail (differs path k)
      .ok (s, none)
    | some (_, info) => do
      let a ← s.access info.fileIndex
      if info.filePos ≥ u64 / 2 then do
        let s ← giveUp a.1 data tp
        let s ← s.giveBack info.fileIndex
        let s ← s.fail (noSeek path)
        .ok (s, none)
      else
        match freadObj a.2 info.filePos info.size with
        | none => do
          let s ← giveUp a.1 data tp
          let s ← s.giveBack info.fileIndex
          let s ← s.fail (noRead path k)
          .ok (s, none)
        | some bytes => do
          a.1.mem.use data
          let buf ← writeAt buf (k * info.size) bytes
          let s ← a.1.giveBack info.fileIndex
          readStepsM path name p data tp ds (k + 1) s buf

/-- The part behind the search. Code: `/repo/src/binout_read.c:287-371`. -/
def readFoundM (s : Sess) (path : Bytes) (ty : Nat) (tp : List Nat) (ds : List Entry) (p : List Nat) :
    Res (Sess × Option Nat × Option (List (Option Byte) × Nat × Nat)) := do
  let (steps, name, info) ← timedHead ds p
  let values := info.size / typeSize ty
  if values = 0 then do
    let m ← freePath s.mem tp
    let s ← { s with mem := m }.fail (bs "The files of \"" ++ path ++ bs "\" are empty")
    .ok (s, none, none)
  else do
    let data := s.mem.alloc
    let r ← readStepsM path name p data.2 tp steps 0 { s with mem := data.1 }
      (List.replicate (info.size * steps.length) none)
    match r.2 with
    | none => .ok (r.1, none, none)
    | some buf => do
      let m ← freePath r.1.mem tp
      .ok ({ r.1 with mem := m }, some data.2, some (buf, values, steps.length))

/-- `_binout_read_timed`. Code: `/repo/src/binout_read.c:273-371`. -/
def readTimedM (s : Sess) (path : Bytes) (ty : Nat) :
    Res (Sess × Option Nat × Option (List (Option Byte) × Nat × Nat)) := do
  let s ← s.clear
  s.look
  let t := allocN s.mem (timedDepth (eraseL s.bin.kids) path)
  match searchTimed (eraseL s.bin.kids) path with
  | .ok (ds, p) => readFoundM { s with mem := t.1 } path ty t.2 ds p
  | .err => do
    let s ← { s with mem := t.1 }.fail (searchWhy (eraseL s.bin.kids) path)
    let m ← freePath s.mem t.2
    .ok ({ s with mem := m }, none, none)
  | .ub => .ub
  | .abort => .abort

/-! ## Simple paths -/

/-- `string_builder_append` or `string_builder_append_char`, `n` times. Code: `/repo/src/string_builder.c:40-70`. -/
def growN (m : Mem) (b : Nat) : Nat → Res (Mem × Nat)
  | 0 => .ok (m, b)
  | n + 1 => do
    let r ← m.realloc (some b)
    growN r.1 r.2 n

/-- The end of `binout_simple_path_to_real`: the text is handed out, or released if the path leads nowhere.
Code: `/repo/src/binout.c:498-515` and binout.c:668-671. -/
def endPath (m : Mem) (b : Nat) (out : Option Bytes × Nat × Bool) : Res (Mem × Option Nat × Option Bytes × Nat × Bool) :=
  match out.1 with
  | some _ => .ok (m, some b, out)
  | none => do
    let m ← m.free b
    .ok (m, none, out)

/-- The loop over the components, `b` is the buffer of the builder. Code: `/repo/src/binout.c:517-666`. -/
def simpleLoopM (kids : List Entry) : List Bytes → Bytes → Bool → Mem → Nat →
    Res (Mem × Option Nat × Option Bytes × Nat × Bool)
  | [], real, timed, m, b => endPath m b (some real, typeInvalid, timed)
  | c :: cs, real, timed, m, b =>
    if kids.length = 0 then endPath m b (none, typeInvalid, timed)
    else do
      match ← searchLookup c kids with
      | some i =>
        match kids[i]? with
        | none => .ub
        | some (.file n info) =>
          if cs ≠ [] then endPath m b (none, typeInvalid, timed)
          else do
            let r ← growN m b 2
            endPath r.1 r.2 (some (real ++ SEP :: n), info.varType, timed)
        | some (.folder n _ ch) => do
          let r ← growN m b 2
          simpleLoopM ch cs (real ++ SEP :: n) timed r.1 r.2
      | none =>
        match ← searchIn (lastMeta kids) c with
        | some (.file n info) =>
          if cs ≠ [] then endPath m b (none, typeInvalid, timed)
          else do
            let r ← growN m b 4
            endPath r.1 r.2 (some (real ++ SEP :: (bs "metadata" ++ SEP :: n)), info.varType, timed)
        | some (.folder n _ ch) => do
          let r ← growN m b 4
          simpleLoopM ch cs (real ++ SEP :: (bs "metadata" ++ SEP :: n)) timed r.1 r.2
        | none =>
          match ← searchIn (firstDEntry kids) c with
          | some (.file n info) =>
            if cs ≠ [] then endPath m b (none, typeInvalid, timed)
            else do
              let r ← growN m b 2
              endPath r.1 r.2 (some (real ++ SEP :: n), info.varType, true)
          | some (.folder n _ ch) => do
            let r ← growN m b 2
            simpleLoopM ch cs (real ++ SEP :: n) true r.1 r.2
          | none => endPath m b (none, typeInvalid, timed)

/-- The search from the root on. Code: `/repo/src/binout.c:480-515`. -/
def simpleTopM (kids : List Entry) (simple : Bytes) (m : Mem) (b : Nat) :
    Res (Mem × Option Nat × Option Bytes × Nat × Bool) := do
  let cs ← pvElems simple
  match cs with
  | [] => endPath m b (some [SEP], typeInvalid, false)
  | c :: cs =>
    if kids.length = 0 then endPath m b (none, typeInvalid, false)
    else do
      match ← searchLookup c kids with
      | none => endPath m b (none, typeInvalid, false)
      | some i =>
        match kids[i]? with
        | none => .ub
        | some (.file n _) =>
          if cs ≠ [] then endPath m b (none, typeInvalid, false)
          else do
            let r ← growN m b 1
            endPath r.1 r.2 (some (SEP :: n), typeInvalid, false)
        | some (.folder n _ ch) => do
          let r ← growN m b 1
          simpleLoopM ch cs (SEP :: n) false r.1 r.2

/-- `binout_simple_path_to_real`. Code: `/repo/src/binout.c:467-672`. -/
def simpleM (s : Sess) (simple : Bytes) : Res (Sess × Option Nat × Option Bytes × Nat × Bool) := do
  s.look
  let r ← simpleTopM (eraseL s.bin.kids) simple s.mem.alloc.1 s.mem.alloc.2
  .ok ({ s with mem := r.1 }, r.2)

/-! ## Programs -/

/-- A call on an open binout. Code: `/repo/src/binout.h:66-118`. -/
inductive Call where
  | typeId (path : Bytes)
  | isThere (path : Bytes)
  | children (path : Bytes)
  | read (path : Bytes) (ty : Nat)
  | readTimed (path : Bytes) (ty : Nat)
  | numSteps (path : Bytes)
  | simplePath (path : Bytes)
  | message
deriving DecidableEq, Repr

/-- What a call gives. Code: `/repo/src/binout.h:66-118`. -/
inductive Got where
  | type (t : Nat)
  | yesNo (a : Bool)
  | names (l : Option (List Bytes))
  | data (d : Option (Bytes × Nat))
  | timed (d : Option (List (Option Byte) × Nat × Nat))
  | steps (n : Option Nat)
  | real (r : Option Bytes × Nat × Bool)
  | message (t : Option Bytes)
deriving DecidableEq, Repr

/-- One call: the new state, the block that is handed out (if any) and what is in it.
Code: `/repo/src/binout.c:348-672`, `/repo/src/binout_read.c:37-371`. -/
def callM (s : Sess) : Call → Res (Sess × Option Nat × Got)
  | .typeId p => do let r ← typeIdM s p; .ok (r.1, none, .type r.2)
  | .isThere p => do let r ← existsM s p; .ok (r.1, none, .yesNo r.2)
  | .children p => do let r ← childrenM s p; .ok (r.1, r.2.1, .names r.2.2)
  | .read p ty => do let r ← readM s p ty; .ok (r.1, r.2.1, .data r.2.2)
  | .readTimed p ty => do let r ← readTimedM s p ty; .ok (r.1, r.2.1, .timed r.2.2)
  | .numSteps p => do let r ← numStepsM s p; .ok (r.1, none, .steps r.2)
  | .simplePath p => do let r ← simpleM s p; .ok (r.1, r.2.1, .real r.2.2)
  | .message => do let r ← messageM s; .ok (r.1, r.2.1, .message r.2.2)

/-- A step of the program of the user: a call, or `free` (`binout_free_children`) of the result of the call number
`k`. Code: `/repo/src/binout.h:76-84` and binout.c:403-409. -/
inductive Cmd where
  | call (c : Call)
  | release (k : Nat)
deriving DecidableEq, Repr

/-- A program: `outs` are the blocks handed out so far, one entry for each call.
Code: `/repo/src/binout.c:348-672`, `/repo/src/binout_read.c:37-371`. -/
def runM (s : Sess) (outs : List (Option Nat)) : List Cmd → Res (Sess × List (Option Nat) × List Got)
  | [] => .ok (s, outs, [])
  | .call c :: cs => do
    let r ← callM s c
    let t ← runM r.1 (outs ++ [r.2.1]) cs
    .ok (t.1, t.2.1, r.2.2 :: t.2.2)
  | .release k :: cs =>
    match outs[k]? with
    | none => .ub
    | some b => do
      let m ← s.mem.freeOpt b
      runM { s with mem := m } outs cs

end Dyna.BinoutCalls
