import Verif.PathView
/-!
# The binout directory tree

Model of `/repo/src/binout_directory.c`. Paths are given as the list of their components;
`Verif/PathView.lean` shows that this is what the path views deliver, and the API level
functions at the end take path strings.
-/

namespace Dyna

/-- The part of `binout_entry_t` that describes a variable
(`/repo/src/binout_directory.h:38-50`). -/
structure FileInfo where
  varType : Nat
  size : Nat
  fileIndex : Nat
  filePos : Nat
deriving DecidableEq, Repr

/-- `binout_entry_t` (`/repo/src/binout_directory.h:38-50`). `freed` records that the memory
of the name has been released (`binout_folder_insert_file` does that to folders). -/
inductive Entry where
  | file (name : Bytes) (info : FileInfo)
  | folder (name : Bytes) (freed : Bool) (children : List Entry)

namespace Entry

/-- Code: `/repo/src/binout_directory.h:38-52` (`name`). -/
def name : Entry → Bytes
  | file n _ => n
  | folder n _ _ => n

/-- Whether the name may be read. Code: `/repo/src/binout_directory.h:38-52`. -/
def nameOk : Entry → Bool
  | file _ _ => true
  | folder _ f _ => !f

end Entry

/-- `strcmp(value, arr[i].name)`, with a freed name or an index outside the array as `none`.
Code: `/repo/src/binary_search.c:77-127`. -/
def cmpInsert (value : Bytes) (kids : List Entry) (i : Nat) : Option Int :=
  match kids[i]? with
  | none => none
  | some e => if e.nameOk then some (strcmp value e.name) else none

/-- `path_view_strcmp(value, arr[i].name)`. Code: `/repo/src/binary_search.c:36-75`. -/
def cmpLookup (value : Bytes) (kids : List Entry) (i : Nat) : Option Int :=
  match kids[i]? with
  | none => none
  | some e => if e.nameOk then some (pvStrcmp value e.name) else none

/-- The search shared by the insert functions (`/repo/src/binout_directory.c:44-58`,
`:98-112`, `:154-163`): for an empty array nothing is found and the index is 0. -/
def searchInsert (value : Bytes) (kids : List Entry) : Res (Bool × Nat) :=
  if kids.length = 0 then .ok (false, 0)
  else bsearchInsert (cmpInsert value kids) 0 (kids.length - 1)

/-- `realloc` by one element and move everything from `idx` on to the right, then store `e`
at `idx` (`/repo/src/binout_directory.c:61-72`). The loop is summarised by the list it
produces. -/
def insertAt (kids : List Entry) (idx : Nat) (e : Entry) : List Entry :=
  kids.take idx ++ e :: kids.drop idx

/-- Models `/repo/src/binout_directory.c:92-142` (`binout_folder_insert_folder`) and, with
the root as `kids`, `:35-90` (`binout_directory_insert_folder`, same steps after its
assertion, which the caller model checks). The Boolean is true if a folder is returned and
false if `NULL` is returned. The components are non-empty: the last one ends the
recursion. -/
def insertFolder (kids : List Entry) : List Bytes → Res (List Entry × Bool)
  | [] => .ok (kids, true)
  | name :: rest =>
    match searchInsert name kids with
    | .ok (true, idx) =>
      match kids[idx]? with
      | some (.folder n fr ch) =>
        do
          let (ch', b) ← insertFolder ch rest
          pure (kids.set idx (.folder n fr ch'), b)
      | some (.file _ _) => .ok (kids, false)
      | none => .ub
    | .ok (false, idx) =>
      do
        let (ch', b) ← insertFolder [] rest
        pure (insertAt kids idx (.folder name false ch'), b)
    | .err => .err
    | .ub => .ub
    | .abort => .abort

/-- Models `/repo/src/binout_directory.c:144-192` (`binout_folder_insert_file`) on the
children of the folder. An existing folder of that name has its name released (line 161)
before the function returns (line 179-182). -/
def insertFile (kids : List Entry) (name : Bytes) (info : FileInfo) : Res (List Entry) :=
  match searchInsert name kids with
  | .ok (true, idx) =>
    match kids[idx]? with
    | some (.folder n _ ch) => .ok (kids.set idx (.folder n true ch))
    | some (.file _ _) => .ok (kids.set idx (.file name info))
    | none => .ub
  | .ok (false, idx) => .ok (insertAt kids idx (.file name info))
  | .err => .err
  | .ub => .ub
  | .abort => .abort

/-- First entry with a name (specification level search). Part of the specification, models no code. -/
def findEntry (kids : List Entry) (n : Bytes) : Option Entry := kids.find? (fun e => e.name = n)

/-- Replace the entry with a given name. Auxiliary of the model, no code of its own. -/
def replaceEntry (kids : List Entry) (n : Bytes) (e : Entry) : List Entry :=
  kids.map (fun x => if x.name = n then e else x)

/-- `binout_folder_insert_file` applied to the folder that the pointer `current_folder` of
`binout_open` designates (`/repo/src/binout.c:268-270`). The pointer is represented by the
path of the folder; a path that leads to no folder is a dangling pointer (`ub`). -/
def insertFileAt (kids : List Entry) : List Bytes → Bytes → FileInfo → Res (List Entry)
  | [], name, info => insertFile kids name info
  | c :: cs, name, info =>
    match findEntry kids c with
    | some (.folder n fr ch) =>
      do
        let ch' ← insertFileAt ch cs name info
        pure (replaceEntry kids c (.folder n fr ch'))
    | _ => .ub

/-- The search shared by the lookup functions (`/repo/src/binout_directory.c:212-218` and
others). -/
def searchLookup (value : Bytes) (kids : List Entry) : Res (Option Nat) :=
  bsearch (cmpLookup value kids) 0 (kids.length - 1)

/-- Models `/repo/src/binout_directory.c:326-369` (`binout_folder_get_file`). -/
def folderGetFile (kids : List Entry) : List Bytes → Res (Option FileInfo)
  | [] => .ok none
  | c :: cs =>
    if kids.length = 0 then .ok none
    else
      match searchLookup c kids with
      | .ok none => .ok none
      | .ok (some i) =>
        match kids[i]? with
        | none => .ub
        | some (.file _ info) => if cs = [] then .ok (some info) else .ok none
        | some (.folder _ _ ch) => if cs = [] then .ok none else folderGetFile ch cs
      | .err => .err
      | .ub => .ub
      | .abort => .abort

/-- Models `/repo/src/binout_directory.c:280-324` (`binout_directory_get_file`) after the
path has been advanced to its components. -/
def dirGetFile (kids : List Entry) (path : List Bytes) : Res (Option FileInfo) :=
  if kids.length = 0 then .ok none
  else
    match path with
    | [] => .ok none
    | c :: cs =>
      match searchLookup c kids with
      | .ok none => .ok none
      | .ok (some i) =>
        match kids[i]? with
        | none => .ub
        | some e =>
          if cs = [] then .ok none
          else
            match e with
            | .file _ _ => .ok none
            | .folder _ _ ch => folderGetFile ch cs
      | .err => .err
      | .ub => .ub
      | .abort => .abort

/-- Models `/repo/src/binout_directory.c:241-278` (`binout_folder_get_children`).
`none` models `num_children == ~0`. -/
def folderGetChildren (kids : List Entry) : List Bytes → Res (Option (List Entry))
  | [] => .ok (some kids)
  | c :: cs =>
    if kids.length = 0 then .ok (some [])
    else
      match searchLookup c kids with
      | .ok none => .ok none
      | .ok (some i) =>
        match kids[i]? with
        | none => .ub
        | some (.file _ _) => .ok none
        | some (.folder _ _ ch) => folderGetChildren ch cs
      | .err => .err
      | .ub => .ub
      | .abort => .abort

/-- Models `/repo/src/binout_directory.c:194-239` (`binout_directory_get_children`), which
performs the same steps as the recursive function, starting at the root. -/
def dirGetChildren (kids : List Entry) (path : List Bytes) : Res (Option (List Entry)) :=
  if kids.length = 0 then .ok (some [])
  else folderGetChildren kids path

/-! ## API level: path strings -/

/-- `binout_directory_get_file` on a path string as called by `binout_variable_exists` and
the read functions (`/repo/src/binout.c:366-376`): the path must be absolute (assertion
`/repo/src/binout_directory.c:288`, reached only if the directory is not empty). -/
def getFile (kids : List Entry) (path : Bytes) : Res (Option FileInfo) := do
  let _ ← pvNew path
  if kids.length = 0 then .ok none
  else if path.head? ≠ some SEP then .abort
  else do
    let cs ← pvElems path
    dirGetFile kids cs

/-- `binout_get_children` (`/repo/src/binout.c:378-401`): the names of the children of a
path; `none` models `~0` children. -/
def getChildren (kids : List Entry) (path : Bytes) : Res (Option (List Bytes)) := do
  let _ ← pvNew path
  if path.head? ≠ some SEP then .abort
  else do
    let cs ← pvElems path
    let r ← dirGetChildren kids cs
    pure (r.map (fun ch => ch.map Entry.name))

/-! ## Histories of insertions -/

/-- The directory operations `binout_open` performs for the records of its files.
Code: `/repo/src/binout.c:179-271`. -/
inductive DirOp where
  /-- make the folder with these components the current one -/
  | cd (path : List Bytes)
  /-- store a variable in the current folder -/
  | data (name : Bytes) (info : FileInfo)
deriving DecidableEq, Repr

/-- Directory and `current_folder` (`none` is the null pointer). Code: `/repo/src/binout.c:145-157`. -/
structure DirState where
  kids : List Entry := []
  cur : Option (List Bytes) := none

/-- One operation as performed by `binout_open` (`/repo/src/binout.c:179-271`): inserting a
folder replaces `current_folder` by the result; a variable needs a current folder
(assertion `/repo/src/binout.c:237`). -/
def dirStep (st : DirState) : DirOp → Res DirState
  | .cd path => do
    let (kids, b) ← insertFolder st.kids path
    pure { kids := kids, cur := if b then some path else none }
  | .data name info =>
    match st.cur with
    | none => .abort
    | some cur => do
      let kids ← insertFileAt st.kids cur name info
      pure { kids := kids, cur := some cur }

/-- Code: `/repo/src/binout.c:159-283`. -/
def dirRun (st : DirState) : List DirOp → Res DirState
  | [] => .ok st
  | op :: ops => do
    let st' ← dirStep st op
    dirRun st' ops

end Dyna
