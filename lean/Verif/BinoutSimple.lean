import Verif.BinoutRead
/-!
# Simple paths of a binout

Model of `binout_simple_path_to_real` (`/repo/src/binout.c:467-672`) and of
`binout_get_type_id` (`/repo/src/binout.c:348-364`).
-/

namespace Dyna

/-- `BINOUT_TYPE_INVALID` (`/repo/src/binout_defines.h:53`, `UCHAR_MAX`). -/
def typeInvalid : Nat := 255

/-- The name `metadata` that `_binout_is_metadata_string` compares with
(`/repo/src/binout.c:792-806`, including the terminator). -/
def isMetadata (name : Bytes) : Bool := name == bs "metadata"

/-- The loop that goes down from the last child until one is called `metadata`
(`/repo/src/binout.c:530-543`). -/
def lastMeta (kids : List Entry) : Option Entry := kids.reverse.find? (fun e => isMetadata e.name)

/-- The loop that goes up from the first child until one is a time step
(`/repo/src/binout.c:585-595`). -/
def firstDEntry (kids : List Entry) : Option Entry :=
  match firstD kids with
  | none => none
  | some i => kids[i]?

/-- Search for the component in the children of `metadata` or of the first time step
(`/repo/src/binout.c:545-549`, `:597-601`). For a variable the field `num_children` is its size
(a union, `/repo/src/binout_directory.h:41-44`) and the pointer to children is not set. -/
def searchIn (o : Option Entry) (c : Bytes) : Res (Option Entry) :=
  match o with
  | none => .ok none
  | some (.file _ info) => if info.size = 0 then .ok none else .ub
  | some (.folder _ _ ch) =>
    if ch.length = 0 then .ok none
    else do
      match ← searchLookup c ch with
      | none => .ok none
      | some i =>
        match ch[i]? with
        | none => .ub
        | some e => .ok (some e)

/-- The loop `/repo/src/binout.c:517-666`: real path (`none` models the null pointer), type and
whether a time step has been entered. `real` is the text in the string builder. -/
def simpleLoop (kids : List Entry) : List Bytes → Bytes → Bool → Res (Option Bytes × Nat × Bool)
  | [], real, timed => .ok (some real, typeInvalid, timed)
  | c :: cs, real, timed =>
    if kids.length = 0 then .ok (none, typeInvalid, timed)
    else do
      match ← searchLookup c kids with
      | some i =>
        match kids[i]? with
        | none => .ub
        | some (.file n info) =>
          if cs ≠ [] then .ok (none, typeInvalid, timed)
          else .ok (some (real ++ SEP :: n), info.varType, timed)
        | some (.folder n _ ch) => simpleLoop ch cs (real ++ SEP :: n) timed
      | none =>
        match ← searchIn (lastMeta kids) c with
        | some (.file n info) =>
          if cs ≠ [] then .ok (none, typeInvalid, timed)
          else .ok (some (real ++ SEP :: (bs "metadata" ++ SEP :: n)), info.varType, timed)
        | some (.folder n _ ch) =>
          simpleLoop ch cs (real ++ SEP :: (bs "metadata" ++ SEP :: n)) timed
        | none =>
          match ← searchIn (firstDEntry kids) c with
          | some (.file n info) =>
            if cs ≠ [] then .ok (none, typeInvalid, timed)
            else .ok (some (real ++ SEP :: n), info.varType, true)
          | some (.folder n _ ch) => simpleLoop ch cs (real ++ SEP :: n) true
          | none => .ok (none, typeInvalid, timed)

/-- Models `/repo/src/binout.c:467-672` (`binout_simple_path_to_real`): real path, `*type_id`
and `*timed`. A path without leading separator begins at the root as well
(`/repo/src/binout.c:483-489`). -/
def simplePathToReal (kids : List Entry) (simple : Bytes) : Res (Option Bytes × Nat × Bool) := do
  let cs ← pvElems simple
  match cs with
  | [] => .ok (some [SEP], typeInvalid, false)
  | c :: cs =>
    if kids.length = 0 then .ok (none, typeInvalid, false)
    else do
      match ← searchLookup c kids with
      | none => .ok (none, typeInvalid, false)
      | some i =>
        match kids[i]? with
        | none => .ub
        | some (.file n _) =>
          if cs ≠ [] then .ok (none, typeInvalid, false)
          else .ok (some (SEP :: n), typeInvalid, false)
        | some (.folder n _ ch) => simpleLoop ch cs (SEP :: n) false

/-- Models `/repo/src/binout.c:348-364` (`binout_get_type_id`): `err` is the result
`BINOUT_TYPE_INVALID` together with an error string. -/
def getTypeId (kids : List Entry) (path : Bytes) : Res Nat := do
  match ← getFile kids path with
  | none => .err
  | some i => .ok i.varType

end Dyna
