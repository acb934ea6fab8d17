import Verif.KeyParse
/-!
# The memory of a key file parse

`key_file_parse_with_callback`, `key_file_parse_callback`, `key_file_parse` and `key_file_free`
(`/repo/src/key.c:87-710`) with everything they allocate and release: the functions of `Verif.KeyParse` and
`Verif.KeyFile` once more, with the blocks of memory. `c86_parse_partial` proves that the calls, errors and warnings are
those of the functions there.

Simplifications: `malloc` succeeds; `realloc` always gives a new block; an open `FILE` counts as a block; several
`realloc` calls for one line are one; the include paths of the first file are released after the line reader
instead of before it. The block of a pointer that is not null is a number that is never used again.
-/

namespace Dyna.KeyMem

open Dyna.Key

/-- The blocks that have been allocated and not been freed. Auxiliary of the model, no code of its own. -/
structure Mem where
  next : Nat := 0
  live : List Nat := []
deriving DecidableEq, Repr

/-- `malloc`. Auxiliary of the model, no code of its own. -/
def Mem.alloc (m : Mem) : Mem × Nat := (⟨m.next + 1, m.next :: m.live⟩, m.next)

/-- `free` of a pointer that is not null; undefined if it has been freed before.
Auxiliary of the model, no code of its own. -/
def Mem.free (m : Mem) (b : Nat) : Res Mem :=
  if b ∈ m.live then .ok { m with live := m.live.erase b } else .ub

/-- `free`. Auxiliary of the model, no code of its own. -/
def Mem.freeOpt (m : Mem) : Option Nat → Res Mem
  | none => .ok m
  | some b => m.free b

/-- `free` of the elements of an array. Code: `/repo/src/key.c:657-661` and key.c:697-700. -/
def Mem.freeAll (m : Mem) : List Nat → Res Mem
  | [] => .ok m
  | b :: l => do
    let m ← m.free b
    m.freeAll l

/-- Reading from a block: undefined if it has been freed. Auxiliary of the model, no code of its own. -/
def Mem.use (m : Mem) (b : Nat) : Res Unit := if b ∈ m.live then .ok () else .ub

/-- Reading from a block if there is one. Auxiliary of the model, no code of its own. -/
def Mem.useOpt (m : Mem) : Option Nat → Res Unit
  | none => .ok ()
  | some b => m.use b

/-- Reading from several blocks. Auxiliary of the model, no code of its own. -/
def Mem.useAll (m : Mem) : List Nat → Res Unit
  | [] => .ok ()
  | b :: l => do
    m.use b
    m.useAll l

/-- `realloc`. Auxiliary of the model, no code of its own. -/
def Mem.realloc (m : Mem) (p : Option Nat) : Res (Mem × Nat) := do
  let m ← m.freeOpt p
  .ok m.alloc

/-- `_message_stack_push` on the buffer of the stack. Code: `/repo/src/key.c:37-43`. -/
def push (m : Mem) : Option Nat → Res (Mem × Nat)
  | none => m.realloc none
  | some b => do
    let r ← m.realloc (some b)
    r.1.realloc (some r.2)

/-- A callback with the memory of its user data (`key_file_callback`). Code: `/repo/src/key.h:101-105`. -/
structure Callback (C : Type) where
  run : Mem → C → KeyEvent → Res (Mem × C)

/-- What all files of a parse share: `Shared`, the block of `include_paths`, the blocks of its elements, and the
user data. Code: `/repo/src/key.h:75-83`. -/
structure Sh (C : Type) where
  s : Shared
  arr : Nat
  blks : List Nat
  mem : Mem
  user : C

/-- Local variables of `key_file_parse_with_callback` (`/repo/src/key.c:192-193` and key.c:270-280): `Local`, the buffer
of `current_multi_line_string`, `line_reader.line.extra` with its capacity, `current_keyword_name.extra`, and the
buffers of the two message stacks. -/
structure Loc where
  l : Local := {}
  pend : Option Nat := none
  lineExtra : Option Nat := none
  cap : Nat := 0
  nameExtra : Option Nat := none
  err : Option Nat := none
  warn : Option Nat := none

/-- The call of the callback; everything that is passed to it can be read. Code: `/repo/src/key.c:67-73` and
key.c:600-601. -/
def call {C : Type} (cb : Callback C) (x : Sh C) (ev : KeyEvent) (name card : Option Nat) : Res (Sh C) := do
  x.mem.useOpt name
  x.mem.useOpt card
  x.mem.use x.arr
  x.mem.useAll x.blks
  let r ← cb.run x.mem x.user ev
  .ok { x with s := x.s.emit ev, mem := r.1, user := r.2 }

/-- `keyword_name`: a copy if the name does not fit into the buffer. Code: `/repo/src/key.c:590-598`. -/
def nameBlk (m : Mem) (name : Bytes) : Mem × Option Nat :=
  if name.length < bufferSize then (m, none) else (m.alloc.1, some m.alloc.2)

/-- `card.string`: a copy if the line does not fit into the buffer. Code: `/repo/src/key.c:357-364`. -/
def cardBlk (m : Mem) (cells : Bytes) : Mem × Option Nat :=
  if cells.length < bufferSize then (m, none) else (m.alloc.1, some m.alloc.2)

/-- The call of the callback with a copy of the name, and what is released afterwards.
Code: `/repo/src/key.c:590-608`. -/
def emitCard {C : Type} (cb : Callback C) (x : Sh C) (ev : KeyEvent) (card : Option Nat) : Res (Sh C) := do
  let nb := nameBlk x.mem ev.name
  let x ← call cb { x with mem := nb.1 } ev nb.2 card
  let m ← x.mem.freeOpt card
  let m ← m.freeOpt nb.2
  .ok { x with mem := m }

/-- A continued line that is still in the builder takes the place of the card. Code: `/repo/src/key.c:583-588`. -/
def replaceCard (m : Mem) (pend card : Option Nat) : Res (Mem × Option Nat) :=
  match pend with
  | none => .ok (m, card)
  | some b => do
    let m ← m.freeOpt card
    .ok (m, some b)

/-- The text of the card. Code: `/repo/src/key.c:583-588`. -/
def cardText (pending : Option Bytes) (text : Bytes) : Bytes :=
  match pending with
  | some t => pendingText t
  | none => text

/-- The call for a card. A continued line that is still in the builder takes the place of the card.
Code: `/repo/src/key.c:583-610`. -/
def reportM {C : Type} (cb : Callback C) (lm : Loc) (x : Sh C) (text : Bytes) (card : Option Nat) :
    Res (Loc × Sh C) := do
  let r ← replaceCard x.mem lm.pend card
  let x ← emitCard cb { x with mem := r.1 }
    ⟨lm.l.name, some (cardText lm.l.pending text), some lm.l.cardIndex⟩ r.2
  .ok ({ lm with l := { lm.l with pending := none, cardIndex := lm.l.cardIndex + 1 }, pend := none }, x)

/-- `_parse_multi_line_string`: exactly one `realloc` of the builder. Code: `/repo/src/key.c:1571-1614`. -/
def multiM {C : Type} (lm : Loc) (x : Sh C) (cells : Bytes) (card : Option Nat) :
    Res (Multi × Loc × Sh C) := do
  x.mem.useOpt card
  let r ← x.mem.realloc lm.pend
  let mm ← multiLine lm.l.pending cells
  .ok (mm, { lm with pend := some r.2 }, { x with mem := r.1 })

/-- The line is continued: the card is released. Code: `/repo/src/key.c:437-440` and key.c:446-452. -/
def continued {C : Type} (lm : Loc) (x : Sh C) (t : Bytes) (card : Option Nat) : Res (Loc × Sh C) := do
  let m ← x.mem.freeOpt card
  .ok ({ lm with l := { lm.l with pending := some t } }, { x with mem := m })

/-- A card that may be continued (`/repo/src/key.c:547-557` and `:558-579`, then `:583-610`). -/
def multiReportM {C : Type} (cb : Callback C) (lm : Loc) (x : Sh C) (cells : Bytes) (card : Option Nat) :
    Res (Loc × Sh C) := do
  let r ← multiM lm x cells card
  match r.1 with
  | .more t => continued r.2.1 r.2.2 t card
  | .done t => reportM cb { r.2.1 with l := { r.2.1.l with pending := none } } r.2.2 t card

/-- `ERROR_F`. Code: `/repo/src/key.c:57-58`. -/
def errorM {C : Type} (lm : Loc) (x : Sh C) (msg : Bytes) : Res (Loc × Sh C) := do
  let s ← x.s.error msg
  let r ← push x.mem lm.err
  .ok ({ lm with err := some r.2 }, { x with s := s, mem := r.1 })

/-- `WARNING_F`. Code: `/repo/src/key.c:60-61`. -/
def warnM {C : Type} (lm : Loc) (x : Sh C) (msg : Bytes) : Res (Loc × Sh C) := do
  let s ← x.s.warn msg
  let r ← push x.mem lm.warn
  .ok ({ lm with warn := some r.2 }, { x with s := s, mem := r.1 })

/-- A message of an included file goes onto the stack and is released. Code: `/repo/src/key.c:408-419`. -/
def takeOver (m : Mem) (stack : Option Nat) : Option Nat → Res (Mem × Option Nat)
  | none => .ok (m, stack)
  | some b => do
    m.use b
    let r ← push m stack
    let m ← r.1.free b
    .ok (m, some r.2)

/-- The search of an include file: every name that is tried is released. Code: `/repo/src/key.c:384-398`. -/
def resolveM (w : World) (pend : Option Nat) (name : Bytes) :
    List Bytes → List Nat → Mem → Res (Mem × Option (Bytes × Nat))
  | [], _, m => .ok (m, none)
  | _ :: _, [], _ => .ub
  | p :: ps, b :: blks, m => do
    m.use b
    m.useOpt pend
    let full ← pathJoin p name
    if w.isFile full then .ok (m.alloc.1, some (full, m.alloc.2))
    else do
      let m ← m.alloc.1.free m.alloc.2
      resolveM w pend name ps blks m

/-- The recursive call for an included file: the shared state, the error string and the warning string.
Auxiliary of the model, no code of its own. -/
abbrev Inc (C : Type) := Bytes → Sh C → Res (Sh C × Option Nat × Option Nat)

/-- A complete include file name (`/repo/src/key.c:380-431`). -/
def includeFileM {C : Type} (w : World) (cfg : Config) (inc : Inc C) (file : Bytes) (lm : Loc) (x : Sh C)
    (name : Bytes) : Res (Loc × Sh C) := do
  x.mem.use x.arr
  let r ← resolveM w lm.pend name x.s.paths x.blks x.mem
  match r.2 with
  | some fb => do
    let q ← inc fb.1 { x with mem := r.1 }
    let m ← q.1.mem.free fb.2
    let e ← takeOver m lm.err q.2.1
    let v ← takeOver e.1 lm.warn q.2.2
    .ok ({ lm with err := e.2, warn := v.2 }, { q.1 with mem := v.1 })
  | none => do
    r.1.useOpt lm.pend
    if cfg.ignoreNotFound then warnM lm { x with mem := r.1 } (notFoundMsg file lm.l.lineCount name)
    else errorM lm { x with mem := r.1 } (notFoundMsg file lm.l.lineCount name)

/-- INCLUDE_PATH: the buffer of the builder becomes the new element or is released.
Code: `/repo/src/key.c:440-474`. -/
def includePathM {C : Type} (w : World) (file : Bytes) (lm : Loc) (x : Sh C) (cells : Bytes) (card : Option Nat) :
    Res (Loc × Sh C) := do
  let r ← multiM lm x cells card
  match r.1 with
  | .more t => continued r.2.1 r.2.2 t card
  | .done name =>
    let lm := r.2.1
    let x := r.2.2
    match lm.pend with
    | none => .ub
    | some b => do
      let lm := { lm with l := { lm.l with pending := none, cardIndex := lm.l.cardIndex + 1 }, pend := none }
      if w.isDir name then do
        let a ← x.mem.realloc (some x.arr)
        let m ← a.1.freeOpt card
        .ok (lm, { x with s := { x.s with paths := x.s.paths ++ [name] }, arr := a.2, blks := x.blks ++ [b], mem := m })
      else do
        x.mem.use b
        let q ← warnM lm x (place file lm.l.lineCount ++ bs "INCLUDE_PATH" ++ bs " has not been found: \"" ++ name ++
          bs "\"")
        let m ← q.2.mem.free b
        let m ← m.freeOpt card
        .ok (q.1, { q.2 with mem := m })

/-- INCLUDE_PATH_RELATIVE: the joined path becomes the new element or is released.
Code: `/repo/src/key.c:475-511`. -/
def includeRelM {C : Type} (w : World) (root : Bytes) (rootBlk : Nat) (file : Bytes) (lm : Loc) (x : Sh C)
    (cells : Bytes) (card : Option Nat) : Res (Loc × Sh C) := do
  let r ← multiM lm x cells card
  match r.1 with
  | .more t => continued r.2.1 r.2.2 t card
  | .done name =>
    let lm := r.2.1
    let x := r.2.2
    x.mem.use rootBlk
    x.mem.useOpt lm.pend
    let path ← pathJoin root name
    let f := x.mem.alloc
    let m ← f.1.freeOpt lm.pend
    let lm := { lm with l := { lm.l with pending := none, cardIndex := lm.l.cardIndex + 1 }, pend := none }
    if w.isDir path then do
      let a ← m.realloc (some x.arr)
      let m ← a.1.freeOpt card
      .ok (lm, { x with s := { x.s with paths := x.s.paths ++ [path] }, arr := a.2, blks := x.blks ++ [f.2], mem := m })
    else do
      let q ← warnM lm { x with mem := m } (place file lm.l.lineCount ++ bs "INCLUDE_PATH_RELATIVE" ++
        bs " has not been found: \"" ++ path ++ bs "\"")
      let m ← q.2.mem.free f.2
      let m ← m.freeOpt card
      .ok (q.1, { q.2 with mem := m })

/-- `WARNING_F` under a condition. Code: `/repo/src/key.c:528-533`. -/
def warnIf {C : Type} (b : Bool) (lm : Loc) (x : Sh C) (msg : Bytes) : Res (Loc × Sh C) :=
  if b then warnM lm x msg else .ok (lm, x)

/-- Superfluous cards of INCLUDE_BINARY and INCLUDE_NASTRAN (`/repo/src/key.c:512-542`). -/
def superfluousM {C : Type} (kind : Bytes) (warn : Bool) (file : Bytes) (lm : Loc) (x : Sh C) (card : Option Nat) :
    Res (Loc × Sh C) := do
  let q ← warnIf warn lm x (place file lm.l.lineCount ++ bs "Invalid number of cards (" ++
    dec (lm.l.cardIndex + 1) ++ bs ") for " ++ kind ++ bs " keyword")
  let m ← q.2.mem.freeOpt card
  .ok ({ q.1 with l := { q.1.l with cardIndex := q.1.l.cardIndex + 1 } }, { q.2 with mem := m })

/-- A card of an INCLUDE keyword while includes are parsed (`/repo/src/key.c:367-557`). -/
def includeCardM {C : Type} (w : World) (cfg : Config) (root : Bytes) (rootBlk : Nat) (cb : Callback C) (inc : Inc C)
    (file : Bytes) (lm : Loc) (x : Sh C) (cells : Bytes) (card : Option Nat) : Res (Loc × Sh C) :=
  if lm.l.name = bs "INCLUDE" ∨ (lm.l.name = bs "INCLUDE_BINARY" ∧ lm.l.cardIndex = 0) ∨
      (lm.l.name = bs "INCLUDE_NASTRAN" ∧ lm.l.cardIndex = 0) then do
    let r ← multiM lm x cells card
    match r.1 with
    | .more t => continued r.2.1 r.2.2 t card
    | .done name => do
      let q ← includeFileM w cfg inc file r.2.1 r.2.2 name
      let m ← q.2.mem.freeOpt q.1.pend
      let m ← m.freeOpt card
      .ok ({ q.1 with l := { q.1.l with pending := none, cardIndex := q.1.l.cardIndex + 1 }, pend := none },
        { q.2 with mem := m })
  else if lm.l.name = bs "INCLUDE_PATH" then includePathM w file lm x cells card
  else if lm.l.name = bs "INCLUDE_PATH_RELATIVE" then includeRelM w root rootBlk file lm x cells card
  else if lm.l.name = bs "INCLUDE_BINARY" then superfluousM (bs "INCLUDE_BINARY") true file lm x card
  else if lm.l.name = bs "INCLUDE_NASTRAN" then
    superfluousM (bs "INCLUDE_NASTRAN") (decide (lm.l.cardIndex ≠ 1)) file lm x card
  else if startsWith lm.l.name (bs "INCLUDE_MULTISCALE") then reportM cb lm x (cstr cells) card
  else if lm.l.cardIndex = 0 then multiReportM cb lm x cells card
  else reportM cb lm x (cstr cells) card

/-- A card of an INCLUDE keyword while includes are not parsed (`/repo/src/key.c:558-579`). -/
def includeCardOffM {C : Type} (cb : Callback C) (lm : Loc) (x : Sh C) (cells : Bytes) (card : Option Nat) :
    Res (Loc × Sh C) :=
  if startsWith lm.l.name (bs "INCLUDE_MULTISCALE") then reportM cb lm x (cstr cells) card
  else if lm.l.name = bs "INCLUDE" ∨ lm.l.name = bs "INCLUDE_PATH" ∨
      lm.l.name = bs "INCLUDE_PATH_RELATIVE" ∨ lm.l.cardIndex = 0 then multiReportM cb lm x cells card
  else reportM cb lm x (cstr cells) card

/-- Card parsing (`/repo/src/key.c:355-611`). -/
def cardStepM {C : Type} (w : World) (cfg : Config) (root : Bytes) (rootBlk : Nat) (cb : Callback C) (inc : Inc C)
    (file : Bytes) (lm : Loc) (x : Sh C) (cells : Bytes) : Res (Loc × Sh C) :=
  let c := cardBlk x.mem cells
  if startsWith lm.l.name (bs "INCLUDE") then
    if cfg.parseIncludes then includeCardM w cfg root rootBlk cb inc file lm { x with mem := c.1 } cells c.2
    else includeCardOffM cb lm { x with mem := c.1 } cells c.2
  else reportM cb lm { x with mem := c.1 } (cstr cells) c.2

/-- The memory of a line: `line.extra` grows if it is too small. Code: `/repo/src/line.c:90-100`. -/
def readM (m : Mem) (lm : Loc) (len : Nat) : Res (Mem × Loc) :=
  if bufferSize ≤ len ∧ lm.cap < len + 1 - bufferSize then do
    let r ← m.realloc lm.lineExtra
    .ok (r.1, { lm with lineExtra := some r.2, cap := (len / bufferSize) * bufferSize })
  else .ok (m, lm)

/-- The memory of the keyword name: `extra_string_copy`. Code: `/repo/src/extra_string.c:49-51`. -/
def nameM (m : Mem) (lm : Loc) (len : Nat) : Res (Mem × Loc) :=
  if bufferSize ≤ len then do
    let r ← m.realloc lm.nameExtra
    .ok (r.1, { lm with nameExtra := some r.2 })
  else .ok (m, lm)

/-- The call for a keyword without cards (`/repo/src/key.c:308-329`). -/
def closeKeywordM {C : Type} (cb : Callback C) (lm : Loc) (x : Sh C) : Res (Sh C) :=
  if lm.l.name ≠ [] ∧ lm.l.cardIndex = 0 then emitCard cb x ⟨lm.l.name, none, none⟩ none else .ok x

/-- The loop over the lines (`/repo/src/key.c:282-614`). -/
def linesLoopM {C : Type} (w : World) (cfg : Config) (root : Bytes) (rootBlk : Nat) (cb : Callback C) (inc : Inc C)
    (file : Bytes) : List Line → Loc → Sh C → Res (Loc × Sh C)
  | [], lm, x => .ok (lm, x)
  | line :: lines, lm, x => do
    let r ← readM x.mem lm line.text.length
    let lm := { r.2 with l := { r.2.l with lineCount := r.2.l.lineCount + 1 } }
    let x := { x with mem := r.1 }
    if line.comment = some 0 then linesLoopM w cfg root rootBlk cb inc file lines lm x
    else
      let cells := lineCells line
      if isKeyword cells then do
        let x ← closeKeywordM cb lm x
        let name ← keywordName cells
        let r ← nameM x.mem lm cells.length
        let x := { x with mem := r.1 }
        if name = bs "END" then .ok ({ r.2 with l := { r.2.l with name := name } }, x)
        else
          linesLoopM w cfg root rootBlk cb inc file lines
            { r.2 with l := { r.2.l with name := name, cardIndex := 0 } } x
      else do
        let q ← cardStepM w cfg root rootBlk cb inc file lm x cells
        linesLoopM w cfg root rootBlk cb inc file lines q.1 q.2

/-- The last call (`/repo/src/key.c:616-653`): a continued line is moved out of the builder and released only in
this case. -/
def finishM {C : Type} (cb : Callback C) (lm : Loc) (x : Sh C) : Res (Loc × Sh C) :=
  if lm.l.cardIndex = 0 ∧ lm.l.name ≠ bs "END" then do
    let nb := nameBlk x.mem lm.l.name
    let x ← call cb { x with mem := nb.1 } ⟨lm.l.name, lm.l.pending.map pendingText, none⟩ nb.2 lm.pend
    let m ← x.mem.freeOpt nb.2
    let m ← m.freeOpt lm.pend
    .ok ({ lm with pend := none }, { x with mem := m })
  else .ok (lm, x)

/-- `key_file_parse_with_callback` for an included file, and for the main file after the include paths have been
set up. The buffer of `current_multi_line_string` is not released at the end.
Code: `/repo/src/key.c:178-208` and key.c:269-687. -/
def parseFileM {C : Type} (w : World) (cfg : Config) (root : Bytes) (rootBlk : Nat) (cb : Callback C) :
    (depth : Nat) → Inc C
  | 0, _, _ => .abort
  | depth + 1, file, x =>
    match w.content file with
    | none => do
      let q ← errorM {} x (bs "Failed to open key file: " ++ w.openError)
      .ok (q.2, q.1.err, none)
    | some content => do
      let f := x.mem.alloc
      let b := f.1.alloc
      let lines ← fileLines chunkSize w.mem content
      let q ← linesLoopM w cfg root rootBlk cb (parseFileM w cfg root rootBlk cb depth) file lines {}
        { x with mem := b.1 }
      let q ← finishM cb q.1 q.2
      let m ← q.2.mem.freeOpt q.1.lineExtra
      let m ← m.freeOpt q.1.nameExtra
      let m ← m.free b.2
      let m ← m.free f.2
      .ok ({ q.2 with mem := m }, q.1.err, q.1.warn)

/-- The root folder (`/repo/src/key.c:216-232`): the working directory that is joined is released. -/
def rootM (file : Bytes) (m : Mem) : Res (Mem × Nat) :=
  match pathMoveUp file with
  | none => .ok m.alloc
  | some _ =>
    if file.head? = some SEP then .ok m.alloc
    else do
      let c := m.alloc
      let r := c.1.alloc
      let m ← r.1.free c.2
      .ok (m, r.2)

/-- The extra include paths are copied (`/repo/src/key.c:258-266`). -/
def allocAll (m : Mem) : Nat → Mem × List Nat
  | 0 => (m, [])
  | n + 1 =>
    let r := allocAll m.alloc.1 n
    (r.1, m.alloc.2 :: r.2)

/-- What `key_file_parse_with_callback` leaves behind: the memory, the user data, the blocks of the error string and
the warning string, the calls, errors and warnings. Auxiliary of the model, no code of its own. -/
structure Out (C : Type) where
  mem : Mem
  user : C
  err : Option Nat
  warn : Option Nat
  s : Shared

/-- A message stack becomes the string of the user, or is released if the user does not want it.
Code: `/repo/src/key.c:674-685`. -/
def giveString (want : Bool) (m : Mem) (b : Option Nat) : Res (Mem × Option Nat) :=
  if want then .ok (m, b)
  else do
    let m ← m.freeOpt b
    .ok (m, none)

/-- `key_file_parse_with_callback` called by the user; `wantErr` and `wantWarn`: `error_string` and `warning_string`
are not null. Code: `/repo/src/key.c:178-688`. -/
def parseTopM {C : Type} (w : World) (cfg : Config) (cb : Callback C) (depth : Nat) (file : Bytes)
    (wantErr wantWarn : Bool) (m : Mem) (user : C) : Res (Out C) :=
  match w.content file with
  | none => do
    let s : Shared := { paths := [], errors := [bs "Failed to open key file: " ++ w.openError] }
    if wantErr then do
      let r ← push m none
      .ok ⟨r.1, user, some r.2, none, s⟩
    else .ok ⟨m, user, none, none, s⟩
  | some _ => do
    let rec_ := m.alloc
    let rb ← rootM file rec_.1
    let root ← rootFolder w file
    let arr := rb.1.alloc
    let p := arr.1.alloc
    let arr2 ← p.1.realloc (some arr.2)
    let ex := allocAll arr2.1 cfg.extraPaths.length
    let q ← parseFileM w cfg root rb.2 cb depth file
      ⟨{ paths := w.cwd :: cfg.extraPaths }, arr2.2, p.2 :: ex.2, ex.1, user⟩
    let m ← q.1.mem.freeAll q.1.blks
    let m ← m.free q.1.arr
    let m ← m.free rb.2
    let m ← m.free rec_.2
    let e ← giveString wantErr m q.2.1
    let v ← giveString wantWarn e.1 q.2.2
    .ok ⟨v.1, q.1.user, e.2, v.2, q.1.s⟩

/-! ## The list of keywords -/

/-- The blocks of a `keyword_t`: the name, the array of cards, the strings of the cards.
Code: `/repo/src/key.h:45-58`. -/
structure KwBlk where
  name : Nat
  cards : Option Nat := none
  strs : List Nat := []
deriving DecidableEq, Repr

/-- `key_file_parse_data` with its blocks. Code: `/repo/src/key.c:81-85`. -/
structure KwSt where
  st : KeyState := {}
  arr : Option Nat := none
  kws : List KwBlk := []
deriving DecidableEq, Repr

/-- A new keyword is inserted. Code: `/repo/src/key.c:91-127`. -/
def newKeywordM (m : Mem) (k : KwSt) (name : Bytes) : Res (Mem × KwSt) := do
  let i ← insertPos (k.st.keywords.map Keyword.name) name
  let a ← m.realloc k.arr
  let n := a.1.alloc
  .ok (n.1, { st := { keywords := k.st.keywords.take i ++ ⟨name, []⟩ :: k.st.keywords.drop i, cur := some i },
              arr := some a.2, kws := k.kws.take i ++ ⟨n.2, none, []⟩ :: k.kws.drop i })

/-- The card is added to the current keyword. Code: `/repo/src/key.c:133-140`. -/
def addCardM (m : Mem) (k : KwSt) (card : Bytes) : Res (Mem × KwSt) :=
  match k.st.cur with
  | none => .ub
  | some i =>
    match k.st.keywords[i]?, k.kws[i]? with
    | some kw, some b => do
      let a ← m.realloc b.cards
      let s := a.1.alloc
      .ok (s.1, { k with st := { k.st with keywords := k.st.keywords.set i ⟨kw.name, kw.cards ++ [card]⟩ },
                         kws := k.kws.set i ⟨b.name, some a.2, b.strs ++ [s.2]⟩ })
    | _, _ => .ub

/-- A new keyword if there is none yet or if the card is the first one. Code: `/repo/src/key.c:91-127`. -/
def keywordFor (m : Mem) (k : KwSt) (ev : KeyEvent) : Res (Mem × KwSt) :=
  if k.st.cur = none ∨ ev.index = some 0 ∨ ev.index = none then newKeywordM m k ev.name else .ok (m, k)

/-- `key_file_parse_callback`. Code: `/repo/src/key.c:87-141`. -/
def callbackM (m : Mem) (k : KwSt) (ev : KeyEvent) : Res (Mem × KwSt) := do
  let r ← keywordFor m k ev
  match ev.card with
  | none => .ok r
  | some c => addCardM r.1 r.2 c

/-- The callback as user data of the parse; `true`: the callback has had undefined behaviour.
Code: `/repo/src/key.c:87-141`. -/
def kwCallback : Callback (KwSt × Bool) where
  run m c ev :=
    if c.2 then .ok (m, c)
    else
      match callbackM m c.1 ev with
      | .ok r => .ok (r.1, r.2, false)
      | _ => .ok (m, c.1, true)

/-- The loop of `key_file_free`. Code: `/repo/src/key.c:693-705`. -/
def freeKws (m : Mem) : List KwBlk → Res Mem
  | [] => .ok m
  | k :: ks => do
    let m ← m.free k.name
    let m ← m.freeAll k.strs
    let m ← m.freeOpt k.cards
    freeKws m ks

/-- `key_file_free`. Code: `/repo/src/key.c:690-710`. -/
def keyFileFree (m : Mem) (arr : Option Nat) (kws : List KwBlk) : Res Mem := do
  let m ← freeKws m kws
  m.freeOpt arr

/-- What `key_file_parse` returns: the keywords, their blocks, and the blocks of the two strings.
Auxiliary of the model, no code of its own. -/
structure Parsed where
  mem : Mem
  keywords : List Keyword
  arr : Option Nat
  kws : List KwBlk
  err : Option Nat
  warn : Option Nat

/-- The end of `key_file_parse`: after an error everything is released. Code: `/repo/src/key.c:160-172`. -/
def keyFileEnd (wantErr : Bool) (o : Out (KwSt × Bool)) : Res Parsed :=
  match o.err with
  | some b => do
    let m ← keyFileFree o.mem o.user.1.arr o.user.1.kws
    if wantErr then .ok ⟨m, [], none, [], some b, o.warn⟩
    else do
      let m ← m.free b
      .ok ⟨m, [], none, [], none, o.warn⟩
  | none => .ok ⟨o.mem, o.user.1.st.keywords, o.user.1.arr, o.user.1.kws, none, o.warn⟩

/-- `key_file_parse`. Code: `/repo/src/key.c:143-176`. -/
def keyFileParseM (w : World) (cfg : Config) (depth : Nat) (file : Bytes) (wantErr wantWarn : Bool) (m : Mem) :
    Res Parsed := do
  let o ← parseTopM w cfg kwCallback depth file true wantWarn m ({}, false)
  if o.user.2 then .ub else keyFileEnd wantErr o

end Dyna.KeyMem
