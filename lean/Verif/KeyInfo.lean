import Verif.KeyParse
/-!
# What the callback of a key file parse gets besides the keyword and the card

`key_file_parse_with_callback` (`/repo/src/key.c:178-688`) passes a `key_parse_info_t` to every call
(`KEY_PARSE_INFO`, `/repo/src/key.c:67-73`). The functions of this file are those of `Verif.KeyParse`
with the calls recorded together with this structure; `c83_same_calls` proves that without it they
are the same functions. Simplifications as there. The pointers of the structure are modelled by the
texts they point to at the time of the call.
-/

namespace Dyna.Key

/-- `key_parse_info_t`. Code: `/repo/src/key.h:89-98`. -/
structure Info where
  file : Bytes
  line : Nat
  paths : List Bytes
  root : Bytes
deriving DecidableEq, Repr

/-- A call of the callback. Code: `/repo/src/key.h:101-105`. -/
structure Call where
  info : Info
  event : KeyEvent
deriving DecidableEq, Repr

/-- `Shared` with the complete calls. Code: `/repo/src/key.h:75-83` and key.c:184-190. -/
structure SharedI where
  paths : List Bytes
  calls : List Call := []
  errors : List Bytes := []
  warnings : List Bytes := []
deriving DecidableEq, Repr

/-- Without the structures. Auxiliary of the model, no code of its own. -/
def SharedI.base (s : SharedI) : Shared :=
  { paths := s.paths, events := s.calls.map Call.event, errors := s.errors, warnings := s.warnings }

/-- `WARNING_F`. Code: `/repo/src/key.c:60-61`. -/
def SharedI.warn (s : SharedI) (msg : Bytes) : Res SharedI := do
  let w ← pushF s.warnings msg
  .ok { s with warnings := w }

/-- `ERROR_F`. Code: `/repo/src/key.c:57-58`. -/
def SharedI.error (s : SharedI) (msg : Bytes) : Res SharedI := do
  let e ← pushF s.errors msg
  .ok { s with errors := e }

/-- `KEY_PARSE_INFO` and the call. Code: `/repo/src/key.c:67-73` and key.c:600-601. -/
def SharedI.emit (s : SharedI) (file : Bytes) (line : Nat) (root : Bytes) (ev : KeyEvent) : SharedI :=
  { s with calls := s.calls ++ [⟨⟨file, line, s.paths, root⟩, ev⟩] }

/-- A complete include file name (`/repo/src/key.c:380-434`). -/
def includeFileI (w : World) (cfg : Config) (inc : Bytes → SharedI → Res SharedI) (file : Bytes)
    (line : Nat) (s : SharedI) (name : Bytes) : Res SharedI := do
  match ← resolve w s.paths name with
  | some full => inc full s
  | none =>
    if cfg.ignoreNotFound then s.warn (notFoundMsg file line name)
    else s.error (notFoundMsg file line name)

/-- The call for a card (`/repo/src/key.c:583-610`). -/
def reportI (file root : Bytes) (l : Local) (s : SharedI) (text : Bytes) : Local × SharedI :=
  let text := match l.pending with
    | some t => pendingText t
    | none => text
  ({ l with pending := none, cardIndex := l.cardIndex + 1 },
    s.emit file l.lineCount root ⟨l.name, some text, some l.cardIndex⟩)

/-- A card that may be continued (`/repo/src/key.c:547-557` and `:558-579`, then `:583-610`). -/
def multiReportI (file root : Bytes) (l : Local) (s : SharedI) (cells : Bytes) : Res (Local × SharedI) := do
  match ← multiLine l.pending cells with
  | .more t => .ok ({ l with pending := some t }, s)
  | .done t => .ok (reportI file root { l with pending := none } s t)

/-- INCLUDE_PATH and INCLUDE_PATH_RELATIVE (`/repo/src/key.c:440-511`). -/
def includePathI (w : World) (kind : Bytes) (full : Bytes → Res Bytes) (file : Bytes) (l : Local)
    (s : SharedI) (cells : Bytes) : Res (Local × SharedI) := do
  match ← multiLine l.pending cells with
  | .more t => .ok ({ l with pending := some t }, s)
  | .done name =>
    let path ← full name
    let l := { l with pending := none, cardIndex := l.cardIndex + 1 }
    if w.isDir path then .ok (l, { s with paths := s.paths ++ [path] })
    else do
      let s ← s.warn (place file l.lineCount ++ kind ++ bs " has not been found: \"" ++ path ++
        bs "\"")
      .ok (l, s)

/-- Superfluous cards (`/repo/src/key.c:512-542`). -/
def superfluousI (kind : Bytes) (warn : Bool) (file : Bytes) (l : Local) (s : SharedI) :
    Res (Local × SharedI) := do
  let s ← if warn then s.warn (place file l.lineCount ++ bs "Invalid number of cards (" ++
      dec (l.cardIndex + 1) ++ bs ") for " ++ kind ++ bs " keyword") else .ok s
  .ok ({ l with cardIndex := l.cardIndex + 1 }, s)

/-- A card of an INCLUDE keyword while includes are parsed (`/repo/src/key.c:367-557`). -/
def includeCardI (w : World) (cfg : Config) (root : Bytes) (inc : Bytes → SharedI → Res SharedI)
    (file : Bytes) (l : Local) (s : SharedI) (cells : Bytes) : Res (Local × SharedI) :=
  if l.name = bs "INCLUDE" ∨ (l.name = bs "INCLUDE_BINARY" ∧ l.cardIndex = 0) ∨
      (l.name = bs "INCLUDE_NASTRAN" ∧ l.cardIndex = 0) then do
    match ← multiLine l.pending cells with
    | .more t => .ok ({ l with pending := some t }, s)
    | .done name =>
      let s ← includeFileI w cfg inc file l.lineCount s name
      .ok ({ l with pending := none, cardIndex := l.cardIndex + 1 }, s)
  else if l.name = bs "INCLUDE_PATH" then includePathI w (bs "INCLUDE_PATH") (fun n => .ok n) file l s cells
  else if l.name = bs "INCLUDE_PATH_RELATIVE" then
    includePathI w (bs "INCLUDE_PATH_RELATIVE") (fun n => pathJoin root n) file l s cells
  else if l.name = bs "INCLUDE_BINARY" then superfluousI (bs "INCLUDE_BINARY") true file l s
  else if l.name = bs "INCLUDE_NASTRAN" then
    superfluousI (bs "INCLUDE_NASTRAN") (decide (l.cardIndex ≠ 1)) file l s
  else if startsWith l.name (bs "INCLUDE_MULTISCALE") then .ok (reportI file root l s (cstr cells))
  else if l.cardIndex = 0 then multiReportI file root l s cells
  else .ok (reportI file root l s (cstr cells))

/-- A card of an INCLUDE keyword while includes are not parsed (`/repo/src/key.c:558-579`). -/
def includeCardOffI (file root : Bytes) (l : Local) (s : SharedI) (cells : Bytes) : Res (Local × SharedI) :=
  if startsWith l.name (bs "INCLUDE_MULTISCALE") then .ok (reportI file root l s (cstr cells))
  else if l.name = bs "INCLUDE" ∨ l.name = bs "INCLUDE_PATH" ∨
      l.name = bs "INCLUDE_PATH_RELATIVE" ∨ l.cardIndex = 0 then multiReportI file root l s cells
  else .ok (reportI file root l s (cstr cells))

/-- Card parsing (`/repo/src/key.c:355-611`). -/
def cardStepI (w : World) (cfg : Config) (root : Bytes) (inc : Bytes → SharedI → Res SharedI)
    (file : Bytes) (l : Local) (s : SharedI) (cells : Bytes) : Res (Local × SharedI) :=
  if startsWith l.name (bs "INCLUDE") then
    if cfg.parseIncludes then includeCardI w cfg root inc file l s cells
    else includeCardOffI file root l s cells
  else .ok (reportI file root l s (cstr cells))

/-- The call for a keyword without cards when the next keyword is found: `line_count` has already
been increased for the line of the next keyword (`/repo/src/key.c:284` and key.c:308-329). -/
def closeKeywordI (file root : Bytes) (l : Local) (s : SharedI) : SharedI :=
  if l.name ≠ [] ∧ l.cardIndex = 0 then s.emit file l.lineCount root ⟨l.name, none, none⟩ else s

/-- The loop over the lines (`/repo/src/key.c:282-614`). -/
def linesLoopI (w : World) (cfg : Config) (root : Bytes) (inc : Bytes → SharedI → Res SharedI)
    (file : Bytes) : List Line → Local → SharedI → Res (Local × SharedI)
  | [], l, s => .ok (l, s)
  | line :: lines, l, s => do
    let l := { l with lineCount := l.lineCount + 1 }
    if line.comment = some 0 then linesLoopI w cfg root inc file lines l s
    else
      let cells := lineCells line
      if isKeyword cells then do
        let s := closeKeywordI file root l s
        let name ← keywordName cells
        if name = bs "END" then .ok ({ l with name := name }, s)
        else linesLoopI w cfg root inc file lines { l with name := name, cardIndex := 0 } s
      else do
        let (l, s) ← cardStepI w cfg root inc file l s cells
        linesLoopI w cfg root inc file lines l s

/-- The last call (`/repo/src/key.c:616-653`). -/
def finishI (file root : Bytes) (l : Local) (s : SharedI) : SharedI :=
  if l.cardIndex = 0 ∧ l.name ≠ bs "END" then
    s.emit file l.lineCount root ⟨l.name, l.pending.map pendingText, none⟩
  else s

/-- `key_file_parse_with_callback` for an included file, and for the main file after the include
paths have been set up. Code: `/repo/src/key.c:178-688`. -/
def parseFileI (w : World) (cfg : Config) (root : Bytes) : (depth : Nat) → Bytes → SharedI → Res SharedI
  | 0, _, _ => .abort
  | depth + 1, file, s =>
    match w.content file with
    | none => s.error (bs "Failed to open key file: " ++ w.openError)
    | some content => do
      let lines ← fileLines chunkSize w.mem content
      let (l, s) ← linesLoopI w cfg root (parseFileI w cfg root depth) file lines {} s
      .ok (finishI file root l s)

/-- `key_file_parse_with_callback` called by the user: all calls of the callback with everything
they get, the errors and the warnings. Code: `/repo/src/key.c:178-688`. -/
def parseTopI (w : World) (cfg : Config) (depth : Nat) (file : Bytes) : Res SharedI :=
  match w.content file with
  | none => .ok { paths := [], errors := [bs "Failed to open key file: " ++ w.openError] }
  | some _ => do
    let root ← rootFolder w file
    parseFileI w cfg root depth file { paths := w.cwd :: cfg.extraPaths }

end Dyna.Key
