import Verif.KeyFile
import Verif.LineReader
/-!
# Parsing of key files

Model of `key_file_parse_with_callback` (`/repo/src/key.c:178-688`), `_parse_multi_line_string`
(`:1571-1614`) and the message stacks (`:37-55`).

Simplifications: `malloc`/`realloc` succeed, freeing memory is not modelled, reading errors
(`ferror`) are not modelled, lines are read from the file before they are parsed (the reader never
fails, `c41_safe`). Names in `extra_string` memory are modelled by their text; the copying
(`extra_string_copy`) is modelled by its result where it is defined, see `keywordName`. The
callback is modelled by the list of its calls.
-/

namespace Dyna.Key

/-- `key_parse_config_t` (`/repo/src/key.h`). Code: `/repo/src/key.h:61-72`. -/
structure Config where
  parseIncludes : Bool := true
  ignoreNotFound : Bool := false
  extraPaths : List Bytes := []

/-- The operating system: what opening a file gives (`fopen` and the content), the text of
`strerror` if it fails, `path_is_file`, `path_is_directory`, `path_working_directory`, and the
content of memory that has not been initialised. Auxiliary of the model, no code of its own. -/
structure World where
  content : Bytes → Option Bytes
  openError : Bytes
  isFile : Bytes → Bool
  isDir : Bytes → Bool
  cwd : Bytes
  mem : Nat → Nat

/-- What all files of one parse share: the include paths (`key_parse_recursion_t`), the calls of
the callback, and the pushed error and warning messages.
Code: `/repo/src/key.h:75-83` and key.c:184-190. -/
structure Shared where
  paths : List Bytes
  events : List KeyEvent := []
  errors : List Bytes := []
  warnings : List Bytes := []
deriving DecidableEq, Repr

/-- Local variables of `key_file_parse_with_callback` (`/repo/src/key.c:270-280`).
`current_keyword_length` is the length of `name`. `pending` is the text of
`current_multi_line_string` after a continued line (`none`: no buffer). -/
structure Local where
  name : Bytes := []
  cardIndex : Nat := 0
  lineCount : Nat := 0
  pending : Option Bytes := none
deriving DecidableEq, Repr

/-- A C string in memory: the bytes before the first NUL. Code: `/repo/src/key.c:1593-1610`. -/
def cstr (cells : Bytes) : Bytes := cells.takeWhile (· ≠ 0)

/-- Code: `/repo/src/key.c:302`. -/
def charBlank : Nat := 32
/-- Code: `/repo/src/key.c:1597`. -/
def charPlus : Nat := 43
/-- Code: `/repo/src/key.c:305`. -/
def charStar : Nat := 42

/-- The memory of a line after the comment has been cut off (`/repo/src/key.c:286-293`); behind it
there is a NUL (`/repo/src/line.c:107`). -/
def lineCells (line : Line) : Bytes :=
  match line.comment with
  | some i => line.text.set i 0
  | none => line.text

/-- `string_builder` text after a continued line, as a C string: the two characters " +" are still
in the buffer when it is moved out (`/repo/src/key.c:1596-1598`, `:583-588`). -/
def pendingText (t : Bytes) : Bytes := cstr (t ++ [charBlank, charPlus])

/-- Removes blanks at the end (`/repo/src/key.c:1604-1608`). -/
def trimEnd (t : Bytes) : Bytes := (t.reverse.dropWhile (· = charBlank)).reverse

/-- Result of `_parse_multi_line_string`: `more t` is the return value 0 with the text `t` in the
builder, `done t` is the return value 1 with the C string `t` in the builder.
Code: `/repo/src/key.c:1571-1614`. -/
inductive Multi where
  | more (t : Bytes)
  | done (t : Bytes)
deriving DecidableEq, Repr

/-- Second half of `_parse_multi_line_string` (`/repo/src/key.c:1593-1612`): `t` is the text of the
builder after appending. With one character the code reads `buffer[-1]`. -/
def multiEnd (t : Bytes) : Res Multi :=
  if t.length < 2 then .ub
  else if t.drop (t.length - 2) = [charBlank, charPlus] then .ok (.more (t.take (t.length - 2)))
  else .ok (.done (cstr (trimEnd t)))

/-- Models `_parse_multi_line_string` (`/repo/src/key.c:1571-1614`) on the text of the builder.
`cells` are the `line_length` bytes of the card. -/
def multiLine (pending : Option Bytes) (cells : Bytes) : Res Multi :=
  match pending with
  | none =>
    let t := cells.dropWhile (· = charBlank)
    if t = [] then .ok (.done []) else multiEnd t
  | some p => multiEnd (p ++ cells)

/-- Decimal digits (`%zu`). Code: `/repo/src/key.c:421` (`%zu`). -/
def dec (n : Nat) : Bytes := bs (toString n)

/-- Models `_message_stack_push_f` (`/repo/src/key.c:45-55`): the message is formatted into a buffer
of 1024 bytes by `vsprintf`. -/
def pushF (stack : List Bytes) (msg : Bytes) : Res (List Bytes) :=
  if msg.length < 1024 then .ok (stack ++ [msg]) else .ub

/-- Code: `/repo/src/key.c:60-61`. -/
def Shared.warn (s : Shared) (msg : Bytes) : Res Shared := do
  let w ← pushF s.warnings msg
  .ok { s with warnings := w }
/-- Code: `/repo/src/key.c:57-58`. -/
def Shared.error (s : Shared) (msg : Bytes) : Res Shared := do
  let e ← pushF s.errors msg
  .ok { s with errors := e }
/-- Code: `/repo/src/key.c:601`. -/
def Shared.emit (s : Shared) (ev : KeyEvent) : Shared := { s with events := s.events ++ [ev] }

/-- The search of an include file (`/repo/src/key.c:384-398`). -/
def resolve (w : World) : List Bytes → Bytes → Res (Option Bytes)
  | [], _ => .ok none
  | p :: ps, name => do
    let full ← pathJoin p name
    if w.isFile full then .ok (some full) else resolve w ps name

/-- "%s:%zu: ". Code: `/repo/src/key.c:421`. -/
def place (file : Bytes) (line : Nat) : Bytes := file ++ bs ":" ++ dec line ++ bs ": "

/-- The message for a missing include file (`/repo/src/key.c:406`). -/
def notFoundMsg (file : Bytes) (line : Nat) (name : Bytes) : Bytes :=
  place file line ++ bs "\"" ++ name ++ bs "\" could not be found"

/-- A complete include file name (`/repo/src/key.c:380-434`). `inc` is the recursive call. -/
def includeFile (w : World) (cfg : Config) (inc : Bytes → Shared → Res Shared) (file : Bytes)
    (line : Nat) (s : Shared) (name : Bytes) : Res Shared := do
  match ← resolve w s.paths name with
  | some full => inc full s
  | none =>
    if cfg.ignoreNotFound then s.warn (notFoundMsg file line name)
    else s.error (notFoundMsg file line name)

/-- The call of the callback for a card (`/repo/src/key.c:583-610`). -/
def report (l : Local) (s : Shared) (text : Bytes) : Local × Shared :=
  let text := match l.pending with
    | some t => pendingText t
    | none => text
  ({ l with pending := none, cardIndex := l.cardIndex + 1 },
    s.emit ⟨l.name, some text, some l.cardIndex⟩)

/-- `extra_string_starts_with` for a prefix shorter than 82 characters
(`/repo/src/extra_string.c`). Code: `/repo/src/extra_string.c:109-151`. -/
def startsWith (name pre : Bytes) : Bool := pre.isPrefixOf name

/-- The card text passes through `_parse_multi_line_string` before the callback is called
(`/repo/src/key.c:547-557` and `:558-579`, then `:583-610`). -/
def multiReport (l : Local) (s : Shared) (cells : Bytes) : Res (Local × Shared) := do
  match ← multiLine l.pending cells with
  | .more t => .ok ({ l with pending := some t }, s)
  | .done t => .ok (report { l with pending := none } s t)

/-- INCLUDE_PATH and INCLUDE_PATH_RELATIVE (`/repo/src/key.c:440-511`); `full` gives the path that
is added for a name. -/
def includePath (w : World) (kind : Bytes) (full : Bytes → Res Bytes) (file : Bytes) (l : Local)
    (s : Shared) (cells : Bytes) : Res (Local × Shared) := do
  match ← multiLine l.pending cells with
  | .more t => .ok ({ l with pending := some t }, s)
  | .done name =>
    let path ← full name
    let l := { l with pending := none, cardIndex := l.cardIndex + 1 }
    if w.isDir path then .ok (l, { s with paths := s.paths ++ [path] })
    else do
      let s ← s.warn (place file l.lineCount ++ kind ++ bs " has not been found: \"" ++ path ++
        bs "\"")
      .ok (l, s)

/-- Superfluous cards of INCLUDE_BINARY and INCLUDE_NASTRAN (`/repo/src/key.c:512-542`). -/
def superfluous (kind : Bytes) (warn : Bool) (file : Bytes) (l : Local) (s : Shared) :
    Res (Local × Shared) := do
  let s ← if warn then s.warn (place file l.lineCount ++ bs "Invalid number of cards (" ++
      dec (l.cardIndex + 1) ++ bs ") for " ++ kind ++ bs " keyword") else .ok s
  .ok ({ l with cardIndex := l.cardIndex + 1 }, s)

/-- A card of a keyword starting with INCLUDE while includes are parsed
(`/repo/src/key.c:367-557`). -/
def includeCard (w : World) (cfg : Config) (root : Bytes) (inc : Bytes → Shared → Res Shared)
    (file : Bytes) (l : Local) (s : Shared) (cells : Bytes) : Res (Local × Shared) :=
  if l.name = bs "INCLUDE" ∨ (l.name = bs "INCLUDE_BINARY" ∧ l.cardIndex = 0) ∨
      (l.name = bs "INCLUDE_NASTRAN" ∧ l.cardIndex = 0) then do
    match ← multiLine l.pending cells with
    | .more t => .ok ({ l with pending := some t }, s)
    | .done name =>
      let s ← includeFile w cfg inc file l.lineCount s name
      .ok ({ l with pending := none, cardIndex := l.cardIndex + 1 }, s)
  else if l.name = bs "INCLUDE_PATH" then includePath w (bs "INCLUDE_PATH") (fun n => .ok n) file l s cells
  else if l.name = bs "INCLUDE_PATH_RELATIVE" then
    includePath w (bs "INCLUDE_PATH_RELATIVE") (fun n => pathJoin root n) file l s cells
  else if l.name = bs "INCLUDE_BINARY" then superfluous (bs "INCLUDE_BINARY") true file l s
  else if l.name = bs "INCLUDE_NASTRAN" then
    superfluous (bs "INCLUDE_NASTRAN") (decide (l.cardIndex ≠ 1)) file l s
  else if startsWith l.name (bs "INCLUDE_MULTISCALE") then .ok (report l s (cstr cells))
  else if l.cardIndex = 0 then multiReport l s cells
  else .ok (report l s (cstr cells))

/-- A card of a keyword starting with INCLUDE while includes are not parsed
(`/repo/src/key.c:558-579`). -/
def includeCardOff (l : Local) (s : Shared) (cells : Bytes) : Res (Local × Shared) :=
  if startsWith l.name (bs "INCLUDE_MULTISCALE") then .ok (report l s (cstr cells))
  else if l.name = bs "INCLUDE" ∨ l.name = bs "INCLUDE_PATH" ∨
      l.name = bs "INCLUDE_PATH_RELATIVE" ∨ l.cardIndex = 0 then multiReport l s cells
  else .ok (report l s (cstr cells))

/-- Card parsing (`/repo/src/key.c:355-611`). -/
def cardStep (w : World) (cfg : Config) (root : Bytes) (inc : Bytes → Shared → Res Shared)
    (file : Bytes) (l : Local) (s : Shared) (cells : Bytes) : Res (Local × Shared) :=
  if startsWith l.name (bs "INCLUDE") then
    if cfg.parseIncludes then includeCard w cfg root inc file l s cells
    else includeCardOff l s cells
  else .ok (report l s (cstr cells))

/-- Number of blanks at the start of a line (`/repo/src/key.c:300-304`). -/
def blanks (cells : Bytes) : Nat := (cells.takeWhile (· = charBlank)).length

/-- The line is a keyword (`/repo/src/key.c:297-306`). -/
def isKeyword (cells : Bytes) : Bool := decide (cells[blanks cells]? = some charStar)

/-- The name of a keyword line (`/repo/src/key.c:331-344`). `extra_string_copy`
(`/repo/src/extra_string.c:45-63`) copies the text from `offset` on; the sizes of the copies wrap
around if `offset` is too large. -/
def keywordName (cells : Bytes) : Res Bytes :=
  let offset := blanks cells + 1
  if offset > bufferSize then .ub
  else if cells.length ≥ bufferSize ∧ offset > cells.length - bufferSize + 1 then .ub
  else .ok ((cells.drop offset).takeWhile (fun c => c ≠ charBlank ∧ c ≠ 0))

/-- The call of the callback for a keyword without cards when the next keyword is found
(`/repo/src/key.c:308-329`). -/
def closeKeyword (l : Local) (s : Shared) : Shared :=
  if l.name ≠ [] ∧ l.cardIndex = 0 then s.emit ⟨l.name, none, none⟩ else s

/-- The loop over the lines (`/repo/src/key.c:282-614`). -/
def linesLoop (w : World) (cfg : Config) (root : Bytes) (inc : Bytes → Shared → Res Shared)
    (file : Bytes) : List Line → Local → Shared → Res (Local × Shared)
  | [], l, s => .ok (l, s)
  | line :: lines, l, s => do
    let l := { l with lineCount := l.lineCount + 1 }
    if line.comment = some 0 then linesLoop w cfg root inc file lines l s
    else
      let cells := lineCells line
      if isKeyword cells then do
        let s := closeKeyword l s
        let name ← keywordName cells
        if name = bs "END" then .ok ({ l with name := name }, s)
        else linesLoop w cfg root inc file lines { l with name := name, cardIndex := 0 } s
      else do
        let (l, s) ← cardStep w cfg root inc file l s cells
        linesLoop w cfg root inc file lines l s

/-- The last call of the callback (`/repo/src/key.c:616-653`). -/
def finish (l : Local) (s : Shared) : Shared :=
  if l.cardIndex = 0 ∧ l.name ≠ bs "END" then s.emit ⟨l.name, l.pending.map pendingText, none⟩
  else s

/-- `key_file_parse_with_callback` for an included file, and for the main file after the include
paths have been set up. `abort` stands for more than `depth` nested includes (the code has no
limit; including a file from itself exhausts the stack). Code: `/repo/src/key.c:178-688`. -/
def parseFile (w : World) (cfg : Config) (root : Bytes) : (depth : Nat) → Bytes → Shared → Res Shared
  | 0, _, _ => .abort
  | depth + 1, file, s =>
    match w.content file with
    | none => s.error (bs "Failed to open key file: " ++ w.openError)
    | some content => do
      let lines ← fileLines chunkSize w.mem content
      let (l, s) ← linesLoop w cfg root (parseFile w cfg root depth) file lines {} s
      .ok (finish l s)

/-- The root folder (`/repo/src/key.c:217-232`). `path_is_abs` (`/repo/src/path.c:329-341`) tests the
first character. -/
def rootFolder (w : World) (file : Bytes) : Res Bytes :=
  match pathMoveUp file with
  | none => .ok w.cwd
  | some i =>
    if file.head? = some SEP then .ok (file.take (i + 1))
    else do
      let full ← pathJoin w.cwd file
      match pathMoveUp full with
      | none => .ub
      | some j => .ok (full.take (j + 1))

/-- Models `key_file_parse_with_callback` called by the user (`/repo/src/key.c:178-688`): what the
callback gets and the errors and warnings. -/
def parseTop (w : World) (cfg : Config) (depth : Nat) (file : Bytes) : Res Shared :=
  match w.content file with
  | none => .ok { paths := [], errors := [bs "Failed to open key file: " ++ w.openError] }
  | some _ => do
    let root ← rootFolder w file
    parseFile w cfg root depth file { paths := w.cwd :: cfg.extraPaths }

end Dyna.Key

namespace Dyna.Key

/-- Models `key_file_parse` (`/repo/src/key.c:143-176`): the list built by the callbacks, or an
error. The callbacks run while the file is parsed; an undefined behaviour in either is `ub`. -/
def keyFileParse (w : World) (cfg : Config) (depth : Nat) (file : Bytes) : Res (List Keyword) := do
  let s ← parseTop w cfg depth file
  let ks ← buildKeywords s.events
  if s.errors ≠ [] then .err else .ok ks

end Dyna.Key
