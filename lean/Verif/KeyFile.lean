import Verif.Props.Search
/-!
# The keyword list of a key file

Model of `key_file_parse_callback`, `key_file_parse` (list building part), `key_file_get` and
`key_file_get_slice` of `/repo/src/key.c`.
-/

namespace Dyna

/-- Models `keyword_t` and `card_t` (`/repo/src/key.h`): the name and the text of the cards;
`num_cards` is the length. Code: `/repo/src/key.h:45-58`. -/
structure Keyword where
  name : Bytes
  cards : List Bytes
  deriving DecidableEq, Repr

/-- One call of the callback of `key_file_parse_with_callback`: the keyword name, the card
text (`none` models the NULL card) and the card index (`none` models `(size_t)~0`).
Code: `/repo/src/key.h:101-105` (`key_file_callback`). -/
structure KeyEvent where
  name : Bytes
  card : Option Bytes
  index : Option Nat
  deriving DecidableEq, Repr

/-- Models `key_file_parse_data` (`/repo/src/key.c:81-85`): `current_keyword` is a pointer into
`keywords`, here its index. -/
structure KeyState where
  keywords : List Keyword := []
  cur : Option Nat := none
  deriving DecidableEq, Repr

/-- Models `/repo/src/key.c:107-109`: the loop that looks for the end of a run of equal names.
It is not bounded by the number of keywords; reading `keywords[num_keywords]` is `ub`. -/
def skipEqual (names : List Bytes) (value : Bytes) (i : Nat) : Res Nat :=
  match h : names[i]? with
  | none => .ub
  | some n =>
    if strcmp n value = 0 then skipEqual names value (i + 1) else .ok i
termination_by names.length - i
decreasing_by
  have := (List.getElem?_eq_some_iff.1 h).1
  omega

/-- Models `/repo/src/key.c:92-112`: the position at which a new keyword is inserted. -/
def insertPos (names : List Bytes) (value : Bytes) : Res Nat :=
  if names = [] then .ok 0
  else do
    let (found, i) ← keySearchInsert names value
    if found then
      if i + 1 ≠ names.length then skipEqual names value (i + 1) else .ok (i + 1)
    else .ok i

/-- Models `/repo/src/key.c:91-129` (the body of the first `if`): inserts an empty keyword and
makes it the current one. `realloc` and `string_clone` are assumed to succeed. -/
def newKeyword (st : KeyState) (name : Bytes) : Res KeyState := do
  let i ← insertPos (st.keywords.map Keyword.name) name
  .ok { keywords := st.keywords.take i ++ ⟨name, []⟩ :: st.keywords.drop i, cur := some i }

/-- Models `/repo/src/key.c:131-140`: appends the card to the current keyword. -/
def addCard (st : KeyState) (card : Bytes) : Res KeyState :=
  match st.cur with
  | none => .ub
  | some i =>
    match st.keywords[i]? with
    | none => .ub
    | some k => .ok { st with keywords := st.keywords.set i ⟨k.name, k.cards ++ [card]⟩ }

/-- Models `/repo/src/key.c:87-141` (`key_file_parse_callback`). -/
def parseCallback (st : KeyState) (ev : KeyEvent) : Res KeyState := do
  let st' ← if st.cur = none ∨ ev.index = some 0 ∨ ev.index = none then newKeyword st ev.name
    else .ok st
  match ev.card with
  | none => .ok st'
  | some c => addCard st' c

/-- The keyword list built by the callbacks, one after the other
(`/repo/src/key.c:143-176`, `key_file_parse`, without the error branch). -/
def runCallbacks : KeyState → List KeyEvent → Res KeyState
  | st, [] => .ok st
  | st, ev :: evs => do
    let st' ← parseCallback st ev
    runCallbacks st' evs

/-- The keyword list of a sequence of callbacks, see `runCallbacks`. Code: `/repo/src/key.c:143-176`. -/
def buildKeywords (evs : List KeyEvent) : Res (List Keyword) := do
  let st ← runCallbacks {} evs
  .ok st.keywords

/-! ## Lookup -/

/-- Models `/repo/src/binary_search.c:268-306` (`key_file_binary_search`). -/
def keySearch (names : List Bytes) (value : Bytes) : Res (Option Nat) :=
  bsearch (fun i => (names[i]?).map (strcmp value)) 0 (names.length - 1)

/-- Models `/repo/src/key.c:735-737` and `:781-783`: the loop walking to the front of the
run. -/
def walkBack (names : List Bytes) (value : Bytes) : Nat → Res Nat
  | 0 => .ok 0
  | i + 1 =>
    match names[i + 1]? with
    | none => .ub
    | some n => if strcmp n value = 0 then walkBack names value i else .ok (i + 1)

/-- Models `/repo/src/key.c:743-747`: advances `j` and `i` together. -/
def walkForward (num index i j : Nat) : Nat × Nat :=
  if j < index ∧ i < num then walkForward num index (i + 1) (j + 1) else (i, j)
termination_by num - i

/-- Models `/repo/src/key.c:712-757` (`key_file_get`); the result is the index of the returned
keyword or `none` for NULL. Out-of-bounds reads of `keywords` are `ub`. -/
def keyFileGet (names : List Bytes) (name : Bytes) (index : Nat) : Res (Option Nat) :=
  if names.length = 0 then .ok none
  else do
    match ← keySearch names name with
    | none => .ok none
    | some f =>
      if f = 0 ∧ index = 0 then .ok (some 0)
      else do
        let i ← walkBack names name f
        match names[i]? with
        | none => .ub
        | some n =>
          let i := if i ≠ 0 ∨ strcmp n name ≠ 0 then i + 1 else i
          let (i, j) := walkForward names.length index i 0
          if j = index then
            match names[i]? with
            | none => .ub
            | some n => if strcmp n name = 0 then .ok (some i) else .ok none
          else .ok none

/-- Models `/repo/src/key.c:791-795`: the bounded loop walking behind the end of the run. -/
def walkEnd (names : List Bytes) (value : Bytes) (i : Nat) : Nat :=
  match _h : names[i]? with
  | none => i
  | some n => if strcmp n value = 0 then walkEnd names value (i + 1) else i
termination_by names.length - i
decreasing_by
  have := (List.getElem?_eq_some_iff.1 _h).1
  omega

/-- Models `/repo/src/key.c:759-804` (`key_file_get_slice`); the result is `none` for NULL (with
slice size 0), otherwise the index of the first keyword of the slice and the slice size. -/
def keyFileGetSlice (names : List Bytes) (name : Bytes) : Res (Option (Nat × Nat)) :=
  if names.length = 0 then .ok none
  else do
    match ← keySearch names name with
    | none => .ok none
    | some f =>
      let start ← (if f ≠ 0 then do
        let s ← walkBack names name f
        .ok (s + 1) else .ok f)
      let stop := if f ≠ names.length - 1 then walkEnd names name f - 1 else f
      .ok (some (start, stop - start + 1))

end Dyna
