import Verif.CppCard
/-!
# Cards in Python (`/repo/src/python/pybind11_key.cpp`)

`Card.parse` and `Card.parse_whole`. An exception is `Res.err`.
-/

namespace Dyna.Card

/-- What a field of a card becomes in Python (`/repo/src/python/pybind11_key.cpp:85`): `None`, `int`, `float` or a string. -/
inductive PyVal (β : Type) where
  | nothing
  | int (v : Int)
  | float (v : β)
  | str (t : Bytes)
deriving DecidableEq, Repr

/-- The value of the field of width `w` at the cursor
(`/repo/src/python/pybind11_key.cpp:109-126`, `/repo/src/python/pybind11_key.cpp:53-67`, where `trim` is set). -/
def Card.pyValue {β : Type} (B : Arith β) (card : Card) (w : Nat) (trim : Bool) : Res (PyVal β) := do
  let e ← card.isEmpty w
  if e = true then .ok .nothing
  else do
    let t ← card.getType w
    match t with
    | .int => do
      match ← card.parseIntAs .i64 w with
      | some v => .ok (.int v)
      | none => .err
    | .float => do
      let v ← ignoreErrno (B.ofNat 0) (card.parseFloat B w)
      .ok (.float v)
    | .string =>
      if trim = true then do
        let s ← card.parseString w
        .ok (.str s)
      else do
        let s ← card.parseStringNoTrim w
        .ok (.str s)

/-- `value_width.cast<uint8_t>()` (`/repo/src/python/pybind11_key.cpp:50,108`): other numbers are an exception. -/
def castWidth (w : Int) : Res Nat := if 0 ≤ w ∧ w ≤ 255 then .ok w.toNat else .err

/-- `Card.parse(trim_string, value_width)` (`/repo/src/python/pybind11_key.cpp:87-130`). -/
def Card.pyParse {β : Type} (B : Arith β) (card : Card) (trim : Bool) : Option Int → Res (PyVal β)
  | none => card.pyValue B card.width trim
  | some w => do
    let w ← castWidth w
    card.pyValue B w trim

/-- The loop of `Card.parse_whole` with widths (`/repo/src/python/pybind11_key.cpp:44-70`). -/
def Card.pyFields {β : Type} (B : Arith β) : Card → List Int → Res (List (PyVal β))
  | _, [] => .ok []
  | card, w :: ws => do
    let w ← castWidth w
    let v ← card.pyValue B w true
    let card' ← card.nextWidth w
    let r ← card'.pyFields B ws
    .ok (v :: r)

/-- The loop of `Card.parse_whole` without widths (`/repo/src/python/pybind11_key.cpp:44-70`): until the card is done. -/
def Card.pyUntilDone {β : Type} (B : Arith β) : (fuel : Nat) → Card → Res (List (PyVal β))
  | 0, _ => .abort
  | fuel + 1, card => do
    let d ← card.done
    if d = true then .ok []
    else do
      let v ← card.pyValue B defaultWidth true
      let card' ← card.nextWidth defaultWidth
      let r ← card'.pyUntilDone B fuel
      .ok (v :: r)

/-- `Card.parse_whole(value_widths)` (`/repo/src/python/pybind11_key.cpp:38-73`). -/
def Card.pyParseWhole {β : Type} (B : Arith β) (card : Card) (ws : List Int) : Res (List (PyVal β)) :=
  if ws = [] then (card.begin defaultWidth).pyUntilDone B loopFuel
  else (card.begin defaultWidth).pyFields B ws

end Dyna.Card
