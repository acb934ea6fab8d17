import Verif.Common
/-!
# Cards

Model of the card functions of `/repo/src/key.c:806-1561`. A card is a C string (without the terminator,
and without NUL) and two `uint8_t`. Every read is checked: reading behind the terminator is undefined
behaviour. `uint8_t` counters wrap around at 256. `errno = EINVAL` is `Res.err` (the value that is
returned together with an error is not modelled). A loop that does not end is `Res.abort`: the
loops have one `uint8_t` counter (and a number that overflows after 19 digits unless all digits are 0), so a loop
that takes more than 512 iterations does not end.
-/

namespace Dyna.Card

/-- Code: `/repo/src/key.c:857-860` (character constants of the card functions). -/
def blank : Nat := 32
/-- Code: `/repo/src/key.c:1150`. -/
def plus : Nat := 43
/-- Code: `/repo/src/key.c:873`. -/
def minus : Nat := 45
/-- Code: `/repo/src/key.c:1195`. -/
def dot : Nat := 46
/-- Code: `/repo/src/key.c:1232`. -/
def lowerE : Nat := 101
/-- Code: `/repo/src/key.c:1232`. -/
def upperE : Nat := 69

/-- `card->string[i]` with the terminator.
Code: `/repo/src/key.c:857-860` (all accesses to `card->string`). -/
def charAt (s : Bytes) (i : Nat) : Res Nat := .ofOption (s ++ [0])[i]?

/-- `i++` for a `uint8_t`. Code: `/repo/src/key.c:854-860` (`uint8_t i`). -/
def inc8 (i : Nat) : Nat := (i + 1) % 256

/-- Code: `/repo/src/key.c:881`. -/
def isDigit (c : Nat) : Bool := 48 ≤ c && c ≤ 57
/-- Code: `/repo/src/key.c:1267`. -/
def digitVal (c : Nat) : Nat := c - 48
/-- Code: `/repo/src/key.c:1232`. -/
def isE (c : Nat) : Bool := c == lowerE || c == upperE

/-- `card_t` (`/repo/src/key.h:45-51`) -/
structure Card where
  string : Bytes
  cur : Nat
  width : Nat
deriving DecidableEq, Repr

/-- See the top of the file. Auxiliary of the model, no code of its own. -/
def loopFuel : Nat := 513

/-! ## Cursor -/

/-- `card_parse_begin` (`/repo/src/key.c:806-813`) -/
def Card.begin (card : Card) (w : Nat) : Card := { card with cur := 0, width := w }

/-- The loop to the end of the string (`/repo/src/key.c:830-832`) -/
def toEnd (s : Bytes) : (fuel : Nat) → Nat → Res Nat
  | 0, _ => .abort
  | fuel + 1, i => do
    let c ← charAt s i
    if c ≠ 0 then toEnd s fuel (inc8 i) else .ok i

/-- `card_parse_next_width` (`/repo/src/key.c:823-837`) -/
def Card.nextWidth (card : Card) (w : Nat) : Res Card := do
  let c ← charAt card.string card.cur
  if c ≠ 0 then
    if card.cur ≤ 255 - w then .ok { card with cur := card.cur + w }
    else do
      let i ← toEnd card.string loopFuel card.cur
      .ok { card with cur := i }
  else .ok card

/-- `card_parse_next` (`/repo/src/key.c:815-821`) -/
def Card.next (card : Card) : Res Card := card.nextWidth card.width

/-- `card_parse_done` (`/repo/src/key.c:839-846`) -/
def Card.done (card : Card) : Res Bool := do
  let c ← charAt card.string card.cur
  .ok (c == 0)

/-! ## Integers -/

/-- Largest value of `int64_t`. Code: `/repo/src/key.c:852` (`int64_t` result). -/
def int64Max : Nat := 9223372036854775807

/-- The loop over leading blanks (`/repo/src/key.c:857-860`, `1133-1136`); `stop` is
`current_index + value_width`, an `int`. -/
def skipBlanks (s : Bytes) (stop : Nat) : (fuel : Nat) → Nat → Res Nat
  | 0, _ => .abort
  | fuel + 1, i =>
    if i < stop then do
      let c ← charAt s i
      if c = blank then skipBlanks s stop fuel (inc8 i) else .ok i
    else .ok i

/-- The loop over the digits (`/repo/src/key.c:879-900`): signed overflow is undefined
behaviour. -/
def intLoop (s : Bytes) (stop : Nat) : (fuel : Nat) → Nat → Nat → Res Nat
  | 0, _, _ => .abort
  | fuel + 1, i, r =>
    if i < stop then do
      let c ← charAt s i
      if c = 0 then .ok r
      else if isDigit c = true then
        if r * 10 + digitVal c > int64Max then .ub
        else intLoop s stop fuel (inc8 i) (r * 10 + digitVal c)
      else if c = blank then .ok r
      else .err
    else .ok r

/-- `card_parse_int_width` (`/repo/src/key.c:852-905`) -/
def Card.parseInt (card : Card) (w : Nat) : Res Int := do
  let stop := card.cur + w
  let i ← skipBlanks card.string stop loopFuel card.cur
  if i = stop then .err
  else do
    let c ← charAt card.string i
    if c = 0 then .err
    else if c = minus then do
      let r ← intLoop card.string stop loopFuel (inc8 i) 0
      .ok (-(r : Int))
    else do
      let r ← intLoop card.string stop loopFuel i 0
      .ok (r : Int)

/-! ## Floating point numbers -/

/-- The arithmetic of `float` or `double` (or exact arithmetic): the operations the parser uses.
Code: `/repo/src/key.c:911-1317` (`float` and `double` operations). -/
structure Arith (α : Type) where
  ofNat : Nat → α
  neg : α → α
  add : α → α → α
  mul : α → α → α
  div : α → α → α
  /-- `pow(10, e)` -/
  pow10 : Int → α

/-- Auxiliary of the model, no code of its own. -/
inductive Step (α β : Type) where
  | ret (v : α)
  | cont (state : β)
deriving DecidableEq, Repr

/-- The integer part (`/repo/src/key.c:1162-1184`); `result *= sign` is `signed`. -/
def floatInt {α : Type} (A : Arith α) (s : Bytes) (stop : Nat) (signed : α → α) :
    (fuel : Nat) → Nat → α → Bool → Res (Step α (Nat × α × Bool))
  | 0, _, _, _ => .abort
  | fuel + 1, i, r, h =>
    if i < stop then do
      let c ← charAt s i
      if c = 0 ∨ c = dot ∨ isE c = true then .ok (.cont (i, r, h))
      else if isDigit c = true then
        floatInt A s stop signed fuel (inc8 i) (A.add (A.mul r (A.ofNat 10)) (A.ofNat (digitVal c))) true
      else if c = blank then .ok (.ret (signed r))
      else .err
    else .ok (.cont (i, r, h))

/-- The fraction (`/repo/src/key.c:1195-1221`): `fr` is `fraction`, `ex` is `exponent`. -/
def floatFrac {α : Type} (A : Arith α) (s : Bytes) (stop : Nat) (signed : α → α) (r : α) :
    (fuel : Nat) → Nat → α → α → Res (Step α (Nat × α × α))
  | 0, _, _, _ => .abort
  | fuel + 1, i, fr, ex =>
    if i < stop then do
      let c ← charAt s i
      if c = 0 ∨ isE c = true then .ok (.cont (i, fr, ex))
      else if isDigit c = true then
        floatFrac A s stop signed r fuel (inc8 i) (A.add (A.mul fr (A.ofNat 10)) (A.ofNat (digitVal c)))
          (A.mul ex (A.ofNat 10))
      else if c = blank then .ok (.ret (signed (A.add r (A.div fr ex))))
      else .err
    else .ok (.cont (i, fr, ex))

/-- Largest value of `int`. Code: `/repo/src/key.c:1130` (`int exponent_value`). -/
def intMax : Nat := 2147483647

/-- The exponent (`/repo/src/key.c:1259-1302`): overflow of `exponent_value` is undefined
behaviour; `none` is the end without a digit. -/
def floatExp (s : Bytes) (stop : Nat) : (fuel : Nat) → Nat → Nat → Bool → Res (Option Nat)
  | 0, _, _, _ => .abort
  | fuel + 1, i, e, h =>
    if i < stop then do
      let c ← charAt s i
      if c = 0 then .ok (if h = true then some e else none)
      else if isDigit c = true then
        if e * 10 + digitVal c > intMax then .ub
        else floatExp s stop fuel (inc8 i) (e * 10 + digitVal c) true
      else if c = blank then .ok (some e)
      else .err
    else .ok (if h = true then some e else none)

/-- The exponent part and the end (`/repo/src/key.c:1231-1316`): `frac` is the fraction divided by `exponent` if there
is a fraction. All paths of the program compute `result += fraction / exponent`, then multiply with the power of ten, then with
the sign. -/
def floatExponent {α : Type} (A : Arith α) (s : Bytes) (stop : Nat) (signed : α → α) (i : Nat) (r : α)
    (hasInt : Bool) (frac : Option α) : Res α := do
  let sum := match frac with
    | some f => A.add r f
    | none => r
  let c ← charAt s i
  if isE c = true then
    if hasInt = false then .err
    else do
      let i := inc8 i
      let c ← charAt s i
      let i' := if c = minus ∨ c = plus then inc8 i else i
      if i' = stop then .err
      else do
        let d ← charAt s i'
        if d = 0 ∨ d = blank then .err
        else do
          let e ← floatExp s stop loopFuel i' 0 false
          match e with
          | none => .err
          | some e => .ok (signed (A.mul sum (A.pow10 (if c = minus then -(e : Int) else e))))
  else .ok (signed sum)

/-- What follows behind the sign (`/repo/src/key.c:1162-1316`) -/
def floatBody {α : Type} (A : Arith α) (s : Bytes) (stop : Nat) (signed : α → α) (i : Nat) : Res α := do
  let st ← floatInt A s stop signed loopFuel i (A.ofNat 0) false
  match st with
  | .ret v => .ok v
  | .cont (i, r, h) =>
    if i = stop then .ok (signed r)
    else do
      let c ← charAt s i
      if c = 0 then .ok (signed r)
      else if c = dot then do
        let st ← floatFrac A s stop signed r loopFuel (inc8 i) (A.ofNat 0) (A.ofNat 1)
        match st with
        | .ret v => .ok v
        | .cont (i, fr, ex) =>
          if i = stop then .ok (signed (A.add r (A.div fr ex)))
          else do
            let c ← charAt s i
            if c = 0 then .ok (signed (A.add r (A.div fr ex)))
            else floatExponent A s stop signed i r h (some (A.div fr ex))
      else floatExponent A s stop signed i r h none

/-- `card_parse_float32_width` (`/repo/src/key.c:911-1111`) and `card_parse_float64_width` (`/repo/src/key.c:1117-1317`),
which are the same program for `float` and for `double`. -/
def Card.parseFloat {α : Type} (A : Arith α) (card : Card) (w : Nat) : Res α := do
  let stop := card.cur + w
  let s := card.string
  let i ← skipBlanks s stop loopFuel card.cur
  if i = stop then .err
  else do
    let c ← charAt s i
    if c = 0 then .err
    else do
      let signed : α → α := fun v => if c = minus then A.mul v (A.neg (A.ofNat 1)) else A.mul v (A.ofNat 1)
      let i := if c = minus ∨ c = plus then inc8 i else i
      if i = stop then .err
      else do
        let c ← charAt s i
        if c = 0 ∨ c = blank then .err
        else floatBody A s stop signed i

/-! ## Strings -/

/-- `memcpy` of `n` bytes of the card from position `i` on (with the terminator).
Code: `/repo/src/key.c:1355-1368`. -/
def copyChars (s : Bytes) (i n : Nat) : Res Bytes :=
  if i + n ≤ (s ++ [0]).length then .ok (((s ++ [0]).drop i).take n) else .ub

/-- The content of a C string up to the terminator.
Code: `/repo/src/key.c:1355-1360` (strings that are returned). -/
def cString (s : Bytes) : Bytes := s.takeWhile (· ≠ 0)

/-- The first loop (`/repo/src/key.c:1330-1334`); the counter ends at the width, so it does not
wrap. -/
def strSkip (s : Bytes) (cur w : Nat) : (fuel : Nat) → Nat → Res Nat
  | 0, _ => .abort
  | fuel + 1, i =>
    if i < w then do
      let c ← charAt s (i + cur)
      if c ≠ 0 ∧ c = blank then strSkip s cur w fuel (inc8 i) else .ok i
    else .ok i

/-- The second loop (`/repo/src/key.c:1346-1352`) -/
def strEnd (s : Bytes) (cur w : Nat) : (fuel : Nat) → Nat → Nat → Res Nat
  | 0, _, _ => .abort
  | fuel + 1, i, e =>
    if i < w then do
      let c ← charAt s (i + cur)
      if c ≠ 0 then strEnd s cur w fuel (inc8 i) (if c ≠ blank then i else e) else .ok e
    else .ok e

/-- `card_parse_string_width` (`/repo/src/key.c:1327-1360`): the C string that is returned. -/
def Card.parseString (card : Card) (w : Nat) : Res Bytes := do
  let i ← strSkip card.string card.cur w loopFuel 0
  if i = w then .ok []
  else do
    let c ← charAt card.string (i + card.cur)
    if c = 0 then .ok []
    else do
      let e ← strEnd card.string card.cur w loopFuel i i
      let t ← copyChars card.string (i + card.cur) (e - i + 1)
      .ok (cString t)

/-- `card_parse_string_width_no_trim` (`/repo/src/key.c:1362-1370`) -/
def Card.parseStringNoTrim (card : Card) (w : Nat) : Res Bytes := do
  let t ← copyChars card.string card.cur w
  .ok (cString t)

/-- The first loop of `card_parse_whole` (`/repo/src/key.c:1375-1378`); the counter is a `size_t`, so
`length + 2` iterations are enough. -/
def wholeSkip (s : Bytes) : (fuel : Nat) → Nat → Res Nat
  | 0, _ => .abort
  | fuel + 1, i => do
    let c ← charAt s i
    if c = blank then wholeSkip s fuel (i + 1) else .ok i

/-- The second loop of `card_parse_whole` (`/repo/src/key.c:1382-1388`) -/
def wholeEnd (s : Bytes) : (fuel : Nat) → Nat → Nat → Res Nat
  | 0, _, _ => .abort
  | fuel + 1, i, e => do
    let c ← charAt s i
    if c ≠ 0 then wholeEnd s fuel (i + 1) (if c ≠ blank then i else e) else .ok e

/-- `card_parse_whole` (`/repo/src/key.c:1372-1395`) -/
def Card.parseWhole (card : Card) : Res Bytes := do
  let i ← wholeSkip card.string (card.string.length + 2) 0
  let e ← wholeEnd card.string (card.string.length + 2) i i
  let t ← copyChars card.string i (e - i + 1)
  .ok (cString t)

/-! ## Type -/

/-- `card_parse_type` (`/repo/src/key.h`) Code: `/repo/src/key.h:38-42`. -/
inductive FieldType where
  | int
  | float
  | string
deriving DecidableEq, Repr

/-- The loop over leading blanks (`/repo/src/key.c:1422-1424`): it reads before it compares with the
width. -/
def typeBlanks (s : Bytes) (stop : Nat) : (fuel : Nat) → Nat → Res Nat
  | 0, _ => .abort
  | fuel + 1, i => do
    let c ← charAt s i
    if c = blank ∧ i < stop then typeBlanks s stop fuel (inc8 i) else .ok i

/-- The loops over digits (`/repo/src/key.c:1447-1450`, `:1468-1471`, `:1492-1495`, `:1516-1519`) -/
def typeDigits (s : Bytes) (stop : Nat) : (fuel : Nat) → Nat → Res Nat
  | 0, _ => .abort
  | fuel + 1, i => do
    let c ← charAt s i
    if isDigit c = true ∧ i < stop then typeDigits s stop fuel (inc8 i) else .ok i

/-- The exponent (`/repo/src/key.c:1480-1500` and `:1504-1527`) -/
def typeExponent (s : Bytes) (stop i : Nat) : Res FieldType := do
  let i := inc8 i
  let c ← charAt s i
  let i := if c = plus ∨ c = minus then inc8 i else i
  if i = stop then .ok .string
  else do
    let c ← charAt s i
    if isDigit c = false then .ok .string
    else do
      let i ← typeDigits s stop loopFuel i
      let c ← charAt s i
      if c = 0 ∨ c = blank ∨ i = stop then .ok .float else .ok .string

/-- `card_parse_get_type_width` (`/repo/src/key.c:1410-1530`). `(i - current_index) < value_width` is a comparison of
`int`. -/
def Card.getType (card : Card) (w : Nat) : Res FieldType :=
  let s := card.string
  let stop := card.cur + w
  if w = 0 then .ok .string
  else do
    let i ← typeBlanks s stop loopFuel card.cur
    let c ← charAt s i
    if c = 0 ∨ i = stop then .ok .string
    else do
      -- the sign and the first digit
      let start ← (if c = plus ∨ c = minus then
          if inc8 i = stop then .ok none
          else do
            let d ← charAt s (inc8 i)
            .ok (if isDigit d = true then some (inc8 i) else none)
        else .ok (if isDigit c = true then some (inc8 i) else none) : Res (Option Nat))
      match start with
      | none => .ok .string
      | some i => do
        let i ← typeDigits s stop loopFuel i
        let c ← charAt s i
        if c = 0 ∨ c = blank ∨ i = stop then .ok .int
        else if c = dot then
          let i := inc8 i
          if i = stop then .ok .string
          else do
            let d ← charAt s i
            if isDigit d = false then .ok .string
            else do
              let i ← typeDigits s stop loopFuel i
              let c ← charAt s i
              if c = 0 ∨ c = blank ∨ i = stop then .ok .float
              else if isE c = true then typeExponent s stop i
              else .ok .string
        else if isE c = true then typeExponent s stop i
        else .ok .string

/-! ## Emptiness -/

/-- The loop of `card_parse_is_empty_width` (`/repo/src/key.c:1545-1556`) -/
def emptyLoop (s : Bytes) (stop : Nat) : (fuel : Nat) → Nat → Res Bool
  | 0, _ => .abort
  | fuel + 1, i =>
    if i < stop then do
      let c ← charAt s i
      if c = 0 then .ok true
      else if c ≠ blank then .ok false
      else emptyLoop s stop fuel (inc8 i)
    else .ok true

/-- `card_parse_is_empty_width` (`/repo/src/key.c:1541-1561`) -/
def Card.isEmpty (card : Card) (w : Nat) : Res Bool :=
  emptyLoop card.string (card.cur + w) loopFuel card.cur

end Dyna.Card
