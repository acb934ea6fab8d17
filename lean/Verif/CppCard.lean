import Verif.Card
/-!
# The card functions of the C++ interface

Model of `Card::parse<T>` and of the four `parse_whole` functions of `/repo/src/cpp/key.hpp:389-545` on top of the C functions
(`Verif/Card.lean`). An exception is `none`; its text is not modelled (it is shorter than the 1024 bytes of its memory). `errno` is
not looked at by the C++ code: a field without a number has the value 0 that the C function returns with the error.
`float` and `double` are any two arithmetics.
-/

namespace Dyna.Card

/-- The integral types `T` of `Card::parse<T>` (`/repo/src/cpp/key.hpp:394`); `char` is `i8`. -/
inductive IntT where
  | bool
  | i8
  | i16
  | i32
  | i64
  | u8
  | u16
  | u32
  | u64
deriving DecidableEq, Repr

/-- `std::is_unsigned_v<T>` (`/repo/src/cpp/key.hpp:396`). -/
def IntT.unsigned : IntT → Bool
  | .bool | .u8 | .u16 | .u32 | .u64 => true
  | _ => false

/-- `std::numeric_limits<T>::min()` (`/repo/src/cpp/key.hpp:401`). -/
def IntT.min : IntT → Int
  | .i8 => -128
  | .i16 => -32768
  | .i32 => -2147483648
  | .i64 => -9223372036854775808
  | _ => 0

/-- `std::numeric_limits<T>::max()` (`/repo/src/cpp/key.hpp:407`). -/
def IntT.max : IntT → Int
  | .bool => 1
  | .i8 => 127
  | .i16 => 32767
  | .i32 => 2147483647
  | .i64 => 9223372036854775807
  | .u8 => 255
  | .u16 => 65535
  | .u32 => 4294967295
  | .u64 => 18446744073709551615

/-- `static_cast<T>(value)` (`/repo/src/cpp/key.hpp:413`): modulo 2^N; to `bool` it is `value != 0`. -/
def IntT.cast (T : IntT) (v : Int) : Int :=
  match T with
  | .bool => if v = 0 then 0 else 1
  | .i8 => v.bmod 256
  | .i16 => v.bmod 65536
  | .i32 => v.bmod 4294967296
  | .i64 => v.bmod 18446744073709551616
  | .u8 => v % 256
  | .u16 => v % 65536
  | .u32 => v % 4294967296
  | .u64 => v % 18446744073709551616

/-- What a C function returns if `errno` is not looked at: 0 with an error
(`/repo/src/key.c:864-869`, `:890-897`, `:933-939`, `:1139-1145`). -/
def ignoreErrno {α : Type} (zero : α) : Res α → Res α
  | .err => .ok zero
  | r => r

/-- `Card::parse<T>` for integral types (`/repo/src/cpp/key.hpp:393-413`). -/
def Card.parseIntAs (card : Card) (T : IntT) (w : Nat) : Res (Option Int) := do
  let v ← ignoreErrno 0 (card.parseInt w)
  if v < 0 ∧ T.unsigned = true then .ok none
  else if v < 0 ∧ v < T.min then .ok none
  else if v > 0 ∧ v > T.max then .ok none
  else .ok (some (T.cast v))

/-- The types a card can be parsed as (`/repo/src/cpp/key.hpp:394-452`). The string types differ in the ownership of the
memory only. -/
inductive Kind where
  | int (T : IntT)
  | float32
  | float64
  | string
deriving DecidableEq, Repr

/-- A value of one of these types. Code: `/repo/src/cpp/key.hpp:394-452`. -/
inductive Value (α β : Type) where
  | int (v : Int)
  | float32 (v : α)
  | float64 (v : β)
  | string (s : Bytes)
deriving DecidableEq, Repr

/-- `Card::parse<T>(value_width)` (`/repo/src/cpp/key.hpp:393-452`). -/
def Card.parseAs {α β : Type} (A : Arith α) (B : Arith β) (card : Card) (w : Nat) : Kind → Res (Option (Value α β))
  | .int T => do
    let v ← card.parseIntAs T w
    .ok (v.map .int)
  | .float32 => do
    let v ← ignoreErrno (A.ofNat 0) (card.parseFloat A w)
    .ok (some (.float32 v))
  | .float64 => do
    let v ← ignoreErrno (B.ofNat 0) (card.parseFloat B w)
    .ok (some (.float64 v))
  | .string => do
    let t ← card.parseString w
    .ok (some (.string t))

/-- `empty_value<T>` (`/repo/src/cpp/key.hpp:370-387`). -/
def Kind.empty {α β : Type} (A : Arith α) (B : Arith β) : Kind → Value α β
  | .int _ => .int 0
  | .float32 => .float32 (A.ofNat 0)
  | .float64 => .float64 (B.ofNat 0)
  | .string => .string []

/-- `DEFAULT_VALUE_WIDTH` (`/repo/src/key.h:33`). -/
def defaultWidth : Nat := 10

/-- The width of a field: `parse_whole` without widths uses the one of the card (`/repo/src/cpp/key.hpp:464-470`), with widths 0
stands for the default (`/repo/src/cpp/key.hpp:486-488`). -/
def fieldWidth (card : Card) : Option Nat → Nat
  | none => card.width
  | some w => if w = 0 then defaultWidth else w

/-- One field of `parse_whole` (`/repo/src/cpp/key.hpp:461-471`, `:483-498`, `:505-514`, `:527-541`): the value (`none` for an exception)
and the card advanced to the next field. -/
def Card.parseField {α β : Type} (A : Arith α) (B : Arith β) (card : Card) (k : Kind) (width : Option Nat) :
    Res (Option (Value α β × Card)) := do
  let w := fieldWidth card width
  let e ← card.isEmpty w
  let v ← (if e = true then .ok (some (k.empty A B)) else card.parseAs A B w k : Res (Option (Value α β)))
  match v with
  | none => .ok none
  | some v => do
    let card' ← card.nextWidth w
    .ok (some (v, card'))

/-- The fields from left to right: the values that have been parsed, and whether there was no exception.
Code: `/repo/src/cpp/key.hpp:460-473`, `:482-500`, `:505-516`, `:527-542`. -/
def Card.parseFields {α β : Type} (A : Arith α) (B : Arith β) :
    Card → List (Kind × Option Nat) → Res (List (Value α β) × Bool)
  | _, [] => .ok ([], true)
  | card, (k, w) :: fs => do
    match ← card.parseField A B k w with
    | none => .ok ([], false)
    | some (v, card') => do
      let (vs, ok) ← card'.parseFields A B fs
      .ok (v :: vs, ok)

/-- `Card::parse_whole(T &...)` and `Card::parse_whole<T...>()` (`/repo/src/cpp/key.hpp:456-473`, `:502-518`). The second one returns
nothing with an exception, the first one has assigned the values before. -/
def Card.parseWholeAs {α β : Type} (A : Arith α) (B : Arith β) (card : Card) (ks : List Kind) :
    Res (List (Value α β) × Bool) :=
  (card.begin defaultWidth).parseFields A B (ks.map fun k => (k, none))

/-- `Card::parse_whole_width` and `Card::parse_whole<T...>(value_widths)` (`/repo/src/cpp/key.hpp:475-500`, `:520-544`). -/
def Card.parseWholeWidths {α β : Type} (A : Arith α) (B : Arith β) (card : Card) (ks : List (Kind × Nat)) :
    Res (List (Value α β) × Bool) :=
  (card.begin defaultWidth).parseFields A B (ks.map fun k => (k.1, some k.2))

end Dyna.Card
