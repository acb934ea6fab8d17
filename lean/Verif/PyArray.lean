import Verif.CppArray
import Verif.CStr
/-!
# Arrays and strings in Python (`/repo/src/python/conversions.hpp`)

The classes that `add_array_type_to_module` and `add_array_to_module` define. A Python exception
(`py::index_error`, `py::type_error`, `py::cast_error`, …) is `Res.err`. pybind11 itself is not
modelled: the functions here start when the arguments are converted.
-/

namespace Dyna.Py

open Dyna Dyna.Cpp

/-- A Python `str`: the UTF-8 bytes of every character. `py::len` of the `str` counts characters and
`py::len` of the `py::bytes` made of it counts bytes (`/repo/src/python/conversions.hpp:83-85`,
`/repo/src/python/conversions.hpp:124-126`). -/
structure PyStr where
  chars : List Bytes

/-- `py::bytes(other_str)`. Code: `/repo/src/python/conversions.hpp:124-125`. -/
def PyStr.bytes (s : PyStr) : Bytes := s.chars.flatten

/-- What the operand of an operator can be (`/repo/src/python/conversions.hpp:82,102,123,144`). The items of a
list or tuple are given by what `cast<T>` makes of them, nothing if it throws. -/
inductive Obj (α : Type) where
  | str (s : PyStr)
  | seq (items : List (Option α))
  | other

/-- `other_bytes[py::int_(i)]`: `IndexError` behind the end. Code:
`/repo/src/python/conversions.hpp:131`. -/
def byteAt (o : Bytes) (i : Nat) : Res Nat :=
  match o[i]? with
  | some b => .ok b
  | _ => .err

/-- `array_getitem` (`/repo/src/python/conversions.hpp:111-117`): `operator[]`, its exception becomes
`IndexError`. -/
def getitem {α : Type} (a : Arr α) (index : Nat) : Res α := a.at index

/-- `for x in array`: Python calls `__getitem__` with 0, 1, … until `IndexError`. Code:
`/repo/src/python/conversions.hpp:111-117,257-258`. -/
def iterFrom {α : Type} (a : Arr α) : (fuel i : Nat) → Res (List α)
  | 0, _ => .abort
  | fuel + 1, i =>
    match getitem a i with
    | .ok x => do
      let r ← iterFrom a fuel (i + 1)
      return x :: r
    | .err => .ok []
    | .ub => .ub
    | .abort => .abort

/-- The loop of the comparison with a `str` (`/repo/src/python/conversions.hpp:130-138`), `n` iterations left. -/
def textEqLoop (a : Arr Nat) (o : Bytes) : (n i : Nat) → Res Bool
  | 0, _ => .ok true
  | n + 1, i => do
    let b ← byteAt o i
    let x ← a.at i
    if x ≠ b then return false else textEqLoop a o n (i + 1)

/-- `array_equals<T>` for `int8_t`, `uint8_t` and `char` (`/repo/src/python/conversions.hpp:119-142`): the loop
runs to `self.size() - 1`. Characters are compared as bytes. -/
def textEquals (a : Arr Nat) : Obj Nat → Res Bool
  | .str s =>
    if a.size ≠ s.bytes.length then .ok false
    else textEqLoop a s.bytes (sub64 a.size 1) 0
  | _ => .ok false

/-- The loop of the comparison with a list or tuple (`/repo/src/python/conversions.hpp:153-159`). -/
def seqEqLoop {α : Type} [DecidableEq α] (a : Arr α) (items : List (Option α)) : (n i : Nat) → Res Bool
  | 0, _ => .ok true
  | n + 1, i => do
    let x ← a.at i
    match items[i]? with
    | some (some y) => if x ≠ y then return false else seqEqLoop a items n (i + 1)
    | _ => .err

/-- `array_equals<T>` for the other integers and the floats (`/repo/src/python/conversions.hpp:144-163`). -/
def numEquals {α : Type} [DecidableEq α] (a : Arr α) : Obj α → Res Bool
  | .seq items => if a.size ≠ items.length then .ok false else seqEqLoop a items a.size 0
  | _ => .ok false

/-- `strncmp` over the cells of two pointers, as bytes. Code:
`/repo/src/python/conversions.hpp:170-172`. -/
def strncmp : (n : Nat) → (p q : Bytes) → Res Int
  | 0, _, _ => .ok 0
  | _ + 1, [], _ => .ub
  | _ + 1, _ :: _, [] => .ub
  | n + 1, c :: p, d :: q =>
    if c ≠ d then .ok ((c : Int) - d) else if c = 0 then .ok 0 else strncmp n p q

/-- `array_less_than<T>` for texts (`/repo/src/python/conversions.hpp:165-181`). -/
def lessThan (a b : Arr Nat) : Res Bool :=
  if a.size ≤ b.size then do return decide ((← strncmp a.size a.mem b.mem) < 0)
  else do return decide ((← strncmp b.size b.mem a.mem) > 0)

/-- `array_greater_than<T>` for texts (`/repo/src/python/conversions.hpp:183-199`). -/
def greaterThan (a b : Arr Nat) : Res Bool :=
  if a.size ≤ b.size then do return decide ((← strncmp a.size a.mem b.mem) > 0)
  else do return decide ((← strncmp b.size b.mem a.mem) < 0)

/-- The array over the characters of a `String` that its operators make
(`/repo/src/python/conversions.hpp:342,348,360,366,384`). -/
def view (mem : Bytes) : Res (Arr Nat) := do return ⟨mem, ← strSize mem⟩

/-- `array_setitem<char>` with a `str` (`/repo/src/python/conversions.hpp:80-101`). -/
def setChar (a : Arr Nat) (index : Nat) (s : PyStr) : Res (Arr Nat) :=
  if s.chars.length = 1 then do
    let b ← byteAt s.bytes 0
    a.set index b
  else .err

/-- `String(obj)` for a `str` (`/repo/src/python/conversions.hpp:298-308`): the memory of the new object. -/
def newString (s : PyStr) : Bytes := s.bytes ++ [0]

/-- `SizedString(obj)` for a `str` (`/repo/src/python/conversions.hpp:410-419`). -/
def newSized (s : PyStr) : Arr Nat := ⟨s.bytes, s.bytes.length⟩

/-- The loop over a list or tuple of characters (`/repo/src/python/conversions.hpp:313-331`,
`/repo/src/python/conversions.hpp:424-442`). An item that is no `str` is nothing. -/
def joinChars : List (Option PyStr) → Res Bytes
  | [] => .ok []
  | some s :: rest =>
    match s.bytes with
    | [b] => do return b :: (← joinChars rest)
    | _ => .err
  | _ :: _ => .err

/-- `String(obj)` for a list or tuple (`/repo/src/python/conversions.hpp:309-334`). -/
def stringOfSeq (items : List (Option PyStr)) : Res Bytes := do return (← joinChars items) ++ [0]

/-- `SizedString(obj)` for a list or tuple (`/repo/src/python/conversions.hpp:420-444`). -/
def sizedOfSeq (items : List (Option PyStr)) : Res (Arr Nat) := do
  let b ← joinChars items
  return ⟨b, b.length⟩

end Dyna.Py
