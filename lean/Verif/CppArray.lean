import Verif.Common
/-!
# The C++ wrappers `Array`, `String` and `SizedString` (`/repo/src/cpp/array.hpp`)

`m_data` is modelled by the list of the cells that can be read through the pointer; reading
any other cell is undefined behaviour. A `throw` is `Res.err`; a `throw` that leaves a function
declared `noexcept` calls `std::terminate` and is `Res.abort`.
-/

namespace Dyna.Cpp

open Dyna

/-- `Array<T>` (`/repo/src/cpp/array.hpp:157-160`): the cells behind `m_data` and `m_size`. -/
structure Arr (α : Type) where
  mem : List α
  size : Nat

/-- `m_data[i]` of a raw pointer. Code: `/repo/src/cpp/array.hpp:338` (all accesses to `m_data`). -/
def cell {α : Type} (mem : List α) (i : Nat) : Res α := .ofOption mem[i]?

/-- `Array<T>::operator[]`, both versions (`/repo/src/cpp/array.hpp:333-347`):
`empty() || index > m_size - 1` throws. -/
def Arr.at {α : Type} (a : Arr α) (index : Nat) : Res α :=
  if a.size = 0 ∨ index > sub64 a.size 1 then .err else cell a.mem index

/-- A write through the reference returned by `operator[]` (`/repo/src/cpp/array.hpp:333-339`). -/
def Arr.set {α : Type} (a : Arr α) (index : Nat) (v : α) : Res (Arr α) := do
  let _ ← a.at index
  return ⟨a.mem.set index v, a.size⟩

/-- A range `for` over the array (`/repo/src/cpp/array.hpp:152-155` with `operator!=`, `operator++` and
`operator*` of the iterators, `/repo/src/cpp/array.hpp:56-74,94-114`): `n` iterations are left. -/
def Arr.iterFrom {α : Type} (a : Arr α) : (n i : Nat) → Res (List α)
  | 0, _ => .ok []
  | n + 1, i => do
    let x ← cell a.mem i
    let r ← a.iterFrom n (i + 1)
    return x :: r

/-- The values visited by `for (auto v : array)`. Code: `/repo/src/cpp/array.hpp:152-155`. -/
def Arr.iter {α : Type} (a : Arr α) : Res (List α) := a.iterFrom a.size 0

/-- The loop of `Array<T>::operator==(const Array<T> &)` (`/repo/src/cpp/array.hpp:410-423`) and of
`SizedString::operator==(const SizedString &)` (`/repo/src/cpp/array.hpp:234-246`) from index `i` on, `n`
iterations left. -/
def eqLoop {α : Type} [DecidableEq α] (p q : List α) : (n i : Nat) → Res Bool
  | 0, _ => .ok true
  | n + 1, i => do
    let x ← cell p i
    let y ← cell q i
    if x ≠ y then return false else eqLoop p q n (i + 1)

/-- `Array<T>::operator==(const Array<T> &)` (`/repo/src/cpp/array.hpp:410-423`),
`SizedString::operator==(const SizedString &)` (`/repo/src/cpp/array.hpp:234-246`). -/
def Arr.eq {α : Type} [DecidableEq α] (a b : Arr α) : Res Bool :=
  if a.size ≠ b.size then .ok false else eqLoop a.mem b.mem a.size 0

/-- `strlen`. Code: `/repo/src/cpp/array.hpp:173`. -/
def strlenFrom : (mem : Bytes) → Res Nat
  | [] => .ub
  | c :: r => if c = 0 then .ok 0 else do return (← strlenFrom r) + 1

/-- `String::size` (`/repo/src/cpp/array.hpp:173`). -/
def strSize (mem : Bytes) : Res Nat := strlenFrom mem

/-- `String::empty` (`/repo/src/cpp/array.hpp:174`). -/
def strEmpty (mem : Bytes) : Res Bool := do return (← cell mem 0) == 0

/-- `String::str` (`/repo/src/cpp/array.hpp:176`): the `std::string` constructor copies up to the NUL. -/
def strStr : (mem : Bytes) → Res Bytes
  | [] => .ub
  | c :: r => if c = 0 then .ok [] else do return c :: (← strStr r)

/-- Loop of `String::operator[]` (`/repo/src/cpp/array.hpp:349-367`) with the pointer advanced to position
`i`; `k` is `index - i`. -/
def strAtLoop : (mem : Bytes) → (k : Nat) → Res Nat
  | [], _ => .ub
  | c :: r, k => if c = 0 then .err else if k = 0 then .ok c else strAtLoop r (k - 1)

/-- `String::operator[]` (`/repo/src/cpp/array.hpp:349-367`). -/
def strAt (mem : Bytes) (index : Nat) : Res Nat := strAtLoop mem index

/-- `String::operator==(const char *)` (`/repo/src/cpp/array.hpp:178-186`) and
`String::operator==(const String &)` (`/repo/src/cpp/array.hpp:188-197`), both pointers advanced together. -/
def strEq : (mem other : Bytes) → Res Bool
  | [], _ => .ub
  | _ :: _, [] => .ub
  | c :: r, d :: s =>
    if c ≠ 0 ∧ d ≠ 0 then
      if c ≠ d then .ok false else strEq r s
    else .ok (c == 0 && d == 0)

/-- `std::string::c_str`: the characters (which may contain NUL) and a terminator.
Code: `/repo/src/cpp/array.hpp:200`. -/
def cStr (s : Bytes) : Bytes := s ++ [0]

/-- `String::operator==(const std::string &)` (`/repo/src/cpp/array.hpp:199-201`). -/
def strEqStd (mem : Bytes) (s : Bytes) : Res Bool := strEq mem (cStr s)

/-- `SizedString::str` (`/repo/src/cpp/array.hpp:212-217`), also `Array<char>::str` (`/repo/src/cpp/array.hpp:388-392`). -/
def sizedStr (a : Arr Nat) : Res Bytes := if a.size = 0 then .ok [] else a.iter

/-- Loop of `SizedString::operator==(const char *)` (`/repo/src/cpp/array.hpp:219-232`) with both pointers
advanced; `n` is `m_size - i`. -/
def sizedEqLoop : (mem : Bytes) → (n : Nat) → (other : Bytes) → Res Bool
  | _, _, [] => .ub
  | _, 0, d :: _ => .ok (d == 0)
  | mem, n + 1, d :: s =>
    if d = 0 then .ok false
    else match mem with
      | [] => .ub
      | c :: r => if c ≠ d then .ok false else sizedEqLoop r n s

/-- `SizedString::operator==(const char *)` (`/repo/src/cpp/array.hpp:219-232`), also
`Array<char>::operator==(const char *)` (`/repo/src/cpp/array.hpp:394-400`). -/
def sizedEq (a : Arr Nat) (other : Bytes) : Res Bool :=
  if a.size = 0 then do return (← cell other 0) == 0 else sizedEqLoop a.mem a.size other

/-- `SizedString::operator==(const std::string &)` (`/repo/src/cpp/array.hpp:248-250`), also
`Array<char>::operator==(const std::string &)` (`/repo/src/cpp/array.hpp:402-408`). -/
def sizedEqStd (a : Arr Nat) (s : Bytes) : Res Bool := sizedEq a (cStr s)

/-- Value of a `char` (signed on the modelled platform) converted to `size_t`.
Code: `/repo/src/cpp/array.hpp:255`. -/
def charToSize (c : Nat) : Nat := if c < 128 then c else u64 - (256 - c)

/-- Loop of `operator==(const String &, const SizedString &)` (`/repo/src/cpp/array.hpp:253-262`). The
condition `i < str1.data()[i] != '\0' && i < str2.size()` parses as
`((i < str1.data()[i]) != 0) && i < str2.size()`: position `i` is compared with the character.
`str1[i]` is `String::operator[]`, whose exception would end the program (`noexcept`). -/
def mixedEqLoop (mem : Bytes) (a : Arr Nat) : (fuel i : Nat) → Res Bool
  | 0, _ => .abort
  | fuel + 1, i => do
    let c ← cell mem i
    if i < charToSize c ∧ i < a.size then
      match strAt mem i with
      | .err => .abort
      | .ub => .ub
      | .abort => .abort
      | .ok x => match a.at i with
        | .err => .abort
        | .ub => .ub
        | .abort => .abort
        | .ok y => if x ≠ y then return false else mixedEqLoop mem a fuel (i + 1)
    else return (i == a.size && c == 0)

/-- `operator==(const String &, const SizedString &)` and
`operator==(const SizedString &, const String &)` (`/repo/src/cpp/array.hpp:253-266`); the loop runs at most
`size` times. -/
def mixedEq (mem : Bytes) (a : Arr Nat) : Res Bool := mixedEqLoop mem a (a.size + 1) 0

end Dyna.Cpp
