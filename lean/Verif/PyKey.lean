import Verif.CppKey
/-!
# Keywords of a key file in Python

Model of the Python classes `Keywords`, `KeywordSlice` and `Keyword` (`/repo/src/python/pybind11_key.cpp:126-148`):
`len`, indexing and loops. The lifetime of the objects is the subject of `KeyOwn`. pybind11 itself is not modelled but
what it does is written down here: an argument that does not fit to the parameter of the C++ function is a
`TypeError`, and `std::runtime_error` and `std::exception` become `RuntimeError`.
-/

namespace Dyna.PyKey

open Dyna

/-- An argument in square brackets. Code: `/repo/src/python/pybind11_key.cpp:126-148` (parameters of `__getitem__`). -/
inductive Arg where
  | int (i : Int)
  | str (s : Bytes)
  | other
deriving DecidableEq, Repr

/-- Exceptions of Python. Code: `/repo/src/python/pybind11_key.cpp:126-148` (what the bound functions raise). -/
inductive PyExn where
  | index
  | runtime
  | type
deriving DecidableEq, Repr

/-- The result of an expression. Code: `/repo/src/python/pybind11_key.cpp:126-148`. -/
inductive Got (α : Type) where
  | val (a : α)
  | raised (e : PyExn)
deriving DecidableEq, Repr

/-- The argument of a parameter of type `size_t`: a number that is not negative and fits.
Code: `/repo/src/cpp/key.hpp:192` and :253 (the parameters). -/
def sizeArg : Arg → Option Nat
  | .int i => if 0 ≤ i ∧ i < u64 then some i.toNat else none
  | _ => none

/-- `keywords[name]`: start and size of the slice. Code: `/repo/src/cpp/key.cpp:202-212`,
`/repo/src/python/pybind11_key.cpp:129-130`. -/
def keywordsItem (names : List Bytes) : Arg → Res (Got (Nat × Nat))
  | .str name => do
    let r ← keywordsSlice names name
    match r with
    | none => .ok (.raised .runtime)
    | some s => .ok (.val s)
  | _ => .ok (.raised .type)

/-- The call of `operator[]` with a converted argument. Code: `/repo/src/python/pybind11_key.cpp:136-144`; the bodies of
both operators throw `std::runtime_error`, `/repo/src/cpp/key.cpp:168-185`. -/
def callIndex {α : Type} (f : Nat → Option α) : Option Nat → Got α
  | none => .raised .type
  | some i =>
    match f i with
    | none => .raised .runtime
    | some k => .val k

/-- `slice[i]`. Code: `/repo/src/cpp/key.cpp:179-185`, `/repo/src/python/pybind11_key.cpp:136-137`. -/
def sliceItem (s : Nat × Nat) (a : Arg) : Got Nat := callIndex (sliceIndex s.1 s.2) (sizeArg a)

/-- `keyword[j]`: the index of the card. Code: `/repo/src/cpp/key.cpp:168-174`,
`/repo/src/python/pybind11_key.cpp:143-144`. -/
def keywordItem (numCards : Nat) (a : Arg) : Got Nat := callIndex (cardIndex numCards) (sizeArg a)

/-- `for x in object` for an object with `__getitem__` and without `__iter__`: Python calls `__getitem__` with 0, 1, …
until `IndexError`; another exception leaves the loop. The result are the visited objects and that exception; `none`:
more than `fuel` iterations. Code: `/repo/src/python/pybind11_key.cpp:126-148` (no `__iter__`). -/
def forLoop {α : Type} (item : Arg → Got α) : (fuel i : Nat) → Option (List α × Option PyExn)
  | 0, _ => none
  | fuel + 1, i =>
    match item (.int i) with
    | .raised .index => some ([], none)
    | .raised e => some ([], some e)
    | .val a => do
      let r ← forLoop item fuel (i + 1)
      some (a :: r.1, r.2)

/-- `[object[i] for i in range(len(object))]`. Code: `/repo/src/python/pybind11_key.cpp:126-148` (`__len__` and
`__getitem__`). -/
def allItems {α : Type} (item : Arg → Got α) (len : Nat) : List (Got α) :=
  (List.range len).map fun (i : Nat) => item (.int i)

end Dyna.PyKey
