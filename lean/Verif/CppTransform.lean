import Verif.Common
/-!
# `IncludeTransform` and `DefineTransformation` objects

Models the memory behind the texts of the two classes (`/repo/src/cpp/include_transform.cpp`), which both wrap a C structure with
pointers. What is parsed is given: texts and numbers (see `IncludeTransform.lean`). The heap is the list of all blocks ever
allocated, a pointer is an index into it. Simplification: the array of options with all its names and parameters is one block.
-/

namespace Dyna.TransformObj

open Dyna

/-- Contents of a block: one text, or one element (name and parameters) per option (`/repo/src/include_transform.h:83-96`). -/
abbrev Text := List Bytes

/-- A block of memory (`/repo/src/string_builder.c:110-119`). -/
structure Block where
  live : Bool
  text : Text
deriving DecidableEq, Repr

/-- Auxiliary: all blocks. -/
abbrev Heap := List Block

/-- Value of a pointer member; `junk` is what an uninitialised member holds (`/repo/src/include_transform.h:48-96`). -/
inductive Ptr where
  | null
  | junk
  | at (p : Nat)
deriving DecidableEq, Repr

/-- How a class treats one of its pointers (`/repo/src/cpp/include_transform.cpp:30-42, 92-109`). -/
structure Field where
  /-- the destructor frees it (`/repo/src/include_transform.c:210-241`) -/
  freed : Bool
  /-- the copy duplicates it without looking whether it is null (`/repo/src/cpp/include_transform.cpp:33`) -/
  always : Bool
  /-- it is the array of options: parsing a card appends to it (`/repo/src/include_transform.c:202-205`), and copying sets the new
  pointer before it reads the elements (`/repo/src/cpp/include_transform.cpp:98-107`) -/
  array : Bool
deriving DecidableEq, Repr

/-- A class: its pointers, and whether the copy starts with a plain copy of the structure
(`/repo/src/cpp/include_transform.cpp:32` and `94-109`). -/
structure Class where
  fields : Nat
  field : Nat → Field
  shallow : Bool

/-- Pointers 0-3: `file_name`, `prefix`, `suffix`, `fcttem` (`/repo/src/cpp/include_transform.cpp:30-42`; the last one is not freed,
`/repo/src/include_transform.c:210-226`). -/
def includeTransform : Class :=
  ⟨4, fun k => ⟨decide (k < 3), decide (k = 0), false⟩, true⟩

/-- Pointers 0-1: `title`, `options` (`/repo/src/cpp/include_transform.cpp:92-109`, `/repo/src/include_transform.c:228-241`). -/
def defineTransformation : Class :=
  ⟨2, fun k => ⟨true, false, decide (k = 1)⟩, false⟩

/-- An object: all members that are no pointers, and the pointers (`/repo/src/include_transform.h:48-96`). -/
structure Obj where
  num : List Int
  ptr : Nat → Ptr

/-- Auxiliary: memory and objects by name. -/
structure State where
  heap : Heap
  obj : Nat → Option Obj

/-- What a program sees: a number or a text (none: null pointer). Code: the getters, `/repo/src/cpp/include_transform.hpp:27-49`. -/
inductive Seen where
  | numbers (n : List Int)
  | text (t : Option Text)
deriving DecidableEq, Repr

/-- Commands of a program. Code: the member functions in `/repo/src/cpp/include_transform.cpp:6-129`. -/
inductive Cmd where
  /-- an object is made from a keyword, with these numbers and texts; nothing at all for the default constructor -/
  | make (x : Nat) (num : List Int) (vals : Nat → Option Text)
  | copyCtor (x y : Nat)
  | moveCtor (x y : Nat)
  | copyAssign (x y : Nat)
  | moveAssign (x y : Nat)
  | destroy (x : Nat)
  /-- a card sets (or, for the options, extends) a text -/
  | parse (x k : Nat) (t : Text)
  /-- a card sets the numbers -/
  | parseNum (x : Nat) (num : List Int)
  | look (x k : Nat)
  | lookNum (x : Nat)

/-- `malloc` or `strdup` (`/repo/src/cpp/include_transform.cpp:33-39`). -/
def alloc (h : Heap) (t : Text) : Heap × Nat := (h ++ [⟨true, t⟩], h.length)

/-- `free`: null is fine, garbage or freed memory is undefined behaviour. Code: `/repo/src/include_transform.c:228-241`. -/
def free (h : Heap) : Ptr → Res Heap
  | .null => .ok h
  | .junk => .ub
  | .at p => match h[p]? with
    | some ⟨true, t⟩ => .ok (h.set p ⟨false, t⟩)
    | _ => .ub

/-- Read a block (`/repo/src/cpp/include_transform.hpp:27-33`). -/
def load (h : Heap) (p : Nat) : Res Text :=
  match h[p]? with
  | some ⟨true, t⟩ => .ok t
  | _ => .ub

/-- Auxiliary: replace a value of a function. -/
def put {α : Type} (f : Nat → α) (x : Nat) (v : α) : Nat → α := fun y => if y = x then v else f y

/-- The constructor from a keyword: the first `n` texts. Code: `/repo/src/include_transform.c:31-62`. -/
def makeFields (vals : Nat → Option Text) : Nat → Heap → Heap × (Nat → Ptr)
  | 0, h => (h, fun _ => .null)
  | n + 1, h =>
    match vals n with
    | none => ((makeFields vals n h).1, put (makeFields vals n h).2 n .null)
    | some t => ((alloc (makeFields vals n h).1 t).1, put (makeFields vals n h).2 n (.at (alloc (makeFields vals n h).1 t).2))

/-- Copy one pointer. `base` is what the member holds before: with a plain copy of the structure the pointer of the source.
Code: `/repo/src/cpp/include_transform.cpp:32-39, 94-107`. -/
def copyField (f : Field) (self : Bool) (h : Heap) (src base : Ptr) : Res (Heap × Ptr) :=
  match src with
  | .null => if f.always then .ub else .ok (h, base)
  | .junk => .ub
  | .at p => if self && f.array then .ub else do
    let t ← load h p
    .ok ((alloc h t).1, .at (alloc h t).2)

/-- Copy the first `n` pointers. Code: `/repo/src/cpp/include_transform.cpp:30-42, 92-109`. -/
def copyFields (c : Class) (self : Bool) (src dst : Nat → Ptr) : Nat → Heap → Res (Heap × (Nat → Ptr))
  | 0, h => .ok (h, if c.shallow then src else dst)
  | n + 1, h => do
    let (h, f) ← copyFields c self src dst n h
    let (h, p) ← copyField (c.field n) self h (src n) (if c.shallow then src n else dst n)
    .ok (h, put f n p)

/-- The destructor: free the first `n` pointers. Code: `/repo/src/include_transform.c:210-241`. -/
def freeFields (c : Class) (ptr : Nat → Ptr) : Nat → Heap → Res Heap
  | 0, h => .ok h
  | n + 1, h => do
    let h ← freeFields c ptr n h
    if (c.field n).freed then free h (ptr n) else .ok h

/-- A card is parsed into an existing object: a text replaces the pointer, an option is appended with `realloc`.
Code: `/repo/src/include_transform.c:64-128, 150-208`. -/
def parseField (f : Field) (h : Heap) (old : Ptr) (t : Text) : Res (Heap × Ptr) :=
  if f.array then
    match old with
    | .null => .ok ((alloc h t).1, .at (alloc h t).2)
    | .junk => .ub
    | .at p => do
      let u ← load h p
      let h ← free h (.at p)
      .ok ((alloc h (u ++ t)).1, .at (alloc h (u ++ t)).2)
  else .ok ((alloc h t).1, .at (alloc h t).2)

/-- Execute one command; the second component is what the program sees. `.err`: the program names an object outside of its
lifetime or a member that does not exist (excluded by C++). Code: `/repo/src/cpp/include_transform.cpp:6-129`. -/
def State.step (c : Class) (s : State) : Cmd → Res (State × List Seen)
  | .make x num vals => match s.obj x with
    | some _ => .err
    | none => .ok (⟨(makeFields vals c.fields s.heap).1, put s.obj x (some ⟨num, (makeFields vals c.fields s.heap).2⟩)⟩, [])
  | .copyCtor x y => match s.obj x, s.obj y with
    | none, some o => do
      -- the members of the new object are not initialised (`/repo/src/cpp/include_transform.cpp:73-76`)
      let (h, ptr) ← copyFields c false o.ptr (fun _ => .junk) c.fields s.heap
      .ok (⟨h, put s.obj x (some ⟨o.num, ptr⟩)⟩, [])
    | _, _ => .err
  | .moveCtor x y => match s.obj x, s.obj y with
    | none, some o => .ok (⟨s.heap, put (put s.obj x (some o)) y (some ⟨o.num.map fun _ => 0, fun _ => .null⟩)⟩, [])
    | _, _ => .err
  | .copyAssign x y => match s.obj x, s.obj y with
    | some o', some o => do
      let (h, ptr) ← copyFields c (x == y) o.ptr o'.ptr c.fields s.heap
      .ok (⟨h, put s.obj x (some ⟨o.num, ptr⟩)⟩, [])
    | _, _ => .err
  | .moveAssign x y => match s.obj x, s.obj y with
    -- nothing is freed (`/repo/src/cpp/include_transform.cpp:24-28, 87-90`)
    | some _, some o => .ok (⟨s.heap, put (put s.obj x (some o)) y (some ⟨o.num.map fun _ => 0, fun _ => .null⟩)⟩, [])
    | _, _ => .err
  | .destroy x => match s.obj x with
    | some o => do
      let h ← freeFields c o.ptr c.fields s.heap
      .ok (⟨h, put s.obj x none⟩, [])
    | none => .err
  | .parse x k t => match s.obj x with
    | some o => if k < c.fields then do
        let (h, p) ← parseField (c.field k) s.heap (o.ptr k) t
        .ok (⟨h, put s.obj x (some ⟨o.num, put o.ptr k p⟩)⟩, [])
      else .err
    | none => .err
  | .parseNum x num => match s.obj x with
    | some o => .ok (⟨s.heap, put s.obj x (some ⟨num, o.ptr⟩)⟩, [])
    | none => .err
  | .look x k => match s.obj x with
    | some o => if k < c.fields then
        match o.ptr k with
        | .null => .ok (s, [.text none])
        | .junk => .ub
        | .at p => do
          let t ← load s.heap p
          .ok (s, [.text (some t)])
      else .err
    | none => .err
  | .lookNum x => match s.obj x with
    | some o => .ok (s, [.numbers o.num])
    | none => .err

/-- Auxiliary: execute a program, everything it sees in order. -/
def State.run (c : Class) : List Cmd → State → Res (State × List Seen)
  | [], s => .ok (s, [])
  | i :: is, s => do
    let (s, out) ← s.step c i
    let (s, out') ← State.run c is s
    .ok (s, out ++ out')

/-- Auxiliary: the start of a program. -/
def State.init : State := ⟨[], fun _ => none⟩

end Dyna.TransformObj
