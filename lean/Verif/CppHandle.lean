import Verif.Common
/-!
# `Binout` and `D3plot` objects, their exceptions and lists of names

Models who owns the memory behind the messages of exceptions and behind the names that `Binout::get_children` returns
(`/repo/src/cpp/binout.cpp`, `/repo/src/cpp/d3plot.cpp`). Functions that read data are represented by their outcome only:
success, or failure with a message. Outside of Windows `ErrorString` is `String` (`/repo/src/cpp/binout.hpp:52-66`), which is what
is modelled here. The heap is the list of all blocks ever allocated, a pointer is an index into it.
-/

namespace Dyna.Handle

open Dyna

/-- A block of memory with texts: one message, or all names of a directory (`/repo/src/binout_directory.h:39-52`). -/
structure Block where
  live : Bool
  text : List Bytes
deriving DecidableEq, Repr

/-- Auxiliary: all blocks. -/
abbrev Heap := List Block

/-- The members of the handle that hold memory others borrow: `error_string` and the names of the directory
(`/repo/src/binout.h:47-60`; the names of all entries are one block here). A handle of zeros has none. -/
structure Obj where
  err : Option Nat := none
  dir : Option Nat := none
deriving DecidableEq, Repr

/-- An exception: pointer to the message and whether it frees it (`/repo/src/cpp/binout.hpp:50-75`, `/repo/src/cpp/array.hpp:158-162`). -/
structure Exc where
  ptr : Nat
  owned : Bool
deriving DecidableEq, Repr

/-- Auxiliary: memory and objects by name. A list of names is a pointer to the names (none if there are no names). -/
structure State where
  heap : Heap
  obj : Nat → Option Obj
  exc : Nat → Option Exc
  list : Nat → Option (Option Nat)

/-- Commands of a program. Code: the member functions in `/repo/src/cpp/binout.cpp:30-262`, `/repo/src/cpp/d3plot.cpp:30-73`. -/
inductive Cmd where
  /-- `Binout x(file)` succeeds, with these names in the directory (`/repo/src/cpp/binout.cpp:41-49`) -/
  | openFile (x : Nat) (names : List Bytes)
  /-- `Binout x(file)` throws (`/repo/src/cpp/binout.cpp:41-49`) -/
  | openFails (e : Nat) (msg : Bytes)
  /-- a function that reads throws the error of the C library (`/repo/src/cpp/binout.cpp:59-67, 108-124, 166-188`) -/
  | fails (x e : Nat) (msg : Bytes)
  /-- a function that reads succeeds -/
  | succeeds (x : Nat)
  /-- a function throws with a message of its own (`/repo/src/cpp/binout.cpp:75-106, 240-251`) -/
  | failsOwn (x e : Nat) (msg : Bytes)
  /-- `get_children` returns (`/repo/src/cpp/binout.cpp:75-94`) -/
  | children (x c : Nat)
  /-- `what()` (`/repo/src/cpp/binout.cpp:35-37`) -/
  | what (e : Nat)
  /-- the names of a list are read -/
  | names (c : Nat)
  /-- a copy of an exception -/
  | copyExc (e e' : Nat)
  | moveCtor (x y : Nat)
  | moveAssign (x y : Nat)
  | destroy (x : Nat)
  | destroyExc (e : Nat)
  | destroyList (c : Nat)
deriving Repr

/-- `malloc` and copying a text. Code: `string_clone` (`/repo/src/string_builder.c:110-119`). -/
def alloc (h : Heap) (text : List Bytes) : Heap × Nat := (h ++ [⟨true, text⟩], h.length)

/-- `free`; a null pointer is fine, freed memory is undefined behaviour. Code: `/repo/src/binout_defines.h:71-73`. -/
def free (h : Heap) : Option Nat → Res Heap
  | none => .ok h
  | some p => match h[p]? with
    | some ⟨true, t⟩ => .ok (h.set p ⟨false, t⟩)
    | _ => .ub

/-- Read a text; freed memory is undefined behaviour. Code: `/repo/src/cpp/binout.cpp:35-37`. -/
def load (h : Heap) (p : Nat) : Res (List Bytes) :=
  match h[p]? with
  | some ⟨true, t⟩ => .ok t
  | _ => .ub

/-- Auxiliary: replace a value of a function. -/
def put {α : Type} (f : Nat → Option α) (x : Nat) (v : Option α) : Nat → Option α := fun y => if y = x then v else f y

/-- Execute one command; the second component is what the program sees. `.err`: the program names an object outside of its
lifetime (excluded by C++). -/
def State.step (s : State) : Cmd → Res (State × List (List Bytes))
  | .openFile x names => match s.obj x with
    | some _ => .err
    | none =>
      if names = [] then .ok ({ s with obj := put s.obj x (some {}) }, [])
      else .ok ({ s with heap := (alloc s.heap names).1, obj := put s.obj x (some { dir := some (alloc s.heap names).2 }) }, [])
  | .openFails e msg => match s.exc e with
    | some _ => .err
    -- the message is a copy, the handle is closed (`/repo/src/cpp/binout.cpp:43-48`; `D3plot` takes the string itself)
    | none => .ok ({ s with heap := (alloc s.heap [msg]).1, exc := put s.exc e (some ⟨(alloc s.heap [msg]).2, true⟩) }, [])
  | .fails x e msg => match s.obj x, s.exc e with
    | some o, none => do
      -- the call clears the error string and sets a new one (`/repo/src/binout_defines.h:61-73`), the exception borrows it
      let h ← free s.heap o.err
      .ok (⟨(alloc h [msg]).1, put s.obj x (some { o with err := some (alloc h [msg]).2 }),
        put s.exc e (some ⟨(alloc h [msg]).2, false⟩), s.list⟩, [])
    | _, _ => .err
  | .succeeds x => match s.obj x with
    | some o => do
      let h ← free s.heap o.err
      .ok ({ s with heap := h, obj := put s.obj x (some { o with err := none }) }, [])
    | none => .err
  | .failsOwn x e msg => match s.obj x, s.exc e with
    | some _, none =>
      .ok ({ s with heap := (alloc s.heap [msg]).1, exc := put s.exc e (some ⟨(alloc s.heap [msg]).2, true⟩) }, [])
    | _, _ => .err
  | .children x c => match s.obj x, s.list c with
    | some o, none => .ok ({ s with list := put s.list c (some o.dir) }, [])
    | _, _ => .err
  | .what e => match s.exc e with
    | some E => do
      let t ← load s.heap E.ptr
      .ok (s, [t])
    | none => .err
  | .names c => match s.list c with
    | some none => .ok (s, [[]])
    | some (some p) => do
      let t ← load s.heap p
      .ok (s, [t])
    | none => .err
  | .copyExc e e' => match s.exc e, s.exc e' with
    | none, some E => do
      -- `strdup` (`/repo/src/cpp/array.hpp:437-441`)
      let t ← load s.heap E.ptr
      .ok ({ s with heap := (alloc s.heap t).1, exc := put s.exc e (some ⟨(alloc s.heap t).2, true⟩) }, [])
    | _, _ => .err
  | .moveCtor x y => match s.obj x, s.obj y with
    | none, some o => .ok ({ s with obj := put (put s.obj x (some o)) y (some {}) }, [])
    | _, _ => .err
  | .moveAssign x y => match s.obj x, s.obj y with
    -- nothing is closed (`/repo/src/cpp/binout.cpp:53-57`, `/repo/src/cpp/d3plot.cpp:59-63`)
    | some _, some o => .ok ({ s with obj := put (put s.obj x (some o)) y (some {}) }, [])
    | _, _ => .err
  | .destroy x => match s.obj x with
    | some o => do
      -- `binout_close` (`/repo/src/binout.c:322-346`), `d3plot_close` (`/repo/src/d3plot.c:468-482`)
      let h ← free s.heap o.dir
      let h ← free h o.err
      .ok ({ s with heap := h, obj := put s.obj x none }, [])
    | none => .err
  | .destroyExc e => match s.exc e with
    | some E => do
      let h ← free s.heap (if E.owned then some E.ptr else none)
      .ok ({ s with heap := h, exc := put s.exc e none }, [])
    | none => .err
  | .destroyList c => match s.list c with
    | some _ => .ok ({ s with list := put s.list c none }, [])
    | none => .err

/-- Auxiliary: execute a program, everything it sees in order. -/
def State.run : List Cmd → State → Res (State × List (List Bytes))
  | [], s => .ok (s, [])
  | c :: cs, s => do
    let (s, out) ← s.step c
    let (s, out') ← State.run cs s
    .ok (s, out ++ out')

/-- Auxiliary: the start of a program. -/
def State.init : State := ⟨[], fun _ => none, fun _ => none, fun _ => none⟩

end Dyna.Handle
