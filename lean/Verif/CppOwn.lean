import Verif.CppArray
/-!
# Ownership of the memory behind `Array` (`/repo/src/cpp/array.hpp`)

The heap is the list of all blocks ever allocated, a pointer is an index into it. A cell is
`none` while it is indeterminate (fresh from `malloc`). `malloc` always succeeds in this model
(the code checks it in `New` only).
-/

namespace Dyna.Cpp

open Dyna

/-- A block of memory. `foreign` blocks do not come from `malloc` of an owner that `Array` may
free (memory lent with `delete_data = false`).
Code: `/repo/src/cpp/array.hpp:157-160` (what `m_data` points to). -/
structure Block (α : Type) where
  live : Bool
  foreign : Bool
  cells : List (Option α)

/-- The members of an `Array` object (`/repo/src/cpp/array.hpp:157-160`). -/
structure Obj where
  ptr : Option Nat
  size : Nat
  own : Bool

/-- Heap and the objects in their lifetime, by name. Code: `/repo/src/cpp/array.hpp:157-160`. -/
structure Own (α : Type) where
  heap : List (Block α)
  objs : Nat → Option Obj

/-- Replace the object `x`. Code: `/repo/src/cpp/array.hpp:369-386` (assignments to the members). -/
def Own.put {α : Type} (s : Own α) (x : Nat) (o : Option Obj) : Own α :=
  ⟨s.heap, fun y => if y = x then o else s.objs y⟩

/-- `malloc` (or memory lent by somebody else): a new block and its address.
Code: `/repo/src/cpp/array.hpp:302` and :382. -/
def Own.alloc {α : Type} (s : Own α) (foreign : Bool) (cells : List (Option α)) : Own α × Nat :=
  (⟨s.heap ++ [⟨true, foreign, cells⟩], s.objs⟩, s.heap.length)

/-- `free`: undefined for a block that is not live or was not allocated by `malloc`.
Code: `/repo/src/cpp/array.hpp:328`. -/
def Own.free {α : Type} (s : Own α) (p : Nat) : Res (Own α) :=
  match s.heap[p]? with
  | some ⟨true, false, cells⟩ => .ok ⟨s.heap.set p ⟨false, false, cells⟩, s.objs⟩
  | _ => .ub

/-- `n` cells from the address (`memcpy` source, element access): undefined if the block is not
live or too short; nothing is accessed for `n = 0`. Code: `/repo/src/cpp/array.hpp:383`. -/
def Own.load {α : Type} (s : Own α) (p : Option Nat) (n : Nat) : Res (List (Option α)) :=
  if n = 0 then .ok [] else
  match p with
  | none => .ub
  | some p => match s.heap[p]? with
    | some ⟨true, _, cells⟩ => if n ≤ cells.length then .ok (cells.take n) else .ub
    | _ => .ub

/-- What a program does with arrays. Code: `/repo/src/cpp/array.hpp:301-386`. -/
inductive Cmd (α : Type) where
  /-- `Array x(data, size)` with `malloc`ed data (`/repo/src/cpp/array.hpp:314-316`). -/
  | adopt (x : Nat) (data : List α)
  /-- `Array x(data, size, false)` (`/repo/src/cpp/array.hpp:314-316`). -/
  | borrow (x : Nat) (data : List α)
  /-- `Array x` (`/repo/src/cpp/array.hpp:311-312`). -/
  | empty (x : Nat)
  /-- `Array x = Array::New(n)` (`/repo/src/cpp/array.hpp:301-309`). -/
  | new (x n : Nat)
  /-- `Array x(y)` (`/repo/src/cpp/array.hpp:322-324`). -/
  | copyCtor (x y : Nat)
  /-- `Array x(std::move(y))` (`/repo/src/cpp/array.hpp:318-320`). -/
  | moveCtor (x y : Nat)
  /-- `x = y` (`/repo/src/cpp/array.hpp:379-386`). -/
  | copyAssign (x y : Nat)
  /-- `x = std::move(y)` (`/repo/src/cpp/array.hpp:369-377`). -/
  | moveAssign (x y : Nat)
  /-- End of the lifetime of `x` (`/repo/src/cpp/array.hpp:326-331`). -/
  | destroy (x : Nat)
  /-- `x[i] = v` (`/repo/src/cpp/array.hpp:333-339`); an exception is caught by the program. -/
  | write (x i : Nat) (v : α)

/-- Copy assignment (`/repo/src/cpp/array.hpp:379-386`), also the copy constructor, which assigns to an object
with indeterminate members. First `m_size` and `m_data` of the target are overwritten, then
the elements are copied from `rhs.m_data`, which for `x = y` is already the new block. -/
def Own.copyTo {α : Type} (s : Own α) (x : Nat) (o : Obj) (selfCopy : Bool) : Res (Own α) :=
  let (s1, p) := s.alloc false (List.replicate o.size none)
  let src := if selfCopy then some p else o.ptr
  match s1.load src o.size with
  | .ok cells => .ok ((Own.mk (s1.heap.set p ⟨true, false, cells⟩) s1.objs).put x
      (some ⟨some p, o.size, true⟩))
  | _ => .ub

/-- Move assignment (`/repo/src/cpp/array.hpp:369-377`): the target takes the members, then the source is
emptied (for `x = y` the object itself). -/
def Own.moveTo {α : Type} (s : Own α) (x y : Nat) (o : Obj) : Own α :=
  (s.put x (some o)).put y (some ⟨none, 0, false⟩)

/-- Destructor (`/repo/src/cpp/array.hpp:326-331`). -/
def Own.destroy {α : Type} (s : Own α) (x : Nat) (o : Obj) : Res (Own α) :=
  match o.own, o.ptr with
  | true, some p => do return (← s.free p).put x none
  | _, _ => .ok (s.put x none)

/-- A write through `operator[]` (`/repo/src/cpp/array.hpp:333-339`): throws if the index is out of range. -/
def Own.write {α : Type} (s : Own α) (o : Obj) (i : Nat) (v : α) : Res (Own α) :=
  if o.size = 0 ∨ i > o.size - 1 then .ok s else
  match o.ptr with
  | none => .ub
  | some p => match s.heap[p]? with
    | some ⟨true, f, cells⟩ =>
      if i < cells.length then .ok ⟨s.heap.set p ⟨true, f, cells.set i (some v)⟩, s.objs⟩ else .ub
    | _ => .ub

/-- One command. Using an object outside its lifetime is undefined.
Code: `/repo/src/cpp/array.hpp:301-386`. -/
def Own.step {α : Type} (s : Own α) : Cmd α → Res (Own α)
  | .adopt x data => match s.objs x with
    | none => let (s1, p) := s.alloc false (data.map some)
              .ok (s1.put x (some ⟨some p, data.length, true⟩))
    | some _ => .ub
  | .borrow x data => match s.objs x with
    | none => let (s1, p) := s.alloc true (data.map some)
              .ok (s1.put x (some ⟨some p, data.length, false⟩))
    | some _ => .ub
  | .empty x => match s.objs x with
    | none => .ok (s.put x (some ⟨none, 0, true⟩))
    | some _ => .ub
  | .new x n => match s.objs x with
    | none => let (s1, p) := s.alloc false (List.replicate n none)
              .ok (s1.put x (some ⟨some p, n, true⟩))
    | some _ => .ub
  | .copyCtor x y => match s.objs x, s.objs y with
    | none, some o => s.copyTo x o false
    | _, _ => .ub
  | .moveCtor x y => match s.objs x, s.objs y with
    | none, some o => .ok (s.moveTo x y o)
    | _, _ => .ub
  | .copyAssign x y => match s.objs x, s.objs y with
    | some _, some o => s.copyTo x o (x == y)
    | _, _ => .ub
  | .moveAssign x y => match s.objs x, s.objs y with
    | some _, some o => .ok (s.moveTo x y o)
    | _, _ => .ub
  | .destroy x => match s.objs x with
    | some o => s.destroy x o
    | none => .ub
  | .write x i v => match s.objs x with
    | some o => s.write o i v
    | none => .ub

/-- A sequence of commands. Auxiliary of the model, no code of its own. -/
def Own.run {α : Type} (s : Own α) : List (Cmd α) → Res (Own α)
  | [] => .ok s
  | c :: cs => do (← s.step c).run cs

/-- No memory, no objects. Auxiliary of the model, no code of its own. -/
def Own.init {α : Type} : Own α := ⟨[], fun _ => none⟩

/-! ## Specification: arrays as values -/

/-- The values of the objects in their lifetime; an element is `none` while it is
indeterminate. Part of the specification, models no code. -/
abbrev Vals (α : Type) := Nat → Option (List (Option α))

/-- `V` with the value of `x` replaced. Part of the specification, models no code. -/
def Vals.put {α : Type} (V : Vals α) (x : Nat) (v : Option (List (Option α))) : Vals α :=
  fun y => if y = x then v else V y

/-- Effect of a command on the values; `none` if the command uses an object outside its
lifetime or creates one that exists. Assigning an array to itself loses its elements (that is
what the code does). Part of the specification, models no code. -/
def Vals.step {α : Type} (V : Vals α) : Cmd α → Option (Vals α)
  | .adopt x data | .borrow x data => match V x with
    | none => some (V.put x (some (data.map some)))
    | some _ => none
  | .empty x => match V x with
    | none => some (V.put x (some []))
    | some _ => none
  | .new x n => match V x with
    | none => some (V.put x (some (List.replicate n none)))
    | some _ => none
  | .copyCtor x y => match V x, V y with
    | none, some v => some (V.put x (some v))
    | _, _ => none
  | .moveCtor x y => match V x, V y with
    | none, some v => some ((V.put x (some v)).put y (some []))
    | _, _ => none
  | .copyAssign x y => match V x, V y with
    | some _, some v => some (V.put x (some (if x = y then List.replicate v.length none else v)))
    | _, _ => none
  | .moveAssign x y => match V x, V y with
    | some _, some v => some ((V.put x (some v)).put y (some []))
    | _, _ => none
  | .destroy x => match V x with
    | some _ => some (V.put x none)
    | none => none
  | .write x i v => match V x with
    | some l => some (V.put x (some (l.set i (some v))))
    | none => none

/-- Effect of a sequence of commands on the values. Part of the specification, models no code. -/
def Vals.run {α : Type} (V : Vals α) : List (Cmd α) → Option (Vals α)
  | [] => some V
  | c :: cs => (V.step c).bind (·.run cs)

end Dyna.Cpp
