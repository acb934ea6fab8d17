import Verif.Common
/-!
# The arrays of several time steps share one block of memory

`Binout::read_timed` (`/repo/src/cpp/binout.cpp:166-189`) and `D3plot::read_all_node_…`
(`/repo/src/cpp/d3plot.cpp:169-312`) return one `Array` per time step. All of them point into the one
block that the C function has allocated, and the first one frees it. In C++ the arrays are elements of a vector, in
Python every array is an object with its own lifetime (`std::vector` is converted to a list of arrays, into which the
elements are moved). The functions of `Array` are those of `/repo/src/cpp/array.hpp`. `malloc` always
succeeds.
-/

namespace Dyna.Rows

open Dyna

/-- A block of memory of the C heap. Code: `/repo/src/cpp/binout.cpp:174` (`data`). -/
structure Block (α : Type) where
  live : Bool
  cells : List α

/-- The members of an `Array` (`/repo/src/cpp/array.hpp:157-160`); the pointer is a block and an offset. -/
structure Obj where
  ptr : Option Nat
  off : Nat
  size : Nat
  own : Bool

/-- Heap and the arrays in their lifetime, by name. Code: `/repo/src/cpp/array.hpp:157-160`. -/
structure State (α : Type) where
  heap : List (Block α)
  objs : Nat → Option Obj

/-- What a program does. Code: `/repo/src/cpp/array.hpp:301-386`, `/repo/src/cpp/binout.cpp:166-189`. -/
inductive Cmd (α : Type) where
  /-- The result of a read: the arrays `x`, `x + 1`, … with the values of the time steps, all of length `n`
  (`/repo/src/cpp/binout.cpp:181-186`). -/
  | read (x n : Nat) (rows : List (List α))
  /-- `Array x(y)` (`/repo/src/cpp/array.hpp:322-324`). -/
  | copy (x y : Nat)
  /-- `Array x(std::move(y))` (`/repo/src/cpp/array.hpp:318-320`). -/
  | move (x y : Nat)
  /-- End of the lifetime of `x` (`/repo/src/cpp/array.hpp:326-331`). -/
  | destroy (x : Nat)
  /-- `x[i]` (`/repo/src/cpp/array.hpp:333-347`). -/
  | get (x i : Nat)
  /-- `x[i] = v` (`/repo/src/cpp/array.hpp:333-339`). -/
  | set (x i : Nat) (v : α)

/-- What the program gets to see of an access: the element or the exception.
Code: `/repo/src/cpp/array.hpp:333-347`. -/
inductive Obs (α : Type) where
  | value (v : α)
  | outOfRange
deriving DecidableEq

/-- Replace the array `x`. Code: `/repo/src/cpp/array.hpp:369-386` (assignments to the members). -/
def State.put {α : Type} (s : State α) (x : Nat) (o : Option Obj) : State α :=
  ⟨s.heap, fun y => if y = x then o else s.objs y⟩

/-- The loop over the time steps (`/repo/src/cpp/binout.cpp:183-186`, `/repo/src/cpp/d3plot.cpp:178-180`):
array `x + t` of `m` arrays. -/
def rowObj (p x n m y : Nat) : Option Obj :=
  if x ≤ y ∧ y < x + m then some ⟨some p, (y - x) * n, n, y == x⟩ else none

/-- The cell with index `i` of an array: undefined if the block has been freed or ends before it.
Code: `/repo/src/cpp/array.hpp:338`. -/
def State.cell {α : Type} (s : State α) (o : Obj) (i : Nat) : Res α :=
  match o.ptr with
  | none => .ub
  | some p => match s.heap[p]? with
    | some b => if b.live then .ofOption b.cells[o.off + i]? else .ub
    | none => .ub

/-- The `n` elements that `memcpy` copies (`/repo/src/cpp/array.hpp:383`). -/
def State.cells {α : Type} (s : State α) (o : Obj) : (n i : Nat) → Res (List α)
  | 0, _ => .ok []
  | n + 1, i => do return (← s.cell o i) :: (← s.cells o n (i + 1))

/-- One command. Arrays that do not exist (or exist already) are not a use of the interface: undefined.
Code: `/repo/src/cpp/array.hpp:301-386`, `/repo/src/cpp/binout.cpp:166-189`. -/
def State.step {α : Type} (s : State α) : Cmd α → Res (State α × List (Obs α))
  | .read x n rows =>
    if (∀ r ∈ rows, r.length = n) ∧ (∀ t < rows.length, s.objs (x + t) = none) then
      .ok (⟨s.heap ++ [⟨true, rows.flatten⟩],
        fun y => match rowObj s.heap.length x n rows.length y with
          | some o => some o
          | none => s.objs y⟩, [])
    else .ub
  | .copy x y => match s.objs x, s.objs y with
    | none, some o => do
      let c ← s.cells o o.size 0
      .ok ((State.mk (s.heap ++ [⟨true, c⟩]) s.objs).put x (some ⟨some s.heap.length, 0, o.size, true⟩), [])
    | _, _ => .ub
  | .move x y => match s.objs x, s.objs y with
    | none, some o => .ok ((s.put x (some o)).put y (some ⟨none, 0, 0, false⟩), [])
    | _, _ => .ub
  | .destroy x => match s.objs x with
    | none => .ub
    | some o => match o.own, o.ptr with
      | true, some p => match s.heap[p]? with
        | some b => if b.live then .ok ((State.mk (s.heap.set p ⟨false, b.cells⟩) s.objs).put x none, []) else .ub
        | none => .ub
      | _, _ => .ok (s.put x none, [])
  | .get x i => match s.objs x with
    | none => .ub
    | some o =>
      if o.size = 0 ∨ i > o.size - 1 then .ok (s, [.outOfRange])
      else do return (s, [.value (← s.cell o i)])
  | .set x i v => match s.objs x with
    | none => .ub
    | some o =>
      if o.size = 0 ∨ i > o.size - 1 then .ok (s, [.outOfRange])
      else match o.ptr with
        | none => .ub
        | some p => match s.heap[p]? with
          | some b =>
            if b.live ∧ o.off + i < b.cells.length then
              .ok (⟨s.heap.set p ⟨true, b.cells.set (o.off + i) v⟩, s.objs⟩, [])
            else .ub
          | none => .ub

/-- A sequence of commands and all that has been seen. Auxiliary of the model, no code of its own. -/
def State.run {α : Type} (s : State α) : List (Cmd α) → Res (State α × List (Obs α))
  | [] => .ok (s, [])
  | c :: cs => do
    let (s1, o1) ← s.step c
    let (s2, o2) ← s1.run cs
    .ok (s2, o1 ++ o2)

/-- No memory, no arrays. Auxiliary of the model, no code of its own. -/
def State.init {α : Type} : State α := ⟨[], fun _ => none⟩

end Dyna.Rows
