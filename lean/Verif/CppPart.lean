import Verif.Common
/-!
# `D3plotPart` objects and their memory

Models `/repo/src/cpp/d3plot_part.cpp` (constructors, assignments, destructor, access to the ids and indices) and
`d3plot_free_part` (`/repo/src/d3plot.c:3354-3382`). The heap is the list of all blocks ever allocated, a pointer is an index into
it. A cell is `none` while it is indeterminate (fresh from `malloc`). `malloc` always succeeds in this model, also for 0 bytes.
`memcpy` onto itself leaves the block as it is (formally undefined, harmless with the usual implementations).
-/

namespace Dyna.Part

open Dyna

/-- The kinds of elements of a part (`/repo/src/d3_defines.h`, struct `d3plot_part`). Code: `/repo/src/cpp/d3plot_part.cpp:49-64`. -/
inductive Kind where
  | solid | thick | beam | shell
deriving DecidableEq, Repr

/-- The pointers in a `d3plot_part`: ids and indices of each kind. Code: `/repo/src/cpp/d3plot_part.cpp:49-64`. -/
inductive Field where
  | ids (k : Kind)
  | indices (k : Kind)
deriving DecidableEq, Repr

/-- The kind of elements a pointer belongs to. Code: `/repo/src/cpp/d3plot_part.cpp:67-90`. -/
def Field.kind : Field → Kind
  | .ids k => k
  | .indices k => k

/-- A block of memory. Code: what the pointers of a `d3plot_part` point to (`/repo/src/cpp/d3plot_part.cpp:49-64`). -/
structure Block where
  live : Bool
  cells : List (Option Nat)
deriving DecidableEq, Repr

/-- Auxiliary: all blocks. -/
abbrev Heap := List Block

/-- The members of a `D3plotPart` (`m_part`, `/repo/src/cpp/d3plot_part.hpp`). Code: `/repo/src/cpp/d3plot_part.cpp:36`. -/
structure Obj where
  ptr : Field → Option Nat
  num : Kind → Nat

/-- The part `{0}` (`/repo/src/cpp/d3plot_part.cpp:42`). -/
def Obj.zero : Obj := ⟨fun _ => none, fun _ => 0⟩

/-- Heap and the objects in their lifetime, by name. Code: `/repo/src/cpp/d3plot_part.cpp:32-92`. -/
structure State where
  heap : Heap
  objs : Nat → Option Obj

/-- Replace the object `x`. Code: `/repo/src/cpp/d3plot_part.cpp:41` (assignment of the members). -/
def State.put (s : State) (x : Nat) (o : Option Obj) : State := ⟨s.heap, fun y => if y = x then o else s.objs y⟩

/-- `free`: undefined for a block that is not live, nothing for NULL. Code: `/repo/src/d3plot.c:3357-3365`. -/
def free (h : Heap) : Option Nat → Res Heap
  | none => .ok h
  | some p => match h[p]? with
    | some ⟨true, cells⟩ => .ok (h.set p ⟨false, cells⟩)
    | _ => .ub

/-- A sequence of `free`. Code: `/repo/src/d3plot.c:3357-3365`. -/
def freeAll (ptr : Field → Option Nat) : List Field → Heap → Res Heap
  | [], h => .ok h
  | f :: fs, h => match free h (ptr f) with
    | .ok h => freeAll ptr fs h
    | r => r

/-- The order of `free` in `d3plot_free_part` (`/repo/src/d3plot.c:3357-3365`). -/
def freeOrder : List Field :=
  [.ids .solid, .ids .thick, .ids .beam, .ids .shell, .indices .solid, .indices .thick, .indices .beam, .indices .shell]

/-- `n` cells from an address: undefined if the block is not live or too short. Code: `/repo/src/cpp/d3plot_part.cpp:67-90` (source of `memcpy`). -/
def load (h : Heap) (p : Option Nat) (n : Nat) : Res (List (Option Nat)) :=
  if n = 0 then .ok [] else
  match p with
  | none => .ub
  | some p => match h[p]? with
    | some ⟨true, cells⟩ => if n ≤ cells.length then .ok (cells.take n) else .ub
    | _ => .ub

/-- `memcpy` of `n` cells to an address: undefined if the block is not live or too short. Code: `/repo/src/cpp/d3plot_part.cpp:67-90`. -/
def store (h : Heap) (p : Option Nat) (new : List (Option Nat)) : Res Heap :=
  match p with
  | none => .ub
  | some p => match h[p]? with
    | some ⟨true, cells⟩ =>
      if new.length ≤ cells.length then .ok (h.set p ⟨true, new ++ cells.drop new.length⟩) else .ub
    | _ => .ub

/-- The calls of `malloc` in the copy assignment, in this order: `thick_shell_ids` twice, `thick_shell_indices` never
(`/repo/src/cpp/d3plot_part.cpp:49-64`). -/
def allocOrder : List Field :=
  [.ids .solid, .ids .thick, .ids .beam, .ids .shell, .indices .solid, .ids .thick, .indices .beam, .indices .shell]

/-- Set one pointer. Code: `/repo/src/cpp/d3plot_part.cpp:49-64`. -/
def setPtr (ptr : Field → Option Nat) (f : Field) (p : Option Nat) : Field → Option Nat := fun g => if g = f then p else ptr g

/-- A sequence of `malloc`. Code: `/repo/src/cpp/d3plot_part.cpp:49-64`. -/
def allocAll (num : Kind → Nat) : List Field → Heap → (Field → Option Nat) → Heap × (Field → Option Nat)
  | [], h, ptr => (h, ptr)
  | f :: fs, h, ptr => allocAll num fs (h ++ [⟨true, List.replicate (num f.kind) none⟩]) (setPtr ptr f (some h.length))

/-- The order of `memcpy` (`/repo/src/cpp/d3plot_part.cpp:66-90`). -/
def copyOrder : List Field :=
  [.ids .solid, .indices .solid, .ids .thick, .indices .thick, .ids .beam, .indices .beam, .ids .shell, .indices .shell]

/-- A sequence of `memcpy` for the kinds with elements. Code: `/repo/src/cpp/d3plot_part.cpp:66-90`. -/
def copyAll (num : Kind → Nat) (src dst : Field → Option Nat) : List Field → Heap → Res Heap
  | [], h => .ok h
  | f :: fs, h =>
    if num f.kind = 0 then copyAll num src dst fs h
    else do
      let new ← load h (src f) (num f.kind)
      let h ← store h (dst f) new
      copyAll num src dst fs h

/-- Copy assignment (`/repo/src/cpp/d3plot_part.cpp:46-92`), also the copy constructor, which assigns to an object with indeterminate members
(`/repo/src/cpp/d3plot_part.cpp:34`). For `x = x` the source is the object whose pointers have just been overwritten. -/
def State.copyTo (s : State) (x : Nat) (o : Obj) (selfCopy : Bool) : Res State :=
  match allocAll o.num allocOrder s.heap o.ptr with
  | (h, ptr) =>
    match copyAll o.num (if selfCopy then ptr else o.ptr) ptr copyOrder h with
    | .ok h => .ok (State.put ⟨h, s.objs⟩ x (some ⟨ptr, o.num⟩))
    | .err => .err
    | .ub => .ub
    | .abort => .abort

/-- Move assignment (`/repo/src/cpp/d3plot_part.cpp:40-44`), also the move constructor (`/repo/src/cpp/d3plot_part.cpp:32`). -/
def State.moveTo (s : State) (x y : Nat) (o : Obj) : State := (s.put x (some o)).put y (some Obj.zero)

/-- Destructor (`/repo/src/cpp/d3plot_part.cpp:38`, `/repo/src/d3plot.c:3354-3382`). -/
def State.destroy (s : State) (x : Nat) (o : Obj) : Res State :=
  match freeAll o.ptr freeOrder s.heap with
  | .ok h => .ok (State.put ⟨h, s.objs⟩ x none)
  | .err => .err
  | .ub => .ub
  | .abort => .abort

/-- The blocks of a part that has been read: memory for the kinds with elements, NULL for the others
(`ADD_ELEMENTS_TO_PART`, `/repo/src/d3plot.c:2966-2981`; `realloc` as allocation of the final size). -/
def readAll (data : Field → List Nat) : List Field → Heap → (Field → Option Nat) → Heap × (Field → Option Nat)
  | [], h, ptr => (h, ptr)
  | f :: fs, h, ptr =>
    if data f = [] then readAll data fs h ptr
    else readAll data fs (h ++ [⟨true, (data f).map some⟩]) (setPtr ptr f (some h.length))

/-- What a program does with parts. Code: `/repo/src/cpp/d3plot_part.cpp:32-92`. -/
inductive Cmd where
  /-- `D3plotPart x = plot.read_part(i)`: ids and indices of the elements (`/repo/src/cpp/d3plot.cpp:450-477`). -/
  | read (x : Nat) (data : Kind → List (Nat × Nat))
  /-- `D3plotPart x(y)` -/
  | copyCtor (x y : Nat)
  /-- `D3plotPart x(std::move(y))` -/
  | moveCtor (x y : Nat)
  /-- `x = y` -/
  | copyAssign (x y : Nat)
  /-- `x = std::move(y)` -/
  | moveAssign (x y : Nat)
  /-- End of the lifetime of `x`. -/
  | destroy (x : Nat)

/-- The ids and the indices. Code: `/repo/src/d3plot.c:2976-2977`. -/
def column (data : Kind → List (Nat × Nat)) : Field → List Nat
  | .ids k => (data k).map Prod.fst
  | .indices k => (data k).map Prod.snd

/-- One command. Using an object outside its lifetime is undefined. Code: `/repo/src/cpp/d3plot_part.cpp:32-92`. -/
def State.step (s : State) : Cmd → Res State
  | .read x data => match s.objs x with
    | none => match readAll (column data) freeOrder s.heap (fun _ => none) with
      | (h, ptr) => .ok (State.put ⟨h, s.objs⟩ x (some ⟨ptr, fun k => (data k).length⟩))
    | some _ => .ub
  | .copyCtor x y => match s.objs x, s.objs y with
    | none, some o => s.copyTo x o false
    | _, _ => .ub
  | .moveCtor x y => match s.objs x, s.objs y with
    | none, some o => .ok (s.moveTo x y o)
    | _, _ => .ub
  | .copyAssign x y => match s.objs x, s.objs y with
    | some _, some o => s.copyTo x o (x == y)
    | _, _ => .ub
  | .moveAssign x y => match s.objs x, s.objs y with
    | some _, some o => .ok (s.moveTo x y o)
    | _, _ => .ub
  | .destroy x => match s.objs x with
    | some o => s.destroy x o
    | none => .ub

/-- A program. Code: `/repo/src/cpp/d3plot_part.cpp:32-92`. -/
def State.run : List Cmd → State → Res State
  | [], s => .ok s
  | c :: cs, s => match s.step c with
    | .ok s => State.run cs s
    | r => r

/-- At the beginning. Auxiliary. -/
def State.init : State := ⟨[], fun _ => none⟩

/-- The elements of the array that `get_solid_elements()`, …, `get_shell_element_indices()` return: the array refers to the
memory of the part (`/repo/src/cpp/d3plot_part.cpp:94-127`). -/
def State.get (s : State) (x : Nat) (f : Field) : Res (List (Option Nat)) :=
  match s.objs x with
  | some o => load s.heap (o.ptr f) (o.num f.kind)
  | none => .ub

end Dyna.Part
