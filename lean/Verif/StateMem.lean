import Verif.KeyMem
import Verif.D3Elements
/-!
# The memory of element states

`d3plot_read_shells_state`, `d3plot_read_thick_shells_state`, `d3plot_read_beams_state`, the functions that release
their results, and the C++ objects that hold them: which blocks are allocated, which pointers lead to them, and
what is released. The values are in `Verif.D3Elements`.

Simplifications: `malloc` succeeds for sizes from 1 to 2^63 - 1 and gives null for larger sizes; a block of size 0 is
null or not, as the C library does it (`zero`). Offsets of pointers are counted in elements. The history pointers of
additional integration points are not modelled; they are never released.
-/

namespace Dyna.StateMem

open Dyna.KeyMem Dyna.D3

/-- A pointer in an element: null, into a block, or not initialised. Auxiliary of the model, no code of its own. -/
inductive Ptr where
  | null
  | at (b off : Nat)
  | wild
deriving DecidableEq, Repr

/-- `&p[k]`. Auxiliary of the model, no code of its own. -/
def Ptr.plus : Ptr → Nat → Ptr
  | .null, 0 => .null
  | .null, _ + 1 => .wild
  | .at b off, k => .at b (off + k)
  | .wild, _ => .wild

/-- `free(p)`: undefined for a pointer that does not lead to the start of a block.
Auxiliary of the model, no code of its own. -/
def freePtr (m : Mem) : Ptr → Res Mem
  | .null => .ok m
  | .at b off => if off = 0 then m.free b else .ub
  | .wild => .ub

/-- Reading what `p` leads to. Auxiliary of the model, no code of its own. -/
def usePtr (m : Mem) : Ptr → Res Unit
  | .at b _ => m.use b
  | _ => .ub

/-- `malloc(n)`. Auxiliary of the model, no code of its own. -/
def malloc (zero : Bool) (m : Mem) (n : Nat) : Mem × Ptr :=
  if n = 0 then
    if zero then (m.alloc.1, .at m.alloc.2 0) else (m, .null)
  else if n < 2 ^ 63 then (m.alloc.1, .at m.alloc.2 0)
  else (m, .null)

/-- What the memory of a state of shells or thick shells depends on: size of a word, number of elements, integration
points and history variables. Code: `/repo/src/d3plot.c:2248-2264` and d3plot.c:1656-1672. -/
structure Shape where
  wordSize : Nat
  n : Nat
  points : Nat
  history : Nat
deriving DecidableEq, Repr

/-- How the reading of the values ends: error of the file, values that are left over, or success.
Code: `/repo/src/d3plot.c:2288-2299` and d3plot.c:2410-2424. -/
inductive Outcome where
  | failed
  | unused
  | good
deriving DecidableEq, Repr

/-- The pointers of a `d3plot_shell` or `d3plot_thick_shell`: the history variables of the first three integration
points, and `add_ips`. Code: `/repo/src/d3_defines.h:163-179` and d3_defines.h:197-224. -/
structure ShellPtrs where
  mid : Ptr := .wild
  inner : Ptr := .wild
  outer : Ptr := .wild
  add : Ptr := .null
deriving DecidableEq, Repr

/-- The pointers that integration point `j` of element `i` sets. Code: `/repo/src/d3plot.c:2308-2327` and
d3plot.c:2346-2358, for thick shells d3plot.c:1716-1737 and d3plot.c:1756-1768. -/
def setPoint (sh : Shape) (hist add : Ptr) (i j : Nat) (e : ShellPtrs) : ShellPtrs :=
  let h := if sh.history ≠ 0 then hist.plus (i * sh.points * sh.history + j * sh.history) else .null
  match j with
  | 0 => { e with mid := h }
  | 1 => { e with inner := h }
  | 2 => { e with outer := h }
  | _ => if e.add = .null then { e with add := add.plus (i * (sh.points - 3)) } else e

/-- The loop over the integration points. Code: `/repo/src/d3plot.c:2303-2362` and d3plot.c:1713-1792. -/
def pointLoop (sh : Shape) (hist add : Ptr) (i : Nat) : (left j : Nat) → ShellPtrs → ShellPtrs
  | 0, _, e => e
  | left + 1, j, e => pointLoop sh hist add i left (j + 1) (setPoint sh hist add i j e)

/-- The pointers of all elements. Code: `/repo/src/d3plot.c:2300-2407` and d3plot.c:1710-1799. -/
def elements (sh : Shape) (hist add : Ptr) : List ShellPtrs :=
  (List.range sh.n).map fun i => pointLoop sh hist add i sh.points 0 {}

/-- What a read returns or an `Array` holds: the block, null if there are no elements, and the pointers of the
elements in it. Code: `/repo/src/cpp/array.hpp:154-160`. -/
structure ShellArr where
  blk : Option Nat := none
  elems : List ShellPtrs := []
deriving DecidableEq, Repr

/-- The size of `history_variables`. Code: `/repo/src/d3plot.c:2271-2273` and d3plot.c:1678-1679. -/
def histBytes (thick : Bool) (sh : Shape) : Nat :=
  if thick then sh.n * 3 * sh.history * 8 else sh.history * sh.points * sh.n * 8

/-- The size of `additional_integration_points`; with less than three integration points the number is negative and is
converted to `size_t`. Code: `/repo/src/d3plot.c:2275-2276` and d3plot.c:1681-1684. -/
def addBytes (sh : Shape) : Nat := toU64 (64 * ((sh.points : Int) - 3) * sh.n)

/-- What is released besides the values and the elements after an error of the file: nothing for shells in single
precision. Code: `/repo/src/d3plot.c:2289-2298` and d3plot.c:2434-2446, for thick shells d3plot.c:1697-1708 and
d3plot.c:1826-1837. -/
def freeFailed (thick : Bool) (sh : Shape) (m : Mem) (hist add : Ptr) : Res Mem :=
  if !thick && sh.wordSize == 4 then .ok m
  else do
    let m ← freePtr m hist
    freePtr m add

/-- `d3plot_read_shells_state` and `d3plot_read_thick_shells_state`. Code: `/repo/src/d3plot.c:2243-2566` and
d3plot.c:1650-1934. -/
def readShells (zero thick : Bool) (sh : Shape) (out : Outcome) (m : Mem) : Res (Mem × ShellArr) :=
  if sh.n = 0 then .ok (m, {})
  else do
    let h := malloc zero m (histBytes thick sh)
    let a := malloc zero h.1 (addBytes sh)
    let s := a.1.alloc
    let d := s.1.alloc
    let m ← d.1.free d.2
    match out with
    | .failed => do
      let m ← m.free s.2
      let m ← freeFailed thick sh m h.2 a.2
      .ok (m, {})
    | .unused => do
      let m ← m.free s.2
      let m ← freePtr m h.2
      let m ← freePtr m a.2
      .ok (m, {})
    | .good => .ok (m, ⟨some s.2, elements sh h.2 a.2⟩)

/-- `d3plot_free_shells_state` and `d3plot_free_thick_shells_state`. Code: `/repo/src/d3plot.c:3385-3407`. -/
def freeShells (m : Mem) (a : ShellArr) : Res Mem :=
  match a.blk with
  | none => .ok m
  | some b => do
    m.use b
    match a.elems with
    | [] => .ub
    | e :: _ => do
      let m ← freePtr m e.mid
      let m ← freePtr m e.add
      m.free b

/-! ## Beams -/

/-- What the memory of a state of beams depends on. Code: `/repo/src/d3plot.c:1941-1973`. -/
structure BeamShape where
  n : Nat
  points : Nat
  history : Nat
deriving DecidableEq, Repr

/-- Beams: the block, `ips` of every beam, and `history_variables` of every integration point in the block of
integration points. Code: `/repo/src/d3_defines.h:153-161` and d3_defines.h:226-246. -/
structure BeamArr where
  blk : Option Nat := none
  ips : List Ptr := []
  points : List Ptr := []
deriving DecidableEq, Repr

/-- `history_variables` of integration point `k` (counted over all beams): `&history_variables[k * n]`, null if there are
none. Code: `/repo/src/d3plot.c:2071-2094` and d3plot.c:2196-2216. -/
def beamPoint (sh : BeamShape) (hist : Ptr) (k : Nat) : Ptr :=
  if hist = .null then .null else hist.plus (k * sh.history)

/-- `d3plot_read_beams_state`. In case of an error `integration_points` and `history_variables` are not released.
Code: `/repo/src/d3plot.c:1936-2241`. -/
def readBeams (zero : Bool) (sh : BeamShape) (out : Outcome) (m : Mem) : Res (Mem × BeamArr) :=
  if sh.n = 0 then .ok (m, {})
  else do
    let p := malloc zero m (sh.n * sh.points * 48)
    let h := malloc zero p.1 (sh.n * sh.history * (3 + sh.points) * 8)
    let s := h.1.alloc
    let d := s.1.alloc
    let m ← d.1.free d.2
    match out with
    | .failed => do
      let m ← m.free s.2
      .ok (m, {})
    | .unused => do
      let m ← m.free s.2
      .ok (m, {})
    | .good => .ok (m, ⟨some s.2, (List.range sh.n).map fun i => p.2.plus (i * sh.points),
        (List.range (sh.n * sh.points)).map (beamPoint sh h.2)⟩)

/-- `d3plot_free_beams_state`. Code: `/repo/src/d3plot.c:3409-3421`. -/
def freeBeams (m : Mem) (a : BeamArr) : Res Mem :=
  match a.blk with
  | none => .ok m
  | some b => do
    m.use b
    match a.ips with
    | [] => .ub
    | .null :: _ => m.free b
    | .wild :: _ => .ub
    | .at q off :: _ => do
      m.use q
      match a.points[off]? with
      | none => .ub
      | some h => do
        let m ← freePtr m h
        let m ← freePtr m (.at q off)
        m.free b

/-! ## C++ -/

/-- C++ objects: `Array<D3plotShell>` or `Array<D3plotThickShell>`, `Array<d3plot_beam>`, and `D3plotSurface`.
Code: `/repo/src/cpp/d3plot_state.hpp:33-101` and d3plot.cpp:359-392. -/
inductive Obj where
  | shells (a : ShellArr) (history : Nat)
  | beams (a : BeamArr)
  | mean (p : Ptr)
deriving DecidableEq, Repr

/-- Memory and objects; an object that has been destroyed is `none`. Auxiliary of the model, no code of its own. -/
structure St where
  mem : Mem := {}
  objs : List (Option Obj) := []
deriving DecidableEq, Repr

/-- What a program can do. Auxiliary of the model, no code of its own. -/
inductive Cmd where
  | shells (thick : Bool) (sh : Shape) (out : Outcome)
  | beams (sh : BeamShape) (out : Outcome)
  | mean (x i : Nat)
  | copy (x : Nat)
  | drop (x : Nat)
deriving DecidableEq, Repr

/-- The copy constructor of `Array`: `malloc` and `memcpy`. Code: `/repo/src/cpp/array.hpp:320-322` and
array.hpp:374-380. -/
def copyBlk (zero : Bool) (m : Mem) (blk : Option Nat) (n : Nat) : Res (Mem × Option Nat) :=
  if n = 0 then
    if zero then .ok (m.alloc.1, some m.alloc.2) else .ok (m, none)
  else
    match blk with
    | none => .ub
    | some b => do
      m.use b
      .ok (m.alloc.1, some m.alloc.2)

/-- Copies of objects; `D3plotSurface` has the implicit copy constructor. Code: `/repo/src/cpp/array.hpp:320-322` and
d3plot_state.hpp:33-36. -/
def copyObj (zero : Bool) (m : Mem) : Obj → Res (Mem × Obj)
  | .shells a h => do
    let r ← copyBlk zero m a.blk a.elems.length
    .ok (r.1, .shells ⟨r.2, a.elems⟩ h)
  | .beams a => do
    let r ← copyBlk zero m a.blk a.ips.length
    .ok (r.1, .beams ⟨r.2, a.ips, a.points⟩)
  | .mean p => .ok (m, .mean p)

/-- Destructors: `Array<D3plotShell>`, `Array<D3plotThickShell>`, `Array<d3plot_beam>` (only the array) and
`D3plotSurface`. Code: `/repo/src/cpp/d3plot_state.cpp:32-34`, d3plot_state.cpp:42-47, d3plot_state.cpp:77-83,
array.hpp:324-329. -/
def dropObj (m : Mem) : Obj → Res Mem
  | .shells a _ => freeShells m a
  | .beams a => m.freeOpt a.blk
  | .mean p => freePtr m p

/-- Reading `add_ips` if there are additional integration points. Code: `/repo/src/d3plot_state.c:350-364`. -/
def useAdd (m : Mem) (p : Ptr) : Res Unit := if p = .null then .ok () else usePtr m p

/-- `get_mean` of element `i`: a new block for the history variables, and the values of the first three integration points
and of `add_ips` are read. Code: `/repo/src/cpp/d3plot_state.cpp:36-40` and d3plot_state.c:335-401. -/
def meanOf (m : Mem) (a : ShellArr) (history i : Nat) : Res (Mem × Ptr) :=
  match a.blk, a.elems[i]? with
  | some b, some e => do
    m.use b
    if history = 0 then .ok (m, .null)
    else do
      usePtr m e.mid
      usePtr m e.inner
      usePtr m e.outer
      useAdd m e.add
      .ok (m.alloc.1, .at m.alloc.2 0)
  | _, _ => .err

/-- A new object. Auxiliary of the model, no code of its own. -/
def St.add (s : St) (m : Mem) (o : Obj) : St := ⟨m, s.objs ++ [some o]⟩

/-- The object of a name; names without object are excluded by the compiler. Auxiliary of the model, no code of its
own. -/
def St.obj (s : St) (x : Nat) : Res Obj :=
  match s.objs[x]? with
  | some (some o) => .ok o
  | _ => .err

/-- An operation. A failed read throws, there is no object. Code: `/repo/src/cpp/d3plot.cpp:359-392`. -/
def St.step (zero : Bool) (s : St) : Cmd → Res St
  | .shells thick sh out => do
    let r ← readShells zero thick sh out s.mem
    if sh.n = 0 ∨ out = .good then .ok (s.add r.1 (.shells r.2 sh.history))
    else .ok { s with mem := r.1 }
  | .beams sh out => do
    let r ← readBeams zero sh out s.mem
    if sh.n = 0 ∨ out = .good then .ok (s.add r.1 (.beams r.2))
    else .ok { s with mem := r.1 }
  | .mean x i => do
    match ← s.obj x with
    | .shells a h => do
      let r ← meanOf s.mem a h i
      .ok (s.add r.1 (.mean r.2))
    | _ => .err
  | .copy x => do
    let o ← s.obj x
    let r ← copyObj zero s.mem o
    .ok (s.add r.1 r.2)
  | .drop x => do
    let o ← s.obj x
    let m ← dropObj s.mem o
    .ok ⟨m, s.objs.set x none⟩

/-- A program. Auxiliary of the model, no code of its own. -/
def St.run (zero : Bool) (s : St) : List Cmd → Res St
  | [] => .ok s
  | c :: cs => do
    let s ← s.step zero c
    s.run zero cs

end Dyna.StateMem
