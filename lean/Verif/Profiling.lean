import Verif.BinarySearch
import Verif.CStr
/-!
# Profiling

Model of `/repo/src/profiling.c` (compiled with `PROFILING`): the tree of sections with its arrays in memory, the times of
the sections and the report. Simplifications: times are numbers of clock ticks and exact (the code divides each difference by
`CLOCKS_PER_SEC` and adds doubles); the clock is an input (every call reads it twice); one thread (the context is a
global variable without a lock); `disable` is only set while the binary search runs (profiling.c:113-116) and is therefore
not part of the state between calls.
-/

namespace Dyna.Prof

open Dyna

/-- A pointer to an element: the block of the array and the index. Code: `/repo/src/profiling.h:42-50`. -/
abbrev Ptr := Nat × Nat

/-- `profiling_stack_t`; `sub` is the block of `sub_executions`. Code: `/repo/src/profiling.h:42-50`. -/
structure Cell where
  name : Bytes
  time : Int
  prof : Int
  sub : Option Nat
  parent : Option Ptr
deriving DecidableEq, Repr

/-- `profiling_context_t` and the arrays in memory; `next` is the number of the next block.
Code: `/repo/src/profiling.h:52-60`. -/
structure St where
  heap : Nat → Option (List Cell)
  next : Nat
  roots : Option Nat
  cur : Option Ptr
  noStack : Bool

/-- `profiling_execution_t`. Code: `/repo/src/profiling.h:62-67`. -/
structure Exec where
  start : Int
  pstart : Int
  shouldEnd : Bool
  cur : Option Ptr
deriving DecidableEq, Repr

/-- The context at the start of the program. Code: `/repo/src/profiling.c:32`. -/
def St.init (noStack : Bool) : St := ⟨fun _ => none, 0, none, none, noStack⟩

/-- Reading an element through a pointer; the array must not have been moved or released.
Code: the accesses in `/repo/src/profiling.c:75-200`. -/
def St.get (s : St) (p : Ptr) : Res Cell :=
  match s.heap p.1 with
  | none => .ub
  | some arr =>
    match arr[p.2]? with
    | none => .ub
    | some c => .ok c

/-- Writing an element through a pointer. Code: the accesses in `/repo/src/profiling.c:75-200`. -/
def St.set (s : St) (p : Ptr) (c : Cell) : Res St :=
  match s.heap p.1 with
  | none => .ub
  | some arr =>
    if p.2 < arr.length then .ok { s with heap := fun b => if b = p.1 then some (arr.set p.2 c) else s.heap b }
    else .ub

/-- A new section. Code: `/repo/src/profiling.c:135-139` and 146-150. -/
def Cell.fresh (name : Bytes) : Cell := ⟨name, 0, 0, none, none⟩

/-- The array in which the section is searched: that of the current section or the one of the context.
Code: `/repo/src/profiling.c:88-110`. -/
def St.array (s : St) : Res (Option Nat) :=
  match s.cur with
  | none => .ok s.roots
  | some p => do
    let c ← s.get p
    .ok c.sub

/-- `*stack_array = …`. Code: `/repo/src/profiling.c:123-124` and 142-143. -/
def St.setArray (s : St) (b : Nat) : Res St :=
  match s.cur with
  | none => .ok { s with roots := some b }
  | some p => do
    let c ← s.get p
    s.set p { c with sub := some b }

/-- `malloc`: a block that has not been used before. Code: `/repo/src/profiling.c:143`. -/
def St.alloc (s : St) (arr : List Cell) : St × Nat :=
  ({ s with heap := fun b => if b = s.next then some arr else s.heap b, next := s.next + 1 }, s.next)

/-- `realloc`: the array has a new address afterwards (it may have the old one, but a pointer into the old one is not
valid in any case). Code: `/repo/src/profiling.c:122-130`. -/
def St.realloc (s : St) (old : Nat) (arr : List Cell) : St × Nat :=
  ({ s with heap := fun b => if b = s.next then some arr else if b = old then none else s.heap b, next := s.next + 1 }, s.next)

/-- The place of the section in its array, which is created if necessary. Code: `/repo/src/profiling.c:112-151`. -/
def St.place (s : St) (name : Bytes) : Res (St × Ptr) := do
  let a ← s.array
  match a with
  | some b =>
    match s.heap b with
    | none => .ub
    | some arr => do
      let (found, i) ← bsearchInsert (fun i => (arr[i]?).map (fun c => strcmp name c.name)) 0 (arr.length - 1)
      if found then .ok (s, (b, i))
      else do
        let r := s.realloc b (arr.take i ++ Cell.fresh name :: arr.drop i)
        let s ← r.1.setArray r.2
        .ok (s, (r.2, i))
  | none => do
    let r := s.alloc [Cell.fresh name]
    let s ← r.1.setArray r.2
    .ok (s, (r.2, 0))

/-- Is the section part of the current one: `disable_stacking` or the same name ("avoid recursion").
Code: `/repo/src/profiling.c:88-104`. -/
def St.joins (s : St) (name : Bytes) : Res Bool :=
  match s.cur with
  | none => .ok false
  | some p => do
    let c ← s.get p
    .ok (s.noStack || decide (name = c.name))

/-- `_BEGIN_PROFILE_SECTION`; `t0` is the first and `t1` the last reading of the clock. Code: `/repo/src/profiling.c:75-163`. -/
def begin_ (s : St) (name : Bytes) (t0 t1 : Int) : Res (St × Exec) := do
  let j ← s.joins name
  if j then .ok (s, ⟨t1, t0, false, s.cur⟩)
  else do
    let (s1, p) ← s.place name
    let c ← s1.get p
    let s2 ← s1.set p { c with parent := s.cur }
    .ok ({ s2 with cur := some p }, ⟨t1, t0, true, some p⟩)

/-- `profiling_time += …` of an element. Code: `/repo/src/profiling.c:187-189` and 196-197. -/
def St.addProf (s : St) (p : Ptr) (d : Int) : Res St := do
  let c ← s.get p
  s.set p { c with prof := c.prof + d }

/-- `_END_PROFILE_SECTION`; `t2` and `t3` are the readings of the clock. Code: `/repo/src/profiling.c:165-200`. -/
def end_ (s : St) (e : Exec) (t2 t3 : Int) : Res St :=
  if e.shouldEnd then
    match e.cur with
    | none => .ub
    | some p => do
      let c ← s.get p
      let now := t2 - e.start - c.prof
      let s ← s.set p { c with time := c.time + now, prof := 0 }
      let s := { s with cur := c.parent }
      match c.parent with
      | none => .ok s
      | some q => s.addProf q (t3 - e.pstart - now)
  else
    match e.cur with
    | none => .ok s
    | some p => s.addProf p (t3 - e.pstart - (t2 - e.start))

/-! ## Programs -/

/-- One execution of a section: its name, the readings of the clock by `_BEGIN_PROFILE_SECTION` (`t0`, `t1`) and by
`_END_PROFILE_SECTION` (`t2`, `t3`), and the sections that are executed within it.
Code: a function with `BEGIN_PROFILE_FUNC` and `END_PROFILE_FUNC`, `/repo/src/profiling.h:89-100`. -/
inductive Call where
  | mk (name : Bytes) (t0 t1 : Int) (subs : List Call) (t2 t3 : Int)

mutual
/-- Executes a section. Code: `/repo/src/profiling.h:89-100`. -/
def runCall (s : St) : Call → Res St
  | .mk name t0 t1 subs t2 t3 => do
    let (s, e) ← begin_ s name t0 t1
    let s ← runCalls s subs
    end_ s e t2 t3
/-- Executes sections one after the other. Code: `/repo/src/profiling.h:89-100`. -/
def runCalls (s : St) : List Call → Res St
  | [] => .ok s
  | c :: cs => do
    let s ← runCall s c
    runCalls s cs
end

/-! ## The report -/

/-- A section with the sections within it, as the report sees it (`profiling_stack_t` with its array `sub_executions`).
Code: `/repo/src/profiling.h:42-50`. -/
inductive RT where
  | node (name : Bytes) (time : Int) (subs : List RT)

/-- `execution_name`. Code: `/repo/src/profiling.h:43`. -/
def RT.name : RT → Bytes
  | .node n _ _ => n

/-- `execution_time`. Code: `/repo/src/profiling.h:44`. -/
def RT.time : RT → Int
  | .node _ t _ => t

/-- `sub_executions`. Code: `/repo/src/profiling.h:47-48`. -/
def RT.subs : RT → List RT
  | .node _ _ l => l

/-- Swaps two elements. Code: `/repo/src/profiling.c:43-46` and 52-55. -/
def swap (a : List RT) (i j : Nat) : Res (List RT) :=
  match a[i]?, a[j]? with
  | some x, some y => .ok ((a.set i y).set j x)
  | _, _ => .ub

/-- The loop of `partition_execution_times`; the first number is `high - j` and `k` is `i + 1`.
Code: `/repo/src/profiling.c:38-50`. -/
def partLoop (pivot : Int) : Nat → List RT → Nat → Nat → Res (List RT × Nat)
  | 0, a, k, _ => .ok (a, k)
  | n + 1, a, k, j =>
    match a[j]? with
    | none => .ub
    | some x =>
      if pivot < x.time then do
        let a ← swap a k j
        partLoop pivot n a (k + 1) (j + 1)
      else partLoop pivot n a k (j + 1)

/-- `partition_execution_times`. Code: `/repo/src/profiling.c:34-58`. -/
def partition (a : List RT) (low high : Nat) : Res (List RT × Nat) :=
  match a[high]? with
  | none => .ub
  | some x => do
    let r ← partLoop x.time (high - low) a low low
    let a ← swap r.1 r.2 high
    .ok (a, r.2)

/-- The part of `quick_sort_execution_times` for this array; `sort` is the recursive call.
Code: `/repo/src/profiling.c:62-67`. -/
def qsortParts (sort : List RT → Int → Int → Res (List RT)) (a : List RT) (low high : Int) : Res (List RT) :=
  if low < high then do
    let r ← partition a low.toNat high.toNat
    let a ← sort r.1 low ((r.2 : Int) - 1)
    sort a ((r.2 : Int) + 1) high
  else .ok a

/-- `quick_sort_execution_times`: note that at the end of every call the sections within the *first* element of the array are
sorted. `low` and `high` are signed since `high` may be -1; the first argument bounds the recursion.
Code: `/repo/src/profiling.c:60-73`. -/
def qsort : Nat → List RT → Int → Int → Res (List RT)
  | 0, _, _, _ => .ub
  | f + 1, a, low, high => do
    let a ← qsortParts (qsort f) a low high
    match a with
    | [] => .ub
    | x :: rest =>
      if x.subs.length ≠ 0 then do
        let l ← qsort f x.subs 0 ((x.subs.length : Int) - 1)
        .ok (.node x.name x.time l :: rest)
      else .ok a

/-- The column with the name of a section: the line is built in a buffer of 1024 bytes, in which the name must fit.
Code: `/repo/src/profiling.c:286-306`. -/
def nameColumn (level : Nat) (name : Bytes) : Res Bytes :=
  if 1023 < level + name.length then .ub
  else .ok ((List.replicate level 45 ++ name ++ 32 :: List.replicate (40 - (level + name.length + 1)) 46).take 40)

/-- A line of the report: the level, the name and the time. The text of the time is not modelled.
Code: `/repo/src/profiling.c:282-320`. -/
structure Line where
  level : Nat
  name : Bytes
  column : Bytes
  time : Int
deriving DecidableEq, Repr

mutual
/-- `fprint_profiling_stack`. Code: `/repo/src/profiling.c:282-328`. -/
def printRT (level : Nat) : RT → Res (List Line)
  | .node n t subs => do
    let c ← nameColumn level n
    let l ← printRTs (level + 1) subs
    .ok (⟨level, n, c, t⟩ :: l)
/-- The loop over the sections. Code: `/repo/src/profiling.c:255-261` and 322-327. -/
def printRTs (level : Nat) : List RT → Res (List Line)
  | [] => .ok []
  | x :: xs => do
    let l ← printRT level x
    let m ← printRTs level xs
    .ok (l ++ m)
end

/-- Does `END_PROFILING` write the report: not while a section is open. Code: `/repo/src/profiling.c:202-241`. -/
def St.reports (s : St) : Bool := s.cur.isNone && s.roots.isSome

/-- The lines of the report for the sections `a` of the context (none if there are no sections). The first argument bounds
the recursion. Code: `/repo/src/profiling.c:241-267`. -/
def report (f : Nat) (a : List RT) : Res (List Line) :=
  if a.length ≠ 0 then do
    let a ← qsort f a 0 ((a.length : Int) - 1)
    printRTs 0 a
  else .ok []

end Dyna.Prof
