import Verif.D3Read
/-!
# Ids of all elements (`/repo/src/d3plot.c:537-577`)
-/

namespace Dyna.D3

open Dyna

/-- One kind of elements (`/repo/src/d3plot.c:544-552`, `554-559`, `561-566`, `568-573`): "If an error occurs when trying to
read the element ids, those specific elements will be ignored"; the message of the error is cleared by the next call. -/
def addKindIds (readI : Plot → Call (List Nat)) (x : Plot × Option (List Nat)) : Res (Plot × Option (List Nat)) :=
  match readI x.1 with
  | .ok (p, some (i :: l)) =>
    match insertSorted x.2 (i :: l) with
    | .ok r => .ok (p, some r)
    | .err => .err
    | .ub => .ub
    | .abort => .abort
  | .ok (p, _) => .ok (p, x.2)
  | .err => .err
  | .ub => .ub
  | .abort => .abort

/-- Models `d3plot_read_all_element_ids` (`/repo/src/d3plot.c:537-577`): solids, beams, shells and thick shells. No ids are a
`NULL` pointer, which is the empty list. -/
def readAllElementIds (p : Plot) : Res (Plot × List Nat) := do
  let x ← addKindIds readSolidIds (p, none)
  let x ← addKindIds readBeamIds x
  let x ← addKindIds readShellIds x
  let x ← addKindIds readThickIds x
  .ok (x.1, x.2.getD [])

/-- Whether a call sets `error_string` (`/repo/src/d3plot.c:3275-3282`, `3296-3302`). -/
def failed (readI : Plot → Call (List Nat)) (p : Plot) : Bool :=
  match readI p with
  | .ok (_, none) => true
  | _ => false

/-- Models `D3plot::read_all_element_ids` (`/repo/src/cpp/d3plot.cpp:115-123`): `error_string` is the one of the last of
the four calls; if it is set there is an exception (`none`). -/
def cppReadAllElementIds (p : Plot) : Res (Plot × Option (List Nat)) := do
  let x ← addKindIds readSolidIds (p, none)
  let x ← addKindIds readBeamIds x
  let x ← addKindIds readShellIds x
  let y ← addKindIds readThickIds x
  .ok (y.1, if failed readThickIds x.1 then none else some (y.2.getD []))

end Dyna.D3
