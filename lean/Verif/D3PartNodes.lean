import Verif.D3Read
/-!
# Nodes and elements of a part (`/repo/src/d3plot_part_nodes.c`, `/repo/src/pgni.h`)

`NULL` arguments are `none`. Not modelled: the memory of connectivities that the functions load
themselves and never free (`loaded_cons` is never set).
-/

namespace Dyna.D3

open Dyna

/-- Push one node onto the sorted array (`/repo/src/pgni.h:76-95`, and the same lines in all
eight functions of the file): binary search, elements behind the place are moved by one. `cap` is
the number of elements of the array (`/repo/src/d3plot_part_nodes.c:54-58`). -/
def pushNode (cap : Nat) (acc : List Nat) (x : Nat) : Res (List Nat) :=
  if acc.length = 0 then
    if cap = 0 then .ub else .ok [x]
  else
    match bsearchInsert (fun i => (acc[i]?).map (d3WordCmp x)) 0 (acc.length - 1) with
    | .ok (true, _) => .ok acc
    | .ok (false, i) => if cap ≤ acc.length then .ub else .ok (acc.take i ++ x :: acc.drop i)
    | .err => .err
    | .ub => .ub
    | .abort => .abort

/-- What is pushed for a node of an element: the id of the node
(`/repo/src/pgni.h:74-75`), or the index itself if there are no ids
(`/repo/src/pgni.h:372`). -/
def nodeValue (nodeIds : Option (List Nat)) (index : Nat) : Res Nat :=
  match nodeIds with
  | none => .ok index
  | some ids => .ofOption ids[index]?

/-- Inner loop over the nodes of an element (`/repo/src/pgni.h:71-98`). -/
def pushNodes (cap : Nat) (nodeIds : Option (List Nat)) : List Nat → List Nat → Res (List Nat)
  | [], acc => .ok acc
  | n :: ns, acc => do
    let x ← nodeValue nodeIds n
    let acc ← pushNode cap acc x
    pushNodes cap nodeIds ns acc

/-- Outer loop over the elements of the part (`/repo/src/pgni.h:66-100`). `num` is the number
of ids that are searched; an id that is not found gives the index `SIZE_MAX`, which is not
checked. `k` is the size of `node_indices`. -/
def pushElements (cap k : Nat) (nodeIds : Option (List Nat)) (ids : List Nat) (num : Nat)
    (els : List Con) : List Nat → List Nat → Res (List Nat)
  | [], acc => .ok acc
  | id :: rest, acc => do
    let r ← bsearch (fun i => (ids[i]?).map (d3WordCmp id)) 0 (sub64 num 1)
    match r with
    | none => .ub
    | some i =>
      let e ← Res.ofOption els[i]?
      let acc ← pushNodes cap nodeIds (e.nodes.take k) acc
      pushElements cap k nodeIds ids num els rest acc

/-- One of the functions `pgni_add_element_…` and `pgnind_add_element_…`
(`/repo/src/pgni.h:37-109`, `111-183`, `185-257`, `259-333`, `335-629`): ids and connectivity are
loaded if they are not given; errors while loading are ignored and loading nothing gives `NULL`. -/
def addPartNodes (cap k : Nat) (nodeIds : Option (List Nat)) (partIds : List Nat)
    (ids : Option (List Nat)) (els : Option (List Con))
    (readI : Plot → Call (List Nat)) (readE : Plot → Call (List Con))
    (p : Plot) (acc : List Nat) : Res (Plot × List Nat) :=
  if partIds = [] then .ok (p, acc)
  else do
    let (p, ids, num) ← match ids with
      | some l => Res.ok (p, some l, l.length)
      | none => do
        let (p, r) ← (readI p : Res (Plot × Option (List Nat)))
        Res.ok (p, r.bind fun l => if l = [] then none else some l, (r.getD []).length)
    match ids with
    | none => .ok (p, acc)
    | some ids => do
      let (p, els, num) ← match els with
        | some l => Res.ok (p, some l, num)
        | none => do
          let (p, r) ← (readE p : Res (Plot × Option (List Con)))
          Res.ok (p, r.bind fun l => if l = [] then none else some l, (r.getD []).length)
      match els with
      | none => .ok (p, acc)
      | some els => do
        let acc ← pushElements cap k nodeIds ids num els partIds acc
        return (p, acc)

/-- The tables that the caller may pass, by kind: ids and connectivity.
Code: `/repo/src/d3plot_part_nodes.c:28-40` (parameters). -/
structure Given where
  solidIds : Option (List Nat) := none
  beamIds : Option (List Nat) := none
  shellIds : Option (List Nat) := none
  thickIds : Option (List Nat) := none
  solids : Option (List Con) := none
  beams : Option (List Con) := none
  shells : Option (List Con) := none
  thick : Option (List Con) := none

/-- Number of elements of the result array (`/repo/src/d3plot_part_nodes.c:54-56`). -/
def partNodeCap (part : Part) : Nat :=
  part.solids.length * 8 + part.beams.length * 2 + part.shells.length * 4 + part.thick.length * 8

/-- The four calls (`/repo/src/d3plot_part_nodes.c:60-63`, `95-98`). -/
def partNodes (nodeIds : Option (List Nat)) (g : Given) (p : Plot) (part : Part) :
    Res (Plot × List Nat) := do
  let cap := partNodeCap part
  let (p, acc) ← addPartNodes cap 8 nodeIds (part.solids.map (·.2)) g.solidIds g.solids
    readSolidIds readSolidElements p []
  let (p, acc) ← addPartNodes cap 2 nodeIds (part.beams.map (·.2)) g.beamIds g.beams
    readBeamIds readBeamElements p acc
  let (p, acc) ← addPartNodes cap 4 nodeIds (part.shells.map (·.2)) g.shellIds g.shells
    readShellIds readShellElements p acc
  addPartNodes cap 8 nodeIds (part.thick.map (·.2)) g.thickIds g.thick
    readThickIds readThickElements p acc

/-- Models `d3plot_part_get_node_ids2` (`/repo/src/d3plot_part_nodes.c:28-77`). No node ids (a
file without nodes) are a `NULL` pointer, which is used like an array. -/
def partNodeIds (nodeIds : Option (List Nat)) (g : Given) (p : Plot) (part : Part) :
    Res (Plot × Option (List Nat)) :=
  match nodeIds with
  | some l => do
    let (p, r) ← partNodes (some l) g p part
    return (p, some r)
  | none => do
    let (p, r) ← (readNodeIds p : Res (Plot × Option (List Nat)))
    match r with
    | none => .ok (p, none)
    | some l => do
      let (p, r) ← partNodes (some l) g p part
      return (p, some r)

/-- Models `d3plot_part_get_node_indices2` (`/repo/src/d3plot_part_nodes.c:79-109`). -/
def partNodeIndices (g : Given) (p : Plot) (part : Part) : Res (Plot × Option (List Nat)) := do
  let (p, r) ← partNodes none g p part
  return (p, some r)

/-- Models `d3plot_part_get_num_nodes2` (`/repo/src/d3plot_part_nodes.c:111-129`). -/
def partNumNodes (g : Given) (p : Plot) (part : Part) : Res (Plot × Option Nat) := do
  let (p, r) ← partNodes none g p part
  return (p, some r.length)

/-- Models `d3plot_part_get_num_elements` (`/repo/src/d3plot_part_nodes.c:131-134`). -/
def partNumElements (part : Part) : Nat :=
  part.solids.length + part.thick.length + part.beams.length + part.shells.length

/-- One kind of elements in `d3plot_part_get_all_element_ids`
(`/repo/src/d3plot_part_nodes.c:148-181`): the first ids are copied, the following ones are
merged by `_insert_sorted`, whose result (the reallocated array) is thrown away. `stays` says
whether `realloc` leaves the array where it is; if it does not, the freed array is used. -/
def mergeKind (stays : Bool) (acc : Option (List Nat)) (ids : List Nat) :
    Res (Option (List Nat)) :=
  if ids = [] then .ok acc
  else match acc with
    | none => .ok (some ids)
    | some l => if stays then do return some (← insertSorted (some l) ids) else .ub

/-- Models `d3plot_part_get_all_element_ids` (`/repo/src/d3plot_part_nodes.c:136-186`). -/
def partAllElementIds (stays : Bool) (part : Part) : Res (List Nat) := do
  let acc ← mergeKind stays none (part.solids.map (·.2))
  let acc ← mergeKind stays acc (part.thick.map (·.2))
  let acc ← mergeKind stays acc (part.beams.map (·.2))
  let acc ← mergeKind stays acc (part.shells.map (·.2))
  return acc.getD []

end Dyna.D3
