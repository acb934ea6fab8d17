import Verif.D3Mem
import Verif.D3PartNodes
import Verif.D3AllIds
/-!
# The memory of the functions for the nodes of a part and for the ids of all elements

`d3plot_part_get_node_ids2`, `d3plot_part_get_node_indices2`, `d3plot_part_get_num_nodes2`
(`/repo/src/d3plot_part_nodes.c`, `/repo/src/pgni.h`) and `d3plot_read_all_element_ids` (`/repo/src/d3plot.c:537-577`) once
more, with the blocks they allocate and release. The values are those of `Verif.D3PartNodes` and `Verif.D3AllIds`.

The functions return, besides their results, the blocks to which no pointer remains (`lost`); this list has no influence on
anything. The tables that the caller passes belong to the caller and are not released. `malloc` of zero bytes returns a block.
-/

namespace Dyna.D3Mem

open Dyna.KeyMem Dyna.BinoutMem Dyna.D3

/-- The ids of one kind: the ones of the caller, or ids that are loaded. `none` is `NULL`; an error is cleared.
Code: `/repo/src/pgni.h:43-52` and the same lines of the other functions. -/
def idsOrLoadM (ids : Option (List Nat)) (readI : PlotM → Res (OutM (List Nat))) (p : PlotM) :
    Res (PlotM × Option (List Nat × List Nat)) :=
  match ids with
  | some l => .ok (p, some ([], l))
  | none => do
    let r ← readI p
    match r.2 with
    | none => do
      let q ← clearM r.1
      .ok (q, none)
    | some (bi, l) => if l = [] then .ok (r.1, none) else .ok (r.1, some (bi, l))

/-- Loading the connectivity; `bi` are the ids that have been loaded. After an error they are released; if there are no
elements (`NULL` without an error) they are lost. The result: the lost blocks, and the blocks and elements.
Code: `/repo/src/pgni.h:54-65`. -/
def loadConsM (readE : PlotM → Res (OutM (List Con))) (bi : List Nat) (p : PlotM) :
    Res (PlotM × List Nat × Option (List Nat × List Con)) := do
  let r ← readE p
  match r.2 with
  | none => do
    let m ← r.1.mem.freeAll bi
    let q ← clearM (r.1.withMem m)
    .ok (q, [], none)
  | some (be, l) => if l = [] then .ok (r.1, bi ++ be, none) else .ok (r.1, [], some (be, l))

/-- The connectivity of one kind, the number of elements, the blocks that have been loaded and the lost blocks.
Code: `/repo/src/pgni.h:53-65`. -/
def consOrLoadM (els : Option (List Con)) (num : Nat) (readE : PlotM → Res (OutM (List Con))) (bi : List Nat) (p : PlotM) :
    Res (PlotM × List Nat × Option (List Nat × List Con × Nat)) :=
  match els with
  | some l => .ok (p, [], some ([], l, num))
  | none => do
    let r ← loadConsM readE bi p
    .ok (r.1, r.2.1, r.2.2.map (fun x => (x.1, x.2, x.2.length)))

/-- The loop and what is behind it: the loaded ids are released, `loaded_cons` is 0. `used` are the arrays the loop works
with. Code: `/repo/src/pgni.h:66-106`. -/
def pushFoundM (cap k : Nat) (nodeIds : Option (List Nat)) (partIds bi ids used acc : List Nat)
    (c : PlotM × List Nat × Option (List Nat × List Con × Nat)) : Res (PlotM × List Nat × List Nat) :=
  match c.2.2 with
  | none => .ok (c.1, c.2.1, acc)
  | some (be, els, num) => do
    c.1.mem.useAll (used ++ (bi ++ be))
    let acc ← pushElements cap k nodeIds ids num els partIds acc
    let m ← c.1.mem.freeAll bi
    .ok (c.1.withMem m, c.2.1 ++ be, acc)

/-- One of the functions `pgni_add_element_…` and `pgnind_add_element_…` (`/repo/src/pgni.h:37-109`, `111-183`, `185-257`,
`259-333`, `335-629`). The result: the lost blocks and the nodes. -/
def addPartNodesM (cap k : Nat) (nodeIds : Option (List Nat)) (used partIds : List Nat) (ids : Option (List Nat))
    (els : Option (List Con)) (readI : PlotM → Res (OutM (List Nat))) (readE : PlotM → Res (OutM (List Con)))
    (x : PlotM × List Nat × List Nat) : Res (PlotM × List Nat × List Nat) :=
  if partIds = [] then .ok x
  else do
    let i ← idsOrLoadM ids readI x.1
    match i.2 with
    | none => .ok (i.1, x.2)
    | some (bi, l) => do
      let c ← consOrLoadM els l.length readE bi i.1
      let r ← pushFoundM cap k nodeIds partIds bi l used x.2.2 c
      .ok (r.1, x.2.1 ++ r.2.1, r.2.2)

/-- `d3plot_read_node_ids`. Code: `/repo/src/d3plot.c:484-492`. -/
def readNodeIdsM (p : PlotM) : Res (OutM (List Nat)) := readIdsM p p.ptrs.nodeIds p.cda.raw.numnp

/-- `d3plot_read_solid_element_ids`. Code: `/repo/src/d3plot.c:494-503`. -/
def readSolidIdsM (p : PlotM) : Res (OutM (List Nat)) := readIdsM p p.ptrs.el8Ids (toU64 p.cda.raw.nel8)

/-- `d3plot_read_beam_element_ids`. Code: `/repo/src/d3plot.c:505-513`. -/
def readBeamIdsM (p : PlotM) : Res (OutM (List Nat)) := readIdsM p p.ptrs.el2Ids p.cda.raw.nel2

/-- `d3plot_read_shell_element_ids`. Code: `/repo/src/d3plot.c:515-524`. -/
def readShellIdsM (p : PlotM) : Res (OutM (List Nat)) := readIdsM p p.ptrs.el4Ids p.cda.raw.nel4

/-- `d3plot_read_thick_shell_element_ids`. Code: `/repo/src/d3plot.c:526-535`. -/
def readThickIdsM (p : PlotM) : Res (OutM (List Nat)) := readIdsM p p.ptrs.eltIds p.cda.raw.nelt

/-- The four calls (`/repo/src/d3plot_part_nodes.c:60-63`, `95-98`). -/
def partNodesM (nodeIds : Option (List Nat)) (used : List Nat) (g : Given) (part : Part) (p : PlotM) :
    Res (PlotM × List Nat × List Nat) := do
  let x ← addPartNodesM (partNodeCap part) 8 nodeIds used (part.solids.map (·.2)) g.solidIds g.solids
    readSolidIdsM readSolidElementsM (p, [], [])
  let x ← addPartNodesM (partNodeCap part) 2 nodeIds used (part.beams.map (·.2)) g.beamIds g.beams
    readBeamIdsM readBeamElementsM x
  let x ← addPartNodesM (partNodeCap part) 4 nodeIds used (part.shells.map (·.2)) g.shellIds g.shells
    readShellIdsM readShellElementsM x
  addPartNodesM (partNodeCap part) 8 nodeIds used (part.thick.map (·.2)) g.thickIds g.thick
    readThickIdsM readThickElementsM x

/-- "Shrink to fit". Code: `/repo/src/d3plot_part_nodes.c:70-74` and d3plot_part_nodes.c:100-104. -/
def fitM (zero : Bool) (cap num res : Nat) (m : Mem) : Res (Mem × Option Nat) :=
  if cap = num then .ok (m, some res) else shrinkM zero m (some res) num

/-- What the functions for the nodes of a part return: blocks that belong to the caller and values (`none` means that
`error_string` is set), and the lost blocks. Code: `/repo/src/d3plot_part_nodes.c:28-77`. -/
abbrev AskM (α : Type) := OutM α × List Nat

/-- The part of `d3plot_part_get_node_ids2` and `d3plot_part_get_node_indices2` behind the node ids; `bn` are the node ids
that have been loaded. Code: `/repo/src/d3plot_part_nodes.c:54-77` and d3plot_part_nodes.c:89-108. -/
def partArrayM (zero : Bool) (nodeIds : Option (List Nat)) (bn : List Nat) (g : Given) (part : Part) (p : PlotM) :
    Res (AskM (List Nat)) := do
  let res := p.mem.alloc
  let x ← partNodesM nodeIds (res.2 :: bn) g part (p.withMem res.1)
  let m ← x.1.mem.freeAll bn
  let f ← fitM zero (partNodeCap part) x.2.2.length res.2 m
  .ok ((x.1.withMem f.1, some (f.2.toList, x.2.2)), x.2.1)

/-- `d3plot_part_get_node_ids2`. Code: `/repo/src/d3plot_part_nodes.c:28-77`. -/
def partNodeIdsM (zero : Bool) (nodeIds : Option (List Nat)) (g : Given) (part : Part) (p : PlotM) :
    Res (AskM (List Nat)) := do
  let p ← clearM p
  match nodeIds with
  | some l => partArrayM zero (some l) [] g part p
  | none => do
    let r ← readNodeIdsM p
    match r.2 with
    | none => do
      let e ← errM r.1
      .ok (e, [])
    | some (bn, l) => partArrayM zero (some l) bn g part r.1

/-- `d3plot_part_get_node_indices2`. Code: `/repo/src/d3plot_part_nodes.c:79-109`. -/
def partNodeIndicesM (zero : Bool) (g : Given) (part : Part) (p : PlotM) : Res (AskM (List Nat)) := do
  let p ← clearM p
  partArrayM zero none [] g part p

/-- `d3plot_part_get_num_nodes2`. Code: `/repo/src/d3plot_part_nodes.c:111-129`. -/
def partNumNodesM (zero : Bool) (g : Given) (part : Part) (p : PlotM) : Res (AskM Nat) := do
  let r ← partNodeIndicesM zero g part p
  match r.1.2 with
  | none => .ok ((r.1.1, none), r.2)
  | some (bs, l) => do
    let m ← r.1.1.mem.freeAll bs
    .ok ((r.1.1.withMem m, some ([], l.length)), r.2)

/-! ## Ids of all elements -/

/-- `_insert_sorted`: the result is a new block or the block that has been enlarged. Code: `/repo/src/d3plot.c:3313-3354`. -/
def insertSortedM (acc : Option (Nat × List Nat)) (src : List Nat) (m : Mem) : Res (Mem × Nat × List Nat) := do
  let l ← insertSorted (acc.map (·.2)) src
  let a ← m.realloc (acc.map (·.1))
  .ok (a.1, a.2, l)

/-- One kind of elements (`/repo/src/d3plot.c:544-552`, `554-559`, `561-566`, `568-573`). -/
def addKindIdsM (readI : PlotM → Res (OutM (List Nat))) (x : PlotM × Option (Nat × List Nat)) :
    Res (PlotM × Option (Nat × List Nat)) := do
  let r ← readI x.1
  match r.2 with
  | some (bi, i :: l) => do
    let a ← insertSortedM x.2 (i :: l) r.1.mem
    let m ← a.1.freeAll bi
    .ok (r.1.withMem m, some a.2)
  | _ => .ok (r.1, x.2)

/-- `d3plot_read_all_element_ids`: the file and `all_ids`. Code: `/repo/src/d3plot.c:537-577`. -/
def allElementIdsM (p : PlotM) : Res (PlotM × Option (Nat × List Nat)) := do
  let x ← addKindIdsM readSolidIdsM (p, none)
  let x ← addKindIdsM readBeamIdsM x
  let x ← addKindIdsM readShellIdsM x
  addKindIdsM readThickIdsM x

/-- The block of `all_ids`. Auxiliary of the model, no code of its own. -/
def accBlk (acc : Option (Nat × List Nat)) : List Nat := (acc.map (·.1)).toList

/-- `d3plot_read_all_element_ids` as it is seen by a caller in C. Code: `/repo/src/d3plot.c:537-577`. -/
def readAllElementIdsM (p : PlotM) : Res (AskM (List Nat)) := do
  let x ← allElementIdsM p
  .ok ((x.1, some (accBlk x.2, (x.2.map (·.2)).getD [])), [])

/-- `D3plot::read_all_element_ids`: if there is an error the ids are lost. Code: `/repo/src/cpp/d3plot.cpp:115-123`. -/
def cppReadAllElementIdsM (p : PlotM) : Res (AskM (List Nat)) := do
  let x ← allElementIdsM p
  if x.1.h.perr.isSome then .ok ((x.1, none), accBlk x.2)
  else .ok ((x.1, some (accBlk x.2, (x.2.map (·.2)).getD [])), [])

end Dyna.D3Mem
