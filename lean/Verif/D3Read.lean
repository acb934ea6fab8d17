import Verif.D3Plot
import Verif.BinarySearch
/-!
# Reading from an open d3plot

Model of the functions of `/repo/src/d3plot.c:482-3060` that read from an open file.

Simplifications: numbers are the words of the file as natural numbers; the conversion between
`float` and `double` (a value is widened or rounded) is not modelled, so the functions ending with
`_32` are the same functions. `malloc` does not fail. The text of errors is not modelled.
`d3plot_read_node_coordinates` adds the initial coordinates if IU is 2
(`/repo/src/d3plot.c:692-753`): this is not modelled, because a file with IU = 2 that has states
and nodes is rejected when it is opened (`c32_displacements_rejected`). If the number of bytes to
read does not fit into 64 bits then the memory that `malloc` returns is too small; this overflow is
not modelled, the theorems about reading have hypotheses that exclude it.
-/

namespace Dyna.D3

/-- A call that reads: the file after the call, and the result. `none` means that `error_string`
is set and no data is returned. Code: `/repo/src/d3plot.h:128-137` (`error_string`). -/
abbrev Call (α : Type) := Res (Plot × Option α)

/-- Split bytes into words. Code: `/repo/src/d3plot.c:494-503` (arrays of words). -/
def toWords (ws : Nat) : Nat → Bytes → List Nat
  | 0, _ => []
  | n + 1, bytes => leNat (bytes.take ws) :: toWords ws n (bytes.drop ws)

/-- Read `n` words at a position, close the pointer and look for an error of the buffer: the
sequence that occurs in every function that reads (e.g. `/repo/src/d3plot.c:3181-3193`). -/
def readAt (p : Plot) (n word : Nat) : Call (List Nat) :=
  match readWordsAt p.buf (n % u64) (word % u64) with
  | .ok (b, q, bytes) =>
    match close q with
    | .ok _ => .ok ({ p with buf := b }, if b.err then none else some (toWords b.ws (n % u64) bytes))
    | .err => .err
    | .ub => .ub
    | .abort => .abort
  | .err => .err
  | .ub => .ub
  | .abort => .abort

/-! ## Time and nodes -/

/-- Models `d3plot_read_time` (`/repo/src/d3plot.c:1273-1311`). -/
def readTime (p : Plot) (state : Nat) : Call (List Nat) :=
  match p.states[state]? with
  | none => .ok (p, none)
  | some s => readAt p 1 (s + p.ptrs.stTime)

/-- Models `_d3plot_read_node_data` (`/repo/src/d3plot.c:3141-3198`). -/
def readNodeData (p : Plot) (ptr state : Nat) : Call (List Nat) :=
  if ptr = 0 then .ok (p, none)
  else
    match p.states[state]? with
    | none => .ok (p, none)
    | some s => readAt p (p.cda.raw.numnp * 3) (s + ptr)

/-- Models `d3plot_read_node_coordinates` (`/repo/src/d3plot.c:677-759`),
`d3plot_read_node_velocity` (`:823-833`) and `d3plot_read_node_acceleration`. -/
def readCoordinates (p : Plot) (state : Nat) : Call (List Nat) := readNodeData p p.ptrs.stCoords state
/-- Code: `/repo/src/d3plot.c:825-834`. -/
def readVelocity (p : Plot) (state : Nat) : Call (List Nat) := readNodeData p p.ptrs.stVel state
/-- Code: `/repo/src/d3plot.c:899-908`. -/
def readAcceleration (p : Plot) (state : Nat) : Call (List Nat) := readNodeData p p.ptrs.stAcc state

/-- The loop over all states of the functions that read all states at once
(e.g. `/repo/src/d3plot.c:800-817`): it ends with the first error. -/
def readEach (n ptr : Nat) : List Nat → Plot → Call (List Nat)
  | [], p => .ok (p, some [])
  | s :: rest, p =>
    match readAt p n (s + ptr) with
    | .ok (p', none) => .ok (p', none)
    | .ok (p', some d) =>
      match readEach n ptr rest p' with
      | .ok (p'', some ds) => .ok (p'', some (d ++ ds))
      | .ok (p'', none) => .ok (p'', none)
      | .err => .err
      | .ub => .ub
      | .abort => .abort
    | .err => .err
    | .ub => .ub
    | .abort => .abort

/-- Models `d3plot_read_all_time` (`/repo/src/d3plot.c:1313-1366`). -/
def readAllTime (p : Plot) : Call (List Nat) := readEach 1 p.ptrs.stTime p.states p

/-- Models `d3plot_read_all_node_coordinates`, `..._velocity` and `..._acceleration`
(`/repo/src/d3plot.c:761-1271`): in contrast to reading one state there is no check whether the
data is present. -/
def readAllNodeData (p : Plot) (ptr : Nat) : Call (List Nat) :=
  readEach (p.cda.raw.numnp * 3) ptr p.states p
/-- Code: `/repo/src/d3plot.c:761-823`. -/
def readAllCoordinates (p : Plot) : Call (List Nat) := readAllNodeData p p.ptrs.stCoords
/-- Code: `/repo/src/d3plot.c:836-897`. -/
def readAllVelocity (p : Plot) : Call (List Nat) := readAllNodeData p p.ptrs.stVel
/-- Code: `/repo/src/d3plot.c:910-975`. -/
def readAllAcceleration (p : Plot) : Call (List Nat) := readAllNodeData p p.ptrs.stAcc

/-! ## Ids, titles -/

/-- Models `_d3plot_read_ids` (`/repo/src/d3plot.c:3259-3306`). No ids is not an error. -/
def readIds (p : Plot) (ptr count : Nat) : Call (List Nat) :=
  if count = 0 then .ok (p, some []) else readAt p count ptr

/-- Models `d3plot_read_node_ids` and the functions for the ids of the elements
(`/repo/src/d3plot.c:484-536`). -/
def readNodeIds (p : Plot) : Call (List Nat) := readIds p p.ptrs.nodeIds p.cda.raw.numnp
/-- Code: `/repo/src/d3plot.c:494-503`. -/
def readSolidIds (p : Plot) : Call (List Nat) := readIds p p.ptrs.el8Ids (toU64 p.cda.raw.nel8)
/-- Code: `/repo/src/d3plot.c:505-513`. -/
def readBeamIds (p : Plot) : Call (List Nat) := readIds p p.ptrs.el2Ids p.cda.raw.nel2
/-- Code: `/repo/src/d3plot.c:515-524`. -/
def readShellIds (p : Plot) : Call (List Nat) := readIds p p.ptrs.el4Ids p.cda.raw.nel4
/-- Code: `/repo/src/d3plot.c:526-535`. -/
def readThickIds (p : Plot) : Call (List Nat) := readIds p p.ptrs.eltIds p.cda.raw.nelt

/-- The loop of `d3plot_read_part_ids` over the header (`/repo/src/d3plot.c:602-617`): a word, and
72 bytes to skip. -/
def partIdLoop : Nat → Buf → Ptr → List Nat → Res (Buf × Ptr × List Nat)
  | 0, b, q, acc => .ok (b, q, acc)
  | n + 1, b, q, acc =>
    match readWords b q 1 with
    | .ok (b, q, bytes) =>
      match skipBytes b q 72 with
      | .ok (b, q) => partIdLoop n b q (acc ++ [leNat bytes])
      | .err => .err
      | .ub => .ub
      | .abort => .abort
    | .err => .err
    | .ub => .ub
    | .abort => .abort

/-- Models `d3plot_read_part_ids` (`/repo/src/d3plot.c:579-624`): the first id is read with
`d3_buffer_read_words_at`, which does not read if there is an error from an earlier call. Without parts the
pointer that is closed has never been set. Errors of the buffer are not looked for. -/
def readPartIds (p : Plot) : Call (List Nat) :=
  if p.ptrs.partIds = 0 then
    if p.ptrs.partTitles = 0 then .ok (p, none)
    else
      match p.cda.raw.nmmat with
      | 0 => .ub
      | n + 1 =>
        match readWordsAt p.buf 1 p.ptrs.partTitles with
        | .ok (b, q, bytes) =>
          match skipBytes b q 72 with
          | .ok (b, q) =>
            match partIdLoop n b q [leNat bytes] with
            | .ok (b, q, ids) =>
              match close q with
              | .ok _ => .ok ({ p with buf := b }, some ids)
              | .err => .err
              | .ub => .ub
              | .abort => .abort
            | .err => .err
            | .ub => .ub
            | .abort => .abort
          | .err => .err
          | .ub => .ub
          | .abort => .abort
        | .err => .err
        | .ub => .ub
        | .abort => .abort
  else readIds p p.ptrs.partIds p.cda.raw.nmmat

/-- Auxiliary of the model, no code of its own: `readPartIds` if there is no error from an earlier call. -/
def readPartIdsClean (p : Plot) : Call (List Nat) :=
  if p.ptrs.partIds = 0 then
    if p.ptrs.partTitles = 0 then .ok (p, none)
    else if p.cda.raw.nmmat = 0 then .ub
    else
      match seek p.buf p.ptrs.partTitles with
      | (b, q) =>
        match partIdLoop p.cda.raw.nmmat b q [] with
        | .ok (b, q, ids) =>
          match close q with
          | .ok _ => .ok ({ p with buf := b }, some ids)
          | .err => .err
          | .ub => .ub
          | .abort => .abort
        | .err => .err
        | .ub => .ub
        | .abort => .abort
  else readIds p p.ptrs.partIds p.cda.raw.nmmat

theorem readPartIds_clean {p : Plot} (herr : p.buf.err = false) : readPartIds p = readPartIdsClean p := by
  unfold readPartIds readPartIdsClean
  split
  · split
    · rfl
    · cases hn : p.cda.raw.nmmat with
      | zero => rfl
      | succ n =>
        rw [if_neg (Nat.succ_ne_zero n)]
        dsimp only
        unfold readWordsAt
        unfold seek
        cases hl : locate p.buf.files 0 (p.ptrs.partTitles * p.buf.ws % u64) with
        | none =>
          dsimp only
          rw [if_pos rfl]
          dsimp only [skipBytes, skipWords]
          cases n with
          | zero => rfl
          | succ n => rfl
        | some y =>
          obtain ⟨i, k⟩ := y
          dsimp only
          rw [herr, if_neg (by decide), partIdLoop]
          cases readWords p.buf (some ⟨i, k, p.ptrs.partTitles⟩) 1 with
          | err => rfl
          | ub => rfl
          | abort => rfl
          | ok z =>
            obtain ⟨b, q, bytes⟩ := z
            dsimp only
            cases skipBytes b q 72 with
            | err => rfl
            | ub => rfl
            | abort => rfl
            | ok w => rfl
  · rfl

/-- Models `d3plot_read_title` (`/repo/src/d3plot.c:2888-2911`). -/
def readTitle (p : Plot) : Call (List Nat) := readAt p 10 0

/-- Models `d3plot_read_epoch_run_time` (`/repo/src/d3plot.c:2933-2953`); the pointer is set at
`/repo/src/d3plot.c:79-80`. -/
def readRunTime (p : Plot) : Call (List Nat) := readAt p 1 10

/-! ## Connectivity -/

/-- A word minus one, as an unsigned number with the size of a word: "Fortran starts by 1 and C
starts by 0" (`/repo/src/d3plot.c:2604`). -/
def minusOne (ws w : Nat) : Nat := (w + 256 ^ ws - 1) % 256 ^ ws

/-- An element: the nodes and the material. Code: `/repo/src/d3_defines.h:36-74`. -/
structure Con where
  nodes : List Nat
  material : Nat
deriving DecidableEq, Repr

/-- The elements in a table with `k` nodes and the material for every element
(e.g. `/repo/src/d3plot.c:2602-2617`). -/
def cons (ws k : Nat) : Nat → List Nat → List Con
  | 0, _ => []
  | n + 1, data =>
    ⟨(data.take k).map (minusOne ws), minusOne ws (data.getD k 0)⟩ :: cons ws k n (data.drop (k + 1))

/-- The same for beams: two nodes, a node for the orientation, and two words without meaning
(`/repo/src/d3plot.c:2771-2782`). -/
def beamCons (ws : Nat) : Nat → List Nat → List Con
  | 0, _ => []
  | n + 1, data =>
    ⟨(data.take 3).map (minusOne ws), minusOne ws (data.getD 5 0)⟩ :: beamCons ws n (data.drop 6)

/-- Apply a function to what has been read. Auxiliary of the model, no code of its own. -/
def Call.map {α β : Type} (f : α → β) : Call α → Call β
  | .ok (p, x) => .ok (p, x.map f)
  | .err => .err
  | .ub => .ub
  | .abort => .abort

/-- Models `d3plot_read_solid_elements` (`/repo/src/d3plot.c:2568-2650`). -/
def readSolidElements (p : Plot) : Call (List Con) :=
  if p.cda.raw.nel8 ≤ 0 then .ok (p, some [])
  else (readAt p (9 * toU64 p.cda.raw.nel8) p.ptrs.el8Connect).map
    (cons p.buf.ws 8 (toU64 p.cda.raw.nel8))

/-- Models `d3plot_read_thick_shell_elements` (`/repo/src/d3plot.c:2652-2737`). -/
def readThickElements (p : Plot) : Call (List Con) :=
  if p.cda.raw.nelt = 0 then .ok (p, some [])
  else (readAt p (9 * p.cda.raw.nelt) p.ptrs.eltConnect).map (cons p.buf.ws 8 p.cda.raw.nelt)

/-- Models `d3plot_read_beam_elements` (`/repo/src/d3plot.c:2738-2811`). -/
def readBeamElements (p : Plot) : Call (List Con) :=
  if p.cda.raw.nel2 = 0 then .ok (p, some [])
  else (readAt p (6 * p.cda.raw.nel2) p.ptrs.el2Connect).map (beamCons p.buf.ws p.cda.raw.nel2)

/-- Models `d3plot_read_shell_elements` (`/repo/src/d3plot.c:2813-2886`). -/
def readShellElements (p : Plot) : Call (List Con) :=
  if p.cda.raw.nel4 = 0 then .ok (p, some [])
  else (readAt p (5 * p.cda.raw.nel4) p.ptrs.el4Connect).map (cons p.buf.ws 4 p.cda.raw.nel4)

/-! ## Parts -/

/-- The loop of `ADD_ELEMENTS_TO_PART` (`/repo/src/d3plot.c:2968-2986`): index and id of the
elements with this material; `i` is the index of the first element. -/
def selectPart (part : Nat) : (i : Nat) → List Con → List Nat → Res (List (Nat × Nat))
  | _, [], _ => .ok []
  | i, e :: es, ids =>
    if e.material = part then
      match ids.head? with
      | none => .ub
      | some id =>
        match selectPart part (i + 1) es ids.tail with
        | .ok l => .ok ((i, id) :: l)
        | .err => .err
        | .ub => .ub
        | .abort => .abort
    else selectPart part (i + 1) es ids.tail

/-- Models `ADD_ELEMENTS_TO_PART` (`/repo/src/d3plot.c:2957-2990`): errors are ignored. -/
def addElements (part : Nat) (readI : Plot → Call (List Nat)) (readE : Plot → Call (List Con)) (p : Plot) :
    Res (Plot × List (Nat × Nat)) :=
  match readI p with
  | .ok (p, none) => .ok (p, [])
  | .ok (p, some ids) =>
    if ids = [] then .ok (p, [])
    else
      match readE p with
      | .ok (p, none) => .ok (p, [])
      | .ok (p, some els) =>
        match selectPart part 0 els ids with
        | .ok l => .ok (p, l)
        | .err => .err
        | .ub => .ub
        | .abort => .abort
      | .err => .err
      | .ub => .ub
      | .abort => .abort
  | .err => .err
  | .ub => .ub
  | .abort => .abort

/-- `d3plot_part`: index and id of the elements of each kind. Code: `/repo/src/d3_defines.h:76-91`. -/
structure Part where
  solids : List (Nat × Nat)
  thick : List (Nat × Nat)
  beams : List (Nat × Nat)
  shells : List (Nat × Nat)
deriving DecidableEq, Repr

/-- Models `d3plot_read_part` (`/repo/src/d3plot.c:2988-3033`). -/
def readPart (p : Plot) (part : Nat) : Call Part :=
  (addElements part readSolidIds readSolidElements p).bind fun (p, solids) =>
  (addElements part readThickIds readThickElements p).bind fun (p, thick) =>
  (addElements part readBeamIds readBeamElements p).bind fun (p, beams) =>
  (addElements part readShellIds readShellElements p).bind fun (p, shells) =>
  if solids = [] ∧ thick = [] ∧ beams = [] ∧ shells = [] then .ok (p, none)
  else .ok (p, some ⟨solids, thick, beams, shells⟩)

/-- Models `d3plot_read_part_by_id` (`/repo/src/d3plot.c:3035-3071`) when the part ids are read
from the file. -/
def readPartById (p : Plot) (id : Nat) : Call Part :=
  match readPartIds p with
  | .ok (p, none) => .ok (p, none)
  | .ok (p, some ids) =>
    if ids = [] then .ok (p, none)
    else
      match indexForId id ids with
      | .ok none => .ok (p, none)
      | .ok (some i) => readPart p i
      | .err => .err
      | .ub => .ub
      | .abort => .abort
  | .err => .err
  | .ub => .ub
  | .abort => .abort

/-- Search for the place of insertion (`/repo/src/d3plot.c:3343-3347`). -/
def insertAt (src : List Nat) : (prev : Nat) → List Nat → Nat → Nat
  | _, [], i => i
  | prev, d :: rest, i => if prev < src.headD 0 ∧ d > src.headD 0 then i else insertAt src d rest (i + 1)

/-- Models `_insert_sorted` (`/repo/src/d3plot.c:3313-3354`). `memcpy` with overlapping regions is
undefined behaviour. `none` is `dst == NULL`. -/
def insertSorted (dst : Option (List Nat)) (src : List Nat) : Res (List Nat) :=
  match dst with
  | none => .ok src
  | some dst =>
    match dst.head?, dst.getLast?, src.head?, src.getLast? with
    | some dmin, some dmax, some smin, some smax =>
      if smax ≤ dmin then
        if src.length < dst.length then .ub else .ok (src ++ dst)
      else if smin ≥ dmax then .ok (dst ++ src)
      else
        let i := insertAt src dmin dst.tail 1
        if src.length < dst.length - i then .ub else .ok (dst.take i ++ src ++ dst.drop i)
    | _, _, _, _ => .ub

end Dyna.D3
