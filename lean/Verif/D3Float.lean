import Verif.D3Read
/-!
# The versions of the d3plot functions for `double` and for `float`

Model of the conversion between `float` and `double` that the functions of `/repo/src/d3plot.c:677-1465`
and `/repo/src/d3plot.c:3141-3257` make if the numbers of the file have not the type of the result.

Every function exists for `double` (no suffix) and for `float` (suffix `_32`). Both are one function here with the
size `w` of the numbers that are returned: 8 for `double`, 4 for `float`. Numbers are bit patterns. Memory that
`malloc` returns is a list of cells without value (`none`), an access behind the end is undefined behaviour.

Simplifications: as in `D3Read`. The addition of the initial coordinates (IU = 2) is not modelled
(`c32_displacements_rejected`). The assignment of a `double` to a `float` (rounding of the machine) is a
parameter; the assignment of a `float` to a `double` is a parameter, too, and `widen` is what IEEE 754 says
(it does not set the quiet bit of a signalling NaN).
-/

namespace Dyna.D3

/-- The two conversions of C: assignment of a `float` to a `double` and of a `double` to a `float`, on bit patterns.
Code: `/repo/src/d3plot.c:781-783` and `:1081-1083` (the assignments). -/
structure Conv where
  widen : Nat → Nat
  narrow : Nat → Nat

/-- The conversion to numbers with `w` bytes. Code: `/repo/src/d3plot.c:781-783`, `:1081-1083`. -/
def Conv.to (c : Conv) (w : Nat) : Nat → Nat := if w = 8 then c.widen else c.narrow

/-- The size of the numbers that have to be converted: the functions for `double` ask for 4, those for `float`
for 8. Code: `/repo/src/d3plot.c:766`, `:1064`. -/
def otherSize (w : Nat) : Nat := if w = 8 then 4 else 8

/-- The cells of `malloc(bytes)`. Code: `/repo/src/d3plot.c:776`, `:3161`. -/
def fresh (bytes w : Nat) : List (Option Nat) := List.replicate (bytes % u64 / w) none

/-- `dst[i] = src[j]` with a conversion. Code: `/repo/src/d3plot.c:781`, `:1348`, `:3167`. -/
def putAt (f : Nat → Nat) (src : List Nat) (j : Nat) (dst : List (Option Nat)) (i : Nat) : Res (List (Option Nat)) :=
  match src[j]? with
  | none => .ub
  | some v => if i < dst.length then .ok (dst.set i (some (f v))) else .ub

/-- Three assignments at `i`. Code: `/repo/src/d3plot.c:781-783`, `:3167-3169`. -/
def putThree (f : Nat → Nat) (src : List Nat) (i : Nat) (dst : List (Option Nat)) : Res (List (Option Nat)) :=
  (putAt f src (i + 0) dst (i + 0)).bind fun dst =>
  (putAt f src (i + 1) dst (i + 1)).bind fun dst =>
  putAt f src (i + 2) dst (i + 2)

/-- The loop with step 3 up to the number of values (`/repo/src/d3plot.c:779-786`, `:854-861`, `:929-936`,
`:1079-1086`, `:1154-1161`, `:1229-1236`). -/
def convertByThree (f : Nat → Nat) (src : List Nat) (n i : Nat) (dst : List (Option Nat)) : Res (List (Option Nat)) :=
  if i < n then (putThree f src i dst).bind fun dst => convertByThree f src n (i + 3) dst
  else .ok dst
termination_by n - i

/-- The loop over the nodes (`/repo/src/d3plot.c:3165-3172`, `:3223-3230`). -/
def convertNodes (f : Nat → Nat) (src : List Nat) (n i : Nat) (dst : List (Option Nat)) : Res (List (Option Nat)) :=
  if i < n then (putThree f src (i * 3) dst).bind fun dst => convertNodes f src n (i + 1) dst
  else .ok dst
termination_by n - i

/-- The array if nothing is converted: it is what has been read (`/repo/src/d3plot.c:3187-3197`). -/
def asRead (r : Call (List Nat)) : Call (List (Option Nat)) :=
  r.bind fun x => .ok (x.1, x.2.map fun l => l.map some)

/-- Convert what the function for the other type has returned; NULL stays NULL
(`/repo/src/d3plot.c:3158-3176`, `:766-791`). -/
def converted (r : Call (List Nat)) (convert : Plot → List Nat → Res (List (Option Nat))) : Call (List (Option Nat)) :=
  r.bind fun x =>
    match x.2 with
    | none => .ok (x.1, none)
    | some src => (convert x.1 src).bind fun dst => .ok (x.1, some dst)

/-- Models `_d3plot_read_node_data` (`/repo/src/d3plot.c:3141-3198`) and `_d3plot_read_node_data_32`
(`/repo/src/d3plot.c:3200-3257`). The call of the other function does what `readNodeData` does, because the numbers
have its type. -/
def nodeDataAs (c : Conv) (w : Nat) (p : Plot) (ptr state : Nat) : Call (List (Option Nat)) :=
  if ptr = 0 then .ok (p, none)
  else if p.buf.ws = otherSize w then
    converted (readNodeData p ptr state) fun p' src =>
      convertNodes (c.to w) src p'.cda.raw.numnp 0 (fresh (p'.cda.raw.numnp * 3 * w) w)
  else asRead (readNodeData p ptr state)

/-- Models `d3plot_read_node_coordinates` (`/repo/src/d3plot.c:677-759`) and `d3plot_read_node_coordinates_32`
(`/repo/src/d3plot.c:974-1057`), without IU = 2. -/
def coordinatesAs (c : Conv) (w : Nat) (p : Plot) (state : Nat) := nodeDataAs c w p p.ptrs.stCoords state
/-- Models `d3plot_read_node_velocity` (`/repo/src/d3plot.c:825-834`) and `_32` (`/repo/src/d3plot.c:1123-1132`). -/
def velocityAs (c : Conv) (w : Nat) (p : Plot) (state : Nat) := nodeDataAs c w p p.ptrs.stVel state
/-- Models `d3plot_read_node_acceleration` (`/repo/src/d3plot.c:899-908`) and `_32` (`/repo/src/d3plot.c:1198-1207`). -/
def accelerationAs (c : Conv) (w : Nat) (p : Plot) (state : Nat) := nodeDataAs c w p p.ptrs.stAcc state

/-- Models `d3plot_read_all_node_coordinates` (`/repo/src/d3plot.c:761-823`), `..._velocity` (`:836-897`),
`..._acceleration` (`:910-972`) and the same with `_32` (`/repo/src/d3plot.c:1059-1271`). -/
def allNodeDataAs (c : Conv) (w : Nat) (p : Plot) (ptr : Nat) : Call (List (Option Nat)) :=
  if p.buf.ws = otherSize w then
    converted (readAllNodeData p ptr) fun p' src =>
      let n := p'.cda.raw.numnp * p'.states.length * 3 % u64
      convertByThree (c.to w) src n 0 (fresh (n * w) w)
  else asRead (readAllNodeData p ptr)

/-- Code: `/repo/src/d3plot.c:761-823`, `:1059-1121`. -/
def allCoordinatesAs (c : Conv) (w : Nat) (p : Plot) := allNodeDataAs c w p p.ptrs.stCoords
/-- Code: `/repo/src/d3plot.c:836-897`, `:1134-1196`. -/
def allVelocityAs (c : Conv) (w : Nat) (p : Plot) := allNodeDataAs c w p p.ptrs.stVel
/-- Code: `/repo/src/d3plot.c:910-972`, `:1209-1271`. -/
def allAccelerationAs (c : Conv) (w : Nat) (p : Plot) := allNodeDataAs c w p p.ptrs.stAcc

/-- Models `d3plot_read_time` (`/repo/src/d3plot.c:1273-1311`) and `d3plot_read_time_32`
(`/repo/src/d3plot.c:1368-1406`): a single number; if the read fails then the number is not used. -/
def timeAs (c : Conv) (w : Nat) (p : Plot) (state : Nat) : Call (List (Option Nat)) :=
  if p.buf.ws = otherSize w then
    converted (readTime p state) fun _ src => putAt (c.to w) src 0 [none] 0
  else asRead (readTime p state)

/-- The loop over the states with a conversion (`/repo/src/d3plot.c:1323-1341`, `:1418-1436`). -/
def timesLoop (f : Nat → Nat) (ptr : Nat) : List Nat → Nat → List (Option Nat) → Plot → Call (List (Option Nat))
  | [], _, dst, p => .ok (p, some dst)
  | s :: rest, i, dst, p =>
    (readAt p 1 (s + ptr)).bind fun x =>
      match x.2 with
      | none => .ok (x.1, none)
      | some src => (putAt f src 0 dst i).bind fun dst => timesLoop f ptr rest (i + 1) dst x.1

/-- Models `d3plot_read_all_time` (`/repo/src/d3plot.c:1313-1366`) and `d3plot_read_all_time_32`
(`/repo/src/d3plot.c:1408-1461`). -/
def allTimesAs (c : Conv) (w : Nat) (p : Plot) : Call (List (Option Nat)) :=
  if p.buf.ws = otherSize w then
    timesLoop (c.to w) p.ptrs.stTime p.states 0 (fresh (p.states.length * w) w) p
  else asRead (readAllTime p)

/-! ## Words as `double` -/

/-- The assignments of one and of three numbers to the variables of the caller. Too few bytes: the function that reads has failed, the numbers
are indeterminate (`none`). Code: `/repo/src/d3_buffer.c:384-385`, `:399-402`. -/
def wordsAsDouble (c : Conv) (b : Buf) (n : Nat) (bytes : Bytes) : List (Option Nat) :=
  if bytes.length < n * b.ws then List.replicate n none
  else (toWords b.ws n bytes).map fun x => some (if b.ws = 4 then c.widen x else x)

/-- Models `d3_buffer_read_double_word` (`/repo/src/d3_buffer.c:378-391`). -/
def readDoubleWord (c : Conv) (b : Buf) (p : Ptr) : Res (Buf × Ptr × List (Option Nat)) :=
  (readWords b p 1).bind fun x => .ok (x.1, x.2.1, wordsAsDouble c b 1 x.2.2)

/-- Models `d3_buffer_read_vec3` (`/repo/src/d3_buffer.c:393-407`). -/
def readVec3 (c : Conv) (b : Buf) (p : Ptr) : Res (Buf × Ptr × List (Option Nat)) :=
  (readWords b p 3).bind fun x => .ok (x.1, x.2.1, wordsAsDouble c b 3 x.2.2)

/-! ## Conversion of IEEE 754 numbers -/

/-- The assignment of a `float` to a `double` on bit patterns (sign, exponent, fraction), as IEEE 754 defines it.
Code: `/repo/src/d3plot.c:781` (the assignment). -/
def widen (b : Nat) : Nat :=
  let sign := b / 2 ^ 31 % 2
  let e := b / 2 ^ 23 % 2 ^ 8
  let m := b % 2 ^ 23
  let e' := if e = 255 then 2047 else if e = 0 then (if m = 0 then 0 else Nat.log2 m + 874) else e + 896
  let m' := if e = 0 then (m - 2 ^ Nat.log2 m) * 2 ^ (52 - Nat.log2 m) else m * 2 ^ 29
  sign * 2 ^ 63 + (e' * 2 ^ 52 + m')

end Dyna.D3
