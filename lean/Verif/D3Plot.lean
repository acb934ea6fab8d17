import Verif.D3Buffer
/-!
# Opening a d3plot family

Model of `d3plot_open` (`/repo/src/d3plot.c:56-466`), of the functions in
`/repo/src/d3plot_data.c` and of `_d3plot_read_state_data` (`/repo/src/d3plot_state.c:42-333`).

Simplifications: words are little endian; products and sums of `int64_t` values do not overflow
(the values are modelled as integers); the text of errors and of titles is not modelled;
`d3plot_open` returning with `error_string` set is the outcome `err`.
-/

namespace Dyna.D3

/-- The buffer and the pointer `d3_ptr` during opening.
Code: `/repo/src/d3plot.c:56-75` (locals of `d3plot_open`). -/
structure S where
  b : Buf
  p : Ptr

/-- A part of `d3plot_open`. Code: `/repo/src/d3plot.c:56-480`. -/
def M (α : Type) : Type := S → Res (α × S)

instance : Monad M where
  pure a := fun s => .ok (a, s)
  bind m f := fun s =>
    match m s with
    | .ok (a, s') => f a s'
    | .err => .err
    | .ub => .ub
    | .abort => .abort

/-- `error_string` is set and the function returns.
Code: `/repo/src/d3_defines.h`(macros `ERROR_AND_RETURN`), d3plot.c:238-241. -/
def fail {α : Type} : M α := fun _ => .err

/-- `ERROR_AND_RETURN` (`/repo/src/d3plot_error_macros.h:44-51`): closes the pointer first. -/
def failClose {α : Type} : M α := fun s =>
  match s.p with
  | none => .ub
  | some _ => .err

/-- Undefined behaviour. Auxiliary of the model, no code of its own. -/
def undef {α : Type} : M α := fun _ => .ub

/-- `d3_buffer_read_words` of `n` words. Code: `/repo/src/d3_buffer.c:282-359`. -/
def rdBytes (n : Nat) : M Bytes := fun s =>
  match readWords s.b s.p n with
  | .ok (b, p, bytes) => .ok (bytes, ⟨b, p⟩)
  | .err => .err
  | .ub => .ub
  | .abort => .abort

/-- Read a word into a variable that has been set to 0
(`READ_CONTROL_DATA_PLOT_FILE_WORD`, `READ_CONTROL_DATA_WORD`, `/repo/src/d3plot.c:37-40, 49-51`). -/
def rd : M Nat := do
  let bytes ← rdBytes 1
  pure (leNat bytes)

/-- Value of a word as a signed number. Code: `/repo/src/d3plot.c:294-306` (`int64_t` fields). -/
def signed (ws w : Nat) : Int := if w < 256 ^ ws / 2 then w else (w : Int) - 256 ^ ws

/-- `READ_CONTROL_DATA_PLOT_FILE_SIGNED_WORD` (`/repo/src/d3plot.c:41-48`). -/
def rdSigned : M Int := fun s =>
  match rd s with
  | .ok (w, s') => .ok (signed s.b.ws w, s')
  | .err => .err
  | .ub => .ub
  | .abort => .abort

/-- `d3_buffer_skip_words`. Code: `/repo/src/d3_buffer.c:409-429`. -/
def skip (n : Nat) : M Unit := fun s =>
  match skipWords s.b s.p n with
  | .ok (b, p) => .ok ((), ⟨b, p⟩)
  | .err => .err
  | .ub => .ub
  | .abort => .abort

/-- A skip that is only done if a condition holds. Code: `/repo/src/d3plot_state.c:183-300`. -/
def skipIf (c : Prop) [Decidable c] (n : Nat) : M Unit := if c then skip n else pure ()

/-- `d3_buffer_skip_bytes`. Code: `/repo/src/d3_buffer.c:430-435`. -/
def skipB (n : Nat) : M Unit := fun s => skip (n / s.b.ws) s

/-- Whether `buffer.error_string` is set. Code: `/repo/src/d3_buffer.h:45-56`. -/
def hasErr : M Bool := fun s => .ok (s.b.err, s)

/-- `free(buffer.error_string); buffer.error_string = NULL`. Code: `/repo/src/d3plot.c:430-480`. -/
def clearErr : M Unit := fun s => .ok ((), { s with b := { s.b with err := false } })

/-- `d3_ptr.cur_word`. Code: `/repo/src/d3_buffer.h:32-36`. -/
def curWord : M Nat := fun s => .ok ((s.p.map Pos.word).getD ulongMax, s)

/-- Code: `/repo/src/d3_buffer.h:45-56`. -/
def wordSize : M Nat := fun s => .ok (s.b.ws, s)

/-- `d3_buffer_next_file`; the result tells whether there was another file.
Code: `/repo/src/d3_buffer.c:437-512`. -/
def toNextFile : M Bool := fun s =>
  match nextFile s.b s.p with
  | .ok p => .ok (p.isSome, { s with p := p })
  | .err => .err
  | .ub => .ub
  | .abort => .abort

/-- The bytes of the value -999999.0 (`/repo/src/d3_defines.h:249`): a float or double has this
value exactly if it consists of these bytes. -/
def eofBytes (ws : Nat) : Bytes :=
  if ws = 4 then [240, 35, 116, 201] else [0, 0, 0, 0, 126, 132, 46, 193]

/-- The raw control words that are used, in the order in which they are read
(`/repo/src/d3plot.c:102-148`). -/
structure Raw where
  ndim : Nat
  numnp : Nat
  icode : Nat
  nglbv : Nat
  it : Nat
  iu : Nat
  iv : Nat
  ia : Nat
  nel8 : Int
  nummat8 : Nat
  numds : Nat
  numst : Nat
  nv3d : Nat
  nel2 : Nat
  nummat2 : Nat
  nv1d : Nat
  nel4 : Nat
  nummat4 : Nat
  nv2d : Nat
  neiph : Nat
  neips : Nat
  maxint : Int
  nmsph : Nat
  narbs : Nat
  nelt : Nat
  nummatt : Nat
  nv3dt : Nat
  ioshl0 : Nat
  ioshl1 : Nat
  ioshl2 : Nat
  ioshl3 : Nat
  ialemat : Nat
  ncfdv1 : Nat
  nadapt : Nat
  nmmat : Nat
  npefg : Nat
  nel48 : Nat
  idtdt : Nat
  extra : Nat
deriving DecidableEq, Repr

/-- The words of the additional control block (`/repo/src/d3plot.c:153-170`). -/
structure Extra where
  nel20 : Nat := 0
  nt3d : Nat := 0
  nel27 : Nat := 0
  neipb : Nat := 0
  nel21p : Nat := 0
  nel15t : Nat := 0
  soleng : Nat := 0
  nel20t : Nat := 0
  nel40p : Nat := 0
  nel64 : Nat := 0
  quadr : Nat := 0
  cubic : Nat := 0
  tsheng : Nat := 0
  nbranch : Nat := 0
  penout : Nat := 0
  engout : Nat := 0
  bemeng : Nat := 0
  kineng : Nat := 0
  npart : Nat := 0
deriving DecidableEq, Repr

/-- Models `/repo/src/d3plot.c:102-148`. -/
def readRaw : M Raw := do
  let ndim ← rd
  let numnp ← rd
  let icode ← rd
  let nglbv ← rd
  let it ← rd
  let iu ← rd
  let iv ← rd
  let ia ← rd
  let nel8 ← rdSigned
  let nummat8 ← rd
  let numds ← rd
  let numst ← rd
  let nv3d ← rd
  let nel2 ← rd
  let nummat2 ← rd
  let nv1d ← rd
  let nel4 ← rd
  let nummat4 ← rd
  let nv2d ← rd
  let neiph ← rd
  let neips ← rd
  let maxint ← rdSigned
  let nmsph ← rd
  skip 1
  let narbs ← rd
  let nelt ← rd
  let nummatt ← rd
  let nv3dt ← rd
  let ioshl0 ← rd
  let ioshl1 ← rd
  let ioshl2 ← rd
  let ioshl3 ← rd
  let ialemat ← rd
  let ncfdv1 ← rd
  skip 1
  let nadapt ← rd
  let nmmat ← rd
  skip 1
  skip 1
  let npefg ← rd
  let nel48 ← rd
  let idtdt ← rd
  let extra ← rd
  skip 6
  pure ⟨ndim, numnp, icode, nglbv, it, iu, iv, ia, nel8, nummat8, numds, numst, nv3d, nel2, nummat2,
    nv1d, nel4, nummat4, nv2d, neiph, neips, maxint, nmsph, narbs, nelt, nummatt, nv3dt, ioshl0, ioshl1,
    ioshl2, ioshl3, ialemat, ncfdv1, nadapt, nmmat, npefg, nel48, idtdt, extra⟩

/-- Skip nine words for every part of higher order elements (`/repo/src/d3plot.c:176-182`). -/
def skipParts : Nat → M Unit
  | 0 => pure ()
  | n + 1 => do
    skip 9
    skipParts n

/-- Models `/repo/src/d3plot.c:152-207`. -/
def readExtra (extra : Nat) : M Extra :=
  if extra > 0 then do
    let nel20 ← rd
    let nt3d ← rd
    let nel27 ← rd
    let neipb ← rd
    let nel21p ← rd
    let nel15t ← rd
    let soleng ← rd
    let nel20t ← rd
    let nel40p ← rd
    let nel64 ← rd
    let quadr ← rd
    let cubic ← rd
    let tsheng ← rd
    let nbranch ← rd
    let penout ← rd
    let engout ← rd
    let bemeng ← rd
    let kineng ← rd
    skip (sub64 extra 18)
    if quadr > 0 || cubic > 0 then do
      let npart ← rd
      skipParts npart
      pure ⟨nel20, nt3d, nel27, neipb, nel21p, nel15t, soleng, nel20t, nel40p, nel64, quadr, cubic,
        tsheng, nbranch, penout, engout, bemeng, kineng, npart⟩
    else
      pure ⟨nel20, nt3d, nel27, neipb, nel21p, nel15t, soleng, nel20t, nel40p, nel64, quadr, cubic,
        tsheng, nbranch, penout, engout, bemeng, kineng, 0⟩
  else pure {}

/-- The control data that later calls use (`/repo/src/d3plot.h:33-129`): the raw words and the
derived values. `istrn` is not set in one case. -/
structure Cda where
  raw : Raw
  ext : Extra
  ndim : Nat
  packed : Bool
  mattyp : Bool
  beamip : Nat
  ioshl : Nat × Nat × Nat × Nat
  iosol : Nat × Nat
  mdlopt : Nat
  maxint : Int
  istrn : Option Nat
deriving DecidableEq, Repr

/-- Models `_get_nth_digit` (`/repo/src/d3plot.c:3123-3139`). -/
def digit (value : Nat) : Nat → Nat
  | 0 => value - value / 10 * 10
  | n + 1 => digit (value / 10) n

/-- Models the case distinction for NDIM (`/repo/src/d3plot.c:219-233`): new value, packed
connectivity, material types. -/
def dimension (ndim : Nat) : Nat × Bool × Bool :=
  if ndim = 5 ∨ ndim = 7 then (3, false, true)
  else if ndim = 3 then (3, true, false)
  else if ndim = 4 then (3, false, false)
  else (ndim, false, false)

/-- Models the switch for IOSHL (`/repo/src/d3plot.c:241-264`): shell flag and solid flag. -/
def outputFlag (w : Nat) : Nat × Nat :=
  if w = 1000 then (1, 1) else if w = 999 then (0, 1) else (0, 0)

/-- Models `/repo/src/d3plot.c:294-306`: MDLOPT and the number of integration points. -/
def deletion (maxint : Int) : Nat × Int :=
  if maxint ≥ 0 then (0, maxint)
  else if maxint < -10000 then (2, maxint * -1 - 10000)
  else (1, maxint * -1)

/-- An integer as `uint64_t`. Code: `/repo/src/d3plot.c:494-503` (conversions to `size_t`). -/
def toU64 (x : Int) : Nat := (x % (u64 : Int)).toNat

/-- Models `/repo/src/d3plot.c:308-340`. -/
def strainFlag (r : Raw) (maxint : Int) (o : Nat × Nat × Nat × Nat) : Option Nat :=
  if r.idtdt < 100 then
    if r.nv2d > 0 then
      let rhs := (toU64 maxint * (6 * o.1 + o.2.1 + r.neips) + 8 * o.2.2.1 + 4 * o.2.2.2) % u64
      some (if r.nv2d > (rhs + 1) % u64 then 1 else 0)
    else if r.nelt > 0 then
      some (if sub64 r.nv3dt (toU64 maxint * (6 * o.1 + o.2.1 + r.neips)) > 1 then 1 else 0)
    else none
  else some (digit r.idtdt 4)

/-- Models `/repo/src/d3plot.c:215-361`: the derived control data. Division by 0 is undefined. -/
def derive (r : Raw) (x : Extra) : Res Cda :=
  if (5 + x.neipb) % u64 = 0 then .ub
  else
    let beamip := sub64 (sub64 r.nv1d 6) (x.neipb * 3 % u64) / ((5 + x.neipb) % u64)
    let (ndim, packed, mattyp) := dimension r.ndim
    if ndim ≠ 3 then .err
    else
      let ioshl := ((outputFlag r.ioshl0).1, (outputFlag r.ioshl1).1, (outputFlag r.ioshl2).1,
        (outputFlag r.ioshl3).1)
      let iosol := ((outputFlag r.ioshl0).2, (outputFlag r.ioshl1).2)
      if digit r.idtdt 0 = 1 ∨ digit r.idtdt 1 = 1 ∨ digit r.idtdt 2 = 1 ∨ digit r.idtdt 3 = 1 then .err
      else
        let (mdlopt, maxint) := deletion r.maxint
        if r.icode ≠ 2 ∧ r.icode ≠ 6 then .err
        else if r.neips > 255 then .err
        else if maxint > 255 then .err
        else .ok ⟨r, x, ndim, packed, mattyp, beamip, ioshl, iosol, mdlopt, maxint,
          strainFlag r maxint ioshl⟩

/-- Models `/repo/src/d3plot.c:366-393`: data that is not supported. -/
def supported (c : Cda) : Bool :=
  !c.mattyp && c.raw.ialemat == 0 && c.raw.nmsph == 0 && c.raw.npefg == 0 && c.raw.numds == 0 &&
    c.raw.numst == 0 && c.raw.it == 0

/-- `data_pointers` (`/repo/src/d3_defines.h:251-273`); a state pointer is relative to the
start of a state. -/
structure Ptrs where
  nodeCoords : Nat := 0
  nodeIds : Nat := 0
  el8Ids : Nat := 0
  el2Ids : Nat := 0
  el4Ids : Nat := 0
  eltIds : Nat := 0
  partIds : Nat := 0
  el8Connect : Nat := 0
  eltConnect : Nat := 0
  el2Connect : Nat := 0
  el4Connect : Nat := 0
  partTitles : Nat := 0
  stTime : Nat := 0
  stCoords : Nat := 0
  stVel : Nat := 0
  stAcc : Nat := 0
  stSolid : Nat := 0
  stThick : Nat := 0
  stBeam : Nat := 0
  stShell : Nat := 0
deriving DecidableEq, Repr

/-- The pointers into the geometry, and the end of the geometry
(`/repo/src/d3plot_data.c:47-88`). -/
def geometry (c : Cda) (start : Nat) (d : Ptrs) : Ptrs × Nat :=
  let p0 := start
  let p1 := (p0 + c.raw.numnp * c.ndim) % u64
  let n8 := c.raw.nel8.natAbs
  let p2 := (p1 + (if c.raw.nel8 > 0 then 0 else 2 * n8) + 9 * n8) % u64
  let p3 := if c.raw.nelt > 0 then (p2 + 9 * c.raw.nelt) % u64 else p2
  let p4 := if c.raw.nel2 > 0 then (p3 + 6 * c.raw.nel2) % u64 else p3
  let p5 := if c.raw.nel4 > 0 then (p4 + 5 * c.raw.nel4) % u64 else p4
  ({ d with
      nodeCoords := p0
      el8Connect := p1
      eltConnect := if c.raw.nelt > 0 then p2 else d.eltConnect
      el2Connect := if c.raw.nel2 > 0 then p3 else d.el2Connect
      el4Connect := if c.raw.nel4 > 0 then p4 else d.el4Connect }, p5)

/-- Models `_d3plot_read_geometry_data` (`/repo/src/d3plot_data.c:42-100`). -/
def readGeometry (c : Cda) (d : Ptrs) : M Ptrs := do
  let start ← curWord
  if c.packed then fail
  else do
    let g := geometry c start d
    skip (sub64 g.2 start)
    if ← hasErr then fail else pure g.1

/-- Models `_d3plot_read_user_identification_numbers` (`/repo/src/d3plot_data.c:102-251`); the
second result is NUMRBS. -/
def readUserIds (c : Cda) (d : Ptrs) : M (Ptrs × Nat) :=
  if c.raw.narbs = 0 then pure (d, 0)
  else do
    let start ← curWord
    let nsort ← rdSigned
    if ← hasErr then fail else do
    skip 4
    let nsortd ← rd
    let nsrhd ← rd
    let nsrbd ← rd
    let nsrsd ← rd
    let nsrtd ← rd
    if ← hasErr then fail
    else if nsortd ≠ c.raw.numnp then fail
    else if nsrhd ≠ toU64 c.raw.nel8 then fail
    else if nsrbd ≠ c.raw.nel2 then fail
    else if nsrsd ≠ c.raw.nel4 then fail
    else if nsrtd ≠ c.raw.nelt then fail
    else do
    let (numrbs, nmmat) ← (if nsort < 0 then do
        skip 4
        let numrbs ← rd
        let nmmat ← rd
        pure (numrbs, nmmat)
      else pure (0, c.raw.nmmat) : M (Nat × Nat))
    if nsort < 0 ∧ (← hasErr) then fail else do
    let p0 ← curWord
    let p1 := (p0 + nsortd) % u64
    let p2 := (p1 + nsrhd) % u64
    let p3 := (p2 + nsrbd) % u64
    let p4 := (p3 + nsrsd) % u64
    let p5 := (p4 + nsrtd) % u64
    let p6 := (p5 + 3 * nmmat) % u64
    skip (sub64 p6 p0)
    if ← hasErr then fail else do
    let fin ← curWord
    if sub64 fin start ≠ c.raw.narbs then fail
    else pure ({ d with
      nodeIds := p0, el8Ids := p1, el2Ids := p2, el4Ids := p3, eltIds := p4
      partIds := if nsort < 0 then p5 else d.partIds }, numrbs)

/-- Number of words of the additional connectivity (`/repo/src/d3plot_data.c:257-316`). -/
def extraConnectivity (c : Cda) : Nat :=
  (if c.raw.nel8 < 0 then 2 * c.raw.nel8.natAbs else 0) + 5 * c.raw.nel48 + 13 * c.ext.nel20 +
  (if c.ext.quadr > 0 then 28 * c.ext.nel27 + 22 * c.ext.nel21p + 16 * c.ext.nel15t else 0) +
  (if c.ext.cubic > 0 then 21 * c.ext.nel20t + 41 * c.ext.nel40p + 65 * c.ext.nel64 else 0)

/-- Models `_d3plot_read_extra_node_connectivity` (`/repo/src/d3plot_data.c:253-323`). -/
def readExtraConnectivity (c : Cda) : M Unit := do
  skip (extraConnectivity c % u64)
  if ← hasErr then fail else pure ()

/-- Models `_d3plot_read_adapted_element_parent_list` (`/repo/src/d3plot_data.c:325-345`). -/
def readAdapted (c : Cda) : M Unit :=
  if c.raw.nadapt = 0 then pure ()
  else do
    skip (2 * c.raw.nadapt % u64)
    if ← hasErr then fail else pure ()

/-- Models `_d3plot_read_header` (`/repo/src/d3plot_data.c:347-454`); `fuel` bounds the number of
blocks. -/
def readHeader (d : Ptrs) : (fuel : Nat) → M Ptrs
  | 0 => fail
  | fuel + 1 => do
    let ws ← wordSize
    let bytes ← rdBytes 1
    if ← hasErr then fail
    else if leNat bytes = 90000 then do
      skipB 72
      if ← hasErr then fail else readHeader d fuel
    else if leNat bytes = 90001 then do
      let numprop ← rd
      if ← hasErr then fail else do
      let cur ← curWord
      skipB ((ws + 72) * numprop % u64)
      if ← hasErr then fail else readHeader { d with partTitles := cur } fuel
    else if leNat bytes = 90002 then do
      let numcon ← rd
      if ← hasErr then fail else do
      skipB ((ws + 72) * numcon % u64)
      if ← hasErr then fail else readHeader d fuel
    else if leNat bytes = 900100 then do
      let nline ← rd
      if ← hasErr then fail else do
      skipB (80 * nline % u64)
      if ← hasErr then fail else readHeader d fuel
    else if bytes = eofBytes ws then pure d
    else fail

/-- Skip several blocks one after the other. Code: `/repo/src/d3plot_state.c:183-300`. -/
def skipAll : List Nat → M Unit
  | [] => pure ()
  | n :: rest => do
    skip n
    skipAll rest

/-- Number of words of each of the global variables (`/repo/src/d3plot_state.c:65-146`). -/
def globals (c : Cda) (numrbs : Nat) : List Nat :=
  6 :: (List.replicate 7 [c.raw.nummat8, c.raw.nummat2, c.raw.nummat4, c.raw.nummatt, numrbs]).flatten

/-- What `_d3plot_read_state_data` found. Code: `/repo/src/d3plot_state.c:42-180`. -/
inductive Found where
  /-- return value 0 without error: the data ends here -/
  | finish
  /-- return value 2: the end marker -/
  | eof
  /-- return value 1: a state starting at this word -/
  | state (start : Nat)
deriving DecidableEq, Repr

/-- `buffer.error_string` is freed and 0 is returned (e.g. `/repo/src/d3plot_state.c:148-153`)
if it is set, otherwise continue. -/
def orStop (d : Ptrs) (m : M (Ptrs × Found)) : M (Ptrs × Found) := do
  if ← hasErr then do
    clearErr
    pure (d, .finish)
  else m

/-- `DT_PTR_SET` (`/repo/src/d3plot_state.c:36-38`): only for the first state. -/
def setFirst (first : Bool) (cur start old : Nat) : Nat := if first then sub64 cur start else old

/-- `DT_PTR_SET` for the parts of a state. Code: `/repo/src/d3plot_state.c:36-40`. -/
def setNode (flag : Nat) (first : Bool) (cur start old : Nat) : Nat :=
  if flag ≠ 0 then setFirst first cur start old else old
/-- Code: `/repo/src/d3plot_state.c:219-221`. -/
def setCoords (c : Cda) (first : Bool) (cur start : Nat) (d : Ptrs) : Ptrs :=
  { d with stCoords := setNode c.raw.iu first cur start d.stCoords }
/-- Code: `/repo/src/d3plot_state.c:224-226`. -/
def setVel (c : Cda) (first : Bool) (cur start : Nat) (d : Ptrs) : Ptrs :=
  { d with stVel := setNode c.raw.iv first cur start d.stVel }
/-- Code: `/repo/src/d3plot_state.c:229-231`. -/
def setAcc (c : Cda) (first : Bool) (cur start : Nat) (d : Ptrs) : Ptrs :=
  { d with stAcc := setNode c.raw.ia first cur start d.stAcc }
/-- Code: `/repo/src/d3plot_state.c:270`. -/
def setSolid (first : Bool) (cur start : Nat) (d : Ptrs) : Ptrs :=
  { d with stSolid := setFirst first cur start d.stSolid }
/-- Code: `/repo/src/d3plot_state.c:273`. -/
def setBeam (first : Bool) (cur start : Nat) (d : Ptrs) : Ptrs :=
  { d with stBeam := setFirst first cur start d.stBeam }
/-- Code: `/repo/src/d3plot_state.c:276`. -/
def setShell (first : Bool) (cur start : Nat) (d : Ptrs) : Ptrs :=
  { d with stShell := setFirst first cur start d.stShell }
/-- Code: `/repo/src/d3plot_state.c:281`. -/
def setThick (first : Bool) (cur start : Nat) (d : Ptrs) : Ptrs :=
  { d with stThick := setFirst first cur start d.stThick }

/-- Number of words of the deletion data (`/repo/src/d3plot_state.c:301-313`). -/
def deletionWords (c : Cda) : Nat :=
  (if c.mdlopt = 0 then 0 else if c.mdlopt = 1 then c.raw.numnp
    else toU64 c.raw.nel8 + c.raw.nelt + c.raw.nel4 + c.raw.nel2) % u64

/-- The thermal, element and deletion data (`/repo/src/d3plot_state.c:249-333`). -/
def readElements (c : Cda) (first : Bool) (start : Nat) (d : Ptrs) : M (Ptrs × Found) := do
  skip (c.ext.nt3d * toU64 c.raw.nel8 % u64)
  orStop d do
  let elemStart ← curWord
  let d := setSolid first elemStart start d
  skip (c.raw.nv3d * toU64 c.raw.nel8 % u64)
  let w ← curWord
  let d := setBeam first w start d
  skip (c.raw.nv1d * c.raw.nel2 % u64)
  let w ← curWord
  let d := setShell first w start d
  skip (c.raw.nv2d * c.raw.nel4 % u64)
  let w ← curWord
  let d := setThick first w start d
  skip (c.raw.nv3dt * c.raw.nelt % u64)
  orStop d do
  let elemEnd ← curWord
  if sub64 elemEnd elemStart < (toU64 c.raw.nel8 * c.raw.nv3d + c.raw.nelt * c.raw.nv3dt +
    c.raw.nel2 * c.raw.nv1d + c.raw.nel4 * c.raw.nv2d) % u64 then fail
  else do
  skipIf (deletionWords c > 0) (deletionWords c)
  orStop d do
  pure (d, .state start)

/-- The node data (`/repo/src/d3plot_state.c:186-247`). The temperatures are not modelled because
IT is 0. -/
def readNodes (c : Cda) (first : Bool) (start : Nat) (d : Ptrs) : M (Ptrs × Found) := do
  let nodeStart ← curWord
  let d := setCoords c first nodeStart start d
  skipIf (c.raw.iu ≠ 0) (3 * c.raw.numnp % u64)
  let w ← curWord
  let d := setVel c first w start d
  skipIf (c.raw.iv ≠ 0) (3 * c.raw.numnp % u64)
  let w ← curWord
  let d := setAcc c first w start d
  skipIf (c.raw.ia ≠ 0) (3 * c.raw.numnp % u64)
  orStop d do
  let nodeEnd ← curWord
  if sub64 nodeEnd nodeStart ≠ c.ndim * (c.raw.iu + c.raw.iv + c.raw.ia) * c.raw.numnp % u64 then fail
  else readElements c first start d

/-- Models `_d3plot_read_state_data` (`/repo/src/d3plot_state.c:42-333`). `first` is
`num_states == 0`. -/
def readState (c : Cda) (numrbs : Nat) (first : Bool) (d : Ptrs) : M (Ptrs × Found) := do
  let start ← curWord
  let ws ← wordSize
  let time ← rdBytes 1
  if ← hasErr then fail
  else if time = eofBytes ws then pure (d, .eof)
  else do
  let globalStart ← curWord
  skipAll (globals c numrbs)
  orStop d do
  skip (sub64 (sub64 c.raw.nglbv 6)
    (7 * (c.raw.nummat8 + c.raw.nummat2 + c.raw.nummat4 + c.raw.nummatt + numrbs)))
  orStop d do
  let globalEnd ← curWord
  if sub64 globalEnd globalStart ≠ c.raw.nglbv then fail
  else readNodes c first start d

/-- Models the loop over the states (`/repo/src/d3plot.c:449-462`); `fuel` bounds the number of
iterations. -/
def readStates (c : Cda) (numrbs : Nat) : (fuel : Nat) → Ptrs → List Nat → M (Ptrs × List Nat)
  | 0, _, _ => fail
  | fuel + 1, d, states => do
    let r ← readState c numrbs states.isEmpty d
    match r with
    | (d, .finish) => pure (d, states)
    | (d, .state start) => readStates c numrbs fuel d (states ++ [start])
    | (d, .eof) =>
      if ← toNextFile then readStates c numrbs fuel d states
      else pure (d, states)

/-- An open `d3plot_file`. `states` are the data pointers of the states.
Code: `/repo/src/d3plot.h:33-137`. -/
structure Plot where
  cda : Cda
  numrbs : Nat
  ptrs : Ptrs
  states : List Nat
  buf : Buf
deriving DecidableEq, Repr

/-- Everything behind the control data (`/repo/src/d3plot.c:395-466`). -/
def readBody (fuel : Nat) (c : Cda) : M (Nat × Ptrs × List Nat) := do
  let d ← readGeometry c {}
  let (d, numrbs) ← readUserIds c d
  readExtraConnectivity c
  readAdapted c
  let ws ← wordSize
  let eof ← rdBytes 1
  if eof ≠ eofBytes ws then failClose else do
  let d ← readHeader d fuel
  if c.raw.ncfdv1 = 67108864 then failClose else do
  if !(← toNextFile) then failClose else do
  let (d, states) ← readStates c numrbs fuel d []
  pure (numrbs, d, states)

/-- Everything behind the file type (`/repo/src/d3plot.c:98-466`). -/
def readPlot (fuel : Nat) : M (Cda × Nat × Ptrs × List Nat) := do
  skip 1
  skip 1
  skip 1
  let raw ← readRaw
  let ext ← readExtra raw.extra
  if ← hasErr then failClose else do
  match derive raw ext with
  | .ub => undef
  | .abort => undef
  | .err => failClose
  | .ok c =>
    if !supported c then failClose else do
    let (numrbs, d, states) ← readBody fuel c
    pure (c, numrbs, d, states)

/-- Models `d3plot_open` (`/repo/src/d3plot.c:56-466`) for a family with these contents. The
number of iterations of the loops is bounded by the number of words and files. -/
def openPlot (files : List Bytes) : Res Plot :=
  match openBuf files with
  | .ok b =>
    match ((do
      skip 10
      skip 1
      let fileType ← rd
      let fileType := if fileType > 1000 then fileType - 1000 else fileType
      if fileType ≠ 1 then failClose
      else readPlot (files.flatten.length + files.length + 1)) :
        M (Cda × Nat × Ptrs × List Nat)) ⟨b, (seek b 0).2⟩ with
    | .ok ((c, numrbs, d, states), s) => .ok ⟨c, numrbs, d, states, s.b⟩
    | .err => .err
    | .ub => .ub
    | .abort => .abort
  | .err => .err
  | .ub => .ub
  | .abort => .abort

end Dyna.D3
