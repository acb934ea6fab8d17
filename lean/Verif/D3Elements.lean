import Verif.D3Read
/-!
# State data of elements

Model of `d3plot_read_solids_state`, `d3plot_read_thick_shells_state`, `d3plot_read_beams_state`
and `d3plot_read_shells_state` (`/repo/src/d3plot.c:1463-2566`). The branches for words of four and
eight bytes do the same with the values.

The values of a state are in the array `data`, and `o` is the next value. Reading behind the end
of `data` and writing behind the end of the memory for the history variables are undefined
behaviour (`none`). ISTRN is not set in one case (`none`, see `strainFlag`); then its use is
undefined behaviour.
-/

namespace Dyna.D3

/-- A part of a loop over `data`; the state is the variable `o`. `none` is undefined behaviour.
Code: `/repo/src/d3plot.c:1508-1556` (the variable `o` of the loops). -/
def Cur (α : Type) : Type := List Nat → Nat → Option (α × Nat)

instance : Monad Cur where
  pure a := fun _ o => some (a, o)
  bind m f := fun data o =>
    match m data o with
    | some (a, o') => f a data o'
    | none => none

/-- The next `n` values: `data[o++]`, or `memcpy(…, &data[o], …); o += n`.
Code: `/repo/src/d3plot.c:1510-1524`. -/
def next (n : Nat) : Cur (List Nat) := fun data o =>
  if o + n ≤ data.length then some ((data.drop o).take n, o + n) else none

/-- `n` values that are only there if a flag is set, otherwise zeros (`memset`).
Code: `/repo/src/d3plot.c:1509-1531`. -/
def nextIf (flag : Bool) (n : Nat) : Cur (List Nat) :=
  if flag then next n else pure (List.replicate n 0)

/-- `n` values that are `k` values ahead; `o` stays. The index is a `uint64_t`.
Code: `/repo/src/d3plot.c:1533-1553, 1614-1624`. -/
def ahead (k n : Nat) : Cur (List Nat) := fun data o =>
  if (o + k) % u64 + n ≤ data.length then some ((data.drop ((o + k) % u64)).take n, o) else none

/-- `o += n`, where `o` is a `size_t`. Code: `/repo/src/d3plot.c:1555, 1626`. -/
def advance (n : Nat) : Cur Unit := fun _ o => some ((), (o + n) % u64)

/-- A write to memory with `size` values that ends at `fin`. Code: `/repo/src/d3plot.c:1719-1737`. -/
def checkWrite (fin size : Nat) : Cur Unit := fun _ o => if fin ≤ size then some ((), o) else none

/-- `i` from 0 to `n - 1`. Code: `/repo/src/d3plot.c:1505-1507` (the loops over elements and points). -/
def times {α : Type} (f : Nat → Cur α) : (n i : Nat) → Cur (List α)
  | 0, _ => pure []
  | n + 1, i => do
    let a ← f i
    let as ← times f n (i + 1)
    pure (a :: as)

/-- `d3plot_solid`. Code: `/repo/src/d3_defines.h:122-135`. -/
structure Solid where
  sigma : List Nat
  plastic : List Nat
  epsilon : List Nat
deriving DecidableEq, Repr

/-- One solid (`/repo/src/d3plot.c:1508-1556`). -/
def solid (c : Cda) (istrn : Nat) : Cur Solid := do
  let sigma ← nextIf (c.iosol.1 ≠ 0) 6
  let plastic ← nextIf (c.iosol.2 ≠ 0) 1
  let epsilon ← (if istrn = 1 ∧ c.raw.neiph ≥ 6 then ahead (c.raw.neiph - 6) 6
    else pure (List.replicate 6 0))
  advance c.raw.neiph
  pure ⟨sigma, plastic, epsilon⟩

/-- `d3plot_surface`; `num_history_variables` values in `history`.
Code: `/repo/src/d3_defines.h:138-151`. -/
structure Surface where
  sigma : List Nat
  plastic : List Nat
  history : List Nat
deriving DecidableEq, Repr

/-- One integration point of a shell or thick shell (`/repo/src/d3plot.c:1739-1773, 2329-2362`).
`slot` is the number of the integration point over all elements and `size` the number of values
in the memory for the history variables. -/
def surface (c : Cda) (slot size : Nat) : Cur Surface := do
  let sigma ← nextIf (c.ioshl.1 ≠ 0) 6
  let plastic ← nextIf (c.ioshl.2.1 ≠ 0) 1
  if c.raw.neips = 0 then pure ⟨sigma, plastic, []⟩
  else do
    checkWrite ((slot + 1) * c.raw.neips) size
    let history ← next c.raw.neips
    pure ⟨sigma, plastic, history⟩

/-- `d3plot_shell` and `d3plot_thick_shell`; a surface that has not been written is `none`, and
`strains` is `none` if the inner and outer strains have not been written. `numAdditional` is
`num_additional_integration_points`. `extra` are the values between `bending_moment` and
`internal_energy`. Code: `/repo/src/d3_defines.h:163-179` and :197-224. -/
structure Shell where
  mid : Option Surface := none
  inner : Option Surface := none
  outer : Option Surface := none
  add : List Surface := []
  extra : List Nat := []
  strains : Option (List Nat) := none
  numAdditional : Nat := 0
deriving DecidableEq, Repr

/-- The place for integration point `j` (`/repo/src/d3plot.c:1719-1737, 2309-2328`). -/
def Shell.put (s : Shell) (j : Nat) (ip : Surface) : Shell :=
  match j with
  | 0 => { s with mid := some ip }
  | 1 => { s with inner := some ip }
  | 2 => { s with outer := some ip }
  | _ => { s with add := s.add ++ [ip] }

/-- MAXINT as `uint8_t`. Code: `/repo/src/d3plot.c:1676-1690` and :2269-2280. -/
def points (c : Cda) : Nat := (c.maxint % 256).toNat

/-- The loop over the integration points of shell `e` (`/repo/src/d3plot.c:2306-2362`);
`left` points are left. -/
def shellPoints (c : Cda) (e size : Nat) : (left j : Nat) → Shell → Cur Shell
  | 0, _, s => pure s
  | left + 1, j, s => do
    let ip ← surface c (e * points c + j) size
    shellPoints c e size left (j + 1) (s.put j ip)

/-- One shell (`/repo/src/d3plot.c:2303-2402`). -/
def shell (c : Cda) (istrn size e : Nat) : Cur Shell := do
  let s ← shellPoints c e size (points c) 0 {}
  let forces ← nextIf (c.ioshl.2.2.1 ≠ 0) 8
  let thickness ← nextIf (c.ioshl.2.2.2 ≠ 0) 4
  let strains ← (if istrn = 0 then pure (some (List.replicate 12 0))
    else if istrn = 1 then do
      let x ← next 12
      pure (some x)
    else pure none : Cur (Option (List Nat)))
  pure { s with extra := forces ++ thickness, strains := strains, numAdditional := (points c + 253) % 256 }

/-- The loop over the integration points of thick shell `e` (`/repo/src/d3plot.c:1716-1799`): the
strains are behind the third point. -/
def thickPoints (c : Cda) (istrn e size : Nat) : (left j : Nat) → Shell → Cur Shell
  | 0, _, s => pure s
  | left + 1, j, s => do
    let ip ← surface c (e * points c + j) size
    let s := s.put j ip
    if j = 2 then do
      let strains ← nextIf (istrn = 1) 12
      thickPoints c istrn e size left (j + 1) { s with strains := some strains }
    else thickPoints c istrn e size left (j + 1) s

/-- One thick shell (`/repo/src/d3plot.c:1712-1806`). -/
def thickShell (c : Cda) (istrn size e : Nat) : Cur Shell := do
  let s ← thickPoints c istrn e size (points c) 0 {}
  pure { s with numAdditional := (points c + 253) % 256 }

/-- `d3plot_beam_ip`. Code: `/repo/src/d3_defines.h:153-161`. -/
structure BeamPoint where
  values : List Nat
  history : List Nat
deriving DecidableEq, Repr

/-- `d3plot_beam`. Code: `/repo/src/d3_defines.h:181-195`. -/
structure Beam where
  resultants : List Nat
  points : List BeamPoint
  average : List Nat
  min : List Nat
  max : List Nat
deriving DecidableEq, Repr

/-- One beam (`/repo/src/d3plot.c:2007-2090`); all writes are inside of the allocated memory
(`c38_beam_memory`). -/
def beam (c : Cda) : Cur Beam := do
  let resultants ← next 6
  let values ← times (fun _ => next 5) c.beamip 0
  let average ← next c.ext.neipb
  let min ← next c.ext.neipb
  let max ← next c.ext.neipb
  let history ← times (fun _ => next c.ext.neipb) c.beamip 0
  pure ⟨resultants, List.zipWith BeamPoint.mk values history, average, min, max⟩

/-- The loop over all elements, and the check that all values have been used
(e.g. `/repo/src/d3plot.c:1560-1574`). -/
def decodeAll {α : Type} (f : Nat → Cur α) (n nv : Nat) (data : List Nat) : Res (Option (List α)) :=
  match times f n 0 data 0 with
  | none => .ub
  | some (l, o) => if o % u64 = n * nv % u64 then .ok (some l) else .ok none

/-- Everything around the loops: no elements, index of the state, reading of the values.
Code: `/repo/src/d3plot.c:1463-1503` (and the same lines of the other three functions). -/
def readElementState {α : Type} (p : Plot) (n nv ptr state : Nat) (accept : Bool)
    (decode : List Nat → Res (Option (List α))) : Call (List α) :=
  if n = 0 then .ok (p, some [])
  else
    match p.states[state]? with
    | none => .ok (p, none)
    | some s =>
      if accept = false then .ok (p, none)
      else
        match readAt p (n * nv) (s + ptr) with
        | .ok (p, none) => .ok (p, none)
        | .ok (p, some data) =>
          match decode data with
          | .ok r => .ok (p, r)
          | .err => .err
          | .ub => .ub
          | .abort => .abort
        | .err => .err
        | .ub => .ub
        | .abort => .abort

/-- Continue with ISTRN if it has been set. Code: `/repo/src/d3plot.c:1675` and :2385. -/
def withStrain {α : Type} (c : Cda) (f : Nat → Res α) : Res α :=
  match c.istrn with
  | none => .ub
  | some i => f i

/-- Models `d3plot_read_solids_state` (`/repo/src/d3plot.c:1463-1648`). -/
def readSolidsState (p : Plot) (state : Nat) : Call (List Solid) :=
  readElementState p (toU64 p.cda.raw.nel8) p.cda.raw.nv3d p.ptrs.stSolid state true fun data =>
    withStrain p.cda fun istrn =>
      decodeAll (fun _ => solid p.cda istrn) (toU64 p.cda.raw.nel8) p.cda.raw.nv3d data

/-- Models `d3plot_read_thick_shells_state` (`/repo/src/d3plot.c:1650-1934`). -/
def readThickState (p : Plot) (state : Nat) : Call (List Shell) :=
  readElementState p p.cda.raw.nelt p.cda.raw.nv3dt p.ptrs.stThick state true fun data =>
    withStrain p.cda fun istrn =>
      decodeAll (thickShell p.cda istrn (p.cda.raw.nelt * 3 * p.cda.raw.neips)) p.cda.raw.nelt
        p.cda.raw.nv3dt data

/-- Models `d3plot_read_beams_state` (`/repo/src/d3plot.c:1936-2241`). -/
def readBeamsState (p : Plot) (state : Nat) : Call (List Beam) :=
  readElementState p p.cda.raw.nel2 p.cda.raw.nv1d p.ptrs.stBeam state
    (p.cda.ext.neipb ≤ 255 && p.cda.beamip ≤ 255) fun data =>
      decodeAll (fun _ => beam p.cda) p.cda.raw.nel2 p.cda.raw.nv1d data

/-- Models `d3plot_read_shells_state` (`/repo/src/d3plot.c:2243-2566`). -/
def readShellsState (p : Plot) (state : Nat) : Call (List Shell) :=
  readElementState p p.cda.raw.nel4 p.cda.raw.nv2d p.ptrs.stShell state true fun data =>
    withStrain p.cda fun istrn =>
      decodeAll (shell p.cda istrn (p.cda.raw.neips * points p.cda * p.cda.raw.nel4)) p.cda.raw.nel4
        p.cda.raw.nv2d data

/-! ## Mean over the integration points -/

/-- Sum of the values at position `k`; `none` is an access outside of the surface.
Code: `/repo/src/d3plot_state.c:335-372`. -/
def Shell.point (s : Shell) (i : Nat) : Option Surface :=
  match i with
  | 0 => s.mid
  | 1 => s.inner
  | 2 => s.outer
  | j + 3 => s.add[j]?

/-- The points `d3plot_get_shell_mean` and `d3plot_get_thick_shell_mean` sum up
(`/repo/src/d3plot_state.c:335-372, 401-438`). A point that does not exist is undefined behaviour.
Sums and the division are arithmetic of `double` and are not modelled. -/
def meanPoints (s : Shell) : Res (List Surface) :=
  match (List.range (3 + s.numAdditional)).mapM s.point with
  | none => .ub
  | some l => .ok l

end Dyna.D3
