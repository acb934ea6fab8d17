import Verif.D3Plot
import Verif.D3Elements
import Verif.Props.D3Buffer
/-!
# A writer for d3plot databases

Part of the specification of C105, models no code: the contents of a database and the files that the format prescribes for it. The elements
are of the ordinary kinds (solids with eight nodes), every state has the same variables, there is a section with ids.
-/

namespace Dyna.D3

/-- The bytes of a word. Part of the specification, models no code. -/
def leBytes (ws n : Nat) : Bytes := (List.range ws).map fun i => n / 256 ^ i % 256

/-- The bytes of words. Part of the specification, models no code. -/
def packWords (ws : Nat) (l : List Nat) : Bytes := l.flatMap (leBytes ws)

/-- The word with the bytes of -999999.0. Part of the specification, models no code. -/
def eofWord (ws : Nat) : Nat := leNat (eofBytes ws)

/-- A state. The values of an element are a list. Part of the specification, models no code. -/
structure Step where
  time : Nat
  globals : List Nat := []
  coords : List Nat := []
  velocity : List Nat := []
  acceleration : List Nat := []
  solids : List (List Nat) := []
  beams : List (List Nat) := []
  shells : List (List Nat) := []
  thicks : List (List Nat) := []
  deleted : List Nat := []

/-- The words of a state. Part of the specification, models no code. -/
def Step.words (s : Step) : List Nat :=
  s.time :: (s.globals ++ (s.coords ++ (s.velocity ++ (s.acceleration ++ (s.solids.flatten ++ (s.beams.flatten ++ (s.shells.flatten ++
    (s.thicks.flatten ++ s.deleted))))))))

/-- The contents of a database. Nodes are their three coordinates, elements their nodes and the material (beams: two nodes, the node for the
orientation, two words, the material), all numbers begin with 1. `files` are the states in each file. `other` are control words without
meaning for the library. Part of the specification, models no code. -/
structure Db where
  ws : Nat
  title : List Nat
  runTime : Nat
  other : Nat → Nat
  nodes : List (List Nat)
  solids : List (List Nat)
  thicks : List (List Nat)
  beams : List (List Nat)
  shells : List (List Nat)
  nodeIds : List Nat
  solidIds : List Nat
  beamIds : List Nat
  shellIds : List Nat
  thickIds : List Nat
  partIds : List Nat
  partOther : List Nat
  numrbs : Nat
  hasCoords : Bool
  hasVelocity : Bool
  hasAcceleration : Bool
  nglbv : Nat
  nv3d : Nat
  nv1d : Nat
  nv2d : Nat
  nv3dt : Nat
  nummat8 : Nat
  nummat2 : Nat
  nummat4 : Nat
  nummatt : Nat
  neiph : Nat
  neips : Nat
  maxint : Int
  ioshl0 : Nat
  ioshl1 : Nat
  ioshl2 : Nat
  ioshl3 : Nat
  idtdt : Nat
  files : List (List Step)

/-- A flag as a word. Part of the specification, models no code. -/
def flagWord (b : Bool) : Nat := if b then 1 else 0

/-- A signed number as a word. Part of the specification, models no code. -/
def signedWord (ws : Nat) (x : Int) : Nat := if 0 ≤ x then x.toNat else 256 ^ ws - x.natAbs

/-- NARBS, the number of words of the section with ids. Part of the specification, models no code. -/
def Db.narbs (d : Db) : Nat :=
  16 + d.nodes.length + d.solids.length + d.beams.length + d.shells.length + d.thicks.length + 3 * d.partIds.length

/-- The control words behind the title: run time, file type (1), ..., NDIM (4), NUMNP, ICODE (6), NGLBV, IT, IU, IV, IA, NEL8, NUMMAT8, ...
Part of the specification, models no code. -/
def Db.fields (d : Db) : List Nat :=
  [d.runTime, 1, d.other 12, d.other 13, d.other 14, 4, d.nodes.length, 6, d.nglbv, 0, flagWord d.hasCoords, flagWord d.hasVelocity,
   flagWord d.hasAcceleration, d.solids.length, d.nummat8, 0, 0, d.nv3d, d.beams.length, d.nummat2, d.nv1d, d.shells.length, d.nummat4,
   d.nv2d, d.neiph, d.neips, signedWord d.ws d.maxint, 0, d.other 38, d.narbs, d.thicks.length, d.nummatt, d.nv3dt, d.ioshl0, d.ioshl1,
   d.ioshl2, d.ioshl3, 0, 0, d.other 49, 0, d.partIds.length, d.other 52, d.other 53, 0, 0, d.idtdt, 0, d.other 58, d.other 59, d.other 60,
   d.other 61, d.other 62, d.other 63]

/-- The 64 control words. Part of the specification, models no code. -/
def Db.control (d : Db) : List Nat := d.title ++ d.fields

/-- The head of the section with ids: NSORT = -1, the numbers of ids, NUMRBS and NMMAT. Part of the specification, models no code. -/
def Db.idHead (d : Db) : List Nat :=
  [signedWord d.ws (-1), 0, 0, 0, 0, d.nodes.length, d.solids.length, d.beams.length, d.shells.length, d.thicks.length, 0, 0, 0, 0, d.numrbs,
   d.partIds.length]

/-- The words of the first file: control words, geometry, ids, end of the geometry, end of the header. Part of the specification, models no
code. -/
def Db.header (d : Db) : List Nat :=
  d.control ++ (d.nodes.flatten ++ (d.solids.flatten ++ (d.thicks.flatten ++ (d.beams.flatten ++ (d.shells.flatten ++ (d.idHead ++
    (d.nodeIds ++ (d.solidIds ++ (d.beamIds ++ (d.shellIds ++ (d.thickIds ++ (d.partIds ++ (d.partOther ++
      [eofWord d.ws, eofWord d.ws])))))))))))))

/-- The words of a file with states. Part of the specification, models no code. -/
def stepsWords (ws : Nat) (steps : List Step) : List Nat := steps.flatMap Step.words ++ [eofWord ws]

/-- The files of a database. Part of the specification, models no code. -/
def Db.write (d : Db) : List Bytes := (d.header :: d.files.map (stepsWords d.ws)).map (packWords d.ws)

/-! ## Values of elements -/

/-- What is written for an element, and the number of integration points. Part of the specification, models no code. -/
structure Layout where
  shellStress : Bool
  shellPlastic : Bool
  forces : Bool
  thickness : Bool
  solidStress : Bool
  solidPlastic : Bool
  strain : Bool
  points : Nat
  beamPoints : Nat

/-- Values that are written if a flag is set. Part of the specification, models no code. -/
def only (b : Bool) (l : List Nat) : List Nat := if b then l else []

/-- Values as the library shows them: zeros if they are not in the file. Part of the specification, models no code. -/
def orZeros (b : Bool) (n : Nat) (l : List Nat) : List Nat := if b then l else List.replicate n 0

/-- The values of a solid. Part of the specification, models no code. -/
structure SolidVal where
  stress : List Nat
  plastic : Nat
  history : List Nat
  strain : List Nat

/-- The values of an integration point of a shell. Part of the specification, models no code. -/
structure PointVal where
  stress : List Nat
  plastic : Nat
  history : List Nat

/-- The values of a shell or a thick shell (without forces and thickness). Part of the specification, models no code. -/
structure ShellVal where
  points : List PointVal
  forces : List Nat := []
  thickness : List Nat := []
  strain : List Nat

/-- The values of a beam. Part of the specification, models no code. -/
structure BeamVal where
  resultants : List Nat
  points : List (List Nat)

/-- Part of the specification, models no code. -/
def SolidVal.words (v : Layout) (x : SolidVal) : List Nat :=
  only v.solidStress x.stress ++ (only v.solidPlastic [x.plastic] ++ (x.history ++ only v.strain x.strain))

/-- Part of the specification, models no code. -/
def SolidVal.seen (v : Layout) (x : SolidVal) : Solid :=
  ⟨orZeros v.solidStress 6 x.stress, orZeros v.solidPlastic 1 [x.plastic], orZeros v.strain 6 x.strain⟩

/-- Part of the specification, models no code. -/
def PointVal.words (v : Layout) (x : PointVal) : List Nat :=
  only v.shellStress x.stress ++ (only v.shellPlastic [x.plastic] ++ x.history)

/-- Part of the specification, models no code. -/
def PointVal.seen (v : Layout) (x : PointVal) : Surface :=
  ⟨orZeros v.shellStress 6 x.stress, orZeros v.shellPlastic 1 [x.plastic], x.history⟩

/-- The values of a shell: integration points, forces, thickness, strains. Part of the specification, models no code. -/
def ShellVal.words (v : Layout) (x : ShellVal) : List Nat :=
  x.points.flatMap (PointVal.words v) ++ (only v.forces x.forces ++ (only v.thickness x.thickness ++ only v.strain x.strain))

/-- The values of a thick shell: three integration points, strains, the other integration points. Part of the specification, models no
code. -/
def ShellVal.thickWords (v : Layout) (x : ShellVal) : List Nat :=
  (x.points.take 3).flatMap (PointVal.words v) ++ (only v.strain x.strain ++ (x.points.drop 3).flatMap (PointVal.words v))

/-- Mid, inner and outer surface are the first three points. Part of the specification, models no code. -/
def ShellVal.seen (v : Layout) (x : ShellVal) : Shell where
  mid := (x.points.map (PointVal.seen v))[0]?
  inner := (x.points.map (PointVal.seen v))[1]?
  outer := (x.points.map (PointVal.seen v))[2]?
  add := (x.points.map (PointVal.seen v)).drop 3
  extra := orZeros v.forces 8 x.forces ++ orZeros v.thickness 4 x.thickness
  strains := some (orZeros v.strain 12 x.strain)
  numAdditional := x.points.length - 3

/-- Part of the specification, models no code. -/
def ShellVal.thickSeen (v : Layout) (x : ShellVal) : Shell := { x.seen v with extra := [] }

/-- Part of the specification, models no code. -/
def BeamVal.words (x : BeamVal) : List Nat := x.resultants ++ x.points.flatten

/-- Part of the specification, models no code. -/
def BeamVal.seen (x : BeamVal) : Beam := ⟨x.resultants, x.points.map fun p => ⟨p, []⟩, [], [], []⟩

/-- The control word for the output of stresses or plastic strains. Part of the specification, models no code. -/
def ioWord (shells solids : Bool) : Nat := if shells then 1000 else if solids then 999 else 0

end Dyna.D3
