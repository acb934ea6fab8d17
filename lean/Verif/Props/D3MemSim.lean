import Verif.Props.D3MemBase
/-!
# C89: memory and file handles of a d3plot, opening
-/

namespace Dyna.D3Mem

open Dyna.KeyMem Dyna.BinoutMem Dyna.D3

/-- Auxiliary: the two versions of a function have the same structure. -/
syntax "sims" ("[" term,* "]")? : tactic

macro_rules
  | `(tactic| sims) => `(tactic| sims [])
  | `(tactic| sims [$ts,*]) => `(tactic| (
  repeat with_reducible first
    | intro _
    | refine Sim.bind ?_ ?_
    | exact Sim.ret _
    | exact Sim.fail | exact Sim.failClose | exact Sim.undef | exact Sim.rd | exact Sim.rdBytes _
    | exact Sim.rdSigned | exact Sim.skip _ | exact Sim.skipIf _ _ | exact Sim.skipB _ | exact Sim.hasErr | exact Sim.clearErr
    | exact Sim.curWord | exact Sim.wordSize | exact Sim.toNextFile | exact Sim.grow _ _
    | assumption
    $[| refine $ts]*
    | refine Sim.ite ?_ ?_))

theorem Sim.readRaw {F : List Nat} : Sim F readRawM readRaw := by
  unfold readRawM D3.readRaw
  sims

theorem Sim.skipParts {F : List Nat} (n : Nat) : Sim F (skipPartsM n) (skipParts n) := by
  induction n with
  | zero => exact Sim.ret ()
  | succ n ih =>
    unfold skipPartsM D3.skipParts
    sims

theorem Sim.readExtra {F : List Nat} (e : Nat) : Sim F (readExtraM e) (readExtra e) := by
  unfold readExtraM D3.readExtra
  sims [Sim.skipParts _]

theorem Sim.readGeometry {F : List Nat} (c : Cda) (d : Ptrs) : Sim F (readGeometryM c d) (readGeometry c d) := by
  unfold readGeometryM D3.readGeometry
  sims

theorem Sim.readUserIds {F : List Nat} (c : Cda) (d : Ptrs) : Sim F (readUserIdsM c d) (readUserIds c d) := by
  unfold readUserIdsM D3.readUserIds
  sims

theorem Sim.readExtraConnectivity {F : List Nat} (c : Cda) : Sim F (readExtraConnectivityM c) (readExtraConnectivity c) := by
  unfold readExtraConnectivityM D3.readExtraConnectivity
  sims

theorem Sim.readAdapted {F : List Nat} (c : Cda) : Sim F (readAdaptedM c) (readAdapted c) := by
  unfold readAdaptedM D3.readAdapted
  sims

theorem Sim.readHeader {F : List Nat} : ∀ (fuel : Nat) (d : Ptrs), Sim F (readHeaderM d fuel) (D3.readHeader d fuel) := by
  intro fuel
  induction fuel with
  | zero => intro d; exact Sim.fail
  | succ n ih =>
    intro d
    unfold readHeaderM D3.readHeader
    sims [ih _]

theorem Sim.skipAll {F : List Nat} (l : List Nat) : Sim F (skipAllM l) (skipAll l) := by
  induction l with
  | nil => exact Sim.ret ()
  | cons n l ih =>
    unfold skipAllM D3.skipAll
    sims

theorem Sim.orStop {F : List Nat} (d : Ptrs) {mm : MM (Ptrs × D3.Found)} {m : M (Ptrs × D3.Found)} (h : Sim F mm m) :
    Sim F (orStopM d mm) (orStop d m) := by
  unfold orStopM D3.orStop
  sims

theorem Sim.readElements {F : List Nat} (c : Cda) (first : Bool) (start : Nat) (d : Ptrs) :
    Sim F (readElementsM c first start d) (readElements c first start d) := by
  unfold readElementsM D3.readElements
  sims [Sim.orStop _ ?_]

theorem Sim.readNodes {F : List Nat} (c : Cda) (first : Bool) (start : Nat) (d : Ptrs) :
    Sim F (readNodesM c first start d) (readNodes c first start d) := by
  unfold readNodesM D3.readNodes
  sims [Sim.orStop _ ?_, Sim.readElements _ _ _ _]

theorem Sim.readState {F : List Nat} (c : Cda) (numrbs : Nat) (first : Bool) (d : Ptrs) :
    Sim F (readStateM c numrbs first d) (readState c numrbs first d) := by
  unfold readStateM D3.readState
  sims [Sim.orStop _ ?_, Sim.readNodes _ _ _ _, Sim.skipAll _]

theorem Sim.readStates {F : List Nat} (c : Cda) (numrbs : Nat) : ∀ (fuel : Nat) (d : Ptrs) (states : List Nat),
    Sim F (readStatesM c numrbs fuel d states) (readStates c numrbs fuel d states) := by
  intro fuel
  induction fuel with
  | zero => intro d states; exact Sim.fail
  | succ n ih =>
    intro d states
    unfold readStatesM D3.readStates
    refine Sim.bind (Sim.readState _ _ _ _) ?_
    rintro ⟨d, r⟩
    cases r with
    | finish => exact Sim.ret _
    | state start => exact ih _ _
    | eof => sims [ih _ _]

theorem Sim.readBody {F : List Nat} (fuel : Nat) (c : Cda) : Sim F (readBodyM fuel c) (readBody fuel c) := by
  unfold readBodyM D3.readBody
  refine Sim.bind (Sim.readGeometry _ _) (fun d => Sim.bind (Sim.readUserIds _ _) ?_)
  rintro ⟨d, numrbs⟩
  dsimp only
  sims [Sim.readExtraConnectivity _, Sim.readAdapted _, Sim.readHeader _ _, Sim.readStates _ _ _ _ _]

theorem Sim.readPlot {F : List Nat} (fuel : Nat) : Sim F (readPlotM fuel) (readPlot fuel) := by
  unfold readPlotM D3.readPlot
  refine Sim.bind (Sim.skip _) (fun _ => Sim.bind (Sim.skip _) (fun _ => Sim.bind (Sim.skip _) (fun _ =>
    Sim.bind Sim.readRaw (fun raw => Sim.bind (Sim.readExtra _) (fun ext => Sim.bind Sim.hasErr (fun e =>
    Sim.ite Sim.failClose ?_))))))
  cases derive raw ext with
  | err => exact Sim.failClose
  | ub => exact Sim.undef
  | abort => exact Sim.undef
  | ok c =>
    dsimp only
    sims [Sim.readBody _ _]

/-- The same as in `openPlot`. -/
def openHead (fuel : Nat) : M (Cda × Nat × Ptrs × List Nat) := do
  skip 10
  skip 1
  let fileType ← D3.rd
  let fileType := if fileType > 1000 then fileType - 1000 else fileType
  if fileType ≠ 1 then failClose
  else readPlot fuel

theorem Sim.openHead {F : List Nat} (fuel : Nat) : Sim F (openHeadM fuel) (openHead fuel) := by
  unfold openHeadM D3Mem.openHead
  sims [Sim.readPlot _]

end Dyna.D3Mem
