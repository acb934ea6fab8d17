import Verif.BinoutSpec
/-!
# A writer of binout files

A program that writes results writes, for each of its sections (for example `nodout`), one block with constant data (`metadata`) and one
block for each time step, in any order, spread over any number of files. This is a specification: it does not use the reader.
-/

namespace Dyna

/-- A variable: type, name, bytes of the values. Part of the specification, models no code. -/
structure OutVar where
  ty : Nat
  name : Bytes
  payload : Bytes
deriving DecidableEq

/-- The variables of one folder: the constant data of a section or one of its time steps. Part of the specification, models no code. -/
structure OutFolder where
  sec : Bytes
  step : Option Nat
  vars : List OutVar
deriving DecidableEq

/-- A number with six digits. Part of the specification, models no code. -/
def sixDigits (n : Nat) : Bytes :=
  [48 + n / 100000 % 10, 48 + n / 10000 % 10, 48 + n / 1000 % 10, 48 + n / 100 % 10, 48 + n / 10 % 10, 48 + n % 10]

/-- The folder of a time step: `d000001`, ... Part of the specification, models no code. -/
def stepName (n : Nat) : Bytes := 100 :: sixDigits n

/-- The name of the folder. Part of the specification, models no code. -/
def OutFolder.name (k : OutFolder) : Bytes :=
  match k.step with
  | none => bs "metadata"
  | some n => stepName n

/-- `/SECTION/FOLDER`. Part of the specification, models no code. -/
def OutFolder.path (k : OutFolder) : Bytes := SEP :: (k.sec ++ SEP :: k.name)

/-- A change of the folder, then the variables. Part of the specification, models no code. -/
def OutFolder.records (k : OutFolder) : List WRec := .cd k.path :: k.vars.map fun v => .data v.ty v.name v.payload

/-- A file: its name, the sizes of the fields of a record, the folders. Part of the specification, models no code. -/
structure OutBin where
  name : Bytes
  w : Header
  folders : List OutFolder

/-- The records of a file. Part of the specification, models no code. -/
def OutBin.src (f : OutBin) : SrcFile := ⟨f.name, f.w, f.folders.flatMap OutFolder.records⟩

/-- The bytes of a file. Part of the specification, models no code. -/
def OutBin.write (f : OutBin) : Bytes := encFile f.w (f.folders.flatMap OutFolder.records)

/-- All folders of a set of files. Part of the specification, models no code. -/
def foldersIn (files : List OutBin) : List OutFolder := files.flatMap OutBin.folders

/-- A name as it can be written: not empty, no separator, 7-bit characters. Part of the specification, models no code. -/
def PlainName (n : Bytes) : Prop := n ≠ [] ∧ SEP ∉ n ∧ 0 ∉ n ∧ Ascii n

instance (n : Bytes) : Decidable (PlainName n) := by unfold PlainName; infer_instance

/-- What fits the fields of a record, with every variable written once. Part of the specification, models no code. -/
structure OutFolder.Ok (w : Header) (k : OutFolder) : Prop where
  sec : PlainName k.sec ∧ k.sec.length ≤ 1000
  step : ∀ n, k.step = some n → n < 1000000
  names : ∀ v ∈ k.vars, PlainName v.name ∧ v.name.length < 256
  types : ∀ v ∈ k.vars, v.ty < 256
  once : ∀ v ∈ k.vars, ∀ v' ∈ k.vars, v.name = v'.name → v = v'
  fits : ∀ r ∈ k.records, (encRec w r).length < 256 ^ w.lenSize

/-- A set of files in which no folder is written twice with different contents. Part of the specification, models no code. -/
structure GoodRun (files : List OutBin) : Prop where
  widths : ∀ f ∈ files, f.w.Ok
  folders : ∀ f ∈ files, ∀ k ∈ f.folders, k.Ok f.w
  size : ∀ f ∈ files, f.write.length < 2 ^ 63
  few : files.length ≤ 256
  once : ∀ k ∈ foldersIn files, ∀ k' ∈ foldersIn files, k.sec = k'.sec → k.step = k'.step → k = k'

end Dyna
