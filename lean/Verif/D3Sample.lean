import Verif.D3Elements
import Verif.Props.D3Buffer
/-!
# A small family of d3plot files

Used to show that the hypotheses of theorems can be met. Words of four bytes; two nodes, one
element of each kind, one part of each kind, ids, and three states in two files.
-/

namespace Dyna.D3

/-- The bytes of words. Part of the specification, models no code. -/
def pack (l : List Nat) : Bytes := l.flatMap word32

/-- Control words: position and value, all others are 0. Part of the specification, models no code. -/
def sampleControl (set : List (Nat × Nat)) : List Nat :=
  (List.range 64).map fun k => ((set.find? (fun x => x.1 == k)).map Prod.snd).getD 0

/-- The word with the bytes of -999999.0. Part of the specification, models no code. -/
def eof32 : Nat := leNat (eofBytes 4)

/-- Part of the specification, models no code. -/
def sampleSet : List (Nat × Nat) :=
  [(11, 1), (15, 4), (16, 2), (17, 6), (18, 34), (20, 1), (23, 1), (24, 1), (27, 7), (28, 1), (29, 1),
   (30, 6), (31, 1), (32, 1), (33, 33), (36, 3), (39, 25), (40, 1), (41, 1), (42, 21), (43, 1000),
   (44, 1000), (45, 1000), (46, 1000), (51, 1)]

/-- Nodes, a solid, a thick shell, a beam, a shell. Part of the specification, models no code. -/
def sampleGeometry : List Nat :=
  [11, 12, 13, 14, 15, 16] ++ [1, 2, 1, 2, 1, 2, 1, 2, 1] ++ [2, 1, 2, 1, 2, 1, 2, 1, 2] ++
  [1, 2, 1, 0, 0, 3] ++ [1, 2, 2, 1, 1]

/-- NSORT = -1, the numbers of ids, ids. Part of the specification, models no code. -/
def sampleIds : List Nat :=
  [4294967295, 0, 0, 0, 0, 2, 1, 1, 1, 1, 0, 0, 0, 0, 0, 1] ++ [101, 102] ++ [201] ++ [301] ++ [401] ++
  [501] ++ [7, 1, 1]

/-- End of the geometry, a title block, a part title, end of the header.
Part of the specification, models no code. -/
def sampleHeaderBlocks : List Nat :=
  [eof32, 90000] ++ List.replicate 18 32 ++ [90001, 1, 7] ++ List.replicate 18 65 ++ [eof32]

/-- A state with a time: globals, coordinates, solid, beam, shell, thick shell.
Part of the specification, models no code. -/
def sampleState (t : Nat) : List Nat :=
  [t] ++ List.replicate 34 0 ++ [t + 1, t + 2, t + 3, t + 4, t + 5, t + 6] ++
  (List.range (7 + 6 + 33 + 21)).map (fun i => t + 100 + i)

/-- Part of the specification, models no code. -/
def sampleFiles : List Bytes :=
  [pack (sampleControl sampleSet ++ sampleGeometry ++ sampleIds ++ sampleHeaderBlocks),
   pack (sampleState 1000 ++ sampleState 2000 ++ [eof32]),
   pack (sampleState 3000 ++ [eof32, 0])]

/-- Words of eight bytes. Part of the specification, models no code. -/
def pack64 (l : List Nat) : Bytes :=
  l.flatMap fun w => (List.range 8).map fun i => w / 256 ^ i % 256

/-- Part of the specification, models no code. -/
def eof64 : Nat := leNat (eofBytes 8)

/-- A family with words of eight bytes and (2^64 + 2) / 3 nodes: the number of words of the
coordinates does not fit into 64 bits. Part of the specification, models no code. -/
def hugeFiles : List Bytes :=
  [pack64 (sampleControl
      [(11, 1), (15, 4), (16, 6148914691236517206), (17, 6), (18, 6), (20, 1)] ++ [1, 2] ++ [eof64, eof64]),
   pack64 ([1000] ++ List.replicate 6 0 ++ [5, 6] ++ [eof64, 0])]

/-- A family with NEL8 = -1 (a ten node solid) and one thick shell.
Part of the specification, models no code. -/
def tetFiles : List Bytes :=
  [pack (sampleControl
      [(11, 1), (15, 4), (16, 1), (17, 6), (18, 6), (20, 1), (23, 4294967295), (40, 1)] ++
      [11, 12, 13] ++ List.replicate 11 1 ++ List.replicate 9 2 ++ [1, 1] ++ [eof32, eof32]),
   pack ([1000] ++ List.replicate 6 0 ++ [5, 6, 7] ++ [eof32, 0])]

/-- The call succeeds and the result has a property. Part of the specification, models no code. -/
def Res.is {α : Type} (r : Res α) (f : α → Bool) : Bool :=
  match r with
  | .ok a => f a
  | _ => false

theorem Res.is_iff {α : Type} {r : Res α} {f : α → Bool} (h : Res.is r f = true) :
    ∃ a, r = .ok a ∧ f a = true := by
  unfold Res.is at h
  split at h
  · exact ⟨_, rfl, h⟩
  · cases h

end Dyna.D3
