import Verif.BinoutSimple
/-!
# `Binout` in Python

Model of the functions of `/repo/src/python/pybind11_binout.cpp` with the C++ functions they call
(`/repo/src/cpp/binout.cpp:75-263`). `err` is an exception. The texts of the exceptions that come from
the C functions are the subject of `Verif/BinoutSession.lean`.
-/

namespace Dyna.PyBin

open Dyna

/-- What `Binout.read` returns (`/repo/src/python/pybind11_binout.cpp:46-55`, the alternatives of the
variant): an array of elements of a type, one array per time step, or a list of strings. An element is
the list of its bytes in the machine. -/
inductive Value where
  | array (ty : Nat) (elements : List Bytes)
  | table (ty : Nat) (rows : List (List Bytes))
  | names (names : List Bytes)
deriving DecidableEq

/-- The bytes of initialised memory. Simplification: an array is represented by what its elements give when
they are read. Code: `/repo/src/cpp/binout.cpp:185` (what the array points to). -/
def defined : List (Option Byte) → Res Bytes
  | [] => .ok []
  | none :: _ => .ub
  | some c :: r => do return c :: (← defined r)

/-- Element `i` of an array with elements of `w` bytes at the address `data`
(`/repo/src/cpp/binout.cpp:185`, `&data[i]`). -/
def element (w : Nat) (data : List (Option Byte)) (i : Nat) : Res Bytes :=
  if (i + 1) * w ≤ data.length then defined ((data.drop (i * w)).take w) else .ub

/-- The elements of `Array<T>(&data[start], n)` (`/repo/src/cpp/binout.cpp:122`, `:185`). -/
def elements (w : Nat) (data : List (Option Byte)) : (n start : Nat) → Res (List Bytes)
  | 0, _ => .ok []
  | n + 1, start => do return (← element w data start) :: (← elements w data n (start + 1))

/-- The loop over the time steps (`/repo/src/cpp/binout.cpp:182-186`). -/
def rows (w : Nat) (data : List (Option Byte)) (values : Nat) : (n t : Nat) → Res (List (List Bytes))
  | 0, _ => .ok []
  | n + 1, t => do return (← elements w data values (t * values)) :: (← rows w data values n (t + 1))

/-- Insert a name into a sorted list. Code: `/repo/src/python/pybind11_binout.cpp:132-135`. -/
def insertName (a : Bytes) : List Bytes → List Bytes
  | [] => [a]
  | b :: r => if LexLt b a then b :: insertName a r else a :: b :: r

/-- `std::sort` with `strcmp` (`/repo/src/python/pybind11_binout.cpp:132-135`). Which algorithm sorts is
not visible, since names that compare as equal are equal. -/
def sortNames (l : List Bytes) : List Bytes := l.foldr insertName []

/-- `Binout::get_children` (`/repo/src/cpp/binout.cpp:75-94`). -/
def children (b : BinFile) (path : Bytes) : Res (List Bytes) := do
  match ← getChildren b.kids path with
  | none => .err
  | some names => .ok names

/-- The default case for paths without time steps (`/repo/src/python/pybind11_binout.cpp:116-139`). In an
empty vector `children[children.size() - 1]` and `children[0]` do not exist. -/
def readFolder (b : BinFile) (real : Bytes) : Res Value := do
  let ch ← children b real
  match ch.getLast?, ch.head? with
  | some l, some f =>
    if l == bs "metadata" && f == bs "d000001" then do
      let m ← children b (real ++ bs "/metadata")
      let d ← children b (real ++ bs "/d000001")
      .ok (.names (sortNames (m ++ d)))
    else .ok (.names ch)
  | _, _ => .ub

/-- `Binout.read` (`/repo/src/python/pybind11_binout.cpp:57-142`): the types 1 to 10 are the cases of the two
`switch` statements. The message for an invalid type is written into 1024 bytes. -/
def read (b : BinFile) (path : Bytes) : Res Value := do
  let (real, ty, timed) ← simplePathToReal b.kids path
  match real with
  | none => .err
  | some real =>
    if timed then
      if 1 ≤ ty ∧ ty ≤ 10 then do
        let (data, values, steps) ← readTimed b real ty
        .ok (.table ty (← rows (typeSize ty) data values steps 0))
      else if (bs "Unable to read \"" ++ path ++ bs "\" because it has an invalid type").length + 1 > 1024 then .ub
      else .err
    else if 1 ≤ ty ∧ ty ≤ 10 then do
      let (data, n) ← binoutRead b real ty
      .ok (.array ty (← elements (typeSize ty) (data.map some) n 0))
    else readFolder b real

/-- `Binout.get_type_id` (`/repo/src/python/pybind11_binout.cpp:144-149`). -/
def typeId (b : BinFile) (path : Bytes) : Res Nat := do
  match ← simplePathToReal b.kids path with
  | (none, _, _) => .err
  | (some _, ty, _) => .ok ty

/-- `Binout.variable_exists` (`/repo/src/python/pybind11_binout.cpp:151-160`). -/
def variableExists (b : BinFile) (path : Bytes) : Res Bool := do
  match ← simplePathToReal b.kids path with
  | (none, _, _) => .ok false
  | (some _, _, _) => .ok true

/-- `Binout.get_num_timesteps` (`/repo/src/python/pybind11_binout.cpp:162-167`,
`/repo/src/cpp/binout.cpp:96-106`). -/
def numSteps (b : BinFile) (path : Bytes) : Res Nat := do
  match ← simplePathToReal b.kids path with
  | (none, _, _) => .err
  | (some real, _, _) =>
    match ← numTimesteps b.kids real with
    | none => .err
    | some n => .ok n

end Dyna.PyBin
