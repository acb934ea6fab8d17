import Verif.D3Elements
import Verif.D3Read
/-!
# Texts of values in C++ and Python

The stream operators of the C++ interface (`/repo/src/cpp/d3plot.cpp:481-554`, `/repo/src/cpp/array.hpp:268-299`,
`/repo/src/cpp/vec.hpp:41-51`), which are `__str__` in Python. How the stream formats a floating point number is a parameter `fmt`; a
character that is written is itself. A member that has never been written has no value, printing it is undefined.
-/

namespace Dyna.CppPrint

open Dyna D3

/-- An unsigned number as text (`std::ostream` with default settings). Auxiliary of the model, no code of its own. -/
def num (n : Nat) : Bytes := bs (toString n)

/-- `operator<<` for `d3plot_tensor`. Code: `/repo/src/cpp/d3plot.cpp:481-485`. -/
def tensorText (fmt : Nat → Bytes) : List Nat → Res Bytes
  | [x, y, z, xy, yz, xz] =>
    .ok (bs "(X: " ++ fmt x ++ bs "; Y: " ++ fmt y ++ bs "; Z: " ++ fmt z ++ bs "; XY: " ++ fmt xy ++ bs "; YZ: " ++ fmt yz ++
      bs ": XZ: " ++ fmt xz ++ bs ")")
  | _ => .ub

/-- One number of a structure. Auxiliary of the model, no code of its own. -/
def one (fmt : Nat → Bytes) : List Nat → Res Bytes
  | [x] => .ok (fmt x)
  | _ => .ub

/-- `operator<<` for `d3plot_surface`. Code: `/repo/src/cpp/d3plot.cpp:495-498`. -/
def surfaceText (fmt : Nat → Bytes) (s : Surface) : Res Bytes := do
  let a ← tensorText fmt s.sigma
  let b ← one fmt s.plastic
  .ok (bs "Stress: " ++ a ++ bs "; Effective Plastic Strain: " ++ b)

/-- `operator<<` for `d3plot_solid`. Code: `/repo/src/cpp/d3plot.cpp:500-504`. -/
def solidText (fmt : Nat → Bytes) (s : Solid) : Res Bytes := do
  let a ← tensorText fmt s.sigma
  let b ← one fmt s.plastic
  let c ← tensorText fmt s.epsilon
  .ok (bs "Stress: " ++ a ++ bs "; Effective Plastic Strain: " ++ b ++ bs "; Strain: " ++ c)

/-- A surface of a shell. Auxiliary of the model, no code of its own. -/
def written (fmt : Nat → Bytes) : Option Surface → Res Bytes
  | some s => surfaceText fmt s
  | none => .ub

/-- The strains of a shell, the inner ones first. Auxiliary of the model, no code of its own. -/
def strainsOf : Option (List Nat) → Res (List Nat)
  | some s => .ok s
  | none => .ub

/-- `operator<<` for `d3plot_thick_shell`. Code: `/repo/src/cpp/d3plot.cpp:506-511`. -/
def thickText (fmt : Nat → Bytes) (s : Shell) : Res Bytes := do
  let m ← written fmt s.mid
  let i ← written fmt s.inner
  let o ← written fmt s.outer
  let e ← strainsOf s.strains
  let ei ← tensorText fmt (e.take 6)
  let eo ← tensorText fmt (e.drop 6)
  .ok (bs "Mid: " ++ m ++ bs "; Inner: " ++ i ++ bs "; Outer: " ++ o ++ bs "; Inner Strain: " ++ ei ++ bs "; Outer Strain: " ++ eo)

/-- `operator<<` for `d3plot_beam`. Code: `/repo/src/cpp/d3plot.cpp:513-520`. -/
def beamText (fmt : Nat → Bytes) (b : Beam) : Res Bytes :=
  match b.resultants with
  | [a, s, t, ms, mt, tr] =>
    .ok (bs "Axial Force: " ++ fmt a ++ bs "; S Shear Resultant: " ++ fmt s ++ bs "; T Shear Resultant: " ++ fmt t ++
      bs "; S Bending Moment: " ++ fmt ms ++ bs "; T Bending Moment: " ++ fmt mt ++ bs "; Torsional Resultant: " ++ fmt tr)
  | _ => .ub

/-- `operator<<` for `d3plot_x_y`, `d3plot_x_y_xy`: numbers with `"; "` between them. Code: `/repo/src/cpp/d3plot.cpp:487-493`. -/
def listText (fmt : Nat → Bytes) (sep : Bytes) : List Nat → Bytes
  | [] => []
  | [x] => fmt x
  | x :: y :: ys => fmt x ++ sep ++ listText fmt sep (y :: ys)

/-- A group of numbers in parentheses. Code: `/repo/src/cpp/d3plot.cpp:487-493` and `/repo/src/cpp/vec.hpp:41-51`. -/
def group (fmt : Nat → Bytes) (sep : String) (l : List Nat) : Bytes := bs "(" ++ listText fmt (bs sep) l ++ bs ")"

/-- The part of a shell behind the strains; `extra` are the twelve values from the bending moment to the internal energy.
Code: `/repo/src/cpp/d3plot.cpp:527-534`. -/
def extraText (fmt : Nat → Bytes) (l : List Nat) : Res Bytes :=
  match l with
  | [b1, b2, b3, q1, q2, n1, n2, n3, t, e1, e2, w] =>
    .ok (bs "; Bending Moment: " ++ group fmt "; " [b1, b2, b3] ++ bs "; Shear Resultant: " ++ group fmt "; " [q1, q2] ++
      bs "; Normal Resultant: " ++ group fmt "; " [n1, n2, n3] ++ bs "; Thickness: " ++ fmt t ++
      bs "; Element Dependent Variables: " ++ group fmt ", " [e1, e2] ++ bs "; Internal Energy: " ++ fmt w)
  | _ => .ub

/-- `operator<<` for `d3plot_shell`: it begins like the one of a thick shell. Code: `/repo/src/cpp/d3plot.cpp:522-535`. -/
def shellText (fmt : Nat → Bytes) (s : Shell) : Res Bytes := do
  let a ← thickText fmt s
  let b ← extraText fmt s.extra
  .ok (a ++ b)

/-- `operator<<` for `d3plot_solid_con` (eight nodes) and `d3plot_shell_con` (four nodes).
Code: `/repo/src/cpp/d3plot.cpp:537-543`, `550-554`. -/
def conText (c : Con) : Bytes := bs "(" ++ listText num (bs ", ") c.nodes ++ bs "; " ++ num c.material ++ bs ")"

/-- `operator<<` for `d3plot_beam_con`: two nodes and the node for the orientation. Code: `/repo/src/cpp/d3plot.cpp:545-548`. -/
def beamConText (c : Con) : Res Bytes :=
  match c.nodes with
  | [a, b, o] => .ok (bs "(" ++ num a ++ bs ", " ++ num b ++ bs "; " ++ num o ++ bs "; " ++ num c.material ++ bs ")")
  | _ => .ub

/-- The loop over an array of numbers: `i` is the index of the first element of the list, `size` the size of the array.
Code: `/repo/src/cpp/array.hpp:283-294`. -/
def arrayLoop {α : Type} (fmt : α → Bytes) (size : Nat) : Nat → List α → Bytes
  | _, [] => []
  | i, x :: xs => fmt x ++ (if i + 1 ≠ size then bs ", " else []) ++ arrayLoop fmt size (i + 1) xs

/-- `operator<<` for `Array<T>`. Code: `/repo/src/cpp/array.hpp:279-299`. -/
def arrayText {α : Type} (fmt : α → Bytes) (l : List α) : Bytes := bs "[" ++ arrayLoop fmt l.length 0 l ++ bs "]"

/-- An element of an array of 8 bit numbers is written as a character in quotes. Code: `/repo/src/cpp/array.hpp:284-286`. -/
def quoted (c : Byte) : Bytes := bs "'" ++ [c] ++ bs "'"

end Dyna.CppPrint
