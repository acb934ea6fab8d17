import Verif.D3Mean
import Verif.CppArray
import Verif.KeyParse
/-!
# The C++ classes for element states

Models the accessors of `D3plotShell`, `D3plotThickShell` and `D3plotBeam` (`/repo/src/cpp/d3plot_state.cpp`,
`/repo/src/cpp/d3plot_state.hpp:38-102`). An accessor returns an `Array` that points to the values of an integration point. The memory
behind the pointer is the list of the values of the point; a pointer that has not been written is undefined behaviour.
A `throw` is `Except.error` with the text of the message. Who frees the memory is in `StateMem`.
-/

namespace Dyna.CppState

open Dyna D3 Cpp

/-- What an accessor gives: an exception with its text, or the array. Code: `/repo/src/cpp/d3plot_state.cpp:55-69`. -/
abbrev Got (α : Type) : Type := Res (Except Bytes (Arr α))

/-- `Array<double>(ip.history_variables, num_history_variables, false)`; `num_history_variables` is a `uint8_t`
(`/repo/src/d3_defines.h:177, 193, 222`). Code: `/repo/src/cpp/d3plot_state.hpp:40-48`. -/
def historyOf (hist : Nat) : Option Surface → Got Nat
  | none => .ub
  | some ip => .ok (.ok ⟨ip.history, hist % 256⟩)

/-- `get_mid_history_variables`. Code: `/repo/src/cpp/d3plot_state.hpp:40-42, 64-66`. -/
def midHistory (hist : Nat) (sh : Shell) : Got Nat := historyOf hist sh.mid
/-- `get_inner_history_variables`. Code: `/repo/src/cpp/d3plot_state.hpp:43-45, 67-69`. -/
def innerHistory (hist : Nat) (sh : Shell) : Got Nat := historyOf hist sh.inner
/-- `get_outer_history_variables`. Code: `/repo/src/cpp/d3plot_state.hpp:46-48, 70-72`. -/
def outerHistory (hist : Nat) (sh : Shell) : Got Nat := historyOf hist sh.outer

/-- The text of the exceptions for an index `i` that is not below `n`.
Code: `/repo/src/cpp/d3plot_state.cpp:58-61, 95-98, 111-113`. -/
def badIndex (what : String) (i n : Nat) : Bytes :=
  bs (toString i) ++ bs " is an invalid index for " ++ bs what ++ bs " (" ++ bs (toString i) ++ bs " >= " ++ bs (toString n) ++ bs ")"

/-- `D3plotShell::get_add_ip_history_variables`; `add_ips` points to the additional points, the parameter is a `size_t`.
Code: `/repo/src/cpp/d3plot_state.cpp:55-69`. -/
def shellAddHistory (hist : Nat) (sh : Shell) (i : Nat) : Got Nat :=
  if i ≥ sh.numAdditional then .ok (.error (badIndex "additional integration points" i sh.numAdditional))
  else historyOf hist sh.add[i]?

/-- `D3plotThickShell::get_add_ip_history_variables`: the parameter is a `uint8_t`, the argument of the caller is converted.
Code: `/repo/src/cpp/d3plot_state.cpp:92-107`. -/
def thickAddHistory (hist : Nat) (sh : Shell) (arg : Nat) : Got Nat :=
  let i := arg % 256
  if i ≥ sh.numAdditional then .ok (.error (badIndex "additional integration points" i sh.numAdditional))
  else historyOf hist sh.add[i]?

/-- `get_add_ips`. Code: `/repo/src/cpp/d3plot_state.hpp:52-55, 76-79`. -/
def addIps (sh : Shell) : Arr Surface := ⟨sh.add, sh.numAdditional⟩

/-- `get_mean_history_variables`: the array takes over the block of the mean values.
Code: `/repo/src/cpp/d3plot_state.cpp:49-53, 85-90`. -/
def meanHistory {α : Type} (A : Arith α) (hist : Nat) (sh : Shell) : Res (Arr α) := do
  let m ← shellMean A (hist % 256) sh
  .ok ⟨m.history, hist % 256⟩

/-- `D3plotBeam::get_history_variables`; `num_integration_points` is a `uint8_t` like the parameter.
Code: `/repo/src/cpp/d3plot_state.cpp:109-121`. -/
def beamHistory (hist numPoints : Nat) (b : Beam) (arg : Nat) : Got Nat :=
  let i := arg % 256
  if i ≥ numPoints % 256 then .ok (.error (badIndex "integration points" i (numPoints % 256)))
  else
    match b.points[i]? with
    | none => .ub
    | some ip => .ok (.ok ⟨ip.history, hist % 256⟩)

/-- `get_history_average`, `get_history_min`, `get_history_max`. Code: `/repo/src/cpp/d3plot_state.hpp:88-96`. -/
def beamAverage (hist : Nat) (b : Beam) : Arr Nat := ⟨b.average, hist % 256⟩
/-- Code: `/repo/src/cpp/d3plot_state.hpp:91-93`. -/
def beamMin (hist : Nat) (b : Beam) : Arr Nat := ⟨b.min, hist % 256⟩
/-- Code: `/repo/src/cpp/d3plot_state.hpp:94-96`. -/
def beamMax (hist : Nat) (b : Beam) : Arr Nat := ⟨b.max, hist % 256⟩

/-- `get_integration_points`. Code: `/repo/src/cpp/d3plot_state.hpp:97-99`. -/
def beamPoints (numPoints : Nat) (b : Beam) : Arr BeamPoint := ⟨b.points, numPoints % 256⟩

end Dyna.CppState
