import Verif.D3PartNodes
/-!
# `D3plotPart::get_node_ids`, `get_node_indices`, `get_num_nodes` (`/repo/src/cpp/d3plot_part.cpp:128-215`)

An exception is a result `none`. Not modelled: the message of the exception.
-/

namespace Dyna.D3

open Dyna

/-- A pointer to an array that is passed on: `arr ? arr->data() : NULL`
(`/repo/src/cpp/d3plot_part.cpp:139-150`); the data of an empty array is `NULL`
(`/repo/src/cpp/array.hpp:143-144`; the library itself makes arrays from no elements with `NULL`). -/
def cppTable {α : Type} : Option (List α) → Option (List α)
  | some (x :: xs) => some (x :: xs)
  | _ => none

/-- The arguments of the calls (`/repo/src/cpp/d3plot_part.cpp:137-150`, `170-181`, `200-209`): the argument for the
connectivity of the solids is the one of the thick shells; `solid_cons` is not used. Both are structures of eight node indices
and a material (`/repo/src/d3_defines.h:48`). -/
def cppGiven (g : Given) : Given :=
  { solidIds := cppTable g.solidIds, beamIds := cppTable g.beamIds, shellIds := cppTable g.shellIds,
    thickIds := cppTable g.thickIds, solids := cppTable g.thick, beams := cppTable g.beams,
    shells := cppTable g.shells, thick := cppTable g.thick }

/-- Models `D3plotPart::get_node_ids` (`/repo/src/cpp/d3plot_part.cpp:128-157`). -/
def cppPartNodeIds (nodeIds : Option (List Nat)) (g : Given) (p : Plot) (part : Part) : Res (Plot × Option (List Nat)) :=
  partNodeIds (cppTable nodeIds) (cppGiven g) p part

/-- Models `D3plotPart::get_node_indices` (`/repo/src/cpp/d3plot_part.cpp:159-187`). -/
def cppPartNodeIndices (g : Given) (p : Plot) (part : Part) : Res (Plot × Option (List Nat)) :=
  partNodeIndices (cppGiven g) p part

/-- Models `D3plotPart::get_num_nodes` (`/repo/src/cpp/d3plot_part.cpp:189-215`). -/
def cppPartNumNodes (g : Given) (p : Plot) (part : Part) : Res (Plot × Option Nat) :=
  partNumNodes (cppGiven g) p part

end Dyna.D3
