import Verif.D3Elements
/-!
# Mean values over the integration points of shells

Models `d3plot_get_shell_mean` and `d3plot_get_thick_shell_mean` (`/repo/src/d3plot_state.c:335-466`), which are the same for both types
of elements. Arithmetic of `double` is a parameter: nothing is assumed about it.
-/

namespace Dyna.D3

open Dyna

/-- Arithmetic of `double`: the number a stored word stands for, 0, addition and the division by a number of points
(`/repo/src/d3plot_state.c:340, 364-376, 381-393`). -/
structure Arith (α : Type) where
  num : Nat → α
  zero : α
  add : α → α → α
  div : α → Nat → α

/-- `d3plot_surface` as the result: stress, effective plastic strain, history variables (`/repo/src/d3_defines.h:138-151`). -/
structure MeanSurface (α : Type) where
  stress : List α
  plastic : List α
  history : List α
deriving DecidableEq, Repr

/-- Add the first `n` values of a point; values that do not exist are undefined behaviour.
Code: `/repo/src/d3plot_state.c:364-376`. -/
def addValues {α : Type} (A : Arith α) (n : Nat) (acc : List α) (vals : List Nat) : Res (List α) :=
  if vals.length < n ∨ acc.length < n then .ub
  else .ok (List.zipWith A.add acc ((vals.take n).map A.num))

/-- Add one point. Code: `/repo/src/d3plot_state.c:364-376, 430-442`. -/
def addPoint {α : Type} (A : Arith α) (hist : Nat) (m : MeanSurface α) (ip : Surface) : Res (MeanSurface α) := do
  let stress ← addValues A 6 m.stress ip.sigma
  let plastic ← addValues A 1 m.plastic ip.plastic
  let history ← addValues A hist m.history ip.history
  .ok ⟨stress, plastic, history⟩

/-- The loop over the points from `i` on. Code: `/repo/src/d3plot_state.c:348-379, 414-445`. -/
def addPoints {α : Type} (A : Arith α) (hist : Nat) (sh : Shell) : (left i : Nat) → MeanSurface α → Res (MeanSurface α)
  | 0, _, m => .ok m
  | left + 1, i, m =>
    match sh.point i with
    | none => .ub
    | some ip => do
      let m ← addPoint A hist m ip
      addPoints A hist sh left (i + 1) m

/-- `d3plot_get_shell_mean` and `d3plot_get_thick_shell_mean` for an element with `hist` history variables.
Code: `/repo/src/d3plot_state.c:335-399, 401-466`. -/
def shellMean {α : Type} (A : Arith α) (hist : Nat) (sh : Shell) : Res (MeanSurface α) := do
  let n := 3 + sh.numAdditional
  let m ← addPoints A hist sh n 0 ⟨List.replicate 6 A.zero, [A.zero], List.replicate hist A.zero⟩
  .ok ⟨m.stress.map (A.div · n), m.plastic.map (A.div · n), m.history.map (A.div · n)⟩

end Dyna.D3
