import Verif.Common
/-!
# Files of builds without thread safety

Model of `/repo/src/multi_file.c:188-261` (`NO_THREAD_SAFETY`): all users of a file share one `FILE`
object, a `multi_file_index_t` is a `long` (`/repo/src/multi_file.h:55-56`).

Simplifications: the file is open (`fopen` has succeeded) and its content does not change; `fseek` fails
exactly for negative positions, `fread` delivers what the file has. `long` has 64 bits; leaving this
range is undefined behaviour.
-/

namespace Dyna.Single

/-- The third argument of `multi_file_seek`. Code: `/repo/src/multi_file.c:223-234`. -/
inductive Whence where
  | set | cur | fin
deriving DecidableEq, Repr

/-- The shared `FILE` object: its position; and the `multi_file_index_t` variables of the users (`none`:
never initialised). Code: `/repo/src/multi_file.h:55-56`. -/
structure State where
  fpos : Nat
  index : Nat → Option Int

/-- What users do with their variables. Code: `/repo/src/multi_file.c:208-261`. -/
inductive Cmd where
  | access (x : Nat)
  | giveBack (x : Nat)
  | seek (x : Nat) (offset : Int) (whence : Whence)
  | tell (x : Nat)
  | read (x : Nat) (size nmemb : Nat)
deriving DecidableEq, Repr

/-- What the calls return: a number, or the number of elements and the bytes.
Code: `/repo/src/multi_file.c:208-261`. -/
inductive Obs where
  | num (n : Int)
  | data (count : Nat) (bytes : Bytes)
deriving DecidableEq, Repr

/-- The values of `long`. Auxiliary of the model, no code of its own. -/
def isLong (n : Int) : Bool := decide (-9223372036854775808 ≤ n ∧ n < 9223372036854775808)

/-- `fseek(f, pos, SEEK_SET)`: the new position and the result (C standard). Code: `/repo/src/multi_file.c:236`. -/
def fseekSet (fpos : Nat) (pos : Int) : Nat × Int := if pos < 0 then (fpos, -1) else (pos.toNat, 0)

/-- `fread`: the number of complete elements, all bytes that were transferred, and the new position (C
standard). Code: `/repo/src/multi_file.c:256`. -/
def fread (content : Bytes) (fpos size nmemb : Nat) : Nat × Bytes × Nat :=
  let got := (content.drop fpos).take (size * nmemb)
  (got.length / size, got, fpos + got.length)

/-- Assignment to a variable. Auxiliary of the model, no code of its own. -/
def State.setIndex (s : State) (x : Nat) (v : Int) : State :=
  { s with index := fun y => if y = x then some v else s.index y }

/-- The new value of the index. Code: `/repo/src/multi_file.c:223-234`. -/
def seekTarget (content : Bytes) (i offset : Int) : Whence → Int
  | .set => offset
  | .cur => i + offset
  | .fin => content.length - offset

/-- `multi_file_seek`. Code: `/repo/src/multi_file.c:219-240`. -/
def State.seek (content : Bytes) (s : State) (x : Nat) (offset : Int) (whence : Whence) :
    Res (State × Option Obs) :=
  match s.index x with
  | none => .ub
  | some i =>
    let target := seekTarget content i offset whence
    if !isLong target then .ub
    else
      let fpos := match whence with
        | .fin => content.length
        | _ => s.fpos
      let r := fseekSet fpos target
      .ok ({ s with fpos := r.1 }.setIndex x target, some (.num r.2))

/-- `multi_file_read`. Code: `/repo/src/multi_file.c:248-261`. -/
def State.read (content : Bytes) (s : State) (x size nmemb : Nat) : Res (State × Option Obs) :=
  match s.index x with
  | none => .ub
  | some i =>
    let r := fseekSet s.fpos i
    if r.2 = -1 then .ok (s, some (.data 0 []))
    else
      let d := fread content r.1 size nmemb
      .ok ({ s with fpos := d.2.2 }.setIndex x d.2.2, some (.data d.1 d.2.1))

/-- One call: `multi_file_access` (`/repo/src/multi_file.c:208-212`), `multi_file_return`
(`/repo/src/multi_file.c:214-217`), `multi_file_seek`, `multi_file_tell` (`/repo/src/multi_file.c:242-246`)
and `multi_file_read`. -/
def State.step (content : Bytes) (s : State) : Cmd → Res (State × Option Obs)
  | .access x => .ok (s.setIndex x 0, none)
  | .giveBack _ => .ok (s, none)
  | .seek x offset whence => s.seek content x offset whence
  | .tell x =>
    match s.index x with
    | none => .ub
    | some i => .ok (s, some (.num i))
  | .read x size nmemb => s.read content x size nmemb

/-- A sequence of calls and all that they return. Auxiliary of the model, no code of its own. -/
def State.run (content : Bytes) (s : State) : List Cmd → Res (State × List Obs)
  | [] => .ok (s, [])
  | c :: cs => do
    let r ← s.step content c
    let q ← r.1.run content cs
    .ok (q.1, r.2.toList ++ q.2)

/-- After `multi_file_open`. Code: `/repo/src/multi_file.c:188-195`. -/
def State.init : State := ⟨0, fun _ => none⟩

end Dyna.Single
