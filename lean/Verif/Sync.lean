import Verif.Common
/-!
# Locks on both platforms

`/repo/src/sync.c`: on Windows a lock is an event that resets itself, otherwise a mutex of POSIX threads. The functions of the operating
system are modelled as documented: a wait on a signalled event returns at once and resets the event unless it is a manual one, `SetEvent`
signals it; a default mutex can only be unlocked by the thread that holds it (everything else is undefined), a thread that locks it twice
waits forever. Simplifications: `sync_create` returns the object by value, copies are the same object (this is how the library uses them);
a lock is not destroyed while it is used; POSIX threads report no errors; profiling is left out (C99).
-/

namespace Dyna.Sync

open Dyna

/-- `EBUSY` and `EINVAL` of `errno.h`. Auxiliary constants, no code of their own. -/
def EBUSY : Nat := 16
/-- Auxiliary constant, no code of its own. -/
def EINVAL : Nat := 22
/-- Results of `WaitForSingleObject`. Auxiliary constants of the operating system, no code of their own. -/
def WAIT_OBJECT_0 : Nat := 0
/-- Auxiliary constant, no code of its own. -/
def WAIT_TIMEOUT : Nat := 0x102
/-- Auxiliary constant, no code of its own. -/
def WAIT_FAILED : Nat := 0xFFFFFFFF

/-- An event of Windows. Auxiliary, part of the operating system. -/
structure Event where
  manual : Bool
  signalled : Bool

/-- What a `sync_t` stands for: an event (`none` is a handle that is not valid) or a mutex with the thread that holds it.
Code: `/repo/src/sync.h`, the two definitions of `sync_t`. -/
inductive Obj where
  | event (e : Option Event)
  | mutex (owner : Option Nat)

/-- What a call does: it waits, it returns a number and leaves the object in a new state, or it is undefined. Auxiliary. -/
inductive Out where
  | wait
  | done (r : Nat) (o : Obj)
  | ub

/-- `WaitForSingleObject`; without `timeout` it waits until the event is signalled, otherwise it returns at once (only 0 is used).
Auxiliary, part of the operating system. -/
def waitForSingleObject (timeout : Bool) : Option Event → Option (Nat × Option Event)
  | none => some (WAIT_FAILED, none)
  | some e =>
    if e.signalled then some (WAIT_OBJECT_0, some (if e.manual then e else { e with signalled := false }))
    else if timeout then some (WAIT_TIMEOUT, some e)
    else none

/-- `SetEvent`. Auxiliary, part of the operating system. -/
def setEvent : Option Event → Nat × Option Event
  | none => (0, none)
  | some e => (1, some { e with signalled := true })

/-- `sync_create`; on Windows the creation can fail, then the handle is `NULL`, which nobody looks at.
Code: `/repo/src/sync.c:31-38`, `101-109`. -/
def create (win fails : Bool) : Obj :=
  if win then .event (if fails then none else some ⟨false, true⟩) else .mutex none

/-- `sync_lock`, called by the thread `t`. Code: `/repo/src/sync.c:40-58`, `111-118`. -/
def lock (t : Nat) : Obj → Out
  | .event e =>
    match waitForSingleObject false e with
    | none => .wait
    | some (w, e') => .done (if w = WAIT_FAILED ∨ w = WAIT_TIMEOUT then EINVAL else 0) (.event e')
  | .mutex none => .done 0 (.mutex (some t))
  | .mutex (some _) => .wait

/-- `sync_trylock`. Code: `/repo/src/sync.c:60-80`, `120-127`. -/
def trylock (t : Nat) : Obj → Out
  | .event e =>
    match waitForSingleObject true e with
    | none => .wait
    | some (w, e') => .done (if w = WAIT_TIMEOUT then EBUSY else if w = WAIT_FAILED then EINVAL else 0) (.event e')
  | .mutex none => .done 0 (.mutex (some t))
  | .mutex (some o) => .done EBUSY (.mutex (some o))

/-- `sync_unlock`. Code: `/repo/src/sync.c:82-90`, `129-136`. -/
def unlock (t : Nat) : Obj → Out
  | .event e => let (b, e') := setEvent e; .done (if b ≠ 0 then 0 else EINVAL) (.event e')
  | .mutex none => .ub
  | .mutex (some o) => if o = t then .done 0 (.mutex none) else .ub

/-- The three functions. Auxiliary, no code of its own. -/
inductive Op where
  | lock | trylock | unlock
deriving DecidableEq

/-- A call of one of them. Auxiliary, no code of its own. -/
def call (t : Nat) : Op → Obj → Out
  | .lock => lock t
  | .trylock => trylock t
  | .unlock => unlock t

/-- Part of the specification: a call that has returned: the thread, the function, the number of the lock, the value. -/
structure Ev where
  thread : Nat
  op : Op
  lock : Nat
  ret : Nat
deriving DecidableEq

/-- Any number of threads use any number of locks in any order; `h` are the calls that have returned, the newest one first, `s` are the locks
then. Auxiliary, no code of its own. -/
inductive Run (win : Bool) : List Ev → (Nat → Obj) → Prop
  | start : Run win [] fun _ => create win false
  | step {h s t op l r o} (hr : Run win h s) (hc : call t op (s l) = .done r o) :
      Run win (⟨t, op, l, r⟩ :: h) fun k => if k = l then o else s k

end Dyna.Sync
