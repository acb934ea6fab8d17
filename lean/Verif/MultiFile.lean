import Verif.Common
/-!
# Files shared by threads

Model of `/repo/src/multi_file.c` (thread safe build) and of `_d3_buffer_kill_idle_files`
(`/repo/src/d3_buffer.c:725-753`) for one `multi_file_t`, as a transition system: any number
of threads, one transition per call of a mutex or stdio function, any interleaving.

Simplifications: a mutex can be moved by `realloc` (POSIX leaves this undefined); mutex
operations do not fail for other reasons than the mutex being locked; `fopen` succeeds or
fails as the schedule says; `malloc`/`realloc` never fail; the content of the file does not
change. A `FILE` object is a number that is never used twice.
-/

namespace Dyna.MF

/-- An element of `file_handles` (`/repo/src/multi_file.h:38-41`): owner of the mutex and the
`FILE` object, if any. -/
structure Handle where
  owner : Option Nat
  file : Option Nat
deriving DecidableEq, Repr

/-- What a thread does next. The comments give the lines of `multi_file.c`.
Code: `/repo/src/multi_file.c:80-155`. -/
inductive PC where
  | idle
  /-- access: before `sync_lock(&f->file_handles_mutex)` (82) -/
  | accLock
  /-- access: loop test and `sync_trylock` of handle `i` (86-87) -/
  | accScan (i : Nat)
  /-- access: handle `i` locked, look at its file and open it if necessary (88-91, 103) -/
  | accTry (i : Nat)
  /-- access: `fopen` failed, unlock handle `i` (92) -/
  | accUndo (i : Nat)
  /-- access: unlock the main mutex and return handle `i` (94-100, 105-111, 140-144) -/
  | accGot (i fid : Nat)
  /-- access: enlarge the array (119-125) -/
  | accNew
  /-- access: open the file for the new handle `i` (126) -/
  | accOpen (i : Nat)
  /-- access: lock the new handle (136) -/
  | accNewLock (i fid : Nat)
  /-- access: unlock the main mutex and return `ULONG_MAX` (128-133) -/
  | accFail
  /-- the caller uses handle `i` -/
  | hold (i fid : Nat)
  /-- return: before `sync_lock(&f->file_handles_mutex)` (149) -/
  | retLock (i fid : Nat)
  /-- return: `sync_unlock(&f->file_handles[i].mutex)` (151) -/
  | retUnlock (i fid : Nat)
  /-- return: unlock the main mutex (153) -/
  | retMain
  /-- kill idle: lock the main mutex (`d3_buffer.c:731`) -/
  | killLock
  /-- kill idle: loop test and `sync_trylock` (`d3_buffer.c:734-735`) -/
  | killScan (j : Nat)
  /-- kill idle: `fclose` (`d3_buffer.c:736-739`) -/
  | killTry (j : Nat)
  /-- kill idle: unlock handle `j` (`d3_buffer.c:741`) -/
  | killUndo (j : Nat)
  /-- kill idle: unlock the main mutex (`d3_buffer.c:747`) -/
  | killMain
deriving DecidableEq, Repr

/-- Shared state. Code: `/repo/src/multi_file.h:38-52`. -/
structure St where
  /-- owner of `file_handles_mutex` -/
  main : Option Nat
  handles : List Handle
  /-- position of every open `FILE` -/
  files : Nat → Option Nat
  /-- the next `FILE` object -/
  next : Nat
  pc : Nat → PC

/-- What a thread is asked to do: start a call, use its handle, or continue with the current
call (`ok` is the result of `fopen`, if there is one). Code: `/repo/src/multi_file.c:80-183`. -/
inductive Act where
  | access
  | kill
  | ret
  | seek (p : Nat)
  | read (n : Nat)
  | tick (ok : Bool)
deriving DecidableEq, Repr

/-- Observable events of a thread. Code: `/repo/src/multi_file.c:80-183`. -/
inductive Ev where
  | acquired (t : Nat)
  | failed (t : Nat)
  | returned (t : Nat)
  | sought (t p : Nat)
  | got (t n : Nat) (bytes : Bytes)
  | appended (t : Nat)
deriving DecidableEq, Repr

/-- Result of a transition: not possible now, undefined behaviour, or a new state.
Auxiliary of the model, no code of its own. -/
inductive Out where
  | blocked
  | ub
  | ok (s : St) (ev : Option Ev)

/-- Auxiliary of the model, no code of its own. -/
def upd {α : Type} (f : Nat → α) (t : Nat) (v : α) : Nat → α := fun u => if u = t then v else f u

@[simp] theorem upd_same {α : Type} (f : Nat → α) (t : Nat) (v : α) : upd f t v t = v := by
  simp [upd]

theorem upd_other {α : Type} (f : Nat → α) {t u : Nat} (v : α) (h : u ≠ t) :
    upd f t v u = f u := by simp [upd, h]

/-- Auxiliary of the model, no code of its own. -/
def St.goto (s : St) (t : Nat) (pc : PC) : St := { s with pc := upd s.pc t pc }

/-- `sync_lock` of the main mutex: waits while somebody owns it. Code: `/repo/src/sync.c:111-118`. -/
def lockMain (s : St) (t : Nat) (pc : PC) : Out :=
  match s.main with
  | none => .ok { s with main := some t, pc := upd s.pc t pc } none
  | some _ => .blocked

/-- `sync_unlock` of the main mutex, which only its owner may do. Code: `/repo/src/sync.c:129-136`. -/
def unlockMain (s : St) (t : Nat) (pc : PC) (ev : Option Ev) : Out :=
  if s.main = some t then .ok { s with main := none, pc := upd s.pc t pc } ev else .ub

/-- `sync_unlock` of the mutex of a handle, which only its owner may do.
Code: `/repo/src/sync.c:129-136`. -/
def unlockHandle (s : St) (t i : Nat) (pc : PC) : Out :=
  match s.handles[i]? with
  | none => .ub
  | some h =>
    if h.owner = some t then
      .ok { s with handles := s.handles.set i { h with owner := none }, pc := upd s.pc t pc } none
    else .ub

/-- `sync_trylock` of handle `i`: continue at `pc` if it succeeds and at `pc'` if not.
Code: `/repo/src/sync.c:120-127`. -/
def tryLock (s : St) (t i : Nat) (h : Handle) (pc pc' : PC) : Out :=
  match h.owner with
  | none => .ok { s with handles := s.handles.set i { h with owner := some t }, pc := upd s.pc t pc } none
  | some _ => .ok (s.goto t pc') none

/-- `fopen`: a new `FILE` object at position 0, stored in handle `i`.
Code: `/repo/src/multi_file.c:88-96` and `:125`. -/
def openFile (s : St) (t i : Nat) (h : Handle) (pc : PC) : Out :=
  .ok { s with
    handles := s.handles.set i { h with file := some s.next }
    files := upd s.files s.next (some 0)
    next := s.next + 1
    pc := upd s.pc t pc } none

/-- One transition of thread `t`. Models `/repo/src/multi_file.c:80-186` and
`/repo/src/d3_buffer.c:725-753`. -/
def step (content : Bytes) (s : St) (t : Nat) (a : Act) : Out :=
  match s.pc t, a with
  | .idle, .access => .ok (s.goto t .accLock) none
  | .idle, .kill => .ok (s.goto t .killLock) none
  | .accLock, .tick _ => lockMain s t (.accScan 0)
  | .accScan i, .tick _ =>
    match s.handles[i]? with
    | none => .ok (s.goto t .accNew) none
    | some h => tryLock s t i h (.accTry i) (.accScan (i + 1))
  | .accTry i, .tick ok =>
    match s.handles[i]? with
    | none => .ub
    | some h =>
      match h.file with
      | some fid => .ok (s.goto t (.accGot i fid)) none
      | none => if ok then openFile s t i h (.accGot i s.next) else .ok (s.goto t (.accUndo i)) none
  | .accUndo i, .tick _ => unlockHandle s t i (.accScan (i + 1))
  | .accGot i fid, .tick _ => unlockMain s t (.hold i fid) (some (.acquired t))
  | .accNew, .tick _ =>
    .ok { s with handles := s.handles ++ [⟨none, none⟩]
                 pc := upd s.pc t (.accOpen s.handles.length) } (some (.appended t))
  | .accOpen i, .tick ok =>
    match s.handles[i]? with
    | none => .ub
    | some h => if ok then openFile s t i h (.accNewLock i s.next) else .ok (s.goto t .accFail) none
  | .accNewLock i fid, .tick _ =>
    match s.handles[i]? with
    | none => .ub
    | some h =>
      match h.owner with
      | none => .ok { s with handles := s.handles.set i { h with owner := some t }
                             pc := upd s.pc t (.accGot i fid) } none
      | some _ => .blocked
  | .accFail, .tick _ => unlockMain s t .idle (some (.failed t))
  | .hold _ fid, .seek p =>
    match s.files fid with
    | none => .ub
    | some _ => .ok { s with files := upd s.files fid (some p) } (some (.sought t p))
  | .hold _ fid, .read n =>
    match s.files fid with
    | none => .ub
    | some p =>
      .ok { s with files := upd s.files fid (some (p + ((content.drop p).take n).length)) }
        (some (.got t n ((content.drop p).take n)))
  | .hold i fid, .ret => .ok (s.goto t (.retLock i fid)) (some (.returned t))
  | .retLock i fid, .tick _ => lockMain s t (.retUnlock i fid)
  | .retUnlock i _, .tick _ => unlockHandle s t i .retMain
  | .retMain, .tick _ => unlockMain s t .idle none
  | .killLock, .tick _ => lockMain s t (.killScan 0)
  | .killScan j, .tick _ =>
    match s.handles[j]? with
    | none => .ok (s.goto t .killMain) none
    | some h => tryLock s t j h (.killTry j) (.killScan (j + 1))
  | .killTry j, .tick _ =>
    match s.handles[j]? with
    | none => .ub
    | some h =>
      match h.file with
      | none => .ok (s.goto t (.killUndo j)) none
      | some fid =>
        match s.files fid with
        | none => .ub
        | some _ => .ok { s with
            handles := s.handles.set j { h with file := none }
            files := upd s.files fid none
            pc := upd s.pc t (.killUndo j) } none
  | .killUndo j, .tick _ => unlockHandle s t j (.killScan (j + 1))
  | .killMain, .tick _ => unlockMain s t .idle none
  | _, _ => .blocked

/-- After `multi_file_open` (`/repo/src/multi_file.c:36-56`). -/
def init : St := ⟨none, [], fun _ => none, 0, fun _ => .idle⟩

/-- An execution: every element of the schedule is a transition that is possible. The result
is the final state with the events in order; `blocked` if the schedule asks for an
impossible transition. Auxiliary of the model, no code of its own. -/
def run (content : Bytes) : St → List (Nat × Act) → List Ev → Out × List Ev
  | s, [], tr => (.ok s none, tr)
  | s, (t, a) :: rest, tr =>
    match step content s t a with
    | .blocked => (.blocked, tr)
    | .ub => (.ub, tr)
    | .ok s' ev => run content s' rest (tr ++ ev.toList)

/-- The states an execution can reach, with the events on the way.
Part of the specification, models no code. -/
inductive Reach (content : Bytes) : St → List Ev → Prop
  | init : Reach content init []
  | step {s s' : St} {tr : List Ev} {t : Nat} {a : Act} {ev : Option Ev} :
      Reach content s tr → step content s t a = .ok s' ev → Reach content s' (tr ++ ev.toList)

end Dyna.MF
