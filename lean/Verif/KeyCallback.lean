import Verif.KeyOwn
/-!
# Key files with a callback in C++

Model of `KeyFile::parse_with_callback` (`/repo/src/cpp/key.cpp:300-328`) for programs that use the objects of
`KeyOwn`. The callback is any program that decides, from the results of its earlier calls and the call that it is in,
what to do with the `Card` that it gets: calls on it, copies of it that outlive the callback
(`kept.push_back(*card)`), an exception. Simplifications: the callback uses no other object of the program; an
exception of the callback passes the functions in C without running anything of theirs (`key.c` is compiled with unwind
tables, otherwise the program is terminated) and is caught at once by the caller of `parse_with_callback`; `ParseInfo`
and the keyword name are only read during the call (the model of the call in `KeyMem` reads them).
-/

namespace Dyna.KeyOwn

open Dyna Dyna.KeyMem
open Dyna.Key (World Config)

/-- What a callback does: it ends, makes a call on the card and goes on with the result, keeps a copy of the card, or
throws. Code: `/repo/src/cpp/key.cpp:308-317` (what the type `KeyFile::Callback` allows). -/
inductive Prog where
  | ret
  | op (o : CardOp) (k : Out → Prog)
  | keep (k : Prog)
  | throw

/-- One call of the callback: memory, kept copies, the results so far, and whether it has thrown. `card` is
`std::nullopt` for a keyword without cards, and then using it is undefined. Otherwise it shows a `card_t` on the stack
of `key_file_parse_with_callback`, whose string can be read (`KeyMem.call`) and whose position has no value yet.
Code: `/repo/src/cpp/key.cpp:38-67` and :308-317. -/
def runProg (m : Mem) (kept : List CopyMem) (card : Option CardMem) :
    Prog → List Out → Res (Mem × List CopyMem × List Out × Bool)
  | .ret, h => .ok (m, kept, h, false)
  | .throw, h => .ok (m, kept, h, true)
  | .op o k, h =>
    match card with
    | none => .ub
    | some c => do
      let r ← cardCall c o
      runProg m kept (some r.1) (k r.2) (h ++ [r.2])
  | .keep k, h =>
    match card with
    | none => .ub
    | some c =>
      let a := m.alloc
      let b := a.1.alloc
      runProg b.1 (kept ++ [⟨a.2, b.2, c⟩]) card k h

/-- The state of the callback: it works; it has thrown, and this is the memory then; or it has had undefined
behaviour. Code: `/repo/src/cpp/key.cpp:300-303` (`callback`, `user_data`). -/
inductive CbSt where
  | run (kept : List CopyMem) (h : List Out)
  | threw (m : Mem) (kept : List CopyMem) (h : List Out)
  | bad (kept : List CopyMem)

/-- The result of a call. Auxiliary of the model, no code of its own. -/
def afterProg (m : Mem) (kept : List CopyMem) : Res (Mem × List CopyMem × List Out × Bool) → Mem × CbSt
  | .ok (m', kept', h', false) => (m', .run kept' h')
  | .ok (m', kept', h', true) => (m', .threw m' kept' h')
  | _ => (m, .bad kept)

/-- The lambda that is passed to `key_file_parse_with_callback`. After an exception nothing counts any more.
Code: `/repo/src/cpp/key.cpp:308-317`. -/
def cppCallback (f : List Out → KeyEvent → Prog) : Callback CbSt where
  run m c ev :=
    match c with
    | .run kept h => .ok (afterProg m kept (runProg m kept (ev.card.map fun t => ⟨t, none⟩) (f h ev) h))
    | c => .ok (m, c)

/-- A kept copy is a `Card` of the program. Code: `/repo/src/cpp/key.cpp:60-67`. -/
def addCard (s : Sys) (c : CopyMem) : Sys :=
  { s with copies := s.copies ++ [c], cards := s.cards ++ [some ⟨some (.copy s.copies.length), true⟩] }

/-- All kept copies. Code: `/repo/src/cpp/key.cpp:60-67`. -/
def addCards (s : Sys) : List CopyMem → Sys
  | [] => s
  | c :: cs => addCards (addCard s c) cs

/-- The string of the warnings is freed if the program does not want it. Code: `/repo/src/cpp/key.cpp:319-325`. -/
def freeWarning (keep : Bool) (m : Mem) (warn : Option Nat) : Res Mem := if keep then .ok m else m.freeOpt warn

/-- The end of `parse_with_callback`. Code: `/repo/src/cpp/key.cpp:319-328`. -/
def callbackEnd (s : Sys) (keep : Bool) (c : CfgObj) (o : KeyMem.Out CbSt) : Res (Sys × List Out) :=
  match o.user with
  | .bad _ => .ub
  | .threw m kept h => do
    let m ← dropCfgM m c
    .ok (addCards { s with m := m } kept, h ++ [.exn])
  | .run kept h => do
    let m ← freeWarning keep o.mem o.warn
    let e ← m.freeOpt o.err
    let m ← dropCfgM e c
    .ok (addCards { s with m := m, warns := s.warns ++ keepWarn keep o.warn } kept,
      h ++ [if o.err.isSome then .exn else .unit])

/-- `KeyFile::parse_with_callback`; the configuration is passed by value. Code: `/repo/src/cpp/key.cpp:300-328`. -/
def parseCallbackM (s : Sys) (w : World) (depth : Nat) (file : Bytes) (c : CfgObj) (keep : Bool)
    (f : List Out → KeyEvent → Prog) : Res (Sys × List Out) := do
  let a ← copyCfgM s.m c
  let o ← parseTopM w a.2.cfg (cppCallback f) depth file true true a.1 (.run [] [])
  callbackEnd s keep a.2 o

/-- Commands. Code: `/repo/src/cpp/key.cpp:38-328`. -/
inductive CCmd where
  | plain (c : Cmd)
  | parseCb (w : World) (depth : Nat) (file : Bytes) (x : Nat) (keep : Bool) (f : List Out → KeyEvent → Prog)

/-- One command. Code: `/repo/src/cpp/key.cpp:38-328`. -/
def cstep (s : Sys) : CCmd → Res (Sys × List Out)
  | .plain c => do
    let r ← step s c
    .ok (r.1, [r.2])
  | .parseCb w depth file x keep f => do
    let c ← obj s.cfgs x
    parseCallbackM s w depth file c keep f

/-- A program. Code: `/repo/src/cpp/key.cpp:38-328` (one command after the other). -/
def crun (s : Sys) : List CCmd → Res (Sys × List Out)
  | [] => .ok (s, [])
  | c :: cs => do
    let r ← cstep s c
    let q ← crun r.1 cs
    .ok (q.1, r.2 ++ q.2)

end Dyna.KeyOwn
