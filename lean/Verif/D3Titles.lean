import Verif.D3Read
/-!
# Titles

The texts of a d3plot database: `d3plot_read_title` and `d3plot_read_part_titles`
(`/repo/src/d3plot.c`) and the C++ functions on top of them (`/repo/src/cpp/d3plot.cpp`).
-/

namespace Dyna.D3

/-- The bytes that `d3plot_read_title` returns (`/repo/src/d3plot.c:2888-2911`; `readTitle` returns the same as words).
The terminator behind them is not part of the list. -/
def readTitleText (p : Plot) : Call Bytes :=
  match readWordsAt p.buf 10 0 with
  | .ok (b, q, bytes) =>
    match close q with
    | .ok _ => .ok ({ p with buf := b }, if b.err then none else some bytes)
    | .err => .err
    | .ub => .ub
    | .abort => .abort
  | .err => .err
  | .ub => .ub
  | .abort => .abort

/-- Number of words of a title of 72 bytes (`/repo/src/d3plot.c:642`, `:647`): 18 words of four bytes, 9 words of eight. -/
def titleWords (ws : Nat) : Nat := 18 / (if ws = 8 then 2 else 1)

/-- What `d3plot_read_part_titles` does after reading one title (`/repo/src/d3plot.c:651-668`): on an error the pointer is closed and NULL
is returned (`none`), otherwise the loop goes on. -/
def titleDone (b : Buf) (q : Ptr) (bytes : Bytes) (acc : List Bytes) : Res (Buf × Ptr × Option (List Bytes)) :=
  if b.err then
    match close q with
    | .ok _ => .ok (b, none, none)
    | .err => .err
    | .ub => .ub
    | .abort => .abort
  else .ok (b, q, some (acc ++ [bytes]))

/-- The turns of the loop of `d3plot_read_part_titles` behind the first one (`/repo/src/d3plot.c:636-671`): skip the id of the part, read the
title. -/
def titleLoop : Nat → Buf → Ptr → List Bytes → Res (Buf × Ptr × Option (List Bytes))
  | 0, b, q, acc => .ok (b, q, some acc)
  | n + 1, b, q, acc =>
    match skipWords b q 1 with
    | .ok (b, q) =>
      match readWords b q (titleWords b.ws) with
      | .ok (b, q, bytes) =>
        match titleDone b q bytes acc with
        | .ok (b, q, some acc) => titleLoop n b q acc
        | .ok (b, q, none) => .ok (b, q, none)
        | .err => .err
        | .ub => .ub
        | .abort => .abort
      | .err => .err
      | .ub => .ub
      | .abort => .abort
    | .err => .err
    | .ub => .ub
    | .abort => .abort

/-- Models `d3plot_read_part_titles` (`/repo/src/d3plot.c:625-676`). Without parts the pointer that is closed has never been set. Whether
there is a section with titles (the pointer is not 0) is not looked at. -/
def readPartTitles (p : Plot) : Call (List Bytes) :=
  match p.cda.raw.nmmat with
  | 0 => .ub
  | n + 1 =>
    match readWordsAt p.buf (titleWords p.buf.ws) (p.ptrs.partTitles + 1) with
    | .ok (b, q, bytes) =>
      match titleDone b q bytes [] with
      | .ok (b, _, none) => .ok ({ p with buf := b }, none)
      | .ok (b, q, some acc) =>
        match titleLoop n b q acc with
        | .ok (b, _, none) => .ok ({ p with buf := b }, none)
        | .ok (b, q, some titles) =>
          match close q with
          | .ok _ => .ok ({ p with buf := b }, some titles)
          | .err => .err
          | .ub => .ub
          | .abort => .abort
        | .err => .err
        | .ub => .ub
        | .abort => .abort
      | .err => .err
      | .ub => .ub
      | .abort => .abort
    | .err => .err
    | .ub => .ub
    | .abort => .abort

/-! ## C++ -/

/-- The character `' '` (`/repo/src/cpp/d3plot.cpp:147`). -/
def space : Nat := 32

/-- The loop that "trims" a title (`/repo/src/cpp/d3plot.cpp:146-149`, `:443-446`): up to the first blank. The text consists of the bytes and a
terminator; the loop does not stop at the terminator, behind it memory is read that does not belong to the text. -/
def cppTrim (text : Bytes) : Res Bytes :=
  if space ∈ text then .ok (text.takeWhile (· ≠ space)) else .ub

/-- Models `D3plot::read_title` (`/repo/src/cpp/d3plot.cpp:436-449`); `none` is the exception. -/
def cppReadTitle (p : Plot) : Call Bytes :=
  match readTitleText p with
  | .ok (p, some text) =>
    match cppTrim text with
    | .ok t => .ok (p, some t)
    | .err => .err
    | .ub => .ub
    | .abort => .abort
  | r => r

/-- The loop of `D3plot::read_part_titles` (`/repo/src/cpp/d3plot.cpp:144-152`). -/
def cppTrimAll : List Bytes → Res (List Bytes)
  | [] => .ok []
  | t :: ts => do
    let x ← cppTrim t
    let xs ← cppTrimAll ts
    .ok (x :: xs)

/-- Models `D3plot::read_part_titles` (`/repo/src/cpp/d3plot.cpp:135-156`); `none` is the exception. -/
def cppReadPartTitles (p : Plot) : Call (List Bytes) :=
  match readPartTitles p with
  | .ok (p, some titles) =>
    match cppTrimAll titles with
    | .ok t => .ok (p, some t)
    | .err => .err
    | .ub => .ub
    | .abort => .abort
  | r => r

end Dyna.D3
