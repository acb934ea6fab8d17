import Verif.KeyMem
import Verif.CppKey
import Verif.Card
/-!
# The objects of a key file in C++ (`/repo/src/cpp/key.cpp`, `/repo/src/cpp/key.hpp`)

`Keywords`, `KeywordSlice`, `Keyword`, `Card` and `ParseConfig` with their constructors, assignments and
destructors, on the memory of `KeyMem`. A program is a list of commands; the objects of each class are numbered in
the order of their creation. A pointer to a keyword is (parse, index), a pointer to a card is (parse, keyword, index)
or the number of a copy. Simplifications: `malloc` and `strdup` never fail; a call on a card uses the `card_t` and
its string, even if it needs only one of them (they have the same lifetime); an exception is caught at once and its
string freed by the end of its handler.
-/

namespace Dyna.KeyOwn

open Dyna Dyna.KeyMem
open Dyna.Key (World Config)

/-! ## Cards -/

/-- `card_t` (`/repo/src/key.h:45-51`); `pos` are `current_index` and `value_width`, which have no value before
`card_parse_begin` (`/repo/src/key.c:133-140` sets the string only). -/
structure CardMem where
  string : Bytes
  pos : Option (Nat × Nat) := none
deriving DecidableEq, Repr

/-- Calls on a card. Code: `/repo/src/cpp/key.cpp:69-166`. -/
inductive CardOp where
  | begin (w : Nat)
  | next
  | nextWidth (w : Nat)
  | done
  | isEmpty
  | parseInt
  | parseString
  | whole
deriving DecidableEq, Repr

/-- What a command gives to the program. Code: `/repo/src/cpp/key.hpp:66-143` (return types). -/
inductive Out where
  | unit
  | exn
  | num (n : Nat)
  | int (i : Int)
  | bool (b : Bool)
  | text (b : Bytes)
deriving DecidableEq, Repr

/-- A call on a card that has been begun. Code: `/repo/src/cpp/key.cpp:69-125` and :136-139 (the string versions
return what the C function returns). -/
def cardRun (c : Card.Card) : CardOp → Res (Card.Card × Out)
  | .begin w => .ok (c.begin w, .unit)
  | .next => do let c ← c.next; .ok (c, .unit)
  | .nextWidth w => do let c ← c.nextWidth w; .ok (c, .unit)
  | .done => do let b ← c.done; .ok (c, .bool b)
  | .isEmpty => do let b ← c.isEmpty c.width; .ok (c, .bool b)
  | .parseInt =>
    match c.parseInt c.width with
    | .ok i => .ok (c, .int i)
    | .err => .ok (c, .exn)
    | .ub => .ub
    | .abort => .abort
  | .parseString => do let t ← c.parseString c.width; .ok (c, .text t)
  | .whole => do let t ← c.parseWhole; .ok (c, .text t)

/-- A call on a card: before `begin` only `begin` and the whole string are defined.
Code: `/repo/src/cpp/key.cpp:69-166`. -/
def cardCall (c : CardMem) (op : CardOp) : Res (CardMem × Out) :=
  match c.pos, op with
  | some p, op => do
    let r ← cardRun ⟨c.string, p.1, p.2⟩ op
    .ok (⟨r.1.string, some (r.1.cur, r.1.width)⟩, r.2)
  | none, .begin w => .ok (⟨c.string, some (0, w)⟩, .unit)
  | none, .whole => do
    let t ← Card.Card.parseWhole ⟨c.string, 0, 0⟩
    .ok (c, .text t)
  | none, _ => .ub

/-- A keyword with the state of its cards. Code: `/repo/src/key.h:52-58`. -/
structure KwMem where
  name : Bytes
  cards : List CardMem
deriving DecidableEq, Repr

/-- The keywords of a parse: the cards have a string only. Code: `/repo/src/key.c:91-141`. -/
def fresh (ks : List Keyword) : List KwMem := ks.map fun k => ⟨k.name, k.cards.map fun t => ⟨t, none⟩⟩

/-! ## Commands -/

/-- Commands; the numbers are the objects. Code: `/repo/src/cpp/key.cpp:38-330`. -/
inductive Cmd where
  /-- `ParseConfig c(parse_includes, ignore_not_found_includes, paths)` (`/repo/src/cpp/key.cpp:222-241`) -/
  | newCfg (c : Config)
  /-- `ParseConfig c(x)` (`/repo/src/cpp/key.cpp:248-258`) -/
  | copyCfg (x : Nat)
  /-- `ParseConfig c(std::move(x))` (`/repo/src/cpp/key.cpp:243-246`) -/
  | moveCfg (x : Nat)
  /-- end of the lifetime of `x` (`/repo/src/cpp/key.cpp:260-262`) -/
  | dropCfg (x : Nat)
  /-- `KeyFile::parse(file, x, keep ? &warnings : nullptr)` (`/repo/src/cpp/key.cpp:276-298`) -/
  | parse (w : World) (depth : Nat) (file : Bytes) (x : Nat) (keep : Bool)
  /-- end of the lifetime of a string of warnings (`/repo/src/cpp/array.hpp:326-331`) -/
  | dropWarn (x : Nat)
  /-- `Keywords k(std::move(x))` (`/repo/src/cpp/key.cpp:190-198`) -/
  | moveKws (x : Nat)
  /-- end of the lifetime of `x` (`/repo/src/cpp/key.cpp:200`) -/
  | dropKws (x : Nat)
  /-- `x.size()` (`/repo/src/cpp/array.hpp:145`) -/
  | size (x : Nat)
  /-- `x[name]` (`/repo/src/cpp/key.cpp:202-212`) -/
  | slice (x : Nat) (name : Bytes)
  /-- `s[i]` (`/repo/src/cpp/key.cpp:179-185`) -/
  | nth (s i : Nat)
  /-- `k.num_cards()` (`/repo/src/cpp/key.hpp:188`) -/
  | numCards (k : Nat)
  /-- `k[j]` (`/repo/src/cpp/key.cpp:168-174`) -/
  | card (k j : Nat)
  /-- `Card c(x)` (`/repo/src/cpp/key.cpp:40`) -/
  | copyCard (x : Nat)
  /-- `Card c(std::move(x))` (`/repo/src/cpp/key.cpp:38`) -/
  | moveCard (x : Nat)
  /-- `x = y` (`/repo/src/cpp/key.cpp:60-67`) -/
  | assignCard (x y : Nat)
  /-- `x = std::move(y)` (`/repo/src/cpp/key.cpp:52-58`) -/
  | moveAssignCard (x y : Nat)
  /-- end of the lifetime of `x` (`/repo/src/cpp/key.cpp:45-51`) -/
  | dropCard (x : Nat)
  /-- a call on a card (`/repo/src/cpp/key.cpp:69-166`) -/
  | op (x : Nat) (o : CardOp)

/-! ## Memory -/

/-- Where a pointer to a card leads to. Code: `/repo/src/cpp/key.cpp:60-67` and :173. -/
inductive Ptr where
  | kw (f i j : Nat)
  | copy (k : Nat)
deriving DecidableEq, Repr

/-- A `Card` (`/repo/src/cpp/key.hpp:140-143`). -/
structure CardObj where
  handle : Option Ptr
  del : Bool
deriving DecidableEq, Repr

/-- A `card_t` made by a copy: its block, the block of its string, its content (`/repo/src/cpp/key.cpp:60-67`). -/
structure CopyMem where
  blk : Nat
  str : Nat
  card : CardMem
deriving DecidableEq, Repr

/-- What `key_file_parse` has returned (`/repo/src/cpp/key.cpp:282-285`). -/
structure FileMem where
  arr : Option Nat
  blks : List KwBlk
  kws : List KwMem
deriving DecidableEq, Repr

/-- A `Keywords`: where `m_data` points to (`none` is null) and `m_size`
(`/repo/src/cpp/key.cpp:187-198`). -/
structure KwsObj where
  data : Option Nat
  size : Nat
deriving DecidableEq, Repr

/-- A `KeywordSlice` (`/repo/src/cpp/key.cpp:176-177`). -/
structure SliceObj where
  file : Nat
  start : Nat
  size : Nat
deriving DecidableEq, Repr

/-- A `Keyword` (`/repo/src/cpp/key.cpp:166`). -/
structure KwObj where
  file : Nat
  index : Nat
deriving DecidableEq, Repr

/-- A `ParseConfig`: the configuration, the array of the paths and their strings
(`/repo/src/cpp/key.cpp:222-241`). -/
structure CfgObj where
  cfg : Config
  arr : Option Nat
  strs : List Nat

/-- The memory and the objects; `none` is an object that has been destroyed.
Code: `/repo/src/cpp/key.hpp:53-310` (the classes). -/
structure Sys where
  m : Mem := {}
  files : List FileMem := []
  copies : List CopyMem := []
  kws : List (Option KwsObj) := []
  slices : List SliceObj := []
  keys : List KwObj := []
  cards : List (Option CardObj) := []
  cfgs : List (Option CfgObj) := []
  warns : List (Option Nat) := []

/-- An object of the list that has not been destroyed (using another one is undefined).
Code: `/repo/src/cpp/key.hpp:53-310` (lifetime of the classes). -/
def obj {α : Type} (l : List (Option α)) (x : Nat) : Res α :=
  match l[x]? with
  | some (some a) => .ok a
  | _ => .ub

/-- Reading through a pointer that may be null. Code: `/repo/src/cpp/key.cpp:169` and :254. -/
def usePtr (m : Mem) : Option Nat → Res Unit
  | none => .ub
  | some b => m.use b

/-! ## `ParseConfig` -/

/-- The paths of a configuration as C strings. Code: `/repo/src/cpp/key.cpp:227-240`. -/
def newPaths (m : Mem) (n : Nat) : Mem × Option Nat × List Nat :=
  if n = 0 then (m, none, [])
  else
    let a := m.alloc
    let r := allocAll a.1 n
    (r.1, some a.2, r.2)

/-- The copy constructor. Code: `/repo/src/cpp/key.cpp:248-258`. -/
def copyCfgM (m : Mem) (c : CfgObj) : Res (Mem × CfgObj) :=
  if c.cfg.extraPaths.length = 0 then .ok (m, ⟨c.cfg, c.arr, c.strs⟩)
  else do
    usePtr m c.arr
    m.useAll c.strs
    let r := newPaths m c.cfg.extraPaths.length
    .ok (r.1, ⟨c.cfg, r.2.1, r.2.2⟩)

/-- A configuration that has been moved from (`/repo/src/cpp/key.cpp:245`). -/
def movedCfg : CfgObj := ⟨⟨false, false, []⟩, none, []⟩

/-- The destructor: it frees the array. Code: `/repo/src/cpp/key.cpp:260-262`. -/
def dropCfgM (m : Mem) (c : CfgObj) : Res Mem := m.freeOpt c.arr

/-! ## `Keywords` -/

/-- The string of the warnings is freed if the program does not want it. Code: `/repo/src/cpp/key.cpp:286-292`. -/
def freeWarn (keep : Bool) (p : Parsed) : Res Mem := if keep then .ok p.mem else p.mem.freeOpt p.warn

/-- The string of the warnings is given to the program. Code: `/repo/src/cpp/key.cpp:286-292`. -/
def keepWarn (keep : Bool) (warn : Option Nat) : List (Option Nat) := if keep then warn.toList.map some else []

/-- The end of `KeyFile::parse`. Code: `/repo/src/cpp/key.cpp:286-297`. -/
def parseEnd (s : Sys) (keep : Bool) (p : Parsed) : Res (Sys × Out) := do
  let m ← freeWarn keep p
  match p.err with
  | some e => do
    let m ← m.free e
    .ok ({ s with m := m, warns := s.warns ++ keepWarn keep p.warn }, .exn)
  | none => .ok ({ s with m := m, warns := s.warns ++ keepWarn keep p.warn,
                          files := s.files ++ [⟨p.arr, p.kws, fresh p.keywords⟩],
                          kws := s.kws ++ [some ⟨some s.files.length, p.keywords.length⟩] }, .unit)

/-- `KeyFile::parse`; the configuration is passed by value. Code: `/repo/src/cpp/key.cpp:276-298`. -/
def parseM (s : Sys) (w : World) (depth : Nat) (file : Bytes) (c : CfgObj) (keep : Bool) : Res (Sys × Out) := do
  let a ← copyCfgM s.m c
  let p ← keyFileParseM w a.2.cfg depth file true true a.1
  let r ← parseEnd s keep p
  let m ← dropCfgM r.1.m a.2
  .ok ({ r.1 with m := m }, r.2)

/-- The destructor. Code: `/repo/src/cpp/key.cpp:200`. -/
def dropKwsM (s : Sys) (k : KwsObj) : Res Mem :=
  match k.data with
  | none => if k.size = 0 then s.m.freeOpt none else .ub
  | some f => do
    let fl ← .ofOption s.files[f]?
    if k.size ≤ fl.blks.length then keyFileFree s.m fl.arr (fl.blks.take k.size) else .ub

/-- The names that `key_file_get_slice` searches. Code: `/repo/src/cpp/key.cpp:202-205`. -/
def namesM (s : Sys) (k : KwsObj) : Res (List Bytes) :=
  if k.size = 0 then .ok []
  else
    match k.data with
    | none => .ub
    | some f => do
      let fl ← .ofOption s.files[f]?
      usePtr s.m fl.arr
      s.m.useAll (fl.blks.map KwBlk.name)
      .ok ((fl.kws.map KwMem.name).take k.size)

/-- `Keywords::operator[]`. Code: `/repo/src/cpp/key.cpp:202-212`. -/
def sliceM (s : Sys) (k : KwsObj) (name : Bytes) : Res (Sys × Out) := do
  let names ← namesM s k
  let r ← keywordsSlice names name
  match r, k.data with
  | none, _ => .ok (s, .exn)
  | some _, none => .ub
  | some r, some f => .ok ({ s with slices := s.slices ++ [⟨f, r.1, r.2⟩] }, .unit)

/-- `KeywordSlice::operator[]`. Code: `/repo/src/cpp/key.cpp:179-185`. -/
def nthM (s : Sys) (sl : SliceObj) (i : Nat) : Sys × Out :=
  match sliceIndex sl.start sl.size i with
  | none => (s, .exn)
  | some k => ({ s with keys := s.keys ++ [⟨sl.file, k⟩] }, .unit)

/-- `m_handle->num_cards`. Code: `/repo/src/cpp/key.hpp:188`, `/repo/src/cpp/key.cpp:169`. -/
def numCardsM (s : Sys) (k : KwObj) : Res Nat := do
  let fl ← .ofOption s.files[k.file]?
  usePtr s.m fl.arr
  let kw ← .ofOption fl.kws[k.index]?
  .ok kw.cards.length

/-- `Keyword::operator[]`. Code: `/repo/src/cpp/key.cpp:168-174`. -/
def cardM (s : Sys) (k : KwObj) (j : Nat) : Res (Sys × Out) := do
  let n ← numCardsM s k
  match cardIndex n j with
  | none => .ok (s, .exn)
  | some j => .ok ({ s with cards := s.cards ++ [some ⟨some (.kw k.file k.index j), false⟩] }, .unit)

/-! ## `Card` -/

/-- `*m_handle` and its string. Code: `/repo/src/cpp/key.cpp:60-67` and :69-166. -/
def load (s : Sys) : Option Ptr → Res CardMem
  | none => .ub
  | some (.kw f i j) => do
    let fl ← .ofOption s.files[f]?
    let b ← .ofOption fl.blks[i]?
    usePtr s.m b.cards
    let str ← .ofOption b.strs[j]?
    s.m.use str
    let kw ← .ofOption fl.kws[i]?
    .ofOption kw.cards[j]?
  | some (.copy k) => do
    let c ← .ofOption s.copies[k]?
    s.m.use c.blk
    s.m.use c.str
    .ok c.card

/-- The keyword with another card. Code: `/repo/src/key.c:806-844` (a card is changed). -/
def KwMem.setCard (kw : KwMem) (j : Nat) (c : CardMem) : KwMem := ⟨kw.name, kw.cards.set j c⟩

/-- The keywords with another card. Code: `/repo/src/key.c:806-844` (a card is changed). -/
def setCard (kws : List KwMem) (i j : Nat) (c : CardMem) : List KwMem := kws.modify i (·.setCard j c)

/-- Change what a card points to. Code: `/repo/src/key.c:806-844`. -/
def store (s : Sys) (c : CardMem) : Ptr → Sys
  | .kw f i j => { s with files := s.files.modify f fun fl => { fl with kws := setCard fl.kws i j c } }
  | .copy k => { s with copies := s.copies.modify k fun b => { b with card := c } }

/-- `m_handle` of a copy of `c`. Code: `/repo/src/cpp/key.cpp:60-67`. -/
def newCopy (s : Sys) (c : CardMem) : Sys × CardObj :=
  let a := s.m.alloc
  let b := a.1.alloc
  ({ s with m := b.1, copies := s.copies ++ [⟨a.2, b.2, c⟩] }, ⟨some (.copy s.copies.length), true⟩)

/-- The destructor. Code: `/repo/src/cpp/key.cpp:45-51`. -/
def dropCardM (s : Sys) (c : CardObj) : Res Mem :=
  if c.del then
    match c.handle with
    | some (.copy k) => do
      let b ← .ofOption s.copies[k]?
      s.m.use b.blk
      let m ← s.m.free b.str
      m.free b.blk
    | _ => .ub
  else .ok s.m

/-- A call on a card. Code: `/repo/src/cpp/key.cpp:69-166`. -/
def opM (s : Sys) (c : CardObj) (o : CardOp) : Res (Sys × Out) := do
  let v ← load s c.handle
  let r ← cardCall v o
  match c.handle with
  | none => .ub
  | some p => .ok (store s r.1 p, r.2)

/-! ## Programs -/

/-- One command. Code: `/repo/src/cpp/key.cpp:38-298`. -/
def step (s : Sys) : Cmd → Res (Sys × Out)
  | .newCfg c =>
    let r := newPaths s.m c.extraPaths.length
    .ok ({ s with m := r.1, cfgs := s.cfgs ++ [some ⟨c, r.2.1, r.2.2⟩] }, .unit)
  | .copyCfg x => do
    let c ← obj s.cfgs x
    let r ← copyCfgM s.m c
    .ok ({ s with m := r.1, cfgs := s.cfgs ++ [some r.2] }, .unit)
  | .moveCfg x => do
    let c ← obj s.cfgs x
    .ok ({ s with cfgs := s.cfgs.set x (some movedCfg) ++ [some c] }, .unit)
  | .dropCfg x => do
    let c ← obj s.cfgs x
    let m ← dropCfgM s.m c
    .ok ({ s with m := m, cfgs := s.cfgs.set x none }, .unit)
  | .parse w depth file x keep => do
    let c ← obj s.cfgs x
    parseM s w depth file c keep
  | .dropWarn x => do
    let b ← obj s.warns x
    let m ← s.m.free b
    .ok ({ s with m := m, warns := s.warns.set x none }, .unit)
  | .moveKws x => do
    let k ← obj s.kws x
    .ok ({ s with kws := s.kws.set x (some ⟨none, 0⟩) ++ [some k] }, .unit)
  | .dropKws x => do
    let k ← obj s.kws x
    let m ← dropKwsM s k
    .ok ({ s with m := m, kws := s.kws.set x none }, .unit)
  | .size x => do
    let k ← obj s.kws x
    .ok (s, .num k.size)
  | .slice x name => do
    let k ← obj s.kws x
    sliceM s k name
  | .nth x i => do
    let sl ← .ofOption s.slices[x]?
    .ok (nthM s sl i)
  | .numCards x => do
    let k ← .ofOption s.keys[x]?
    let n ← numCardsM s k
    .ok (s, .num n)
  | .card x j => do
    let k ← .ofOption s.keys[x]?
    cardM s k j
  | .copyCard x => do
    let c ← obj s.cards x
    let v ← load s c.handle
    let r := newCopy s v
    .ok ({ r.1 with cards := s.cards ++ [some r.2] }, .unit)
  | .moveCard x => do
    let c ← obj s.cards x
    .ok ({ s with cards := s.cards.set x (some ⟨none, false⟩) ++ [some c] }, .unit)
  | .assignCard x y => do
    let _ ← obj s.cards x
    let c ← obj s.cards y
    if x = y then .ub
    else do
      let v ← load s c.handle
      let r := newCopy s v
      .ok ({ r.1 with cards := s.cards.set x (some r.2) }, .unit)
  | .moveAssignCard x y => do
    let _ ← obj s.cards x
    let c ← obj s.cards y
    .ok ({ s with cards := (s.cards.set x (some c)).set y (some ⟨none, false⟩) }, .unit)
  | .dropCard x => do
    let c ← obj s.cards x
    let m ← dropCardM s c
    .ok ({ s with m := m, cards := s.cards.set x none }, .unit)
  | .op x o => do
    let c ← obj s.cards x
    opM s c o

/-- A program. Code: `/repo/src/cpp/key.cpp:38-298` (one command after the other). -/
def run (s : Sys) : List Cmd → Res (Sys × List Out)
  | [] => .ok (s, [])
  | c :: cs => do
    let r ← step s c
    let q ← run r.1 cs
    .ok (q.1, r.2 :: q.2)

end Dyna.KeyOwn
