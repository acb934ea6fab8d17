import Verif.KeyMem
import Verif.Binout
/-!
# The memory of a binout

`binout_open` and `binout_close` once more, with the blocks of memory they allocate and release. The values are those of
`Verif.Binout`; `Verif.Props.BinoutMem` proves that the results agree.

Simplifications: `malloc` and `realloc` do not fail; a `FILE` is one block; `realloc` always moves the block. A mutex
has no memory of its own (`pthread_mutex_t` is part of the structure). A result of `glob` is an array and one block for
each name. `realloc(p, 0)` releases `p` and gives null or a block, as the C library does it (`zero`).
-/

namespace Dyna.BinoutMem

open Dyna.KeyMem

/-- `binout_entry_t` with the blocks of `name` and `children`. `freed` notes that the name has been released; the
functions below do not look at it. Code: `/repo/src/binout_directory.h:38-50`. -/
inductive EntryM where
  | file (name : Bytes) (nb : Nat) (info : FileInfo)
  | folder (name : Bytes) (nb : Nat) (freed : Bool) (blk : Option Nat) (kids : List EntryM)

/-- Code: `/repo/src/binout_directory.h:38-50` (`name`). -/
def EntryM.name : EntryM → Bytes
  | .file n _ _ => n
  | .folder n _ _ _ _ => n

/-- The block of the name. Code: `/repo/src/binout_directory.h:38-50` (`name`). -/
def EntryM.nb : EntryM → Nat
  | .file _ b _ => b
  | .folder _ b _ _ _ => b

mutual
/-- An entry without its blocks. Auxiliary of the model, no code of its own. -/
def erase : EntryM → Entry
  | .file n _ i => .file n i
  | .folder n _ fr _ kids => .folder n fr (eraseL kids)
/-- A directory without its blocks. Auxiliary of the model, no code of its own. -/
def eraseL : List EntryM → List Entry
  | [] => []
  | e :: l => erase e :: eraseL l
end

/-- Reading an array: undefined if the pointer is null or the block has been released.
Auxiliary of the model, no code of its own. -/
def useArr (m : Mem) : Option Nat → Res Unit
  | none => .ub
  | some b => m.use b

/-- `strcmp(value, arr[i].name)`: the name has to be allocated. Code: `/repo/src/binary_search.c:77-127`. -/
def cmpM (m : Mem) (value : Bytes) (kids : List EntryM) (i : Nat) : Option Int :=
  match kids[i]? with
  | none => none
  | some e => if e.nb ∈ m.live then some (strcmp value e.name) else none

/-- The search of `binout_folder_insert_file`. Code: `/repo/src/binout_directory.c:154-163`. -/
def searchM (m : Mem) (value : Bytes) (blk : Option Nat) (kids : List EntryM) : Res (Bool × Nat) :=
  if kids.length = 0 then .ok (false, 0)
  else do
    useArr m blk
    bsearchInsert (cmpM m value kids) 0 (kids.length - 1)

/-- The search for a folder, with `path_str`. Code: `/repo/src/binout_directory.c:43-58` and
binout_directory.c:97-112. -/
def searchPathM (m : Mem) (value : Bytes) (blk : Option Nat) (kids : List EntryM) : Res (Mem × Bool × Nat) :=
  if kids.length = 0 then .ok (m, false, 0)
  else do
    let p := m.alloc
    let r ← searchM p.1 value blk kids
    let m ← p.1.free p.2
    .ok (m, r)

/-- Store an entry at `idx` of the array that has been moved. Code: `/repo/src/binout_directory.c:61-72`. -/
def insertAtM (kids : List EntryM) (idx : Nat) (e : EntryM) : List EntryM := kids.take idx ++ e :: kids.drop idx

/-- Result of an insertion of folders: memory, the array, and the block in which the returned entry is (null is
`none`). Auxiliary of the model, no code of its own. -/
structure FolderRes where
  mem : Mem
  blk : Option Nat
  kids : List EntryM
  ptr : Option Nat

/-- `binout_folder_insert_folder` and `binout_directory_insert_folder`; `ptr` is the block of the entry of the
folder whose children are `kids`. Code: `/repo/src/binout_directory.c:35-142`. -/
def insertFolderM (ptr : Option Nat) (m : Mem) (blk : Option Nat) (kids : List EntryM) : List Bytes → Res FolderRes
  | [] => .ok ⟨m, blk, kids, ptr⟩
  | name :: rest => do
    let s ← searchPathM m name blk kids
    if s.2.1 then
      match kids[s.2.2]? with
      | none => .ub
      | some (.file _ _ _) => .ok ⟨s.1, blk, kids, none⟩
      | some (.folder n nb fr b ch) => do
        let r ← insertFolderM blk s.1 b ch rest
        .ok ⟨r.mem, blk, kids.set s.2.2 (.folder n nb fr r.blk r.kids), r.ptr⟩
    else do
      let g ← s.1.realloc blk
      let nm := g.1.alloc
      let r ← insertFolderM (some g.2) nm.1 none [] rest
      .ok ⟨r.mem, some g.2, insertAtM kids s.2.2 (.folder name nm.2 false r.blk r.kids), r.ptr⟩

/-- Result of an insertion of a variable: memory and array. Auxiliary of the model, no code of its own. -/
structure FileRes where
  mem : Mem
  blk : Option Nat
  kids : List EntryM

/-- The entry that `binout_folder_insert_file` leaves where it found `e`: a folder is left as it is, but its name has
been released. Code: `/repo/src/binout_directory.c:179-189`. -/
def overwrite (name : Bytes) (nb : Nat) (info : FileInfo) : EntryM → EntryM
  | .folder n b _ blk ch => .folder n b true blk ch
  | .file _ _ _ => .file name nb info

/-- `binout_folder_insert_file`; `nb` is the block of the name. Code: `/repo/src/binout_directory.c:144-192`. -/
def insertFileM (m : Mem) (blk : Option Nat) (kids : List EntryM) (name : Bytes) (nb : Nat) (info : FileInfo) :
    Res FileRes := do
  let s ← searchM m name blk kids
  if s.1 then
    match kids[s.2]? with
    | none => .ub
    | some e => do
      let m ← m.free e.nb
      .ok ⟨m, blk, kids.set s.2 (overwrite name nb info e)⟩
  else do
    let g ← m.realloc blk
    .ok ⟨g.1, some g.2, insertAtM kids s.2 (.file name nb info)⟩

/-- The entry of that name. Auxiliary of the model, no code of its own. -/
def findM (kids : List EntryM) (n : Bytes) : Option EntryM := kids.find? (fun e => e.name = n)

/-- Replace the entry of that name. Auxiliary of the model, no code of its own. -/
def replaceM (kids : List EntryM) (n : Bytes) (e : EntryM) : List EntryM :=
  kids.map (fun x => if x.name = n then e else x)

/-- `binout_folder_insert_file(current_folder, …)`. The pointer is given by the block it leads to and the path of the
folder; it is undefined to use it if the array of the folder is not (any more) in that block.
Code: `/repo/src/binout.c:268-270`. -/
def insertFileAtM (ptr : Nat) (m : Mem) (blk : Option Nat) (kids : List EntryM) (name : Bytes) (nb : Nat)
    (info : FileInfo) : List Bytes → Res FileRes
  | [] => .ub
  | c :: cs =>
    match findM kids c with
    | some (.folder n b fr bl ch) =>
      if cs = [] then
        if blk = some ptr then do
          m.use ptr
          let r ← insertFileM m bl ch name nb info
          .ok ⟨r.mem, blk, replaceM kids c (.folder n b fr r.blk r.kids)⟩
        else .ub
      else do
        let r ← insertFileAtM ptr m bl ch name nb info cs
        .ok ⟨r.mem, blk, replaceM kids c (.folder n b fr r.blk r.kids)⟩
    | _ => .ub

/-- Memory, directory and `current_folder`. Code: `/repo/src/binout.c:145-157`. -/
structure DirM where
  mem : Mem
  blk : Option Nat := none
  kids : List EntryM := []
  cur : Option (Nat × List Bytes) := none

/-- Make a folder the current one. Code: `/repo/src/binout.c:193-196` and binout.c:230-231. -/
def cdM (d : DirM) (path : List Bytes) : Res DirM := do
  let r ← insertFolderM none d.mem d.blk d.kids path
  .ok ⟨r.mem, r.blk, r.kids, r.ptr.map (·, path)⟩

/-- Store a variable in the current folder; its name is a new block. Code: `/repo/src/binout.c:234-271`. -/
def dataM (d : DirM) (name : Bytes) (info : FileInfo) : Res DirM :=
  match d.cur with
  | none => .abort
  | some (ptr, path) => do
    let nm := d.mem.alloc
    let r ← insertFileAtM ptr nm.1 d.blk d.kids name nm.2 info path
    .ok ⟨r.mem, r.blk, r.kids, some (ptr, path)⟩

/-- Local variables of the loop over the records. Code: `/repo/src/binout.c:145-157`. -/
structure PStateM where
  pos : Nat
  curPath : Bytes
  dir : DirM

/-- Effect of a record. Code: `/repo/src/binout.c:179-271`. -/
def applyRecM (fileIdx : Nat) (s : PStateM) (r : Rec) (next : Nat) : Res PStateM :=
  match r with
  | .cd raw => do
    let c ← changeDir s.curPath raw
    match c.2 with
    | none => .ok ⟨next, c.1, s.dir⟩
    | some path => do
      let d ← cdM s.dir path
      .ok ⟨next, c.1, d⟩
  | .data ty name size pos => do
    let d ← dataM s.dir name ⟨ty, size, fileIdx % 256, pos⟩
    .ok ⟨next, s.curPath, d⟩
  | .other _ => .ok ⟨next, s.curPath, s.dir⟩

/-- After a failure: the name of the variable, if it has been allocated, is released.
Code: `/repo/src/binout.c:245-262` and binout.c:52-60. -/
def failM (m : Mem) (msg : Bytes) : Res Mem :=
  if msg = bs "Failed to read Name of DATA record" ∨ msg = bs "Failed to skip Data of DATA record" then
    m.alloc.1.free m.alloc.2
  else .ok m

/-- What parsing a file leaves behind. Code: `/repo/src/binout.c:145-157` and binout.c:283-290. -/
structure ParseOutM where
  mem : Mem
  blk : Option Nat
  kids : List EntryM
  error : Option Bytes

/-- The loop over the records. Code: `/repo/src/binout.c:159-283`. -/
def parseLoopM (h : Header) (fileIdx : Nat) (f : Bytes) : Nat → PStateM → Res (Option ParseOutM)
  | 0, _ => .ok none
  | fuel + 1, s =>
    match readRecord h f s.pos with
    | .done => .ok (some ⟨s.dir.mem, s.dir.blk, s.dir.kids, none⟩)
    | .assertFail => .abort
    | .fail cmd msg =>
      if cmd = some 3 ∧ s.dir.cur = none then .abort
      else do
        let m ← failM s.dir.mem msg
        .ok (some ⟨m, s.dir.blk, s.dir.kids, some msg⟩)
    | .rcd r next => do
      let s' ← applyRecM fileIdx s r next
      parseLoopM h fileIdx f fuel s'

/-! ## Files -/

/-- `multi_file_t` with at most one handle: the blocks of `file_path`, `file_handles` and of the `FILE`, and what
is read through it. Code: `/repo/src/multi_file.h:40-54`. -/
structure FileM where
  path : Option Nat := none
  handles : Option Nat := none
  fp : Option Nat := none
  content : Option Bytes := none
deriving DecidableEq, Repr

/-- `multi_file_open`. Code: `/repo/src/multi_file.c:35-55`. -/
def mfOpenM (m : Mem) (name : Bytes) : Res (Mem × FileM) :=
  if name.head? = some SEP then .ok (m.alloc.1, ⟨some m.alloc.2, none, none, none⟩)
  else do
    let wd := m.alloc
    let p := wd.1.alloc
    let m ← p.1.free wd.2
    .ok (m, ⟨some p.2, none, none, none⟩)

/-- `multi_file_access` on a file without handles. Code: `/repo/src/multi_file.c:80-145`. -/
def mfAccessM (m : Mem) (f : FileM) (content : Option Bytes) : Res (Mem × FileM) := do
  useArr m f.path
  let h ← m.realloc f.handles
  match content with
  | some c => .ok (h.1.alloc.1, ⟨f.path, some h.2, some h.1.alloc.2, some c⟩)
  | none => .ok (h.1, ⟨f.path, some h.2, none, none⟩)

/-- `multi_file_close`. Code: `/repo/src/multi_file.c:57-78`. -/
def mfCloseM (m : Mem) (f : FileM) : Res Mem := do
  let m ← m.freeOpt f.path
  let m ← m.freeOpt f.fp
  m.freeOpt f.handles

/-- `multi_file_open` of all files. Code: `/repo/src/binout.c:85-98`. -/
def openAllM (m : Mem) : List Bytes → Res (Mem × List FileM)
  | [] => .ok (m, [])
  | n :: ns => do
    let f ← mfOpenM m n
    let r ← openAllM f.1 ns
    .ok (r.1, f.2 :: r.2)

/-- `file_errors`: the array and its texts. Code: `/repo/src/binout.h:47-60`. -/
structure ErrM where
  arr : Option Nat := none
  texts : List Nat := []

/-- `_binout_add_file_error`. Code: `/repo/src/binout.c:757-769`. -/
def addErrorM (m : Mem) (e : ErrM) : Res (Mem × ErrM) := do
  let a ← m.realloc e.arr
  let b1 ← a.1.realloc none
  let b2 ← b1.1.realloc (some b1.2)
  let b3 ← b2.1.realloc (some b2.2)
  .ok (b3.1, ⟨some a.2, e.texts ++ [b3.2]⟩)

/-- Joining of the texts: each one is appended and released, and a line break follows if it is not the last one.
Code: `/repo/src/binout.c:831-842`. -/
def joinM (m : Mem) (buf : Option Nat) : List Nat → Res (Mem × Option Nat)
  | [] => .ok (m, buf)
  | t :: ts => do
    m.use t
    let b ← m.realloc buf
    let m ← b.1.free t
    if ts = [] then .ok (m, some b.2)
    else do
      let c ← m.realloc (some b.2)
      joinM c.1 (some c.2) ts

/-- `_binout_open_error`. Code: `/repo/src/binout.c:826-848`. -/
def openErrorM (m : Mem) (e : ErrM) : Res (Mem × Option Nat) := do
  let r ← joinM m none e.texts
  let m ← r.1.freeOpt e.arr
  .ok (m, r.2)

/-- State of the loop over the files. Code: `/repo/src/binout.c:66-73`. -/
structure OpenM where
  mem : Mem
  blk : Option Nat := none
  kids : List EntryM := []
  files : List FileM := []
  errs : ErrM := {}
  texts : List Bytes := []

/-- Parsing of one file. Code: `/repo/src/binout.c:104-283`. -/
def parseFileM (fuel i : Nat) (content : Option Bytes) (m : Mem) (blk : Option Nat) (kids : List EntryM) :
    Res (Option ParseOutM) :=
  match content with
  | none => .ok (some ⟨m, blk, kids, some (bs "No such file or directory")⟩)
  | some f =>
    match readHeader f with
    | .inr msg => .ok (some ⟨m, blk, kids, some msg⟩)
    | .inl h => parseLoopM h i f fuel ⟨8, [SEP], ⟨m, blk, kids, none⟩⟩

/-- The end of the work on a file: after an error the file is closed and the error is noted.
Code: `/repo/src/binout.c:38-42` and binout.c:285-290. -/
def endFileM (name : Bytes) (out : ParseOutM) (f : FileM) (st : OpenM) : Res OpenM :=
  match out.error with
  | none => .ok { st with mem := out.mem, blk := out.blk, kids := out.kids, files := st.files ++ [f] }
  | some msg => do
    let m ← mfCloseM out.mem f
    let e ← addErrorM m st.errs
    .ok ⟨e.1, out.blk, out.kids, st.files ++ [{}], e.2, st.texts ++ [fileError name msg]⟩

/-- The loop over the files; `fb` is the array `files`. Code: `/repo/src/binout.c:100-291`. -/
def openFilesM (fuel fb : Nat) : Nat → List (Bytes × Option Bytes) → List FileM → OpenM → Res (Option OpenM)
  | _, [], _, st => .ok (some st)
  | _, _ :: _, [], _ => .ub
  | i, (name, content) :: rest, f :: fs, st => do
    st.mem.use fb
    let a ← mfAccessM st.mem f content
    match ← parseFileM fuel i content a.1 st.blk st.kids with
    | none => .ok none
    | some out => do
      let st ← endFileM name out a.2 st
      openFilesM fuel fb (i + 1) rest fs st

/-- `realloc(files, n * sizeof(multi_file_t))`. Code: `/repo/src/binout.c:306-309`. -/
def shrinkM (zero : Bool) (m : Mem) (fb : Option Nat) (n : Nat) : Res (Mem × Option Nat) :=
  if n = 0 ∧ zero = false then do
    let m ← m.freeOpt fb
    .ok (m, none)
  else do
    let r ← m.realloc fb
    .ok (r.1, some r.2)

/-- The clean-up loop. Code: `/repo/src/binout.c:295-314`. -/
def cleanM (zero : Bool) : Nat → Mem → Option Nat → List FileM → Nat → Res (Mem × Option Nat × List FileM)
  | 0, m, fb, files, _ => .ok (m, fb, files)
  | n + 1, m, fb, files, i =>
    match files[i]? with
    | none => .ok (m, fb, files)
    | some f => do
      useArr m fb
      if f.handles = none then
        match files.getLast? with
        | none => .ub
        | some l => do
          let r ← shrinkM zero m fb (files.length - 1)
          cleanM zero n r.1 r.2 ((files.set i l).dropLast) i
      else cleanM zero n m fb files (i + 1)

/-- Names found by `glob`. Code: `/repo/src/binout_glob.c:96-116`. -/
def globM (m : Mem) : Nat → Mem × List Nat
  | 0 => (m, [])
  | n + 1 =>
    let r := globM m.alloc.1 n
    (r.1, m.alloc.2 :: r.2)

/-- A `binout_file`: `directory`, `files` and `error_string`. Code: `/repo/src/binout.h:47-60`. -/
structure BinM where
  blk : Option Nat := none
  kids : List EntryM := []
  fb : Option Nat := none
  files : List FileM := []
  err : Option Nat := none

/-- `binout_open`. Code: `/repo/src/binout.c:61-320`. -/
def openM (zero : Bool) (fuel : Nat) (files : List (Bytes × Option Bytes)) (m : Mem) : Res (Option (Mem × BinM)) :=
  if files = [] then do
    let e ← addErrorM m {}
    let r ← openErrorM e.1 e.2
    .ok (some (r.1, { err := r.2 }))
  else do
    let arr := m.alloc
    let g := globM arr.1 files.length
    let fb := g.1.alloc
    let a ← openAllM fb.1 (files.map (·.1))
    match ← openFilesM fuel fb.2 0 files a.2 { mem := a.1 } with
    | none => .ok none
    | some st => do
      let m ← st.mem.freeAll g.2
      let m ← m.free arr.2
      let c ← cleanM zero st.files.length m (some fb.2) st.files 0
      let r ← openErrorM c.1 st.errs
      .ok (some (r.1, ⟨st.blk, st.kids, c.2.1, c.2.2, r.2⟩))

/-! ## Closing -/

mutual
/-- `binout_folder_free`, or `free` of the name of a variable. Code: `/repo/src/binout_directory.c:375-381` and
binout_directory.c:393-421. -/
def freeEntryM (m : Mem) : EntryM → Res Mem
  | .file _ nb _ => m.free nb
  | .folder _ nb _ blk kids => do
    let m ← m.free nb
    match kids with
    | [] => .ok m
    | k :: ks => do
      useArr m blk
      let m ← freeEntryM m k
      let m ← freeKidsM m ks
      m.freeOpt blk
/-- The loops over the children. Code: `/repo/src/binout_directory.c:374-384` and binout_directory.c:404-414. -/
def freeKidsM (m : Mem) : List EntryM → Res Mem
  | [] => .ok m
  | k :: ks => do
    let m ← freeEntryM m k
    freeKidsM m ks
end

/-- The entries of an array are read. Code: `/repo/src/binout_directory.c:374-375`. -/
def useKids (m : Mem) (blk : Option Nat) (kids : List EntryM) : Res Unit :=
  if kids.length = 0 then .ok () else useArr m blk

/-- `binout_directory_free`. Code: `/repo/src/binout_directory.c:371-391`. -/
def freeDirM (m : Mem) (blk : Option Nat) (kids : List EntryM) : Res Mem := do
  useKids m blk kids
  let m ← freeKidsM m kids
  m.freeOpt blk

/-- `multi_file_close` of all files. Code: `/repo/src/binout.c:325-331`. -/
def closeFilesM (m : Mem) (fb : Option Nat) : List FileM → Res Mem
  | [] => .ok m
  | f :: fs => do
    useArr m fb
    let m ← mfCloseM m f
    closeFilesM m fb fs

/-- `binout_close`: the array `files` is not released. Code: `/repo/src/binout.c:322-347`. -/
def closeM (m : Mem) (b : BinM) : Res (Mem × BinM) := do
  let m ← closeFilesM m b.fb b.files
  let m ← freeDirM m b.blk b.kids
  let m ← m.freeOpt b.err
  .ok (m, {})

end Dyna.BinoutMem
